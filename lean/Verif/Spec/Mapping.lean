import Verif.Model.Mapper

/-!
# Specification of string ids
-/

namespace Kws.Spec

/-- The distinct elements of a list in order of first occurrence. -/
def firsts {α : Type} [DecidableEq α] (ss : List α) : List α :=
  ss.foldl (fun acc s => if s ∈ acc then acc else acc ++ [s]) []

/-- The number of distinct strings that occur before the first occurrence of `s`. -/
def idOf (ss : List Str) (s : Str) : Nat := (firsts ss).idxOf s

/-- The two strings of an event in the order in which they are looked up. -/
def strings (queryFirst : Bool) (e : Event Str Str) : List Str :=
  if queryFirst then [e.query, e.location] else [e.location, e.query]

end Kws.Spec

namespace Kws.IntMapper

/-- Looks up strings one after the other; the results. -/
def lookups (maxInt : Nat) : IntMapper → List Str → IntMapper × List (Cpp Nat)
  | m, [] => (m, [])
  | m, s :: ss =>
    let r := m.lookup maxInt s
    let rest := lookups maxInt r.1 ss
    (rest.1, r.2 :: rest.2)

/-- Maps scored events one after the other; the results. -/
def mapAll (queryFirst : Bool) (maxInt : Nat) :
    IntMapper → List (ScoredEvent Str Str) → IntMapper × List (Cpp (ScoredEvent Nat Nat))
  | m, [] => (m, [])
  | m, e :: es =>
    let r := m.mapScoredEvent queryFirst maxInt e
    let rest := mapAll queryFirst maxInt r.1 es
    (rest.1, r.2 :: rest.2)

end Kws.IntMapper
