import Verif.Model.Events
import Mathlib.Data.List.Lex
import Mathlib.Data.Char

/-!
# mapper/*.h
-/

namespace Kws

/-- `std::string`: a sequence of bytes, written as characters. -/
abbrev Str := List Char

instance : Cmp Str := Cmp.ofLinearOrder Str

/-- mapper/StringToIntMapper.h:56: the table `impl_` (string to id). The type `Int` is given by its
maximum value `maxInt`. Ownership (`own_`) and sharing of the table are in
Model/Ownership.lean. -/
structure IntMapper where
  table : List (Str × Nat)

namespace IntMapper

/-- mapper/StringToIntMapper.h:23 -/
def new : IntMapper := ⟨[]⟩

/-- mapper/StringToIntMapper.h:53-54 `kMaxSize`, a 64-bit `size_t` -/
def kMaxSize (maxInt : Nat) : Nat := (1 + maxInt % 2 ^ 64) % 2 ^ 64

/-- mapper/StringToIntMapper.h:38-50 `operator()`: the new table and the id, or `range_error` -/
def lookup (maxInt : Nat) (m : IntMapper) (s : Str) : IntMapper × Cpp Nat :=
  match AMap.find? s m.table with
  | some i => (m, .ok i)
  | none =>
    if m.table.length < kMaxSize maxInt then
      (⟨(AMap.emplace s m.table.length m.table).1⟩, .ok m.table.length)
    else (m, .error .rangeError)

/-- mapper/StringEventToIntMapper.h:33-35. The two lookups are constructor arguments, so the
language leaves their order open: `queryFirst` says which one the compiler chose. -/
def mapEvent (queryFirst : Bool) (maxInt : Nat) (m : IntMapper) (e : Event Str Str) :
    IntMapper × Cpp (Event Nat Nat) :=
  if queryFirst then
    match m.lookup maxInt e.query with
    | (m, .error f) => (m, .error f)
    | (m, .ok q) =>
      match m.lookup maxInt e.location with
      | (m, .error f) => (m, .error f)
      | (m, .ok l) => (m, .ok ⟨q, l⟩)
  else
    match m.lookup maxInt e.location with
    | (m, .error f) => (m, .error f)
    | (m, .ok l) =>
      match m.lookup maxInt e.query with
      | (m, .error f) => (m, .error f)
      | (m, .ok q) => (m, .ok ⟨q, l⟩)

/-- mapper/ScoredEventMapper.h:22-24, over the event mapper above -/
def mapScoredEvent (queryFirst : Bool) (maxInt : Nat) (m : IntMapper) (e : ScoredEvent Str Str) :
    IntMapper × Cpp (ScoredEvent Nat Nat) :=
  match m.mapEvent queryFirst maxInt e.base with
  | (m, .error f) => (m, .error f)
  | (m, .ok b) => (m, .ok ⟨b, e.score⟩)

end IntMapper

end Kws
