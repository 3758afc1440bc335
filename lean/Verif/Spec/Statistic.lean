import Verif.Spec.Tool
import Verif.Spec.Assessment

/-!
# Specification of the statistic objects

A statistic has up to two call operators: on a list of matches, and on a list of groups of matches with a
flag whether to sort.
-/

namespace Kws.Spec
variable {Q L K : Type}

/-- A global statistic of groups is that of all their matches, which are put in an order of decreasing
scores first if sorting is asked for. -/
structure Pools (plain : List (KwsMatch Q L) → Cpp K) (grouped : List (List (KwsMatch Q L)) → Bool → Cpp K) :
    Prop where
  unsorted : ∀ gs, grouped gs false = plain gs.flatten
  sorted : ∀ gs, (∀ m ∈ gs.flatten, rank m ≠ .nan) →
    ∃ l, l.Perm gs.flatten ∧ l.Pairwise (fun a b => Flt.lt (rank a) (rank b) = false) ∧
      grouped gs true = plain l

/-- A mean statistic of groups is the average, as computed by `avg`, of the global statistics of the single
groups; if one of these is at fault, the first one, so is the mean. -/
structure Averages (avg : List K → K) (one mean : List (List (KwsMatch Q L)) → Bool → Cpp K) : Prop where
  values : ∀ gs sort vs, List.Forall₂ (fun g v => one [g] sort = .ok v) gs vs → mean gs sort = .ok (avg vs)
  fault : ∀ gs₁ g gs₂ sort e, (∀ g' ∈ gs₁, ∃ v, one [g'] sort = .ok v) → one [g] sort = .error e →
    mean (gs₁ ++ g :: gs₂) sort = .error e

/-- Two lists of groups have the same matches in their groups, which may come in another order, too. -/
def SameGroups (gs gs' : List (List (KwsMatch Q L))) : Prop :=
  ∃ gs₁, gs.Perm gs₁ ∧ List.Forall₂ List.Perm gs₁ gs'

end Kws.Spec
