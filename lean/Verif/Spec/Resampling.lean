import Mathlib.Algebra.BigOperators.Group.List.Basic
import Mathlib.Algebra.Order.Ring.Rat
import Mathlib.Algebra.Field.Rat
import Verif.Model.Bootstrap

/-!
# The law of hierarchical bootstrap samples

Randomness is a sequence of `L` numbers below `N`, all `N ^ L` sequences being equally likely. A draw
from `0..max` takes the next number modulo `max + 1`; if `max + 1` divides `N`, all results of the draw
are equally likely, whatever was drawn before.
-/

namespace Kws.Spec

/-- All sequences of `L` numbers below `N`. -/
def sequences (N : ℕ) : ℕ → List (List ℕ)
  | 0 => [[]]
  | L + 1 => (List.range N).flatMap (fun a => (sequences N L).map (a :: ·))

open Classical in
/-- The share of the sequences of `L` numbers below `N` that have the property `P`. -/
noncomputable def probability (N L : ℕ) (P : List ℕ → Prop) : ℚ :=
  ((sequences N L).countP (fun l => decide (P l)) : ℚ) / (sequences N L).length

/-- Draws from a sequence of numbers. -/
def dice : Rng (List ℕ) where
  seed _ := []
  draw max l := (l.headD 0 % (max + 1), l.tail)
  inRange max _ := Nat.le_of_lt_succ (Nat.mod_lt _ (Nat.succ_pos max))

/-- The number `N` allows for fair draws among the groups and among the members of each group. -/
def Fair {M : Type} (original : List (List M)) (N : ℕ) : Prop :=
  0 < N ∧ (original ≠ [] → original.length ∣ N) ∧ ∀ o ∈ original, o ≠ [] → o.length ∣ N

/-- The probability of drawing the elements `s`, one after the other, with replacement from `o`. -/
def drawLaw {M : Type} [DecidableEq M] (o s : List M) : ℚ :=
  (s.map (fun m => (o.count m : ℚ) / o.length)).prod

/-- The probability of the resampled group `s`: some group of the original is chosen, each with the
same probability, and as many elements as it has are drawn from it. -/
def groupLaw {M : Type} [DecidableEq M] (original : List (List M)) (s : List M) : ℚ :=
  (original.map (fun o => if o.length = s.length then drawLaw o s else 0)).sum / original.length

/-- The probability of a resample: its groups are independent. -/
def resampleLaw {M : Type} [DecidableEq M] (original sample : List (List M)) : ℚ :=
  (sample.map (groupLaw original)).prod

/-- How many draws produce the sample: one per group and one per match. -/
def drawsOf {M : Type} (sample : List (List M)) : ℕ := (sample.map (fun s => s.length + 1)).sum

end Kws.Spec
