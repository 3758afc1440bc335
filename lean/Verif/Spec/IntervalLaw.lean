import Verif.Spec.Resampling
import Verif.Model.Tool

/-!
# The law of a run with ideal draws

A tool takes all samples of a metric from a generator that starts with the seed. In `diceFrom l` the
numbers after the seed are those of the sequence `l`, so that the share of the sequences with a property
of the report is its probability.
-/

namespace Kws.Spec

/-- The generator whose numbers after any seed are those of `l`. -/
def diceFrom (l : List ℕ) : Rng (List ℕ) where
  seed _ := l
  draw := dice.draw
  inRange := dice.inRange

/-- `groups'` has the groups of `groups`, with `f` applied to their members, in some order and with the
members of each group in some order. -/
def Regrouped {M M' : Type} (f : M → M') (groups : List (List M)) (groups' : List (List M')) : Prop :=
  ∃ gs, groups'.Perm gs ∧ List.Forall₂ (fun a b => b.Perm (a.map f)) groups gs

/-- The most numbers that `n` samples need: a sample of `k` groups may have `k` times the matches of the
largest group. -/
def drawsFor {M : Type} (groups : List (List M)) (n : ℕ) : ℕ :=
  n * (groups.length * (groups.flatten.length + 1))

/-- The same curve areas and the same intervals are asked for. -/
structure SameMetrics (o o' : ToolOptions) : Prop where
  interp : o'.interp = o.interp
  trapezoid : o'.trapezoid = o.trapezoid
  gap : o'.ciGap = o.ciGap
  map : o'.ciMap = o.ciMap
  gndcg : o'.ciGndcg = o.ciGndcg
  mndcg : o'.ciMndcg = o.ciMndcg
  samples : o'.samples = o.samples
  alpha : o'.alpha = o.alpha

/-- What may be said about the printed metrics: their values and intervals. -/
abbrev Statement := Metric ℚ → Metric ℚ → Metric ℝ → Metric ℝ → Prop

/-- The statement is true of the report. -/
def Statement.of {Q L : Type} (Φ : Statement) (r : Report Q L) : Prop := Φ r.gAP r.mAP r.gNDCG r.mNDCG

end Kws.Spec
