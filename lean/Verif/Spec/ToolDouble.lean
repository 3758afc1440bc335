import Verif.Spec.Tool
import Verif.Model.ToolDouble

/-!
# Runs that differ in the rounding of NDCG only
-/

namespace Kws.Spec
open Kws

/-- The bound of the error of NDCG for up to `N` matches and `N` groups. Collapsed matches have their
relevance in `float`, which costs more. -/
noncomputable def ndcgTolerance (collapse : Bool) (N : ℕ) : ℝ :=
  (if collapse then ((N - 1 : ℕ) : ℝ) / 2 ^ 20 else 0) + (N + 2) / 2 ^ 48 + (N + 1) / 2 ^ 52

/-- A metric in `double` and an exact one: the values differ by at most `ε`, both have an interval or
neither has, and the bounds differ by at most `3 ε + 2^-48`. -/
structure MetricNear (ε : ℝ) (x : Metric ℚ) (y : Metric ℝ) : Prop where
  value : |(x.value : ℝ) - y.value| ≤ ε
  ci : (x.ci = none ∧ y.ci = none) ∨ ∃ lo hi lo' hi', x.ci = some (lo, hi) ∧ y.ci = some (lo', hi') ∧
    |(lo : ℝ) - lo'| ≤ 3 * ε + 1 / 2 ^ 48 ∧ |(hi : ℝ) - hi'| ≤ 3 * ε + 1 / 2 ^ 48

/-- Two effects: the same, or the lines of two NDCG that are near each other. -/
inductive EffectNear (ε : ℝ) : Effect → Effect → Prop
  | same (e : Effect) : EffectNear ε e e
  | ndcg (name : String) (x : Metric ℚ) (y : Metric ℝ) (hn : name = "gNDCG" ∨ name = "mNDCG")
      (h : MetricNear ε x y) : EffectNear ε (.out (showMetric name x)) (.out (showMetric name y))

/-- Two runs: the same exit code or the same abnormal end, and the same effects in the same order up
to the numbers of NDCG. -/
structure TraceNear (ε : ℝ) (t t' : Traced Nat) : Prop where
  result : t.result = t'.result
  effects : List.Forall₂ (EffectNear ε) t.effects t'.effects

/-- The two files of events have at most `N` lines together. If an interval of the global NDCG is asked
for, even the square of their number is at most `N`, because a bootstrap sample can be that long. -/
structure SmallRun (w : World) (o : ToolOptions) (N : ℕ) : Prop where
  bound : N ≤ 2 ^ 24
  collapse : o.collapse = true → N ≤ 2 ^ 19
  lines : ∀ t u, w.file o.refFilename = some t → hypText w o = some u →
    (lines t).length + (lines u).length ≤ N
  resample : o.ciGndcg = true → ∀ t u, w.file o.refFilename = some t → hypText w o = some u →
    ((Spec.lines t).length + (Spec.lines u).length) ^ 2 ≤ N

end Kws.Spec
