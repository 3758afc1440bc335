import Verif.Spec.Tool

/-!
# Specification of how a run ends
-/

namespace Kws.Spec

/-- Some metric is asked for with a confidence interval. -/
def AsksIntervals (o : ToolOptions) : Prop :=
  o.ciGap = true ∨ o.ciMap = true ∨ o.ciGndcg = true ∨ o.ciMndcg = true

/-- Where the deviation for the lower bound is read, computed in doubles. -/
def lowerPosition (R : Rnd) (o : ToolOptions) : ℚ :=
  R.f64 (R.f64 (1 - R.f64 (o.alpha * (1 / 2))) * R.f64 o.samples)

/-- Where the deviation for the upper bound is read, computed in doubles. -/
def upperPosition (R : Rnd) (o : ToolOptions) : ℚ :=
  R.f64 (R.f64 (o.alpha * (1 / 2)) * R.f64 o.samples)

/-- Both positions, without their fraction, are positions of the list of deviations. -/
def IntervalDefined (R : Rnd) (o : ToolOptions) : Prop :=
  0 < o.samples ∧ -1 < lowerPosition R o ∧ lowerPosition R o < o.samples ∧
    -1 < upperPosition R o ∧ upperPosition R o < o.samples

/-- A file was named for a curve, and it cannot be written. -/
def CurveFails (w : World) (o : ToolOptions) : Prop :=
  o.outputGrp ≠ [] ∧ w.writable o.outputGrp = false ∨
    o.outputMrp ≠ [] ∧ w.writable o.outputMrp = false

/-- The numbers on the curves can be computed, for `n` events: no curve was asked for, or nothing is
rounded, or there are not too many events for `float` and `double` counts. -/
def CurvesCountable (R : Rnd) (o : ToolOptions) (n : Nat) : Prop :=
  o.outputGrp ≠ [] ∨ o.outputMrp ≠ [] →
    R = Rnd.exact ∨ R.Precise ∧ n ≤ if o.collapse then 2 ^ 24 else 2 ^ 53

/-- How a run ends. If the inputs are not good, with status 1. Otherwise, with undefined behaviour if
confidence intervals were asked for and cannot be read; otherwise, with an uncaught exception if a curve
cannot be written; otherwise, with a complete report. -/
structure Ends {Q L : Type} (R : Rnd) (w : World) (o : ToolOptions) (good : Prop)
    (run : Cpp (RunResult Q L)) : Prop where
  status1 : ¬ good → run = .ok .failed
  undefined : good → AsksIntervals o → ¬ IntervalDefined R o → run = .error .ub
  exception : good → (AsksIntervals o → IntervalDefined R o) → CurveFails w o →
    run = .error .ioFailure
  report : good → (AsksIntervals o → IntervalDefined R o) → ¬ CurveFails w o →
    ∃ r, run = .ok (.done r) ∧ Complete o r

end Kws.Spec
