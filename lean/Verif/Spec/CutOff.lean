import Verif.Spec.Tail
import Verif.Spec.Messages

/-! # Specification: what hypotheses at the end of a ranking can gain -/

namespace Kws.Spec

/-- The references that are found by `extra` and not by `hyps`. -/
def newlyFound {Q L : Type} [DecidableEq Q] [DecidableEq L] (refs : List (Event Q L))
    (hyps extra : List (ScoredEvent Q L)) : ℕ :=
  (refs.toFinset.filter (fun r => (∃ h ∈ extra, h.base = r) ∧ ∀ h ∈ hyps, h.base ≠ r)).card

/-- The global numbers `b` are at most those of `a` and what `x` more hits can give, if `n` hypotheses are
counted before them and there are `N` references. Average precisions are within `ε`. -/
structure GainsLittle (a b : Numbers) (x n N : ℕ) (ε : ℚ) : Prop where
  gAP : b.gAP ≤ a.gAP + (x : ℚ) / N + ε
  gNDCG : b.gNDCG ≤ a.gNDCG + x / (Real.logb 2 (n + 2) * idealGain N)

end Kws.Spec
