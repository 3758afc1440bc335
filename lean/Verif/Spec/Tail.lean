import Verif.Spec.OneWrong

/-! # Specification: hypotheses that are added at the end of a ranking -/

namespace Kws.Spec

/-- No number of `b` is lower than that of `a`; average precisions within `ε`. -/
structure NoneLower (a b : Numbers) (ε : ℚ) : Prop where
  gAP : a.gAP ≤ b.gAP + ε
  mAP : a.mAP ≤ b.mAP + ε
  gNDCG : a.gNDCG ≤ b.gNDCG
  mNDCG : a.mNDCG ≤ b.mNDCG

/-- Each of `extra` has a lower score than each of `hyps`. -/
def ScoredBelow {Q L : Type} (extra hyps : List (ScoredEvent Q L)) : Prop :=
  ∀ x ∈ extra, ∀ y ∈ hyps, Flt.lt x.score y.score = true

end Kws.Spec
