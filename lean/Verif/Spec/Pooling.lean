import Verif.Spec.Dilution

/-!
# Specification of a joint evaluation
-/

namespace Kws.Spec

/-- The means of `r` are the means of `r₁` and `r₂`, weighted with the numbers `g₁` and `g₂` of groups, average
precisions within the tolerances. -/
structure MeansPooled {Q L Q₁ L₁ Q₂ L₂ : Type} (r₁ : Report Q₁ L₁) (g₁ : ℕ) (ε₁ : ℚ) (r₂ : Report Q₂ L₂) (g₂ : ℕ)
    (ε₂ : ℚ) (r : Report Q L) (ε : ℚ) : Prop where
  mAP : |r.mAP.value * (g₁ + g₂) - (r₁.mAP.value * g₁ + r₂.mAP.value * g₂)| ≤
    ε * (g₁ + g₂) + (ε₁ * g₁ + ε₂ * g₂)
  mNDCG : r.mNDCG.value * (g₁ + g₂) = r₁.mNDCG.value * g₁ + r₂.mNDCG.value * g₂

/-- `x` is not outside the range from `a` to `b`. -/
def BetweenParts {α : Type} [LinearOrder α] (a b x : α) : Prop := min a b ≤ x ∧ x ≤ max a b

end Kws.Spec
