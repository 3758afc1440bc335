import Verif.Spec.Dilution

/-! # Specification: what one wrong hypothesis more may cost -/

namespace Kws.Spec

/-- The number of hypotheses that are counted and have a score of at least `s`. -/
def Tally.reached (c : Tally) (s : Flt) : ℕ := c.hits s + c.wrong s

/-- The numbers that a report shows. -/
noncomputable def numbersShown {Q L : Type} (r : Report Q L) : Numbers :=
  ⟨r.gAP.value, r.mAP.value, r.gNDCG.value, r.mNDCG.value⟩

/-- The numbers `b` are at most those of `a`, and little less: the one that is added comes after at most
`n` of all hypotheses and after at most `m` of those of its group; there are `k` groups, `N` references
and `M` in its group; `alone` and `aloneIn`: its score is no other's, and no other's in its group. Average
precisions are within `ε`. -/
structure CostsLittle (a b : Numbers) (n m k N M : ℕ) (alone aloneIn : Prop) (ε : ℚ) : Prop where
  gAP_le : b.gAP ≤ a.gAP + ε
  gAP_ge : a.gAP ≤ b.gAP + 1 / (n + 1) + ε
  mAP_le : b.mAP ≤ a.mAP + ε
  mAP_ge : a.mAP ≤ b.mAP + 1 / (k * (m + 1)) + ε
  gNDCG_le : b.gNDCG ≤ a.gNDCG
  gNDCG_ge : alone → N ≠ 0 → a.gNDCG ≤ b.gNDCG + 1 / (Real.logb 2 (n + 2) * idealGain N)
  mNDCG_le : b.mNDCG ≤ a.mNDCG
  mNDCG_ge : aloneIn → M ≠ 0 → a.mNDCG ≤ b.mNDCG + 1 / (k * (Real.logb 2 (m + 2) * idealGain M))

end Kws.Spec
