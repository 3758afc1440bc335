import Mathlib.Order.Defs.LinearOrder
import Verif.Model.Tool

/-!
# Specification of nested confidence intervals
-/

namespace Kws.Spec

/-- The two metrics have the same value; either both have an interval, and that of `m` is contained in
that of `m'`, or both have none. -/
inductive Within {K : Type} [LinearOrder K] : Metric K → Metric K → Prop
  | none (v : K) : Within ⟨v, none⟩ ⟨v, none⟩
  | some (v lo hi lo' hi' : K) : lo' ≤ lo → hi ≤ hi' → Within ⟨v, some (lo, hi)⟩ ⟨v, some (lo', hi')⟩

/-- Every metric of `r` is within that of `r'`. -/
structure ReportWithin {Q L : Type} (r r' : Report Q L) : Prop where
  gAP : Within r.gAP r'.gAP
  mAP : Within r.mAP r'.mAP
  gNDCG : Within r.gNDCG r'.gNDCG
  mNDCG : Within r.mNDCG r'.mNDCG

end Kws.Spec
