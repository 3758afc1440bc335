import Verif.Spec.Evaluation

/-!
# Specification of submissions that consist of the references
-/

namespace Kws.Spec
variable {Q L : Type}

/-- The hypotheses are the references, each once, with any scores. -/
structure HandedIn (refs : List (Event Q L)) (hyps : List (ScoredEvent Q L)) : Prop where
  once : (hyps.map (·.base)).Nodup
  all : ∀ e, e ∈ hyps.map (·.base) ↔ e ∈ refs

/-- The four numbers of a report are between `a` and 1, average precisions within `ε`. -/
structure Between (a : ℚ) (r : Report Q L) (ε : ℚ) : Prop where
  gAP : a - ε ≤ r.gAP.value ∧ r.gAP.value ≤ 1 + ε
  mAP : a - ε ≤ r.mAP.value ∧ r.mAP.value ≤ 1 + ε
  gNDCG : (a : ℝ) ≤ r.gNDCG.value ∧ r.gNDCG.value ≤ 1
  mNDCG : (a : ℝ) ≤ r.mNDCG.value ∧ r.mNDCG.value ≤ 1

/-- No event lies within another one of the same query. -/
def Unnested {D : Type} [DecidableEq D] (es : List (Event Q (DocBox D UInt32))) : Prop :=
  ∀ a ∈ es, ∀ b ∈ es, a ≠ b → a.query = b.query → commonU b a < areaU a

end Kws.Spec
