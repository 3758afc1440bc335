import Verif.Spec.Ranking
import Verif.Spec.Hits

/-!
# Specification of better hypotheses for boxes
-/

namespace Kws.Spec

/-- Some reference may be given to the hypothesis: it is right. -/
def Fits (refs : List (Event Str (DocBox Str UInt32))) (x : ScoredEvent Str (DocBox Str UInt32)) : Prop :=
  ∃ r ∈ refs, BoxPair r x

instance (r : Event Str (DocBox Str UInt32)) (x : ScoredEvent Str (DocBox Str UInt32)) :
    Decidable (BoxPair r x) := by unfold BoxPair; infer_instance

instance (refs : List (Event Str (DocBox Str UInt32))) (x : ScoredEvent Str (DocBox Str UInt32)) :
    Decidable (Fits refs x) := by unfold Fits; infer_instance

/-- No query has more wrong hypotheses with at least a given score in `hyps'` than in `hyps`. -/
def NoMoreWrong (refs : List (Event Str (DocBox Str UInt32)))
    (hyps hyps' : List (ScoredEvent Str (DocBox Str UInt32))) : Prop :=
  ∀ q s, s ≠ .nan →
    hyps'.countP (fun h => ¬ Fits refs h ∧ h.base.query = q ∧ Flt.lt h.score s = false) ≤
      hyps.countP (fun h => ¬ Fits refs h ∧ h.base.query = q ∧ Flt.lt h.score s = false)

/-- The hypotheses `hyps'` have all right hypotheses of `hyps`, with the same scores, and perhaps other
right ones. -/
def KeepsRight (refs : List (Event Str (DocBox Str UInt32)))
    (hyps hyps' : List (ScoredEvent Str (DocBox Str UInt32))) : Prop :=
  ∀ x, Fits refs x → hyps.count x ≤ hyps'.count x

/-- Whatever reference fits a hypothesis of `hyps` also fits one of `hyps'` with at least the same score. -/
def RaisesRight (refs : List (Event Str (DocBox Str UInt32)))
    (hyps hyps' : List (ScoredEvent Str (DocBox Str UInt32))) : Prop :=
  ∀ x ∈ hyps, ∀ r ∈ refs, BoxPair r x → ∃ y ∈ hyps', BoxPair r y ∧ Flt.lt y.score x.score = false

/-- No hypothesis fits two references. -/
def FitsOne (refs : List (Event Str (DocBox Str UInt32)))
    (hyps : List (ScoredEvent Str (DocBox Str UInt32))) : Prop :=
  ∀ y ∈ hyps, ∀ r ∈ refs, ∀ r' ∈ refs, BoxPair r y → BoxPair r' y → r = r'

end Kws.Spec
