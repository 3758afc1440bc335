import Verif.Spec.Cuts
import Verif.Spec.Hits
import Verif.Spec.Dilution

/-!
# Specification of what the numbers of hits and false positives say about the measures
-/

namespace Kws.Spec
variable {Q L : Type}

/-- The number of hypotheses that are given no reference. -/
def wrongCount (ms : List (Match (Event Q L) (ScoredEvent Q L))) : ℕ := ms.countP IsWrong

/-- The share of the references that are found; 1 if there are none. -/
def recallOf (ms : List (Match (Event Q L) (ScoredEvent Q L))) : ℚ :=
  if references ms = 0 then 1 else (hitCount ms : ℚ) / references ms

/-- The share of the hypotheses that are right; 1 if there are none. -/
def precisionOf (ms : List (Match (Event Q L) (ScoredEvent Q L))) : ℚ :=
  if hitCount ms + wrongCount ms = 0 then 1 else (hitCount ms : ℚ) / (hitCount ms + wrongCount ms)

/-- The largest NDCG that can be had by finding `h` of `n` references. -/
noncomputable def gainShare (h n : ℕ) : ℝ := if n = 0 then 0 else idealGain h / idealGain n

/-- The reported numbers are at most those of a ranking that has all hits in front; with interpolation, average
precisions are at least the product of precision and recall. The numbers are 0 if there are no hits, and not 0
otherwise; the global average precision is 1 if there is a point of the curve after all references and no false
positive. All average precisions up to `ε`. -/
structure CountBounds {Q' L' : Type} [DecidableEq Q] (grp : Q → Q) (o : ToolOptions) (r : Report Q' L')
    (ms : List (Match (Event Q L) (ScoredEvent Q L))) (ε : ℚ) : Prop where
  gAP_le : r.gAP.value ≤ recallOf ms + ε
  gAP_ge : o.interp = true → ms ≠ [] → precisionOf ms * recallOf ms - ε ≤ r.gAP.value
  mAP_le : r.mAP.value ≤ average ((groupsIn grp ms).map fun g => recallOf (ms.filter (InGroup grp g))) + ε
  mAP_ge : o.interp = true → average ((groupsIn grp ms).map fun g =>
    precisionOf (ms.filter (InGroup grp g)) * recallOf (ms.filter (InGroup grp g))) - ε ≤ r.mAP.value
  gNDCG_le : r.gNDCG.value ≤ gainShare (hitCount ms) (references ms)
  mNDCG_le : r.mNDCG.value ≤ average ((groupsIn grp ms).map fun g =>
    gainShare (hitCount (ms.filter (InGroup grp g))) (references (ms.filter (InGroup grp g))))
  gNDCG_zero : r.gNDCG.value = 0 ↔ hitCount ms = 0
  mNDCG_zero : r.mNDCG.value = 0 ↔ hitCount ms = 0
  gAP_one : ε = 0 → o.ciGap = false → references ms ≠ 0 →
    (r.gAP.value = 1 ↔ (references ms, 0) ∈ cuts o.collapse ms)
  AP_zero : ε = 0 → (r.gAP.value = 0 ↔ hitCount ms = 0) ∧ (r.mAP.value = 0 ↔ hitCount ms = 0)

end Kws.Spec
