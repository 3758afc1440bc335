import Verif.Model.Tool
import Verif.Spec.Grammar
import Verif.Spec.Query

/-!
# Specification of the inputs and outputs of a run
-/

namespace Kws.Spec

/-- The text of the hypotheses: a file, or standard input if no file is named. -/
def hypText (w : World) (o : ToolOptions) : Option Str :=
  if o.hypFilename = [] then some w.stdin else w.file o.hypFilename

/-- The two worlds differ only in the order and repetition of the lines of the references, and in the
order of the lines of the hypotheses. -/
structure Reordered (o : ToolOptions) (w w' : World) : Prop where
  refs : w.file o.refFilename = none ∧ w'.file o.refFilename = none ∨
    ∃ t t', w.file o.refFilename = some t ∧ w'.file o.refFilename = some t' ∧
      ∀ l, l ∈ lines t ↔ l ∈ lines t'
  hyps : hypText w o = none ∧ hypText w' o = none ∨
    ∃ t t', hypText w o = some t ∧ hypText w' o = some t' ∧ (lines t).Perm (lines t')
  querySet : w.file o.querySet = w'.file o.querySet
  queryGroups : w.file o.queryGroups = w'.file o.queryGroups
  writable : w.writable = w'.writable

/-- All words of the input files. -/
def vocabulary (w : World) (o : ToolOptions) : List Str :=
  ([w.file o.refFilename, hypText w o, w.file o.querySet, w.file o.queryGroups].filterMap id).flatMap
    words

/-- The segmentation-based tool without ids: it compares the strings themselves. -/
def strKit (R : Rnd) : ToolKit Unit (EventSet (Event Str Str)) Str Str where
  mapper := ()
  refsSet := EventSet.new
  readRef := fun m text => readEvents extractStrEvent identityMap m text
  readHyp := fun m text => readEvents (extractScored R extractStrEvent) identityMap m text
  mapQuery := fun m q => (m, .ok q)
  index := plainIndex Str Str
  scorer := trivialScorer

/-- A file all of whose lines are ignored or one event. -/
def ValidFile {E : Type} (G : Str → E → Str → Prop) (t : Str) : Prop :=
  ∀ l ∈ lines t, Ignored l ∨ ∃ e, IsEvent G l e

/-- All files needed are there and have the right format. -/
structure ValidInputs {E H : Type} (GR : Str → E → Str → Prop) (GH : Str → H → Str → Prop)
    (w : World) (o : ToolOptions) : Prop where
  refName : o.refFilename ≠ []
  refs : ∃ t, w.file o.refFilename = some t ∧ ValidFile GR t
  hyps : ∃ t, hypText w o = some t ∧ ValidFile GH t
  querySet : o.querySet ≠ [] → o.queryGroups = [] → ∃ t, w.file o.querySet = some t
  queryGroups : o.queryGroups ≠ [] → ∃ t, w.file o.queryGroups = some t ∧
    WellFormedGroups ((lines t).map words)

/-- A report has the four metrics (fields of `Report`), and confidence intervals, curves and matches
exactly if they were asked for. -/
structure Complete {Q L : Type} (o : ToolOptions) (r : Report Q L) : Prop where
  gap : r.gAP.ci.isSome = o.ciGap
  map : r.mAP.ci.isSome = o.ciMap
  gndcg : r.gNDCG.ci.isSome = o.ciGndcg
  mndcg : r.mNDCG.ci.isSome = o.ciMndcg
  dump : r.dump.isSome = true ↔ o.dumpMatches ≠ []
  grp : r.globalCurve.isSome = true ↔ o.outputGrp ≠ []
  mrp : r.meanCurve.isSome = true ↔ o.outputMrp ≠ []

/-- What a run needs beyond its inputs, for `n` events: with confidence intervals, sensible numbers of
samples and `alpha`; with curves, writable files, and not too many events for `float` counts. -/
structure Feasible (R : Rnd) (w : World) (o : ToolOptions) (n : Nat) : Prop where
  ci : o.ciGap = true ∨ o.ciMap = true ∨ o.ciGndcg = true ∨ o.ciMndcg = true → 0 < o.samples ∧
    (R = Rnd.exact ∧ o.samples < 2 ^ 64 ∧ 0 < o.alpha ∧ o.alpha < 2 ∨
     R.Faithful ∧ o.samples ≤ 2 ^ 32 ∧ 1 / 2 ^ 19 ≤ o.alpha ∧ o.alpha ≤ 2 - 1 / 2 ^ 19)
  grp : o.outputGrp ≠ [] → w.writable o.outputGrp = true
  mrp : o.outputMrp ≠ [] → w.writable o.outputMrp = true
  curves : o.outputGrp ≠ [] ∨ o.outputMrp ≠ [] →
    R.Precise ∧ n ≤ if o.collapse then 2 ^ 24 else 2 ^ 53

/-- The mean of a list, added up from left to right with rounding. -/
def roundedMean (R : Rnd) (l : List ℚ) : ℚ :=
  if l = [] then 0 else R.f64 (l.foldl (fun a v => R.f64 (a + v)) 0 / R.f64 l.length)

/-- The reports have the same values and curves, except that the mean average precision (and the mean
curve) may have been added up in another order. -/
structure Agree {Q L Q' L' : Type} (R : Rnd) (r : Report Q L) (r' : Report Q' L') : Prop where
  gAP : r.gAP.value = r'.gAP.value
  mAP : ∃ aps aps', aps.Perm aps' ∧ r.mAP.value = roundedMean R aps ∧
    r'.mAP.value = roundedMean R aps'
  gNDCG : r.gNDCG.value = r'.gNDCG.value
  mNDCG : r.mNDCG.value = r'.mNDCG.value
  grp : r.globalCurve = r'.globalCurve
  exact : R = Rnd.exact → r.mAP.value = r'.mAP.value ∧ r.meanCurve = r'.meanCurve

/-- Both runs end with status 1, or both end with reports that agree. -/
def EndAlike {Q L Q' L' : Type} (R : Rnd) (a : Cpp (RunResult Q L)) (b : Cpp (RunResult Q' L')) :
    Prop :=
  a = .ok .failed ∧ b = .ok .failed ∨
  ∃ r r', a = .ok (.done r) ∧ b = .ok (.done r') ∧ Agree R r r'

end Kws.Spec
