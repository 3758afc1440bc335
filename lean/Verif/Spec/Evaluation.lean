import Verif.Spec.Assessment
import Verif.Spec.Tool
import Verif.Spec.Matching
import Verif.Spec.Scoring
import Mathlib.Analysis.SpecialFunctions.Log.Base
import Mathlib.Analysis.SpecialFunctions.Pow.Real

/-!
# Specification of the reported numbers

The measures are defined from the numbers of hits and false positives with at least a given score,
without sorting or collapsing matches.
-/

namespace Kws.Spec

/-- Interpolation of a curve of points (precision, recall): each precision is replaced by the largest
one at this or a later point. -/
def topped : List (ℚ × ℚ) → List (ℚ × ℚ)
  | [] => []
  | p :: ps => (ps.foldr (fun q m => max q.1 m) p.1, p.2) :: topped ps

/-- The area under a curve of points (precision, recall). -/
def curveArea (interp trapezoid : Bool) (pts : List (ℚ × ℚ)) : ℚ :=
  let c := if interp then topped pts else pts
  areaUnder trapezoid (c.map Prod.fst) (c.map Prod.snd)

/-- `scores` are the numbers with property `P`, in decreasing order. -/
structure Thresholds (P : Flt → Prop) (scores : List Flt) : Prop where
  sorted : scores.Pairwise (fun a b => Flt.lt b a = true)
  mem : ∀ s, s ∈ scores ↔ P s

/-- Numbers of hits and of false positives with a score of at least `s`, and number of references. -/
structure Tally where
  hits : Flt → ℕ
  wrong : Flt → ℕ
  refs : ℕ

/-- Precision and recall if only scores of at least `s` are considered. -/
def Tally.point (c : Tally) (s : Flt) : ℚ × ℚ :=
  (if c.hits s + c.wrong s = 0 then 1 else (c.hits s : ℚ) / (c.hits s + c.wrong s),
    if c.refs = 0 then 1 else (c.hits s : ℚ) / c.refs)

/-- Average precision. -/
def Tally.ap (c : Tally) (interp trapezoid : Bool) (scores : List Flt) : ℚ :=
  curveArea interp trapezoid (scores.map c.point)

/-- Discounted cumulative gain: the hypotheses with the next score, which take the ranks after the `h`
hits and `w` false positives before, all have the mean relevance. -/
noncomputable def Tally.gain (c : Tally) : ℕ → ℕ → List Flt → ℝ
  | _, _, [] => 0
  | h, w, s :: scores =>
    (∑ k ∈ Finset.Ico (h + w) (c.hits s + c.wrong s),
      ((2 : ℝ) ^ (((c.hits s : ℝ) - h) / (((c.hits s : ℝ) - h) + ((c.wrong s : ℝ) - w))) - 1) /
        Real.logb 2 (k + 2)) +
    c.gain (c.hits s) (c.wrong s) scores

/-- Normalised discounted cumulative gain. -/
noncomputable def Tally.ndcg (c : Tally) (scores : List Flt) : ℝ :=
  if c.refs = 0 then 0
  else c.gain 0 0 scores / ∑ k ∈ Finset.range c.refs, 1 / Real.logb 2 (k + 2)

/-- Inserts a number into a decreasing list, unless it is there. -/
def insertDesc (x : Flt) : List Flt → List Flt
  | [] => [x]
  | y :: l => if Flt.lt y x then x :: y :: l else if x = y then y :: l else y :: insertDesc x l

/-- The numbers of a list in decreasing order, each once. -/
def descending (l : List Flt) : List Flt := l.foldr insertDesc []

/-- The mean; 0 if there is nothing. -/
def average {α : Type} [Field α] (l : List α) : α := l.sum / (l.length : α)

/-- The four numbers a tool reports. -/
structure Numbers where
  gAP : ℚ
  mAP : ℚ
  gNDCG : ℝ
  mNDCG : ℝ

/-- The numbers from the tally and scores of everything, and of each group. -/
noncomputable def Numbers.of (interp trapezoid : Bool) (all : Tally × List Flt)
    (groups : List (Tally × List Flt)) : Numbers where
  gAP := all.1.ap interp trapezoid (descending all.2)
  mAP := average (groups.map (fun g => g.1.ap interp trapezoid (descending g.2)))
  gNDCG := all.1.ndcg (descending all.2)
  mNDCG := average (groups.map (fun g => g.1.ndcg (descending g.2)))

section
variable {Q L : Type}

/-- The tally of a list of matches. -/
def tallyOf (ms : List (Match (Event Q L) (ScoredEvent Q L))) : Tally where
  hits s := ms.countP (fun m => m.ref.isSome && m.hyp.any (fun h => !Flt.lt h.score s))
  wrong s := ms.countP (fun m => m.ref.isNone && m.hyp.any (fun h => !Flt.lt h.score s))
  refs := ms.countP (fun m => m.ref.isSome)

/-- The error of a match is 0 or 1 as its kind demands. -/
def HardMatch (m : Match (Event Q L) (ScoredEvent Q L)) : Prop :=
  m.ref.isSome = true ∧ m.hyp.isSome = true ∧ m.error = Outcome.hit.error ∨
  m.ref = none ∧ m.hyp.isSome = true ∧ m.error = Outcome.falsePos.error ∨
  m.ref.isSome = true ∧ m.hyp = none ∧ m.error = Outcome.falseNeg.error

/-- The scores of the hypotheses in a list of matches. -/
def MatchScores (ms : List (Match (Event Q L) (ScoredEvent Q L))) (s : Flt) : Prop :=
  ∃ m ∈ ms, ∃ h, m.hyp = some h ∧ h.score = s

/-- The tally of the segmentation-based evaluation: a reference is hit with a score of at least `s` if
one of its hypotheses has such a score; a hypothesis that is no reference is a false positive. -/
def segTally [DecidableEq Q] [DecidableEq L] (refs : List (Event Q L)) (hyps : List (ScoredEvent Q L)) :
    Tally where
  hits s := (refs.toFinset.filter (fun r => ∃ h ∈ hyps, h.base = r ∧ Flt.lt h.score s = false)).card
  wrong s := hyps.countP (fun h => h.base ∉ refs ∧ Flt.lt h.score s = false)
  refs := refs.toFinset.card

/-- The numbers of the segmentation-based evaluation; the groups are those of the queries of all
events. -/
noncomputable def segNumbers [DecidableEq Q] [DecidableEq L] (grp : Q → Q) (interp trapezoid : Bool)
    (refs : List (Event Q L)) (hyps : List (ScoredEvent Q L)) : Numbers :=
  Numbers.of interp trapezoid (segTally refs hyps, hyps.map (·.score))
    (((refs.map (grp ·.query) ++ hyps.map (grp ·.base.query)).dedup).map fun g =>
      (segTally (refs.filter (grp ·.query = g)) (hyps.filter (grp ·.base.query = g)),
        (hyps.filter (grp ·.base.query = g)).map (·.score)))

/-- The event of a match: the reference, or the hypothesis if there is none. -/
def eventOf (m : Match (Event Q L) (ScoredEvent Q L)) : Option (Event Q L) :=
  m.ref.or (m.hyp.map (·.base))

/-- The group of a match. -/
def InGroup [DecidableEq Q] (grp : Q → Q) (g : Q) (m : Match (Event Q L) (ScoredEvent Q L)) : Bool :=
  (eventOf m).any (fun e => grp e.query = g)

/-- The scores of the hypotheses in a list of matches. -/
def scoresIn (ms : List (Match (Event Q L) (ScoredEvent Q L))) : List Flt :=
  ms.filterMap (fun m => m.hyp.map (·.score))

/-- The numbers of a list of matches. -/
noncomputable def matchNumbers [DecidableEq Q] (grp : Q → Q) (interp trapezoid : Bool)
    (ms : List (Match (Event Q L) (ScoredEvent Q L))) : Numbers :=
  Numbers.of interp trapezoid (tallyOf ms, scoresIn ms)
    ((((ms.filterMap eventOf).map (grp ·.query)).dedup).map fun g =>
      (tallyOf (ms.filter (InGroup grp g)), scoresIn (ms.filter (InGroup grp g))))

/-- The report has these numbers, average precisions within `ε`. -/
structure Shows (r : Report Q L) (n : Numbers) (ε : ℚ) : Prop where
  gAP : |r.gAP.value - n.gAP| ≤ ε
  mAP : |r.mAP.value - n.mAP| ≤ ε
  gNDCG : r.gNDCG.value = n.gNDCG
  mNDCG : r.mNDCG.value = n.mNDCG

end

/-- Replaces a finite number `x` by `g x`. -/
def rescale (g : ℚ → ℚ) : Flt → Flt
  | .fin x => .fin (g x)
  | a => a

/-- The hypothesis with another score. -/
def rescored {Q L : Type} (g : ℚ → ℚ) (h : ScoredEvent Q L) : ScoredEvent Q L :=
  ⟨h.base, rescale g h.score⟩

/-- The match with another score of its hypothesis. -/
def rescoredMatch {Q L : Type} (g : ℚ → ℚ) (m : Match (Event Q L) (ScoredEvent Q L)) :
    Match (Event Q L) (ScoredEvent Q L) :=
  ⟨m.ref, m.hyp.map (rescored g), m.error⟩

/-- Both reports have the same numbers and curves. -/
structure SameNumbers {Q L Q' L' : Type} (r : Report Q L) (r' : Report Q' L') : Prop where
  gAP : r.gAP.value = r'.gAP.value
  mAP : r.mAP.value = r'.mAP.value
  gNDCG : r.gNDCG.value = r'.gNDCG.value
  mNDCG : r.mNDCG.value = r'.mNDCG.value
  globalCurve : r.globalCurve = r'.globalCurve
  meanCurve : r.meanCurve = r'.meanCurve

/-- The matches `ms` and repeated matches `rep` of the box-based evaluation of the hypotheses `l`, in
this order: a hypothesis is right if a reference of the same query covers at least half of it. Among
such references it is given the free one that has most in common with it. -/
def BoxMatching {Q D : Type} [DecidableEq D] (refs : List (Event Q (DocBox D UInt32)))
    (l : List (ScoredEvent Q (DocBox D UInt32)))
    (ms rep : List (Match (Event Q (DocBox D UInt32)) (ScoredEvent Q (DocBox D UInt32)))) : Prop :=
  ∃ (overl : ScoredEvent Q (DocBox D UInt32) → List (Event Q (DocBox D UInt32)))
    (entries : List (Match (Event Q (DocBox D UInt32)) (ScoredEvent Q (DocBox D UInt32))))
    (missed : List (Event Q (DocBox D UInt32))),
    (∀ h ∈ l, (overl h).Nodup ∧
      (∀ r, r ∈ overl h ↔ r ∈ refs ∧ r.query = h.base.query ∧ 0 < commonU r h.base) ∧
      (overl h).Pairwise (fun x y => commonU y h.base ≤ commonU x h.base)) ∧
    Greedy overl (fun r h => verdict (areaU h.base ≤ 2 * commonU r h.base)) [] l entries rep ∧
    missed.Nodup ∧ (∀ r, r ∈ missed ↔ r ∈ refs ∧ ¬ Taken entries r) ∧
    ms = entries ++ missed.map (fun r => ⟨some r, none, Outcome.falseNeg.error⟩)

/-- The queries that restrict the evaluation: those of the groups file if one is named, or else those
of the query set. -/
def listedQueries (w : World) (o : ToolOptions) : List Str :=
  if o.queryGroups ≠ [] then
    ((w.file o.queryGroups).map (fun t => listedIn ((lines t).map words))).getD []
  else if o.querySet ≠ [] then ((w.file o.querySet).map words).getD []
  else []

/-- The group of a query: as the groups file says, if one is named and lists the query, or else the
query itself. -/
def groupFor (w : World) (o : ToolOptions) (q : Str) : Str :=
  if o.queryGroups ≠ [] then
    ((w.file o.queryGroups).bind (fun t => groupIn ((lines t).map words) q)).getD q
  else q

end Kws.Spec
