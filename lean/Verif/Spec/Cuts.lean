import Verif.Spec.Ranking
import Verif.Spec.Curves

/-!
# Specification of the numbers of a list of matches

The measures are defined from the numbers of hits and false positives among the first matches of a list in
any order, with or without taking neighbours of equal score together.
-/

namespace Kws.Spec
variable {Q L : Type}

/-- A hypothesis that is given no reference. -/
def IsWrong (m : Match (Event Q L) (ScoredEvent Q L)) : Bool := m.ref.isNone && m.hyp.isSome

/-- The numbers of hits and of false positives at each point of the curve. There is a point after every
match; if neighbours of equal score are taken together, only after the last of them. A missed reference has
the score −∞. -/
def cuts (collapse : Bool) (ms : List (Match (Event Q L) (ScoredEvent Q L))) : List (ℕ × ℕ) :=
  ((List.range ms.length).filter
    (fun k => !collapse || decide ((ms[k]?).map rank ≠ (ms[k + 1]?).map rank))).map
    (fun k => ((ms.take (k + 1)).countP IsHit, (ms.take (k + 1)).countP IsWrong))

/-- Precision and recall after some hits and false positives. -/
def cutPoint (refs : ℕ) (c : ℕ × ℕ) : ℚ × ℚ :=
  (if c.1 + c.2 = 0 then 1 else (c.1 : ℚ) / (c.1 + c.2), if refs = 0 then 1 else (c.1 : ℚ) / refs)

/-- Discounted cumulative gain: the hypotheses between two points, which take the ranks after the `h` hits
and `w` false positives before, all have the mean relevance. -/
noncomputable def cutGain : ℕ → ℕ → List (ℕ × ℕ) → ℝ
  | _, _, [] => 0
  | h, w, c :: cs =>
    (∑ k ∈ Finset.Ico (h + w) (c.1 + c.2),
      ((2 : ℝ) ^ (((c.1 : ℝ) - h) / (((c.1 : ℝ) - h) + ((c.2 : ℝ) - w))) - 1) / Real.logb 2 (k + 2)) +
    cutGain c.1 c.2 cs

/-- Average precision of a list of matches. -/
def listAP (collapse interp trapezoid : Bool) (ms : List (Match (Event Q L) (ScoredEvent Q L))) : ℚ :=
  curveArea interp trapezoid ((cuts collapse ms).map (cutPoint (references ms)))

/-- Normalised discounted cumulative gain of a list of matches. -/
noncomputable def listNDCG (collapse : Bool) (ms : List (Match (Event Q L) (ScoredEvent Q L))) : ℝ :=
  if references ms = 0 then 0
  else cutGain 0 0 (cuts collapse ms) / ∑ k ∈ Finset.range (references ms), 1 / Real.logb 2 (k + 2)

/-- `l` is the list `ms`, sorted by decreasing score if so requested. -/
def Arranged (sorted : Bool) (ms l : List (Match (Event Q L) (ScoredEvent Q L))) : Prop :=
  if sorted then l.Perm ms ∧ l.Pairwise (fun a b => Flt.lt (rank a) (rank b) = false) else l = ms

/-- The groups of the matches. -/
def groupsIn [DecidableEq Q] (grp : Q → Q) (ms : List (Match (Event Q L) (ScoredEvent Q L))) : List Q :=
  ((ms.filterMap eventOf).map (grp ·.query)).dedup

/-- The report has the numbers of the matches `ms`, average precisions within `ε`. A number with a
confidence interval is that of the sorted matches. -/
structure ShowsList {Q' L' : Type} [DecidableEq Q] (grp : Q → Q) (o : ToolOptions) (r : Report Q' L')
    (ms : List (Match (Event Q L) (ScoredEvent Q L))) (ε : ℚ) : Prop where
  gAP : ∃ l, Arranged o.ciGap ms l ∧
    |r.gAP.value - listAP o.collapse o.interp o.trapezoid l| ≤ ε
  mAP : ∃ l : Q → _, (∀ g, Arranged o.ciMap (ms.filter (InGroup grp g)) (l g)) ∧
    |r.mAP.value - average ((groupsIn grp ms).map
      (fun g => listAP o.collapse o.interp o.trapezoid (l g)))| ≤ ε
  gNDCG : ∃ l, Arranged o.ciGndcg ms l ∧ r.gNDCG.value = listNDCG o.collapse l
  mNDCG : ∃ l : Q → _, (∀ g, Arranged o.ciMndcg (ms.filter (InGroup grp g)) (l g)) ∧
    r.mNDCG.value = average ((groupsIn grp ms).map (fun g => listNDCG o.collapse (l g)))

/-- The points (recall, precision) of the curve of a list of matches. -/
def listCurve (collapse interp : Bool) (ms : List (Match (Event Q L) (ScoredEvent Q L))) : List (ℚ × ℚ) :=
  let pts := (cuts collapse ms).map (cutPoint (references ms))
  (if interp then topped pts else pts).map Prod.swap

/-- The curves of a list of matches: that of all, and the mean of those of the groups, which is not a number
if there are no groups. -/
def listCurves [DecidableEq Q] (grp : Q → Q) (n : ℕ) (collapse interp linear : Bool)
    (ms : List (Match (Event Q L) (ScoredEvent Q L))) : Curves where
  all := sampled n fun x => valueAt linear x none (listCurve collapse interp ms)
  mean := sampled n fun x =>
    if groupsIn grp ms = [] then .nan
    else .fin (average ((groupsIn grp ms).map fun g =>
      valueAt linear x none (listCurve collapse interp (ms.filter (InGroup grp g)))))

/-- The order in which hypotheses are evaluated: by decreasing or increasing score, or as they are. -/
def InOrder (sort : Str) (hyps l : List (ScoredEvent Q L)) : Prop :=
  if sort = "desc".toList then l.Perm hyps ∧ l.Pairwise (fun a b => Flt.lt a.score b.score = false)
  else if sort = "asc".toList then l.Perm hyps ∧ l.Pairwise (fun a b => Flt.lt b.score a.score = false)
  else l = hyps

/-- The matches of the segmentation-based evaluation of the hypotheses `l`, in this order: a hypothesis that
is no reference is a false positive, the first one of a reference is a hit, further ones are left out.
References without hypothesis come last. -/
def SegMatching [DecidableEq Q] [DecidableEq L] (refs : List (Event Q L)) (l : List (ScoredEvent Q L))
    (ms : List (Match (Event Q L) (ScoredEvent Q L))) : Prop :=
  ∃ missed : List (Event Q L), missed.Nodup ∧ (∀ r, r ∈ missed ↔ r ∈ refs ∧ ∀ h ∈ l, h.base ≠ r) ∧
    ms = segEntries refs [] l ++ missed.map (fun r => ⟨some r, none, Outcome.falseNeg.error⟩)

end Kws.Spec
