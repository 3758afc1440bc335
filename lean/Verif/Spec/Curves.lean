import Verif.Spec.Evaluation
import Verif.Spec.Output

/-!
# Specification of the recall-precision curves

As in `Spec/Evaluation.lean`, curves are defined from the numbers of hits and false positives with at
least a given score.
-/

namespace Kws.Spec

/-- The points (recall, precision) of the curve with one point per score. If there are references but
no hypotheses, the only point has recall 0 and precision 1. -/
def Tally.curve (c : Tally) (interp : Bool) (scores : List Flt) : List (ℚ × ℚ) :=
  let pts := if scores = [] ∧ c.refs ≠ 0 then [(1, 0)] else scores.map c.point
  (if interp then topped pts else pts).map Prod.swap

/-- The ordinate at `x` of the curve through some points that come after `prev`: that of the first
point at or after `x`, or with linear interpolation that of the line from the point before to this
point; 0 beyond all points. -/
def valueAt (linear : Bool) (x : ℚ) : Option (ℚ × ℚ) → List (ℚ × ℚ) → ℚ
  | _, [] => 0
  | prev, p :: rest =>
    if p.1 < x then valueAt linear x (some p) rest
    else match prev with
      | none => p.2
      | some q => if linear then q.2 + (p.2 - q.2) * (x - q.1) / (p.1 - q.1) else p.2

/-- A function at `0, 1/(n-1), 2/(n-1), ..., 1`. -/
def sampled {α : Type} (n : ℕ) (f : ℚ → α) : List (ℚ × α) :=
  if n ≤ 1 then [] else (List.range n).map fun (k : ℕ) => ((k : ℚ) / (n - 1), f (k / (n - 1)))

/-- The two curves a tool writes. -/
structure Curves where
  all : List (ℚ × ℚ)
  mean : List (ℚ × Flt)

/-- The curves from the tally and scores of everything, and of each group. Without groups, the means
are not numbers. -/
def Curves.of (n : ℕ) (interp linear : Bool) (all : Tally × List Flt)
    (groups : List (Tally × List Flt)) : Curves where
  all := sampled n fun x => valueAt linear x none (all.1.curve interp (descending all.2))
  mean := sampled n fun x =>
    if groups = [] then .nan
    else .fin (average (groups.map fun g =>
      valueAt linear x none (g.1.curve interp (descending g.2))))

section
variable {Q L : Type}

/-- The curves of the segmentation-based evaluation. -/
def segCurves [DecidableEq Q] [DecidableEq L] (grp : Q → Q) (n : ℕ) (interp linear : Bool)
    (refs : List (Event Q L)) (hyps : List (ScoredEvent Q L)) : Curves :=
  Curves.of n interp linear (segTally refs hyps, hyps.map (·.score))
    (((refs.map (grp ·.query) ++ hyps.map (grp ·.base.query)).dedup).map fun g =>
      (segTally (refs.filter (grp ·.query = g)) (hyps.filter (grp ·.base.query = g)),
        (hyps.filter (grp ·.base.query = g)).map (·.score)))

/-- The curves of a list of matches. -/
def matchCurves [DecidableEq Q] (grp : Q → Q) (n : ℕ) (interp linear : Bool)
    (ms : List (Match (Event Q L) (ScoredEvent Q L))) : Curves :=
  Curves.of n interp linear (tallyOf ms, scoresIn ms)
    ((((ms.filterMap eventOf).map (grp ·.query)).dedup).map fun g =>
      (tallyOf (ms.filter (InGroup grp g)), scoresIn (ms.filter (InGroup grp g))))

/-- The report has the curves that were asked for. -/
structure HasCurves (o : ToolOptions) (r : Report Q L) (c : Curves) : Prop where
  all : r.globalCurve = if o.outputGrp = [] then none else some c.all
  mean : r.meanCurve = if o.outputMrp = [] then none else some c.mean

/-- Two coordinates: at a distance of at most `e` if they are numbers, otherwise the same. -/
def CloseCoord (e : ℚ) : Flt → Flt → Prop
  | .fin a, .fin b => |a - b| ≤ e
  | a, b => a = b

/-- The report has the curves that were asked for, with as many points and no coordinate off by more
than `e`. -/
structure HasCurvesNear (o : ToolOptions) (r : Report Q L) (c : Curves) (e : ℚ) : Prop where
  all : if o.outputGrp = [] then r.globalCurve = none else ∃ pts, r.globalCurve = some pts ∧
    List.Forall₂ (fun p q => |p.1 - q.1| ≤ e ∧ |p.2 - q.2| ≤ e) pts c.all
  mean : if o.outputMrp = [] then r.meanCurve = none else ∃ pts, r.meanCurve = some pts ∧
    List.Forall₂ (fun p q => |p.1 - q.1| ≤ e ∧ CloseCoord e p.2 q.2) pts c.mean

/-- With interpolation, the curves do not increase; their values are between 0 and 1, or there are no
groups. -/
structure Shape (o : ToolOptions) (r : Report Q L) : Prop where
  all : ∀ c, r.globalCurve = some c → (o.interp = true → c.Pairwise (fun p q => q.2 ≤ p.2)) ∧
    ∀ p ∈ c, 0 ≤ p.2 ∧ p.2 ≤ 1
  mean : ∀ c, r.meanCurve = some c →
    (o.interp = true → c.Pairwise (fun p q => Flt.lt p.2 q.2 = false)) ∧
    ∀ p ∈ c, p.2 = .nan ∨ ∃ y, p.2 = .fin y ∧ 0 ≤ y ∧ y ≤ 1

end

/-- The text of a coordinate in a file with a curve. -/
def PrintsCoord : Flt → Str → Prop
  | .fin x, w => Prints 7 x w
  | .nan, w => w = "nan".toList
  | .pinf, w => w = "inf".toList
  | .ninf, w => w = "-inf".toList

/-- The text of a file with a curve: one line per point, with its two coordinates. -/
def CurveText (pts : List (ℚ × Flt)) (text : Str) : Prop :=
  ∃ ls, text = (ls.map (· ++ "\n".toList)).flatten ∧
    List.Forall₂ (fun p l => ∃ a b, Prints 7 p.1 a ∧ PrintsCoord p.2 b ∧ l = a ++ " ".toList ++ b) pts ls

/-- The files with the curves that were asked for. -/
def CurveFiles (o : ToolOptions) (c : Curves) (files : List (Str × Str)) : Prop :=
  ∃ f g, files = f ++ g ∧
    (if o.outputGrp = [] then f = []
      else ∃ text, f = [(o.outputGrp, text)] ∧ CurveText (c.all.map fun p => (p.1, .fin p.2)) text) ∧
    if o.outputMrp = [] then g = [] else ∃ text, g = [(o.outputMrp, text)] ∧ CurveText c.mean text

end Kws.Spec
