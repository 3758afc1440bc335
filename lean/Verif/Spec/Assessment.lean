import Verif.Model.Match
import Mathlib.Algebra.BigOperators.Group.Finset.Basic
import Mathlib.Data.List.Dedup

/-!
# Specification of the evaluation measures
-/

namespace Kws.Spec

/-- Both rates are in [0,1]. -/
def Rates (e : MatchError) : Prop := 0 ≤ e.fp ∧ e.fp ≤ 1 ∧ 0 ≤ e.fn ∧ e.fn ≤ 1

/-- The three outcomes of hard matching. -/
inductive Outcome
  | hit
  | falsePos
  | falseNeg
  deriving DecidableEq

/-- The error that stands for an outcome. -/
def Outcome.error : Outcome → MatchError
  | hit => ⟨0, 0⟩
  | falsePos => ⟨1, 0⟩
  | falseNeg => ⟨0, 1⟩

/-- Number of outcomes `o` among the first `n`. -/
def among (o : Outcome) (n : Nat) (l : List Outcome) : Nat := (l.take n).count o

/-- A curve dominates another one of the same length. -/
def Dominates (q p : List ℚ) : Prop := List.Forall₂ (fun a b => b ≤ a) q p

/-- The area under a precision-recall curve: the sum over the points of the precision at the point
(or the mean of this and the previous precision) times the increase of the recall. -/
def areaUnder (trapezoid : Bool) (pr rc : List ℚ) : ℚ :=
  ∑ i ∈ Finset.range pr.length,
    (if trapezoid = true ∧ 0 < i then (pr.getD i 0 + pr.getD (i - 1) 0) / 2 else pr.getD i 0) *
    (rc.getD i 0 - if i = 0 then 0 else rc.getD (i - 1) 0)

/-- The sum of error rates and counts. -/
def total (es : List MatchError) : MatchErrorCounts :=
  ⟨(es.map (·.fp)).sum, (es.map (·.fn)).sum, (es.map (·.nh)).sum, (es.map (·.nr)).sum⟩

/-- The score by which a match is ranked; a missed reference comes after everything else. -/
def rank {RE Q L : Type} (m : Match RE (ScoredEvent Q L)) : Flt := (m.hyp.map (·.score)).getD .ninf

/-- `y` is the ordinate at `x` of the curve through the points `src`: with linear interpolation a
point on the line between the first source point at or after `x` and the source point before it;
otherwise the ordinate of the first source point at or after `x`; 0 beyond all source points. -/
def OnCurve (linear : Bool) (src : List (ℚ × ℚ)) (x y : ℚ) : Prop :=
  ((∀ p ∈ src, p.1 < x) ∧ y = 0) ∨
  ∃ pre sx sy post, src = pre ++ (sx, sy) :: post ∧ (∀ p ∈ pre, p.1 < x) ∧ x ≤ sx ∧
    if linear = true ∧ pre ≠ [] then
      ∃ px py, pre.getLast? = some (px, py) ∧ px < sx ∧
        (y - py) * (sx - px) = (sy - py) * (x - px)
    else y = sy

/-- The arithmetic mean. -/
def mean (l : List ℚ) : ℚ := l.sum / l.length

end Kws.Spec
