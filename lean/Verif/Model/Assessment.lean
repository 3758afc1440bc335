import Verif.Model.Match
import Mathlib.Analysis.SpecialFunctions.Log.Base
import Mathlib.Analysis.SpecialFunctions.Pow.Real

/-!
# core/Assessment.h

`R : Rnd` is the rounding of `float` and `double` operations; `double` variables hold rationals.
NDCG is computed over the reals (it needs `log2` and `exp2`) without rounding.
-/

namespace Kws

section Generic
variable {Q L : Type}

/-- The match type of the tools: the hypothesis is a scored event. -/
abbrev KwsMatch (Q L : Type) := Match (Event Q L) (ScoredEvent Q L)

/-- core/Assessment.h:29: the query of a match; a match without reference and hypothesis fails the
assertion in `GetHyp`. -/
def matchQuery (m : KwsMatch Q L) : Cpp Q :=
  if m.hasRef then do return (← m.getRef).query else do return (← m.getHyp).base.query

/-- core/Assessment.h:30-31: the group of a query -/
def groupOf [DecidableEq Q] (query2group : List (Q × Q)) (q : Q) : Q :=
  match AMap.find? q query2group with
  | some g => g
  | none => q

/-- core/Assessment.h:28-39: one iteration of the grouping loop. State: `group2pos` and
`*matches_by_group`. -/
def groupStep [DecidableEq Q] {M : Type} (group : Q) (m : M)
    (st : List (Q × Nat) × List (List M)) : List (Q × Nat) × List (List M) :=
  let (g2p, pos) := AMap.emplace group st.1.length st.1
  if pos < st.2.length then (g2p, st.2.modify pos (· ++ [m]))
  else (g2p, st.2 ++ [[m]])

/-- core/Assessment.h:28-39: the grouping loop -/
def groupLoop [DecidableEq Q] (query2group : List (Q × Q)) :
    List (KwsMatch Q L) → List (Q × Nat) × List (List (KwsMatch Q L)) →
    Cpp (List (Q × Nat) × List (List (KwsMatch Q L)))
  | [], st => return st
  | m :: ms, st => do
    let q ← matchQuery m
    groupLoop query2group ms (groupStep (groupOf query2group q) m st)

/-- core/Assessment.h:20-40 `GroupMatchesByQueryGroup` -/
def groupMatches [DecidableEq Q] (query2group : List (Q × Q)) (ms : List (KwsMatch Q L)) :
    Cpp (List (List (KwsMatch Q L))) := do
  return (← groupLoop query2group ms ([], [])).2

/-- core/Assessment.h:42-48 `NumTotalReferences` -/
def numTotalReferences {ε : Type} [IsError ε] (errors : List ε) : Nat :=
  errors.foldl (fun a e => a + IsError.nr e) 0

/-- core/Assessment.h:64-66: the score of a match; `-inf` for a false negative -/
def matchScore (m : KwsMatch Q L) : Flt :=
  match m.hyp with
  | some h => h.score
  | none => .ninf

/-- core/Assessment.h:63-77: one iteration of the collapsing loop. The vector `collapsed_matches`
is kept in reverse, so that `back()` is the head. -/
def collapseStep (R : Rnd) (acc : List (MatchErrorCounts × Flt)) (m : KwsMatch Q L) :
    List (MatchErrorCounts × Flt) :=
  match acc with
  | [] => [(MatchErrorCounts.ofError m.error, matchScore m)]
  | (c, s) :: rest =>
    if Flt.ne (matchScore m) s then
      (MatchErrorCounts.ofError m.error, matchScore m) :: (c, s) :: rest
    else (c.addError R m.error, s) :: rest

/-- core/Assessment.h:60-83 `CollapseMatches` -/
def collapseMatches (R : Rnd) (ms : List (KwsMatch Q L)) : List MatchErrorCounts :=
  ((ms.foldl (collapseStep R) []).reverse).map (·.1)

/-- core/Assessment.h:85-92 `GetMatchErrors` -/
def getMatchErrors (ms : List (KwsMatch Q L)) : List MatchError := ms.map (·.error)

/-- core/Assessment.h:98-104: the comparison used to sort matches -/
def scoreGreater (a b : KwsMatch Q L) : Bool :=
  match a.hyp, b.hyp with
  | some ha, some hb => Flt.lt hb.score ha.score
  | _, _ => a.hasHyp

/-- core/Assessment.h:94-105 `SortMatchesDecreasingScore` -/
def sortMatches (S : StdSort) (ms : List (KwsMatch Q L)) : Cpp (List (KwsMatch Q L)) :=
  S.sort scoreGreater ms

end Generic

/-! ## Precision and recall -/

section PR
variable {ε : Type} [IsError ε]

/-- core/Assessment.h:119-120: the running sums -/
structure PRSums where
  sumNR : Nat := 0
  sumNH : Nat := 0
  sumFP : ℚ := 0
  sumFN : ℚ := 0

/-- core/Assessment.h:122-125 -/
def PRSums.step (R : Rnd) (s : PRSums) (e : ε) : PRSums where
  sumNR := s.sumNR + IsError.nr e
  sumNH := s.sumNH + IsError.nh e
  sumFP := R.f64 (s.sumFP + IsError.fp e)
  sumFN := R.f64 (s.sumFN + IsError.fn e)

/-- core/Assessment.h:129: precision; `size_t` operands are converted to `double` -/
def PRSums.precision (R : Rnd) (s : PRSums) : ℚ :=
  if s.sumNH > 0 then R.f64 (1 - R.f64 (s.sumFP / R.f64 s.sumNH)) else 1

/-- core/Assessment.h:133: recall -/
def PRSums.recall (R : Rnd) (TR : Nat) (s : PRSums) : ℚ :=
  if TR > 0 then R.f64 (R.f64 (R.f64 s.sumNR - s.sumFN) / R.f64 TR) else 1

/-- core/Assessment.h:121-136: the loop over the errors -/
def prLoop (R : Rnd) (TR : Nat) : PRSums → List ε → List (ℚ × ℚ)
  | _, [] => []
  | s, e :: es =>
    ((s.step R e).precision R, (s.step R e).recall R TR) :: prLoop R TR (s.step R e) es

/-- core/Assessment.h:137-141: interpolation. The loop runs from the last position to the first and
replaces `pr[i-1]` by the maximum of `pr[i-1]` and the (already updated) `pr[i]`. -/
def interpolate : List ℚ → List ℚ
  | [] => []
  | p :: ps =>
    match interpolate ps with
    | [] => [p]
    | q :: qs => (if p < q then q else p) :: q :: qs

/-- core/Assessment.h:108-142 `ComputePrecisionAndRecall` from errors; returns `(pr, rc)` -/
def computePR (R : Rnd) (errors : List ε) (interp : Bool) : List ℚ × List ℚ :=
  let pts := prLoop R (numTotalReferences errors) {} errors
  let pr := pts.map (·.1)
  (if interp && decide (errors.length > 1) then interpolate pr else pr, pts.map (·.2))

end PR

/-- core/Assessment.h:145-160 `ComputePrecisionAndRecall` from matches -/
def matchesPR {Q L : Type} (R : Rnd) (ms : List (KwsMatch Q L)) (collapse interp : Bool) :
    List ℚ × List ℚ :=
  if collapse then computePR R (collapseMatches R ms) interp
  else computePR R (getMatchErrors ms) interp

/-! ## Average precision -/

/-- `trapezoid && i > 0 ? 0.5 * (pr[i] + pr[i - 1]) : pr[i]` for `i = 0, 1, ...`
(core/Assessment.h:174, 189, 193). `prev` is `pr[i-1]`, absent for `i = 0`. -/
def heights (R : Rnd) (trapezoid : Bool) : Option ℚ → List ℚ → List ℚ
  | _, [] => []
  | prev, p :: ps =>
    (match trapezoid, prev with
      | true, some q => R.f64 (1 / 2 * R.f64 (p + q))
      | _, _ => p) :: heights R trapezoid (some p) ps

/-- `acc += a[i] * b[i]` in `double` arithmetic -/
def dotFrom (R : Rnd) (acc : ℚ) (l : List (ℚ × ℚ)) : ℚ :=
  l.foldl (fun acc ab => R.f64 (acc + R.f64 (ab.1 * ab.2))) acc

/-- core/Assessment.h:162-178 `ComputeAP` from errors and precisions. `NH() - FP()` is computed in
`float`. -/
def computeAPErrors {ε : Type} [IsError ε] (R : Rnd) (errors : List ε) (pr : List ℚ)
    (trapezoid : Bool) : Cpp ℚ :=
  if pr.length = errors.length then
    let TR := numTotalReferences errors
    let tps := errors.map (fun e => R.f32 (R.f32 (IsError.nh e) - IsError.fp e))
    let sumAP := dotFrom R 0 (tps.zip (heights R trapezoid none pr))
    .ok (if TR > 0 then R.f64 (sumAP / R.f64 TR) else 0)
  else .error .assertFail

/-- core/Assessment.h:183-196 `ComputeAP` from the precision and recall curves -/
def computeAP (R : Rnd) (pr rc : List ℚ) (trapezoid : Bool) : Cpp ℚ :=
  if pr.length = rc.length then
    let hs := heights R trapezoid none pr
    let AP1 := dotFrom R 0 (rc.zip hs)
    let AP2 := dotFrom R 0 (rc.zip hs.tail)
    .ok (R.f64 (AP1 - AP2))
  else .error .assertFail

/-- core/Assessment.h:224-232 `ComputeGlobalAP` from a list of matches -/
def globalAP {Q L : Type} (R : Rnd) (ms : List (KwsMatch Q L))
    (collapse interp trapezoid : Bool) : Cpp ℚ :=
  let c := matchesPR R ms collapse interp
  computeAP R c.1 c.2 trapezoid

/-- core/Assessment.h:234-252 `ComputeGlobalAP` from grouped matches -/
def globalAPGrouped {Q L : Type} (R : Rnd) (S : StdSort) (groups : List (List (KwsMatch Q L)))
    (collapse interp trapezoid sort : Bool) : Cpp ℚ := do
  let all := groups.flatten
  let all ← if sort then sortMatches S all else pure all
  globalAP R all collapse interp trapezoid

/-- core/Assessment.h:260-267: the loop of `ComputeMeanAP` accumulating `sumAP` -/
def meanAPLoop {Q L : Type} (R : Rnd) (S : StdSort) (collapse interp trapezoid sort : Bool) :
    ℚ → List (List (KwsMatch Q L)) → Cpp ℚ
  | acc, [] => return acc
  | acc, ms :: groups => do
    let ms ← if sort then sortMatches S ms else pure ms
    let ap ← globalAP R ms collapse interp trapezoid
    meanAPLoop R S collapse interp trapezoid sort (R.f64 (acc + ap)) groups

/-- core/Assessment.h:254-270 `ComputeMeanAP` -/
def meanAP {Q L : Type} (R : Rnd) (S : StdSort) (groups : List (List (KwsMatch Q L)))
    (collapse interp trapezoid sort : Bool) : Cpp ℚ := do
  let sumAP ← meanAPLoop R S collapse interp trapezoid sort 0 groups
  return if groups.length > 0 then R.f64 (sumAP / R.f64 groups.length) else 0

/-! ## NDCG -/

section NDCG
variable {ε : Type} [IsError ε]

/-- core/Assessment.h:208-210: the inner loop, `n` more hypotheses of relevance `r` from rank
`i` on -/
noncomputable def dcgRun (r : ℝ) : Nat → Nat → ℝ → ℝ
  | 0, _, dcg => dcg
  | n + 1, i, dcg => dcgRun r n (i + 1) (dcg + ((2 : ℝ) ^ r - 1) / Real.logb 2 ((i : ℝ) + 1))

/-- core/Assessment.h:205-212: the loop over the errors from rank `i` on -/
noncomputable def dcgLoop : Nat → ℝ → List ε → ℝ
  | _, dcg, [] => dcg
  | i, dcg, e :: es =>
    if IsError.nh e > 0 then
      let r : ℝ := 1 - (IsError.fp e : ℝ) / (IsError.nh e : ℝ)
      dcgLoop (i + IsError.nh e) (dcgRun r (IsError.nh e) i dcg) es
    else dcgLoop i dcg es

/-- core/Assessment.h:214-217: the normalisation factor, `n` more terms from `j` on -/
noncomputable def idealDcg : Nat → Nat → ℝ → ℝ
  | 0, _, z => z
  | n + 1, j, z => idealDcg n (j + 1) (z + 1 / Real.logb 2 ((j : ℝ) + 1))

/-- core/Assessment.h:198-222 `ComputeNDCG` -/
noncomputable def computeNDCG (errors : List ε) : ℝ :=
  let TR := numTotalReferences errors
  if TR > 0 then dcgLoop 1 0 errors / idealDcg TR 1 0 else 0

end NDCG

/-- core/Assessment.h:272-280 `ComputeGlobalNDCG` from a list of matches -/
noncomputable def globalNDCG {Q L : Type} (R : Rnd) (ms : List (KwsMatch Q L)) (collapse : Bool) :
    ℝ :=
  if collapse then computeNDCG (collapseMatches R ms) else computeNDCG (getMatchErrors ms)

/-- core/Assessment.h:282-299 `ComputeGlobalNDCG` from grouped matches -/
noncomputable def globalNDCGGrouped {Q L : Type} (R : Rnd) (S : StdSort)
    (groups : List (List (KwsMatch Q L))) (collapse sort : Bool) : Cpp ℝ := do
  let all := groups.flatten
  let all ← if sort then sortMatches S all else pure all
  return globalNDCG R all collapse

/-- core/Assessment.h:306-313: the loop of `ComputeMeanNDCG` -/
noncomputable def meanNDCGLoop {Q L : Type} (R : Rnd) (S : StdSort) (collapse sort : Bool) :
    ℝ → List (List (KwsMatch Q L)) → Cpp ℝ
  | acc, [] => return acc
  | acc, ms :: groups => do
    let ms ← if sort then sortMatches S ms else pure ms
    meanNDCGLoop R S collapse sort (acc + globalNDCG R ms collapse) groups

/-- core/Assessment.h:301-316 `ComputeMeanNDCG` -/
noncomputable def meanNDCG {Q L : Type} (R : Rnd) (S : StdSort)
    (groups : List (List (KwsMatch Q L))) (collapse sort : Bool) : Cpp ℝ := do
  let sum ← meanNDCGLoop R S collapse sort 0 groups
  return if groups.length > 0 then sum / groups.length else 0

/-! ## Curves -/

/-- `a / b` in `double`; dividing by zero is undefined behaviour ([expr.mul]). -/
def fdiv (R : Rnd) (a b : ℚ) : Cpp ℚ := if b = 0 then .error .ub else .ok (R.f64 (a / b))

/-- core/Assessment.h:328-335: the value at `x`, where `(sx, sy)` is the first source point with
`x ≤ sx` and `prev` is the source point before it, if any. -/
def sampleAt (R : Rnd) (linear : Bool) (prev : Option (ℚ × ℚ)) (sx sy x : ℚ) : Cpp ℚ :=
  match linear, prev with
  | true, some (px, py) => do
    let w0 := R.f64 (sx - x)
    let w1 := R.f64 (x - px)
    let t ← fdiv R w0 (R.f64 (w0 + w1))
    return R.f64 (R.f64 (t * py) + R.f64 (R.f64 (1 - t) * sy))
  | _, _ => return sy

/-- core/Assessment.h:325: the inner loop, which advances the index `j` into the source. `j` is
represented by the source point before it (`src[j-1]`, if any) and the part of the source from `j`
on. -/
def skipTo (x : ℚ) : Option (ℚ × ℚ) → List (ℚ × ℚ) → Option (ℚ × ℚ) × List (ℚ × ℚ)
  | prev, [] => (prev, [])
  | prev, s :: rest => if s.1 < x then skipTo x (some s) rest else (prev, s :: rest)

/-- core/Assessment.h:324-336: the sampling loop. -/
def sampleLoop (R : Rnd) (linear : Bool) : Option (ℚ × ℚ) → List (ℚ × ℚ) → List ℚ → Cpp (List ℚ)
  | _, _, [] => return []
  | prev, after, x :: xs => do
    let (prev, after) := skipTo x prev after
    let y ← match after with
      | [] => pure 0
      | (sx, sy) :: _ => sampleAt R linear prev sx sy x
    return y :: (← sampleLoop R linear prev after xs)

/-- core/Assessment.h:318-337 `SampleCurveAtGivenPoints`. The source vectors must have the same
length (otherwise `src_y[j]` is out of range). -/
def sampleCurve (R : Rnd) (srcX srcY dstX : List ℚ) (linear : Bool) : Cpp (List ℚ) :=
  if srcX.length = srcY.length then sampleLoop R linear none (srcX.zip srcY) dstX
  else .error .ub

/-- core/Assessment.h:339-348 `GetEvenlyDistributedPoints01Interval` -/
def evenPoints (R : Rnd) (n : Nat) : List ℚ :=
  if n > 1 then (List.range n).map (fun (k : Nat) => R.f64 (R.f64 (k : ℚ) / R.f64 ((n - 1 : Nat) : ℚ)))
  else []

/-- core/Assessment.h:350-369 `WriteCurveToFile`: the points written, one line each. A failing
file system is not modelled here. -/
def writeCurve {K K' : Type} (filename : List Char) (x : List K) (y : List K') :
    Cpp (List (K × K')) :=
  if filename = [] then .error .invalidArgument
  else if x.length ≠ y.length then .error .invalidArgument
  else .ok (x.zip y)

end Kws
