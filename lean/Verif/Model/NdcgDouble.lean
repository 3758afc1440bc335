import Verif.Model.Assessment

/-!
# core/Assessment.h, NDCG in `double`

`Verif.Model.Assessment` computes NDCG over the reals. This file follows the same lines of the code
with every operation rounded as on the machine. The two library functions `exp2` and `log2` are a
parameter: the C++ standard says nothing about their accuracy.
-/

namespace Kws

/-- The functions `exp2` and `log2` of <cmath>, on the `double`s they are given here. -/
structure Libm where
  exp2 : ℚ → ℚ
  log2 : ℚ → ℚ

section NDCG
variable {ε : Type} [IsError ε]

/-- core/Assessment.h:208-210: the inner loop, `n` more hypotheses of relevance `r` from rank `i`
on. `i + 1` is a `size_t`, converted to `double` for `log2`. -/
def dcgRunD (R : Rnd) (m : Libm) (r : ℚ) : Nat → Nat → ℚ → Cpp ℚ
  | 0, _, dcg => return dcg
  | n + 1, i, dcg => do
    let q ← fdiv R (R.f64 (m.exp2 r - 1)) (m.log2 (R.f64 ((i + 1 : ℕ) : ℚ)))
    dcgRunD R m r n (i + 1) (R.f64 (dcg + q))

/-- core/Assessment.h:205-212: the loop over the errors from rank `i` on. `FP()` is a `float` and
`NH()` an integer: the relevance is computed in `float`. -/
def dcgLoopD (R : Rnd) (m : Libm) : Nat → ℚ → List ε → Cpp ℚ
  | _, dcg, [] => return dcg
  | i, dcg, e :: es =>
    if IsError.nh e > 0 then do
      let r := R.f32 (1 - R.f32 (IsError.fp e / R.f32 (IsError.nh e)))
      let dcg ← dcgRunD R m r (IsError.nh e) i dcg
      dcgLoopD R m (i + IsError.nh e) dcg es
    else dcgLoopD R m i dcg es

/-- core/Assessment.h:214-217: the normalisation factor, `n` more terms from `j` on -/
def idealDcgD (R : Rnd) (m : Libm) : Nat → Nat → ℚ → Cpp ℚ
  | 0, _, z => return z
  | n + 1, j, z => do
    let q ← fdiv R 1 (m.log2 (R.f64 ((j + 1 : ℕ) : ℚ)))
    idealDcgD R m n (j + 1) (R.f64 (z + q))

/-- core/Assessment.h:198-222 `ComputeNDCG<double>` -/
def computeNDCGD (R : Rnd) (m : Libm) (errors : List ε) : Cpp ℚ :=
  let TR := numTotalReferences errors
  if TR > 0 then do
    let dcg ← dcgLoopD R m 1 0 errors
    let z ← idealDcgD R m TR 1 0
    fdiv R dcg z
  else return 0

end NDCG

/-- core/Assessment.h:272-280 `ComputeGlobalNDCG` from a list of matches -/
def globalNDCGD {Q L : Type} (R : Rnd) (m : Libm) (ms : List (KwsMatch Q L)) (collapse : Bool) :
    Cpp ℚ :=
  if collapse then computeNDCGD R m (collapseMatches R ms) else computeNDCGD R m (getMatchErrors ms)

/-- core/Assessment.h:282-299 `ComputeGlobalNDCG` from grouped matches -/
def globalNDCGGroupedD {Q L : Type} (R : Rnd) (m : Libm) (S : StdSort)
    (groups : List (List (KwsMatch Q L))) (collapse sort : Bool) : Cpp ℚ := do
  let all := groups.flatten
  let all ← if sort then sortMatches S all else pure all
  globalNDCGD R m all collapse

/-- core/Assessment.h:306-313: the loop of `ComputeMeanNDCG` -/
def meanNDCGLoopD {Q L : Type} (R : Rnd) (m : Libm) (S : StdSort) (collapse sort : Bool) :
    ℚ → List (List (KwsMatch Q L)) → Cpp ℚ
  | acc, [] => return acc
  | acc, ms :: groups => do
    let ms ← if sort then sortMatches S ms else pure ms
    let v ← globalNDCGD R m ms collapse
    meanNDCGLoopD R m S collapse sort (R.f64 (acc + v)) groups

/-- core/Assessment.h:301-316 `ComputeMeanNDCG` -/
def meanNDCGD {Q L : Type} (R : Rnd) (m : Libm) (S : StdSort)
    (groups : List (List (KwsMatch Q L))) (collapse sort : Bool) : Cpp ℚ := do
  let sum ← meanNDCGLoopD R m S collapse sort 0 groups
  return if groups.length > 0 then R.f64 (sum / R.f64 groups.length) else 0

end Kws
