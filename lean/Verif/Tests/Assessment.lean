import Verif.Model.Assessment
import Mathlib.Analysis.SpecialFunctions.Log.Base
import Mathlib.Tactic.NormNum
import Mathlib.Tactic.Ring

/-!
# The unit tests of /repo, run on the model (core/AssessmentTest.cc)

See `Verif/Tests/Core.lean`: tests of the model, not proofs. `EXPECT_FLOAT_EQ` compares up to a few
units in the last place; here the arithmetic is exact and so is the comparison.
-/

namespace Kws.Tests

/-! ## CollapseMatches -/

/-- A match with a hypothesis of the given score -/
def hit (score : ℚ) (e : MatchError) : KwsMatch Nat Nat := Match.make ⟨0, 0⟩ ⟨⟨0, 0⟩, .fin score⟩ e
/-- A false positive of the given score -/
def fpAt (score : ℚ) : KwsMatch Nat Nat := Match.makeFalsePositive ⟨⟨0, 0⟩, .fin score⟩
/-- A false negative -/
def fnAt : KwsMatch Nat Nat := Match.makeFalseNegative ⟨0, 0⟩

/-- core/AssessmentTest.cc:28-64 -/
example :
    collapseMatches (Q := Nat) (L := Nat) Rnd.exact [] = [] ∧
    collapseMatches Rnd.exact [fnAt, fnAt, fnAt, fnAt] = [⟨0, 4, 0, 4⟩] ∧
    collapseMatches Rnd.exact [hit (1 / 2) ⟨0, 0⟩, hit (1 / 2) ⟨1 / 5, 3 / 10⟩, fpAt (1 / 2),
      fpAt (2 / 5), fnAt, fnAt] = [⟨6 / 5, 3 / 10, 3, 2⟩, ⟨1, 0, 1, 0⟩, ⟨0, 2, 0, 2⟩] := by
  decide +kernel

/-! ## ComputePrecisionAndRecall -/

/-- The six errors of the generic case -/
def sixErrors : List MatchError :=
  [⟨0, 0⟩, ⟨1 / 5, 0⟩, ⟨1, 0⟩, ⟨0, 0⟩, ⟨4 / 5, 7 / 10⟩, ⟨0, 1⟩]

/-- core/AssessmentTest.cc:66-126 -/
example :
    computePR (ε := MatchError) Rnd.exact [] false = ([], []) ∧
    computePR Rnd.exact [(⟨0, 1⟩ : MatchError)] false = ([1], [0]) ∧
    computePR Rnd.exact [(⟨1, 0⟩ : MatchError)] false = ([0], [1]) ∧
    computePR Rnd.exact sixErrors false =
      ([1, 1.8 / 2, 1.8 / 3, 2.8 / 4, 3 / 5, 3 / 5],
       [1 / 5, 2 / 5, 2 / 5, 3 / 5, 3.3 / 5, 3.3 / 5]) := by
  decide +kernel

/-! ## ComputeAP -/

/-- core/AssessmentTest.cc:128-146 -/
example :
    computeAP Rnd.exact [1] [1] false = .ok 1 ∧
    computeAP Rnd.exact [0] [0] false = .ok 0 ∧
    computeAP Rnd.exact [1, 0.7, 0.8, 0.3] [0.2, 0.2, 0.4, 0.9] false =
      .ok (1 * 0.2 + 0.8 * 0.2 + 0.3 * 0.5) ∧
    computeAP Rnd.exact [1, 0.7, 0.8, 0.3] [0.2, 0.2, 0.4, 0.9] true =
      .ok (1 * 0.2 + 0.75 * 0.2 + 0.55 * 0.5) := by
  decide +kernel

/-! ## ComputeNDCG -/

/-- `log2` -/
noncomputable def log2 (x : ℝ) : ℝ := Real.logb 2 x

/-- core/AssessmentTest.cc:149-150 -/
example : computeNDCG ([] : List MatchError) = 0 := by
  simp [computeNDCG, numTotalReferences]

/-- core/AssessmentTest.cc:151-154 -/
example : computeNDCG [(⟨0, 0⟩ : MatchError)] = 1 := by
  have h : numTotalReferences [(⟨0, 0⟩ : MatchError)] = 1 := by decide +kernel
  simp only [computeNDCG, h, dcgLoop, IsError.nh, IsError.fp]
  have hn : MatchError.nh ⟨0, 0⟩ = 1 := by decide +kernel
  simp [hn, dcgRun, idealDcg]
  norm_num

/-- core/AssessmentTest.cc:155-158 -/
example : computeNDCG [(⟨0, 1⟩ : MatchError)] = 0 := by
  have hn : MatchError.nh ⟨0, 1⟩ = 0 := by decide +kernel
  simp [computeNDCG, dcgLoop, IsError.nh, hn]

/-- core/AssessmentTest.cc:159-180 -/
example : computeNDCG sixErrors =
    (1 / log2 2 + ((2 : ℝ) ^ (0.8 : ℝ) - 1) / log2 3 + 1 / log2 5 +
      ((2 : ℝ) ^ (0.2 : ℝ) - 1) / log2 6) /
    (1 / log2 2 + 1 / log2 3 + 1 / log2 4 + 1 / log2 5 + 1 / log2 6) := by
  have h : numTotalReferences sixErrors = 5 := by decide +kernel
  have n1 : MatchError.nh ⟨0, 0⟩ = 1 := by decide +kernel
  have n2 : MatchError.nh ⟨1 / 5, 0⟩ = 1 := by decide +kernel
  have n3 : MatchError.nh ⟨1, 0⟩ = 1 := by decide +kernel
  have n4 : MatchError.nh ⟨4 / 5, 7 / 10⟩ = 1 := by decide +kernel
  have n5 : MatchError.nh ⟨0, 1⟩ = 0 := by decide +kernel
  simp only [computeNDCG, h]
  simp only [sixErrors, dcgLoop, IsError.nh, IsError.fp, n1, n2, n3, n4, n5,
    dcgRun, idealDcg, log2]
  norm_num

/-- core/AssessmentTest.cc:181-185 -/
example : computeNDCG [(⟨0, 0, 4, 4⟩ : MatchErrorCounts)] = 1 := by
  have h : numTotalReferences [(⟨0, 0, 4, 4⟩ : MatchErrorCounts)] = 4 := by decide +kernel
  simp only [computeNDCG, h, dcgLoop, IsError.nh, IsError.fp, dcgRun, idealDcg]
  have h2 : 0 < Real.logb 2 2 := Real.logb_pos (by norm_num) (by norm_num)
  have h3 : 0 < Real.logb 2 3 := Real.logb_pos (by norm_num) (by norm_num)
  have h4 : 0 < Real.logb 2 4 := Real.logb_pos (by norm_num) (by norm_num)
  have h5 : 0 < Real.logb 2 5 := Real.logb_pos (by norm_num) (by norm_num)
  have : (0 : ℝ) < 1 / Real.logb 2 2 + 1 / Real.logb 2 3 + 1 / Real.logb 2 4 +
    1 / Real.logb 2 5 := by positivity
  norm_num at this ⊢
  exact this.ne'

/-- core/AssessmentTest.cc:186-189 -/
example : computeNDCG [(⟨0, 5, 0, 5⟩ : MatchErrorCounts)] = 0 := by
  simp [computeNDCG, dcgLoop, IsError.nh]

/-- core/AssessmentTest.cc:190-193 -/
example : computeNDCG [(⟨9, 4, 9, 4⟩ : MatchErrorCounts)] = 0 := by
  simp [computeNDCG, dcgLoop, IsError.nh, IsError.fp, dcgRun]

/-- core/AssessmentTest.cc:194-215 -/
example : computeNDCG [(⟨0, 0, 1, 1⟩ : MatchErrorCounts), ⟨1, 0, 2, 2⟩, ⟨3, 1, 4, 2⟩] =
    (1 / log2 2 + ((2 : ℝ) ^ (0.5 : ℝ) - 1) / log2 3 + ((2 : ℝ) ^ (0.5 : ℝ) - 1) / log2 4 +
      ((2 : ℝ) ^ (0.25 : ℝ) - 1) / log2 5 + ((2 : ℝ) ^ (0.25 : ℝ) - 1) / log2 6 +
      ((2 : ℝ) ^ (0.25 : ℝ) - 1) / log2 7 + ((2 : ℝ) ^ (0.25 : ℝ) - 1) / log2 8) /
    (1 / log2 2 + 1 / log2 3 + 1 / log2 4 + 1 / log2 5 + 1 / log2 6) := by
  have h : numTotalReferences
      [(⟨0, 0, 1, 1⟩ : MatchErrorCounts), ⟨1, 0, 2, 2⟩, ⟨3, 1, 4, 2⟩] = 5 := by decide +kernel
  simp only [computeNDCG, h, dcgLoop, IsError.nh, IsError.fp, dcgRun, idealDcg, log2]
  norm_num

end Kws.Tests
