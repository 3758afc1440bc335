import Verif.Model.NdcgDouble
import Mathlib.Analysis.SpecialFunctions.Log.Base

/-!
# Accuracy of the mathematical functions

The C++ standard leaves the accuracy of `exp2` and `log2` open. The theorems about NDCG in `double`
assume what every common mathematical library provides: `exp2` is exact at 0 and 1, and the
relative error of both functions is at most `2^-52` where NDCG uses them.
-/

namespace Kws

/-- An accurate mathematical library. -/
structure Libm.Accurate (m : Libm) : Prop where
  exp2_zero : m.exp2 0 = 1
  exp2_one : m.exp2 1 = 2
  exp2_err : ∀ r : ℚ, 0 ≤ r → r ≤ 1 → |(m.exp2 r : ℝ) - (2 : ℝ) ^ (r : ℝ)| ≤ (2 : ℝ) ^ (r : ℝ) / 2 ^ 52
  log2_err : ∀ n : ℕ, 2 ≤ n → n ≤ 2 ^ 53 →
    |(m.log2 n : ℝ) - Real.logb 2 n| ≤ Real.logb 2 n / 2 ^ 52

end Kws
