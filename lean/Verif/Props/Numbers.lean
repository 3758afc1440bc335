import Verif.Lemmas.Number

/-!
# C74: printed numbers

Every number that the tools print (metrics, confidence intervals, scores, match errors, points of
curves) is printed with a fixed number of significant digits. `DenotesReal` is the grammar of numbers
of `Spec/Grammar.lean`, that of the hypothesis files.
-/

namespace Kws
open Spec

section
variable {K : Type} [Field K] [LinearOrder K] [IsStrictOrderedRing K]

/-- A text denotes one number at most. -/
theorem Spec.DenotesReal.unique {w : Str} {q r : ℚ} (h : DenotesReal w q) (h' : DenotesReal w r) :
    q = r := by
  have h1 := (scanFloat_denotes h).2
  rw [(scanFloat_denotes h').2] at h1
  exact (Option.some.inj h1).symm

variable [FloorRing K]

/-- C74: a number in the default format is printed as a number with at most six digits nearest to
it. -/
theorem C74_general (x : K) : Prints 6 x (showGeneral x) :=
  ⟨printed 5 x, showGeneral_denotes x, printed_nearest 5 x⟩

/-- C74: a number in scientific format is printed as a number with at most seven digits nearest to
it. -/
theorem C74_scientific (x : K) : Prints 7 x (showScientific x) :=
  ⟨printed 6 x, showScientific_denotes x, printed_nearest 6 x⟩

omit [FloorRing K] in
/-- C74: printing to the nearest number does not invert an order. -/
theorem C74_monotone (n : ℕ) {x y : K} {a b : Str} {q r : ℚ} (h : Prints n x a) (h' : Prints n y b)
    (hq : DenotesReal a q) (hr : DenotesReal b r) (hxy : x < y) : q ≤ r := by
  obtain ⟨q', d1, n1⟩ := h
  obtain ⟨r', d2, n2⟩ := h'
  rw [d1.unique hq] at n1
  rw [d2.unique hr] at n2
  exact Rat.cast_le.1 (n1.unique n2 hxy)

omit [FloorRing K] in
/-- C74: a number that has at most `n` digits is printed exactly. -/
theorem C74_exact (n : ℕ) {x : K} {a : Str} {q : ℚ} (h : Prints n x a) (hq : DenotesReal a q)
    (hx : Decimal n x) : (q : K) = x := by
  obtain ⟨q', d1, n1⟩ := h
  rw [d1.unique hq] at n1
  exact n1.exact hx

/-- C74: the relative error of a number printed with `p + 1` digits is at most `1 / (2 * 10^p)`. -/
theorem C74_relative (p : ℕ) {x : K} {a : Str} {q : ℚ} (h : Prints (p + 1) x a)
    (hq : DenotesReal a q) : |(q : K) - x| ≤ |x| / (2 * 10 ^ p) := by
  obtain ⟨q', d1, n1⟩ := h
  rw [d1.unique hq] at n1
  by_cases hx : x = 0
  · have hd : Decimal (p + 1) x := by rw [hx]; exact decimal_zero _
    rw [n1.exact hd, sub_self, abs_zero]
    positivity
  have hx0 : 0 < |x| := abs_pos.2 hx
  set e := Int.log 10 |x| with he
  set u : K := 10 ^ (e - p) with hu
  have hu0 : 0 < u := by positivity
  have h1 : (10 : K) ^ e ≤ |x| := by
    have := Int.zpow_log_le_self (b := 10) (by norm_num) hx0
    exact_mod_cast this
  have h2 : |x| < (10 : K) ^ (e + 1) := by
    have := Int.lt_zpow_succ_log_self (b := 10) (by norm_num) |x|
    exact_mod_cast this
  have hup : u * 10 ^ p = 10 ^ e := by
    rw [hu, ← zpow_natCast, ← zpow_add₀ (by norm_num)]
    congr 1
    ring
  have hup1 : u * 10 ^ (p + 1) = 10 ^ (e + 1) := by
    rw [pow_succ, ← mul_assoc, hup, zpow_add₀ (by norm_num), zpow_one]
  have hm := roundEven_err (x / u)
  set m := roundEven (x / u) with hmdef
  have hmu : |(m : K) * u - x| ≤ u / 2 := by
    have : (m : K) * u - x = (m - x / u) * u := by field_simp
    rw [this, abs_mul, abs_of_pos hu0]
    calc |(m : K) - x / u| * u ≤ 1 / 2 * u := by gcongr
      _ = u / 2 := by ring
  have hle : |m| ≤ 10 ^ (p + 1) := by
    have h3 : |x / u| < 10 ^ (p + 1) := by
      rw [abs_div, abs_of_pos hu0, div_lt_iff₀ hu0, mul_comm, hup1]
      exact h2
    have h4 : |(m : K)| < 10 ^ (p + 1) + 1 := by
      have := abs_sub_abs_le_abs_sub (m : K) (x / u)
      linarith
    have h5 : |m| < 10 ^ (p + 1) + 1 := by exact_mod_cast h4
    omega
  have hd : Decimal (p + 1) ((m : K) * u) := by
    rcases lt_or_eq_of_le hle with hlt | heq
    · exact ⟨m, e - p, hlt, rfl⟩
    · have hs : (10 : ℤ) ^ p < 10 ^ (p + 1) := pow_lt_pow_right₀ (by norm_num) (by omega)
      rcases (abs_eq (by positivity)).1 heq with hm' | hm'
      · refine ⟨10 ^ p, e - p + 1, by rwa [abs_of_pos (by positivity)], ?_⟩
        rw [hm', zpow_add₀ (by norm_num), zpow_one, ← hu]
        push_cast
        ring
      · refine ⟨-10 ^ p, e - p + 1, by rwa [abs_neg, abs_of_pos (by positivity)], ?_⟩
        rw [hm', zpow_add₀ (by norm_num), zpow_one, ← hu]
        push_cast
        ring
  refine (n1.2 _ hd).trans (hmu.trans ?_)
  rw [div_le_div_iff₀ (by norm_num) (by positivity)]
  calc u * (2 * 10 ^ p) = 2 * (u * 10 ^ p) := by ring
    _ = 2 * 10 ^ e := by rw [hup]
    _ ≤ |x| * 2 := by linarith

/-- C74: a metric in [0, 1] is printed with an error of at most `5 / 10^7`. -/
theorem C74_absolute {x : K} {a : Str} {q : ℚ} (h : Prints 6 x a) (hq : DenotesReal a q)
    (h0 : 0 ≤ x) (h1 : x ≤ 1) : |(q : K) - x| ≤ 5 / 10 ^ 7 ∧ 0 ≤ q ∧ q ≤ 1 := by
  obtain ⟨q', d1, n1⟩ := h
  rw [d1.unique hq] at n1
  have hone : Decimal 6 (1 : K) := ⟨1, 0, by norm_num, by norm_num⟩
  refine ⟨?_, ?_, ?_⟩
  · set m := roundEven (x * 10 ^ 6) with hmdef
    have hm := roundEven_err (x * 10 ^ 6)
    rw [← hmdef] at hm
    have hd : Decimal 6 ((m : K) * 10 ^ (-6 : ℤ)) := by
      have h5 := abs_le.1 hm
      have a1 : -1 < (m : K) := by
        have : 0 ≤ x * 10 ^ 6 := by positivity
        linarith
      have a2 : (m : K) < 10 ^ 6 + 1 := by
        have : x * 10 ^ 6 ≤ 10 ^ 6 := by linarith
        linarith
      have b1 : (-1 : ℤ) < m := by exact_mod_cast a1
      have b2 : m < 10 ^ 6 + 1 := by exact_mod_cast a2
      by_cases hE : m = 10 ^ 6
      · rw [hE]
        have : (((10 ^ 6 : ℤ) : K)) * 10 ^ (-6 : ℤ) = 1 := by norm_num
        rw [this]
        exact hone
      · exact ⟨m, -6, abs_lt.2 ⟨by omega, by omega⟩, rfl⟩
    refine (n1.2 _ hd).trans ?_
    have : (m : K) * 10 ^ (-6 : ℤ) - x = (m - x * 10 ^ 6) / 10 ^ 6 := by
      rw [zpow_neg]
      norm_num
      field_simp
    rw [this, abs_div, abs_of_pos (by positivity : (0 : K) < 10 ^ 6), div_le_div_iff₀ (by positivity)
      (by positivity)]
    calc |(m : K) - x * 10 ^ 6| * 10 ^ 7 ≤ 1 / 2 * 10 ^ 7 := by gcongr
      _ = 5 * 10 ^ 6 := by norm_num
  · rcases eq_or_lt_of_le h0 with rfl | hlt
    · have := n1.exact (decimal_zero 6)
      exact_mod_cast this.ge
    · have := (nearest_zero 6).unique n1 hlt
      exact_mod_cast this
  · rcases eq_or_lt_of_le h1 with rfl | hlt
    · have := n1.exact hone
      exact_mod_cast this.le
    · have h2 : Nearest 6 (1 : K) 1 :=
        ⟨hone, fun d _ => by rw [sub_self, abs_zero]; exact abs_nonneg _⟩
      have := n1.unique h2 hlt
      exact_mod_cast this

end

/-- Numbers and their texts. -/
example : showGeneral (2 / 3 : ℚ) = "0.666667".toList ∧ showGeneral (1 : ℚ) = "1".toList ∧
    showGeneral (1 / 300000 : ℚ) = "3.33333e-06".toList ∧
    showGeneral (-12345678 : ℚ) = "-1.23457e+07".toList ∧
    showGeneral (9999995 / 10 : ℚ) = "1e+06".toList ∧
    showScientific (2 / 3 : ℚ) = "6.666667e-01".toList ∧
    showScientific (0 : ℚ) = "0.000000e+00".toList := by decide +kernel

/-- C74 is false as a claim that a printed number determines the number: different values of a metric
print the same. -/
theorem C74_same_text : ∃ x y : ℚ, 0 ≤ x ∧ x < y ∧ y ≤ 1 ∧
    showGeneral x = showGeneral y := ⟨2 / 3, 666667 / 1000000, by norm_num, by norm_num, by norm_num,
      by decide +kernel⟩

end Kws
