import Verif.Lemmas.Ieee
import Verif.Spec.Overflow

/-!
# Lemmas about overflow: sizes of rounded numbers
-/

namespace Kws.Ieee

theorem round_pow (p : ℕ) (emin : ℤ) (hp : 1 ≤ p) (k : ℕ) (he : emin ≤ 0) :
    round p emin (2 ^ k) = 2 ^ k := by
  have := round_form_exact p emin hp 1 k (Nat.one_le_two_pow) (by omega)
  simpa using this

/-- A power of two bounds the rounded number if it bounds the number. -/
theorem round_bound (p : ℕ) (emin : ℤ) (hp : 1 ≤ p) {b : ℚ} (hb : round p emin b = b) {x : ℚ}
    (h : |x| ≤ b) : |round p emin x| ≤ b := by
  rw [abs_le] at h ⊢
  constructor
  · have := round_mono p emin hp h.1
    rwa [round_neg, hb] at this
  · have := round_mono p emin hp h.2
    rwa [hb] at this

/-- Adding a small number to a power of two does not change it. -/
theorem round_absorb (p : ℕ) (emin : ℤ) (he : emin ≤ 0) (hp : 1 ≤ p) (k : ℕ) :
    round p emin (2 ^ (k + p + 1) + 2 ^ k) = 2 ^ (k + p + 1) := by
  have hx : (0 : ℚ) < 2 ^ (k + p + 1) + 2 ^ k := by positivity
  have hl : Int.log 2 (2 ^ (k + p + 1) + 2 ^ k : ℚ) = k + p + 1 := by
    have h1 : (2 : ℚ) ^ Int.log 2 (2 ^ (k + p + 1) + 2 ^ k : ℚ) < 2 ^ ((k + p + 2 : ℕ) : ℤ) := by
      refine lt_of_le_of_lt (log_le hx) ?_
      rw [zpow_natCast, show (k + p + 2 : ℕ) = k + p + 1 + 1 from rfl, pow_succ (2 : ℚ) (k + p + 1)]
      have : (2 : ℚ) ^ k < 2 ^ (k + p + 1) := pow_lt_pow_right₀ (by norm_num) (by omega)
      linarith
    have h2 : (2 : ℚ) ^ ((k + p + 1 : ℕ) : ℤ) < 2 ^ (Int.log 2 (2 ^ (k + p + 1) + 2 ^ k : ℚ) + 1) := by
      refine lt_of_le_of_lt ?_ (lt_log _)
      rw [zpow_natCast]
      have : (0 : ℚ) < 2 ^ k := by positivity
      linarith
    have h3 := (zpow_lt_zpow_iff_right₀ (a := (2 : ℚ)) (by norm_num)).1 h1
    have h4 := (zpow_lt_zpow_iff_right₀ (a := (2 : ℚ)) (by norm_num)).1 h2
    push_cast at h3 h4
    omega
  have hq : quantum p emin (2 ^ (k + p + 1) + 2 ^ k : ℚ) = ((k + 2 : ℕ) : ℤ) := by
    unfold quantum
    rw [hl]
    push_cast
    omega
  obtain ⟨p', rfl⟩ : ∃ p', p = p' + 1 := ⟨p - 1, by omega⟩
  have hd : (2 ^ (k + (p' + 1) + 1) + 2 ^ k : ℚ) / 2 ^ ((k + 2 : ℕ) : ℤ) = ((2 ^ p' : ℤ) : ℚ) + 1 / 4 := by
    rw [zpow_natCast, div_eq_iff (by positivity)]
    push_cast
    ring
  have hr : rne (((2 ^ p' : ℤ) : ℚ) + 1 / 4) = 2 ^ p' := by
    have hf : ⌊(((2 ^ p' : ℤ) : ℚ) + 1 / 4)⌋ = 2 ^ p' := by
      rw [Int.floor_eq_iff]
      constructor <;> push_cast <;> linarith
    unfold rne
    rw [hf, if_pos (by push_cast; linarith)]
  unfold round
  rw [if_pos hx]
  unfold roundPos
  rw [hq, hd, hr, zpow_natCast]
  push_cast
  ring

theorem round_add_bound (p : ℕ) (emin : ℤ) (he : emin ≤ 0) (hp : 1 ≤ p) (k : ℕ) {a b : ℚ}
    (ha : |a| ≤ 2 ^ (k + p + 1)) (hb : |b| ≤ 2 ^ k) : |round p emin (a + b)| ≤ 2 ^ (k + p + 1) := by
  have h : |a + b| ≤ 2 ^ (k + p + 1) + 2 ^ k := (abs_add_le a b).trans (add_le_add ha hb)
  have e := round_absorb p emin he hp k
  rw [abs_le] at h ⊢
  constructor
  · have := round_mono p emin hp h.1
    rwa [round_neg, e] at this
  · have := round_mono p emin hp h.2
    rwa [e] at this

end Kws.Ieee

namespace Kws
open Spec

theorem ieee_fltMax : Rnd.ieee.f32 fltMax = fltMax := by
  have := Ieee.round_form_exact 24 (-149) (by norm_num) (2 ^ 24 - 1) 104 (by norm_num) (by norm_num)
  have e : (((2 ^ 24 - 1 : ℕ) : ℚ) * 2 ^ (104 : ℤ)) = fltMax := by
    unfold fltMax
    norm_num
  rwa [e] at this

theorem ieee_dblMax : Rnd.ieee.f64 dblMax = dblMax := by
  have := Ieee.round_form_exact 53 (-1074) (by norm_num) (2 ^ 53 - 1) 971 (by norm_num) (by norm_num)
  have e : (((2 ^ 53 - 1 : ℕ) : ℚ) * 2 ^ (971 : ℤ)) = dblMax := by
    unfold dblMax
    norm_num
  rwa [e] at this

theorem pow_le_fltMax {k : ℕ} (h : k ≤ 127) : (2 : ℚ) ^ k ≤ fltMax :=
  (pow_le_pow_right₀ (by norm_num) h).trans (by unfold fltMax; norm_num)

theorem pow_le_dblMax {k : ℕ} (h : k ≤ 1023) : (2 : ℚ) ^ k ≤ dblMax :=
  (pow_le_pow_right₀ (by norm_num) h).trans (by
    unfold dblMax
    have e : (2 : ℚ) ^ (52 + 971) = 2 ^ 52 * 2 ^ 971 := pow_add 2 52 971
    norm_num only at e
    rw [e]
    exact mul_le_mul_of_nonneg_right (by norm_num) (by positivity))

theorem ieee_bound32 (k : ℕ) {x : ℚ} (h : |x| ≤ 2 ^ k) : |Rnd.ieee.f32 x| ≤ 2 ^ k :=
  Ieee.round_bound 24 (-149) (by norm_num) (Ieee.round_pow 24 (-149) (by norm_num) k (by norm_num)) h

theorem ieee_bound64 (k : ℕ) {x : ℚ} (h : |x| ≤ 2 ^ k) : |Rnd.ieee.f64 x| ≤ 2 ^ k :=
  Ieee.round_bound 53 (-1074) (by norm_num) (Ieee.round_pow 53 (-1074) (by norm_num) k (by norm_num)) h

/-- Sums of small numbers in `float` do not exceed a power of two, however many they are. -/
theorem ieee_sum32 (k : ℕ) {a b : ℚ} (ha : |a| ≤ 2 ^ (k + 25)) (hb : |b| ≤ 2 ^ k) :
    |Rnd.ieee.f32 (a + b)| ≤ 2 ^ (k + 25) :=
  Ieee.round_add_bound 24 (-149) (by norm_num) (by norm_num) k ha hb

/-- Sums of small numbers in `double` do not exceed a power of two, however many they are. -/
theorem ieee_sum64 (k : ℕ) {a b : ℚ} (ha : |a| ≤ 2 ^ (k + 54)) (hb : |b| ≤ 2 ^ k) :
    |Rnd.ieee.f64 (a + b)| ≤ 2 ^ (k + 54) :=
  Ieee.round_add_bound 53 (-1074) (by norm_num) (by norm_num) k ha hb

namespace Spec.Overflowing
variable {R : Rnd} (h : Overflowing R)
include h

theorem eq32 {x : ℚ} {k : ℕ} (hx : |x| ≤ 2 ^ k) (hk : k ≤ 127) : R.f32 x = Rnd.ieee.f32 x :=
  h.fits32 x ((ieee_bound32 k hx).trans (pow_le_fltMax hk))

theorem eq64 {x : ℚ} {k : ℕ} (hx : |x| ≤ 2 ^ k) (hk : k ≤ 1023) : R.f64 x = Rnd.ieee.f64 x :=
  h.fits64 x ((ieee_bound64 k hx).trans (pow_le_dblMax hk))

theorem sum32 {a b : ℚ} {k : ℕ} (ha : |a| ≤ 2 ^ (k + 25)) (hb : |b| ≤ 2 ^ k) (hk : k + 25 ≤ 127) :
    R.f32 (a + b) = Rnd.ieee.f32 (a + b) :=
  h.fits32 _ ((ieee_sum32 k ha hb).trans (pow_le_fltMax hk))

theorem sum64 {a b : ℚ} {k : ℕ} (ha : |a| ≤ 2 ^ (k + 54)) (hb : |b| ≤ 2 ^ k) (hk : k + 54 ≤ 1023) :
    R.f64 (a + b) = Rnd.ieee.f64 (a + b) :=
  h.fits64 _ ((ieee_sum64 k ha hb).trans (pow_le_dblMax hk))

theorem nat64 {n k : ℕ} (hn : n ≤ 2 ^ k) (hk : k ≤ 1023) : R.f64 n = Rnd.ieee.f64 n :=
  h.eq64 (k := k) (by rw [abs_of_nonneg (by positivity)]; exact_mod_cast hn) hk

end Spec.Overflowing

/-- IEEE-754 itself, with a number beyond the largest one for infinity, is such a rounding. -/
theorem overflowing_ieee : Overflowing Rnd.ieee :=
  ⟨fun _ _ => rfl, fun _ h => h, fun _ h => h, fun _ _ => rfl, fun _ h => h, fun _ h => h⟩

theorem ieee_abs_nat {n k : ℕ} (hn : n ≤ 2 ^ k) : |Rnd.ieee.f64 n| ≤ 2 ^ k :=
  ieee_bound64 k (by rw [abs_of_nonneg (by positivity)]; exact_mod_cast hn)

/-- Positive counts stay at least one. -/
theorem ieee_one_le {n : ℕ} (hn : 0 < n) : 1 ≤ Rnd.ieee.f64 n := by
  have := ieee_faithful.mono64 1 n (by exact_mod_cast hn)
  rwa [ieee_faithful.one64] at this

/-- Division by a count makes nothing larger. -/
theorem div_bound {x y b : ℚ} (hx : |x| ≤ b) (hy : 1 ≤ y) : |x / y| ≤ b := by
  rw [abs_div, abs_of_pos (show (0 : ℚ) < y by linarith)]
  exact (div_le_self (abs_nonneg x) hy).trans hx

end Kws
