import Mathlib.Tactic.Linarith
import Mathlib.Tactic.Positivity
import Mathlib.Tactic.FieldSimp
import Mathlib.Tactic.Ring
import Mathlib.Algebra.Order.Round
import Mathlib.Algebra.Order.Field.Power
import Mathlib.Tactic.IntervalCases
import Verif.Model.Number
import Verif.Spec.Output
import Verif.Props.Reader

/-!
# Lemmas about printed numbers
-/

namespace Kws

open Spec

section
variable {K : Type} [Field K] [LinearOrder K] [IsStrictOrderedRing K]

theorem Spec.Nearest.unique {n : ℕ} {x y v w : K} (hv : Nearest n x v) (hw : Nearest n y w)
    (h : x < y) : v ≤ w := by
  by_contra hlt
  push Not at hlt
  have h1 := hv.2 w hw.1
  have h2 := hw.2 v hv.1
  rcases abs_cases (v - x) with ⟨a, _⟩ | ⟨a, _⟩ <;> rcases abs_cases (w - x) with ⟨b, _⟩ | ⟨b, _⟩ <;>
  rcases abs_cases (w - y) with ⟨c, _⟩ | ⟨c, _⟩ <;> rcases abs_cases (v - y) with ⟨d, _⟩ | ⟨d, _⟩ <;>
  rw [a, b] at h1 <;> rw [c, d] at h2 <;> linarith

theorem Spec.Nearest.exact {n : ℕ} {x v : K} (hv : Nearest n x v) (hx : Decimal n x) : v = x := by
  have := hv.2 x hx
  rw [sub_self, abs_zero] at this
  exact sub_eq_zero.1 (abs_eq_zero.1 (le_antisymm this (abs_nonneg _)))

omit [LinearOrder K] [IsStrictOrderedRing K] in
theorem Spec.Decimal.neg {n : ℕ} {v : K} (h : Decimal n v) : Decimal n (-v) := by
  obtain ⟨m, k, hm, rfl⟩ := h
  exact ⟨-m, k, by rwa [abs_neg], by push_cast; ring⟩

omit [IsStrictOrderedRing K] in
theorem Spec.Nearest.neg {n : ℕ} {x v : K} (h : Nearest n x v) : Nearest n (-x) (-v) := by
  refine ⟨h.1.neg, fun d hd => ?_⟩
  have := h.2 (-d) hd.neg
  rwa [show -v - -x = -(v - x) by ring, abs_neg, show d - -x = -(-d - x) by ring, abs_neg]

omit [LinearOrder K] [IsStrictOrderedRing K] in
theorem decimal_zero (n : ℕ) : Decimal n (0 : K) := ⟨0, 0, by simp, by simp⟩

theorem nearest_zero (n : ℕ) : Nearest n (0 : K) 0 :=
  ⟨decimal_zero n, fun d _ => by rw [sub_self, abs_zero]; exact abs_nonneg _⟩

variable [FloorRing K]

theorem roundEven_err (x : K) : |(roundEven x : K) - x| ≤ 1 / 2 := by
  have h1 := Int.floor_le x
  have h2 := Int.lt_floor_add_one x
  unfold roundEven
  rw [abs_le]
  split_ifs <;> constructor <;> push_cast <;> linarith

theorem roundEven_nearest (x : K) (m : ℤ) : |(roundEven x : K) - x| ≤ |m - x| := by
  by_cases h : roundEven x = m
  · rw [h]
  · have h1 := roundEven_err x
    have h2 : (1 : K) ≤ |(m : K) - roundEven x| := by
      have : (1 : ℤ) ≤ |m - roundEven x| := Int.one_le_abs (sub_ne_zero.2 (Ne.symm h))
      exact_mod_cast this
    have h3 : |(m : K) - roundEven x| ≤ |m - x| + |(roundEven x : K) - x| := by
      rw [abs_sub_comm (roundEven x : K) x]
      calc |(m : K) - roundEven x| = |(m - x) + (x - roundEven x)| := by ring_nf
        _ ≤ _ := abs_add_le _ _
    linarith

/-- The digits and the exponent stand for the nearest number. -/
theorem sciDigits_nearest (p : ℕ) {x : K} (hx : 0 ≤ x) :
    Nearest (p + 1) x ((sciDigits p x).2 * 10 ^ ((sciDigits p x).1 - p)) := by
  have ten : (10 : K) ≠ 0 := by norm_num
  have ten1 : (1 : K) < 10 := by norm_num
  by_cases h0 : x = 0
  · subst h0
    simpa [sciDigits] using nearest_zero (K := K) (p + 1)
  have hpos : 0 < x := lt_of_le_of_ne hx (Ne.symm h0)
  obtain ⟨e, he⟩ : ∃ e, Int.log 10 x = e := ⟨_, rfl⟩
  have hlo : (10 : K) ^ e ≤ x := by
    rw [← he]; exact_mod_cast Int.zpow_log_le_self (b := 10) (by norm_num) hpos
  have hhi : x < (10 : K) ^ (e + 1) := by
    rw [← he]; exact_mod_cast Int.lt_zpow_succ_log_self (b := 10) (by norm_num) x
  obtain ⟨u, hu⟩ : ∃ u : K, 10 ^ (e - p) = u := ⟨_, rfl⟩
  have hupos : 0 < u := by rw [← hu]; positivity
  have hule : (10 : K) ^ e = 10 ^ p * u := by
    rw [← hu, ← zpow_natCast, ← zpow_add₀ ten]; congr 1; ring
  have huhi : (10 : K) ^ (e + 1) = 10 ^ (p + 1) * u := by
    rw [← hu, ← zpow_natCast, ← zpow_add₀ ten]; congr 1; push_cast; ring
  obtain ⟨r, hr⟩ : ∃ r, roundEven (x / u) = r := ⟨_, rfl⟩
  -- nearest multiple of the unit
  have hmul : ∀ m : ℤ, |(r : K) * u - x| ≤ |m * u - x| := by
    intro m
    have h := roundEven_nearest (x / u) m
    rw [hr] at h
    have e1 : ∀ a : K, a * u - x = (a - x / u) * u := fun a => by field_simp
    rw [e1, e1, abs_mul, abs_mul]
    exact mul_le_mul_of_nonneg_right h (abs_nonneg _)
  have herr := roundEven_err (x / u)
  rw [hr] at herr
  have hxu1 : (10 : K) ^ p ≤ x / u := by
    rw [le_div_iff₀ hupos, ← hule]; exact hlo
  have hxu2 : x / u < (10 : K) ^ (p + 1) := by
    rw [div_lt_iff₀ hupos, ← huhi]; exact hhi
  rw [abs_le] at herr
  have hr1 : (10 : ℤ) ^ p ≤ r := by
    have : (10 : K) ^ p - 1 < r := by linarith
    have : ((10 ^ p - 1 : ℤ) : K) < r := by push_cast; exact this
    have := Int.cast_lt.1 this
    omega
  have hr2 : r ≤ (10 : ℤ) ^ (p + 1) := by
    have : (r : K) < 10 ^ (p + 1) + 1 := by linarith
    have : (r : K) < ((10 ^ (p + 1) + 1 : ℤ) : K) := by push_cast; exact this
    have := Int.cast_lt.1 this
    omega
  have hp0 : (0 : ℤ) < 10 ^ p := by positivity
  have hrn : ((r.toNat : ℕ) : K) = r := by
    have : ((r.toNat : ℕ) : ℤ) = r := Int.toNat_of_nonneg (by omega)
    exact_mod_cast congrArg (Int.cast (R := K)) this
  have hval : ((sciDigits p x).2 : K) * 10 ^ ((sciDigits p x).1 - p) = r * u ∧
      Decimal (p + 1) ((r : K) * u) := by
    by_cases hs : r.toNat = 10 ^ (p + 1)
    · have hr3 : r = 10 ^ (p + 1) := by
        have : ((r.toNat : ℕ) : ℤ) = r := Int.toNat_of_nonneg (by omega)
        rw [← this, hs]; push_cast; rfl
      have hd : sciDigits p x = (e + 1, 10 ^ p) := by
        unfold sciDigits
        rw [if_neg h0]
        simp only [he, hu, hr, hs, if_true]
      have hpow : ((10 : K) ^ p) * 10 ^ (e + 1 - p) = 10 ^ (p + 1) * u := by
        rw [← huhi, ← zpow_natCast, ← zpow_add₀ ten]; congr 1; ring
      rw [hd, hr3]
      push_cast
      refine ⟨hpow, ?_⟩
      refine ⟨10 ^ p, e + 1 - p, ?_, ?_⟩
      · rw [abs_of_pos hp0, pow_succ]; omega
      · push_cast; exact hpow.symm
    · have hd : sciDigits p x = (e, r.toNat) := by
        unfold sciDigits
        rw [if_neg h0]
        simp only [he, hu, hr, hs, if_false]
      rw [hd]
      simp only [hu, hrn]
      refine ⟨trivial, r, e - p, ?_, by rw [hu]⟩
      have hne : r ≠ 10 ^ (p + 1) := by
        rintro rfl
        exact hs (by
          have : ((10 : ℤ) ^ (p + 1)) = ((10 ^ (p + 1) : ℕ) : ℤ) := by push_cast; rfl
          rw [this, Int.toNat_natCast])
      rw [abs_of_pos (by omega)]
      omega
  rw [hval.1]
  refine ⟨hval.2, ?_⟩
  rintro d ⟨m, k, hm, rfl⟩
  by_cases hk : e - p ≤ k
  · -- a multiple of the unit
    obtain ⟨j, hj⟩ := Int.eq_ofNat_of_zero_le (sub_nonneg.2 hk)
    have : (m : K) * 10 ^ k = ((m * 10 ^ j : ℤ) : K) * u := by
      push_cast
      rw [mul_assoc, ← hu, ← zpow_natCast, ← zpow_add₀ ten]
      congr 2
      rw [← hj]; ring
    rw [this]
    exact hmul _
  · -- less than the power of ten below `x`
    have hlt : (m : K) * 10 ^ k ≤ 10 ^ e := by
      have h1 : (m : K) ≤ 10 ^ (p + 1) := by
        have := (abs_lt.1 hm).2.le
        exact_mod_cast this
      calc (m : K) * 10 ^ k ≤ 10 ^ (p + 1) * 10 ^ k := by
            exact mul_le_mul_of_nonneg_right h1 (by positivity)
        _ = 10 ^ ((p : ℤ) + 1 + k) := by
            rw [← zpow_natCast, ← zpow_add₀ ten]; congr 1
        _ ≤ 10 ^ e := zpow_le_zpow_right₀ ten1.le (by omega)
    have h2 := hmul (10 ^ p)
    push_cast at h2
    rw [← hule] at h2
    refine h2.trans ?_
    rw [abs_of_nonpos (by linarith), abs_of_nonpos (by linarith)]
    linarith

theorem sciDigits_lt (p : ℕ) {x : K} (hx : 0 ≤ x) : (sciDigits p x).2 < 10 ^ (p + 1) := by
  unfold sciDigits
  split_ifs with h0
  · positivity
  · dsimp only
    split_ifs with hs
    · exact Nat.pow_lt_pow_right (by norm_num) (by omega)
    · have hpos : 0 < x := lt_of_le_of_ne hx (Ne.symm h0)
      refine lt_of_le_of_ne ?_ hs
      have hhi : x < (10 : K) ^ (Int.log 10 x + 1) := by
        exact_mod_cast Int.lt_zpow_succ_log_self (b := 10) (by norm_num) x
      have herr := (abs_le.1 (roundEven_err (x / 10 ^ (Int.log 10 x - p)))).2
      have hx2 : x / 10 ^ (Int.log 10 x - p) < (10 : K) ^ (p + 1) := by
        rw [div_lt_iff₀ (by positivity), ← zpow_natCast, ← zpow_add₀ (by norm_num)]
        refine lt_of_lt_of_eq hhi ?_
        congr 1; push_cast; ring
      have : (roundEven (x / 10 ^ (Int.log 10 x - p)) : K) < ((10 ^ (p + 1) + 1 : ℤ) : K) := by
        push_cast; linarith
      have := Int.cast_lt.1 this
      have h10 : ((10 : ℤ) ^ (p + 1)) = ((10 ^ (p + 1) : ℕ) : ℤ) := by push_cast; rfl
      rw [h10] at this
      exact Int.toNat_le.2 (by omega)

end

/-! ## Digits -/

theorem digitsOf_length (k n : ℕ) : (digitsOf k n).length = k := by
  induction k generalizing n with
  | zero => rfl
  | succ k ih => simp [digitsOf, ih]

theorem digit_char {d : ℕ} (h : d < 10) :
    isDigit (Char.ofNat (48 + d)) = true ∧ (Char.ofNat (48 + d)).toNat - 48 = d := by
  interval_cases d <;> decide

theorem digitsOf_digits (k n : ℕ) : ∀ c ∈ digitsOf k n, isDigit c = true := by
  induction k generalizing n with
  | zero => intro c hc; cases hc
  | succ k ih =>
    intro c hc
    simp only [digitsOf, List.mem_append, List.mem_singleton] at hc
    rcases hc with hc | rfl
    · exact ih _ c hc
    · exact (digit_char (Nat.mod_lt _ (by norm_num))).1

theorem digitsOf_value (k n : ℕ) : numeral (digitsOf k n) = n % 10 ^ k := by
  induction k generalizing n with
  | zero => simp [digitsOf, numeral, Nat.mod_one]
  | succ k ih =>
    simp only [digitsOf, numeral_append, ih, numeral, List.length_cons, List.length_nil, pow_zero,
      mul_one, add_zero, zero_add, pow_one]
    rw [(digit_char (Nat.mod_lt n (by norm_num))).2, pow_succ, mul_comm (10 ^ k) 10,
      Nat.mod_mul]
    ring

theorem stripZeros_spec (s : Str) : ∃ k, s = stripZeros s ++ List.replicate k '0' := by
  refine ⟨(s.rtakeWhile (· == '0')).length, ?_⟩
  unfold stripZeros
  have h : s.rtakeWhile (· == '0') = List.replicate (s.rtakeWhile (· == '0')).length '0' := by
    rw [List.eq_replicate_iff]
    exact ⟨rfl, fun c hc => by simpa using List.mem_rtakeWhile_imp hc⟩
  rw [← h]
  exact (List.rdropWhile_append_rtakeWhile ..).symm

theorem numeral_zeros (k : ℕ) : numeral (List.replicate k '0') = 0 := by
  induction k with
  | zero => rfl
  | succ k ih => rw [List.replicate_succ, numeral, ih, show '0'.toNat - 48 = 0 by decide, zero_mul]

/-! ## Texts -/

theorem showExponent_denotes (e : ℤ) : ∃ w, showExponent e = 'e' :: w ∧ Denotes w e := by
  have hds : Numeral (if e.natAbs < 100 then digitsOf 2 e.natAbs else showNat e.natAbs) ∧
      numeral (if e.natAbs < 100 then digitsOf 2 e.natAbs else showNat e.natAbs) = e.natAbs := by
    split_ifs with h
    · refine ⟨⟨?_, digitsOf_digits _ _⟩, ?_⟩
      · intro h0
        have := congrArg List.length h0
        rw [digitsOf_length] at this
        cases this
      · rw [digitsOf_value]
        exact Nat.mod_eq_of_lt (by omega)
    · exact ⟨showNat_numeral _, showNat_value _⟩
  unfold showExponent
  generalize (if e.natAbs < 100 then digitsOf 2 e.natAbs else showNat e.natAbs) = ds at hds ⊢
  refine ⟨_, rfl, [if e < 0 then '-' else '+'], decide (e < 0), ds, rfl, ?_, hds.1, ?_⟩
  · by_cases h : e < 0
    · simpa [h] using Sign.minus
    · simpa [h] using Sign.plus
  · rw [hds.2]
    by_cases h : e < 0
    · simp only [h, decide_true, if_true]; omega
    · simp only [h, decide_false, Bool.false_eq_true, if_false]; omega

theorem denotes_point {sg int f ex : Str} {neg : Bool} {k : ℤ} (hs : Sign sg neg)
    (hi : ∀ c ∈ int, isDigit c = true) (hf : ∀ c ∈ f, isDigit c = true) (hne : int ≠ [])
    (hex : (ex = [] ∧ k = 0) ∨ ex = showExponent k) :
    DenotesReal (sg ++ (withPoint int f ++ ex))
      ((if neg then -1 else 1) * (numeral (int ++ f) : ℚ) * 10 ^ (k - f.length)) := by
  refine ⟨sg, neg, int, if f = [] then [] else '.' :: f, f, ex, k, ?_, hs, hi, hf, ?_, ?_, ?_, rfl⟩
  · unfold withPoint
    split_ifs <;> simp
  · by_cases h : f = []
    · exact .inl ⟨by rw [if_pos h], h⟩
    · exact .inr (by rw [if_neg h])
  · simp [hne]
  · rcases hex with h | h
    · exact .inl h
    · obtain ⟨w, hw, hd⟩ := showExponent_denotes k
      exact .inr ⟨'e', w, h.trans hw, .inl rfl, hd⟩

theorem numeral_strip (int f : Str) (k : ℤ) :
    (numeral (int ++ stripZeros f) : ℚ) * 10 ^ (k - (stripZeros f).length) =
      numeral (int ++ f) * 10 ^ (k - f.length) := by
  obtain ⟨z, hz⟩ := stripZeros_spec f
  have h1 : numeral (int ++ f) = numeral (int ++ stripZeros f) * 10 ^ z := by
    conv_lhs => rw [hz, ← List.append_assoc, numeral_append, numeral_zeros, List.length_replicate]
    rfl
  have h2 : (f.length : ℤ) = (stripZeros f).length + z := by
    have := congrArg List.length hz
    rw [List.length_append, List.length_replicate] at this
    exact_mod_cast this
  rw [h1, h2]
  push_cast
  rw [mul_assoc, ← zpow_natCast, ← zpow_add₀ (by norm_num : (10 : ℚ) ≠ 0)]
  congr 2
  ring

theorem stripZeros_digits {f : Str} (h : ∀ c ∈ f, isDigit c = true) :
    ∀ c ∈ stripZeros f, isDigit c = true := by
  obtain ⟨z, hz⟩ := stripZeros_spec f
  intro c hc
  refine h c ?_
  rw [hz]
  exact List.mem_append_left _ hc

theorem sign_of {p : Prop} [Decidable p] : Sign (if p then ['-'] else []) (decide p) := by
  by_cases h : p
  · simpa [h] using Sign.minus
  · simpa [h] using Sign.none

section
variable {K : Type} [Field K] [LinearOrder K] [IsStrictOrderedRing K] [FloorRing K]

/-- The number printed with `p + 1` digits. -/
def printed (p : ℕ) (x : K) : ℚ :=
  (if x < 0 then -1 else 1) * ((sciDigits p |x|).2 : ℚ) * 10 ^ ((sciDigits p |x|).1 - p)

theorem printed_nearest (p : ℕ) (x : K) : Nearest (p + 1) x (printed p x : K) := by
  have h := sciDigits_nearest p (abs_nonneg x)
  unfold printed
  push_cast
  by_cases hx : x < 0
  · rw [if_pos hx]
    have := h.neg
    rw [abs_of_neg hx, neg_neg] at this
    rw [abs_of_neg hx]
    simpa [neg_mul] using this
  · rw [if_neg hx]
    rw [abs_of_nonneg (not_lt.1 hx)] at h ⊢
    simpa using h

theorem showScientific_denotes (x : K) : DenotesReal (showScientific x) (printed 6 x) := by
  have hlt := sciDigits_lt 6 (abs_nonneg x)
  unfold showScientific printed
  obtain ⟨⟨e, s⟩, hes⟩ : ∃ es, sciDigits 6 |x| = es := ⟨_, rfl⟩
  rw [hes] at hlt ⊢
  dsimp only at hlt ⊢
  have hD := digitsOf_digits 7 s
  have hlen := digitsOf_length 7 s
  have hval := digitsOf_value 7 s
  rw [Nat.mod_eq_of_lt hlt] at hval
  have h := denotes_point (sign_of (p := x < 0)) (int := (digitsOf 7 s).take 1)
    (f := (digitsOf 7 s).drop 1) (k := e) (fun c hc => hD c (List.mem_of_mem_take hc))
    (fun c hc => hD c (List.mem_of_mem_drop hc))
    (by intro h0; have := congrArg List.length h0; rw [List.length_take, hlen] at this; cases this)
    (.inr rfl)
  rw [List.take_append_drop, hval, List.length_drop, hlen] at h
  rw [List.append_assoc]
  simpa using h

theorem showGeneral_denotes (x : K) : DenotesReal (showGeneral x) (printed 5 x) := by
  have hlt := sciDigits_lt 5 (abs_nonneg x)
  unfold showGeneral printed
  obtain ⟨⟨e, s⟩, hes⟩ : ∃ es, sciDigits 5 |x| = es := ⟨_, rfl⟩
  rw [hes] at hlt ⊢
  dsimp only at hlt ⊢
  have hD := digitsOf_digits 6 s
  have hlen := digitsOf_length 6 s
  have hval := digitsOf_value 6 s
  rw [Nat.mod_eq_of_lt hlt] at hval
  have hne : ∀ k, (digitsOf 6 s).take (k + 1) ≠ [] := by
    intro k h0
    have := congrArg List.length h0
    rw [List.length_take, hlen] at this
    simp at this
  by_cases h1 : e < -4 ∨ 6 ≤ e
  · rw [if_pos h1]
    have h := denotes_point (sign_of (p := x < 0)) (int := (digitsOf 6 s).take 1)
      (f := stripZeros ((digitsOf 6 s).drop 1)) (k := e)
      (fun c hc => hD c (List.mem_of_mem_take hc))
      (stripZeros_digits fun c hc => hD c (List.mem_of_mem_drop hc)) (hne 0) (.inr rfl)
    rw [mul_assoc, numeral_strip, List.take_append_drop, hval, List.length_drop, hlen] at h
    simpa [mul_assoc] using h
  rw [if_neg h1]
  by_cases h2 : 0 ≤ e
  · rw [if_pos h2]
    have h := denotes_point (sign_of (p := x < 0)) (int := (digitsOf 6 s).take (e.toNat + 1))
      (f := stripZeros ((digitsOf 6 s).drop (e.toNat + 1))) (k := 0)
      (fun c hc => hD c (List.mem_of_mem_take hc))
      (stripZeros_digits fun c hc => hD c (List.mem_of_mem_drop hc)) (hne _) (.inl ⟨rfl, rfl⟩)
    rw [mul_assoc, numeral_strip, List.take_append_drop, hval, List.length_drop, hlen,
      List.append_nil] at h
    have hk : (0 : ℤ) - ((6 - (e.toNat + 1) : ℕ) : ℤ) = e - ((5 : ℕ) : ℤ) := by omega
    rw [hk] at h
    simpa [mul_assoc] using h
  · rw [if_neg h2]
    have h := denotes_point (sign_of (p := x < 0)) (int := ['0'])
      (f := stripZeros (List.replicate (-e - 1).toNat '0' ++ digitsOf 6 s)) (k := 0)
      (by simp [isDigit])
      (stripZeros_digits fun c hc => by
        rcases List.mem_append.1 hc with hc | hc
        · rw [List.eq_of_mem_replicate hc]; decide
        · exact hD c hc) (by simp) (.inl ⟨rfl, rfl⟩)
    have hn : numeral (['0'] ++ (List.replicate (-e - 1).toNat '0' ++ digitsOf 6 s)) = s := by
      rw [← List.append_assoc, numeral_append, show ['0'] ++ List.replicate (-e - 1).toNat '0' =
        List.replicate ((-e - 1).toNat + 1) '0' from (List.replicate_succ ..).symm, numeral_zeros, hval]
      simp
    rw [mul_assoc, numeral_strip, hn, List.length_append, List.length_replicate, hlen,
      List.append_nil] at h
    have hk : (0 : ℤ) - (((-e - 1).toNat + 6 : ℕ) : ℤ) = e - ((5 : ℕ) : ℤ) := by omega
    rw [hk] at h
    simpa [mul_assoc] using h

end

end Kws
