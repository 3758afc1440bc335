import Verif.Spec.Libm
import Verif.Lemmas.Ndcg
import Verif.Lemmas.Rounding

/-! NDCG in `double`: rounding errors. -/

set_option linter.unusedSectionVars false

namespace Kws.Ieee

/-- The relative error of rounding a number that is not tiny. -/
theorem round_rel_pos (p : ℕ) (emin : ℤ) {x : ℚ} (hx : 0 < x) (h : (2 : ℚ) ^ (emin + (p - 1)) ≤ x) :
    |round p emin x - x| ≤ x / 2 ^ p := by
  unfold round
  rw [if_pos hx]
  refine (roundPos_err p emin).trans ?_
  have hl : emin + (p - 1) ≤ Int.log 2 x := by
    by_contra hc
    have h1 := two_zpow_le (show Int.log 2 x + 1 ≤ emin + (p - 1) by omega)
    have h2 := lt_log x
    linarith
  unfold quantum
  rw [max_eq_left (by omega)]
  have h1 := log_le hx
  have h2 : (2 : ℚ) ^ (Int.log 2 x - ((p : ℤ) - 1)) = 2 * (2 ^ Int.log 2 x / 2 ^ p) := by
    rw [show Int.log 2 x - ((p : ℤ) - 1) = (Int.log 2 x - p) + 1 by ring, zpow_add₀ (by norm_num),
      zpow_sub₀ (by norm_num)]
    simp only [zpow_natCast, zpow_one]
    ring
  rw [h2]
  have h3 : (1 / 2 : ℚ) * (2 * (2 ^ Int.log 2 x / 2 ^ p)) = 2 ^ Int.log 2 x / 2 ^ p := by ring
  rw [h3]
  gcongr

theorem round_err32 (a : ℚ) (h0 : 0 ≤ a) (h1 : a ≤ 1) : |round 24 (-149) a - a| ≤ 1 / 2 ^ 25 := by
  rcases eq_or_lt_of_le h0 with rfl | hpos
  · simp [round]
  · rcases eq_or_lt_of_le h1 with rfl | hlt
    · have := round_dyadic 24 (-149) (by norm_num) 1 0 (by norm_num) (by norm_num)
      simp only [Nat.cast_one, pow_zero, div_one] at this
      rw [this]; norm_num
    · have hq := quantum_le 24 (-149) (-1) hpos (by norm_num; exact hlt) (by norm_num)
      unfold round
      rw [if_pos hpos]
      refine (roundPos_err 24 (-149)).trans ?_
      have := two_zpow_le hq
      have h3 : (2 : ℚ) ^ ((-1 : ℤ) - ((24 : ℕ) - 1)) = 1 / 2 ^ 24 := by norm_num [zpow_neg]
      rw [h3] at this
      linarith

end Kws.Ieee

namespace Kws
open Spec

/-- Zero, or at least `2^-60`: far from underflow. -/
def Sound (x : ℚ) : Prop := x = 0 ∨ 1 / 2 ^ 60 ≤ x

theorem Sound.nonneg {x : ℚ} (h : Sound x) : 0 ≤ x := by
  rcases h with rfl | h
  · rfl
  · exact le_trans (by norm_num) h

theorem Sound.add {x y : ℚ} (hx : Sound x) (hy : Sound y) : Sound (x + y) := by
  rcases hx with rfl | h
  · rwa [zero_add]
  · exact Or.inr (by have := hy.nonneg; linarith)

theorem Sound.round {x : ℚ} (hx : Sound x) : Sound (Rnd.ieee.f64 x) := by
  rcases hx with rfl | h
  · exact Or.inl ieee_faithful.zero64
  · right
    have h1 := ieee_faithful.mono64 _ _ h
    have h2 := ieee_faithful.dyadic64 1 60 (by norm_num) (by norm_num)
    simp only [Nat.cast_one] at h2
    rwa [h2] at h1

/-- Rounding to `double` changes a number that is not tiny by a factor near one. -/
theorem f64_btw {x : ℚ} (hx : x = 0 ∨ 1 / 2 ^ 200 ≤ x) :
    (1 - 1 / 2 ^ 53) * (x : ℝ) ≤ Rnd.ieee.f64 x ∧ (Rnd.ieee.f64 x : ℝ) ≤ (1 + 1 / 2 ^ 53) * (x : ℝ) := by
  have key : (1 - 1 / 2 ^ 53) * x ≤ Rnd.ieee.f64 x ∧ Rnd.ieee.f64 x ≤ (1 + 1 / 2 ^ 53) * x := by
    rcases hx with rfl | h
    · rw [ieee_faithful.zero64]; norm_num
    · have h0 : 0 < x := lt_of_lt_of_le (by norm_num) h
      have h1 := Ieee.round_rel_pos 53 (-1074) h0 (le_trans (by
        have := Ieee.two_zpow_le (show (-1074 + ((53 : ℕ) - 1) : ℤ) ≤ -200 by norm_num)
        refine this.trans ?_
        norm_num [zpow_neg]) h)
      rw [abs_le] at h1
      have h2 : Rnd.ieee.f64 x = Ieee.round 53 (-1074) x := rfl
      rw [h2]
      constructor <;> linarith [h1.1, h1.2]
  constructor
  · have := (Rat.cast_le (K := ℝ)).2 key.1
    push_cast at this
    exact this
  · have := (Rat.cast_le (K := ℝ)).2 key.2
    push_cast at this
    exact this

theorem Sound.btw {x : ℚ} (hx : Sound x) :
    (1 - 1 / 2 ^ 53) * (x : ℝ) ≤ Rnd.ieee.f64 x ∧ (Rnd.ieee.f64 x : ℝ) ≤ (1 + 1 / 2 ^ 53) * (x : ℝ) :=
  f64_btw (hx.imp_right fun h => le_trans (by norm_num) h)

/-! ## The logarithms -/

section Log
variable (m : Libm) (hm : m.Accurate)
include hm

theorem log2_bounds (n : ℕ) (h2 : 2 ≤ n) (hn : n ≤ 2 ^ 53) :
    (1 - 1 / 2 ^ 52) * Real.logb 2 n ≤ m.log2 n ∧
    (m.log2 n : ℝ) ≤ (1 + 1 / 2 ^ 52) * Real.logb 2 n := by
  have h := hm.log2_err n h2 hn
  rw [abs_le] at h
  constructor <;> linarith [h.1, h.2]

omit hm in
theorem logb_range (n : ℕ) (h2 : 2 ≤ n) (hn : n ≤ 2 ^ 53) :
    1 ≤ Real.logb 2 n ∧ Real.logb 2 n ≤ 53 := by
  have h2' : (2 : ℝ) ≤ n := by exact_mod_cast h2
  have hn' : (n : ℝ) ≤ 2 ^ 53 := by exact_mod_cast hn
  constructor
  · rw [Real.le_logb_iff_rpow_le (by norm_num) (by linarith), Real.rpow_one]; exact h2'
  · rw [Real.logb_le_iff_le_rpow (by norm_num) (by linarith)]
    exact_mod_cast hn

theorem log2_range (n : ℕ) (h2 : 2 ≤ n) (hn : n ≤ 2 ^ 53) :
    1 / 2 ≤ m.log2 n ∧ m.log2 n ≤ 64 := by
  have h := log2_bounds m hm n h2 hn
  have hr := logb_range n h2 hn
  constructor
  · have : ((1 / 2 : ℚ) : ℝ) ≤ (m.log2 n : ℝ) := by
      push_cast
      have := h.1
      nlinarith [hr.1]
    exact_mod_cast this
  · have : (m.log2 n : ℝ) ≤ ((64 : ℚ) : ℝ) := by
      push_cast
      have := h.2
      nlinarith [hr.2]
    exact_mod_cast this

/-- The computed logarithms of the ranks increase. -/
theorem log2_mono (a b : ℕ) (ha : 2 ≤ a) (hab : a ≤ b) (hb : b ≤ 2 ^ 40) : m.log2 a ≤ m.log2 b := by
  rcases eq_or_lt_of_le hab with rfl | hlt
  · exact le_rfl
  have h40 : (2 : ℕ) ^ 40 ≤ 2 ^ 53 := by norm_num
  have h1 := (log2_bounds m hm a ha (by omega)).2
  have h2 := (log2_bounds m hm b (by omega) (by omega)).1
  have r1 := logb_range a ha (by omega)
  have r2 := logb_range b (by omega) (by omega)
  have ha0 : (0 : ℝ) < a := by exact_mod_cast (by omega : 0 < a)
  have hb0 : (0 : ℝ) < b := by exact_mod_cast (by omega : 0 < b)
  have hgap : 1 / (2 : ℝ) ^ 40 ≤ Real.logb 2 b - Real.logb 2 a := by
    rw [← Real.logb_div hb0.ne' ha0.ne']
    have hx : (0 : ℝ) < b / a := by positivity
    have e1 := Real.one_sub_inv_le_log_of_pos hx
    have e2 : 1 / (2 : ℝ) ^ 40 ≤ 1 - ((b : ℝ) / a)⁻¹ := by
      rw [inv_div]
      have e3 : (1 : ℝ) ≤ b - a := by
        have : a + 1 ≤ b := hlt
        have : (a : ℝ) + 1 ≤ b := by exact_mod_cast this
        linarith
      have e4 : (b : ℝ) ≤ 2 ^ 40 := by exact_mod_cast hb
      have e5 : 1 - (a : ℝ) / b = (b - a) / b := by field_simp
      rw [e5]
      exact div_le_div₀ (by linarith) e3 hb0 e4
    have e3 : 0 ≤ Real.log (b / a) := le_trans (by positivity) (e2.trans e1)
    have e4 : Real.log ((b : ℝ) / a) ≤ Real.logb 2 (b / a) := by
      unfold Real.logb
      rw [le_div_iff₀ (Real.log_pos (by norm_num))]
      have := Real.log_le_sub_one_of_pos (show (0 : ℝ) < 2 by norm_num)
      nlinarith
    linarith
  have : (m.log2 a : ℝ) ≤ m.log2 b := by
    norm_num at hgap h1 h2
    linarith [r1.2, r2.2]
  exact_mod_cast this

end Log

/-! ## Summation -/

/-- The sum of the discounted gains, in `double`. -/
def fsum (m : Libm) : ℕ → ℚ → List ℚ → ℚ
  | _, acc, [] => acc
  | i, acc, x :: g => fsum m (i + 1)
    (Rnd.ieee.f64 (acc + Rnd.ieee.f64 (x / m.log2 ((i + 1 : ℕ) : ℚ)))) g

theorem fsum_append (m : Libm) (g h : List ℚ) : ∀ i acc,
    fsum m i acc (g ++ h) = fsum m (i + g.length) (fsum m i acc g) h := by
  induction g with
  | nil => intro i acc; rfl
  | cons x g ih =>
    intro i acc
    rw [List.cons_append, fsum, ih, fsum, List.length_cons, show i + (g.length + 1) = i + 1 + g.length by omega]

section
variable (m : Libm) (hm : m.Accurate)
include hm

theorem fdiv_log (x : ℚ) (i : ℕ) (hi : 1 ≤ i) (hn : i + 1 ≤ 2 ^ 53) :
    fdiv Rnd.ieee x (m.log2 (Rnd.ieee.f64 ((i + 1 : ℕ) : ℚ))) =
      .ok (Rnd.ieee.f64 (x / m.log2 ((i + 1 : ℕ) : ℚ))) := by
  rw [ieee_faithful.nat64 _ hn]
  unfold fdiv
  have := (log2_range m hm (i + 1) (by omega) hn).1
  rw [if_neg (by intro h; rw [h] at this; norm_num at this)]

theorem dcgRunD_eq (r : ℚ) (n : ℕ) : ∀ i acc, 1 ≤ i → i + n ≤ 2 ^ 53 →
    dcgRunD Rnd.ieee m r n i acc =
      .ok (fsum m i acc (List.replicate n (Rnd.ieee.f64 (m.exp2 r - 1)))) := by
  induction n with
  | zero => intro i acc _ _; rfl
  | succ n ih =>
    intro i acc hi hn
    rw [dcgRunD, fdiv_log m hm _ i hi (by omega)]
    simp only [bind, Except.bind]
    rw [ih _ _ (by omega) (by omega), List.replicate_succ, fsum]

theorem idealDcgD_eq (n : ℕ) : ∀ i acc, 1 ≤ i → i + n ≤ 2 ^ 53 →
    idealDcgD Rnd.ieee m n i acc = .ok (fsum m i acc (List.replicate n 1)) := by
  induction n with
  | zero => intro i acc _ _; rfl
  | succ n ih =>
    intro i acc hi hn
    rw [idealDcgD, fdiv_log m hm _ i hi (by omega)]
    simp only [bind, Except.bind]
    rw [ih _ _ (by omega) (by omega), List.replicate_succ, fsum]

variable {ε : Type} [IsError ε]

omit hm in
/-- The computed gain of a hypothesis. -/
def gainD (e : ε) : ℚ :=
  Rnd.ieee.f64 (m.exp2 (Rnd.ieee.f32 (1 - Rnd.ieee.f32 (IsError.fp e / Rnd.ieee.f32 (IsError.nh e)))) - 1)

omit hm in
/-- The computed gains of the hypotheses in rank order. -/
def gainsD (es : List ε) : List ℚ := es.flatMap (fun e => List.replicate (IsError.nh e) (gainD m e))

theorem dcgLoopD_eq (es : List ε) : ∀ i acc, 1 ≤ i → i + (es.map IsError.nh).sum ≤ 2 ^ 53 →
    dcgLoopD Rnd.ieee m i acc es = .ok (fsum m i acc (gainsD m es)) := by
  induction es with
  | nil => intro i acc _ _; rfl
  | cons e es ih =>
    intro i acc hi hn
    rw [List.map_cons, List.sum_cons] at hn
    have hg : gainsD m (e :: es) = List.replicate (IsError.nh e) (gainD m e) ++ gainsD m es := rfl
    rw [hg, fsum_append, List.length_replicate, dcgLoopD]
    split
    · simp only [dcgRunD_eq m hm _ _ _ _ hi (show i + IsError.nh e ≤ 2 ^ 53 by omega), bind, Except.bind]
      rw [ih _ _ (by omega) (by omega)]
      rfl
    · rename_i h
      have : IsError.nh e = 0 := by omega
      rw [this, ih _ _ hi (by omega)]
      rfl

/-- One term. -/
theorem term_btw (x : ℚ) (hx : x = 0 ∨ 1 / 2 ^ 40 ≤ x) (i : ℕ) (hi : 1 ≤ i) (hn : i + 1 ≤ 2 ^ 53) :
    Sound (Rnd.ieee.f64 (x / m.log2 ((i + 1 : ℕ) : ℚ))) ∧
    (1 - 1 / 2 ^ 52) ^ 2 * (x * disc i) ≤ Rnd.ieee.f64 (x / m.log2 ((i + 1 : ℕ) : ℚ)) ∧
    (Rnd.ieee.f64 (x / m.log2 ((i + 1 : ℕ) : ℚ)) : ℝ) ≤ (1 + 1 / 2 ^ 52) ^ 3 * (x * disc i) := by
  have hr := log2_range m hm (i + 1) (by omega) hn
  have hb := log2_bounds m hm (i + 1) (by omega) hn
  have hl := logb_range (i + 1) (by omega) hn
  have hd : disc i = 1 / Real.logb 2 ((i + 1 : ℕ) : ℝ) := by unfold disc; push_cast; rfl
  have hx0 : 0 ≤ x := by
    rcases hx with rfl | h
    · rfl
    · exact le_trans (by norm_num) h
  have hx0' : (0 : ℝ) ≤ x := by exact_mod_cast hx0
  have hl0 : 0 < m.log2 ((i + 1 : ℕ) : ℚ) := lt_of_lt_of_le (by norm_num) hr.1
  have hs : Sound (x / m.log2 ((i + 1 : ℕ) : ℚ)) := by
    rcases hx with rfl | h
    · left; simp
    · right
      rw [le_div_iff₀ hl0]
      have := hr.2
      nlinarith
  have hbt := hs.btw
  push_cast at hbt
  rw [hd]
  set l := Real.logb 2 ((i + 1 : ℕ) : ℝ) with hldef
  set lh : ℝ := (m.log2 ((i + 1 : ℕ) : ℚ) : ℝ) with hlhdef
  have hlp : 0 < l := by linarith [hl.1]
  have hlhp : 0 < lh := by rw [hlhdef]; exact_mod_cast hl0
  have hcast : ((m.log2 ((i : ℚ) + 1) : ℚ) : ℝ) = lh := by rw [hlhdef]; push_cast; rfl
  have k1 : (1 - 1 / 2 ^ 52) * (1 / l) ≤ 1 / lh := by
    rw [mul_one_div, div_le_div_iff₀ hlp hlhp, one_mul]
    have := hb.2
    nlinarith
  have k2 : 1 / lh ≤ (1 + 1 / 2 ^ 52) ^ 2 * (1 / l) := by
    rw [mul_one_div, div_le_div_iff₀ hlhp hlp, one_mul]
    have := hb.1
    nlinarith
  refine ⟨hs.round, ?_, ?_⟩
  · push_cast
    refine le_trans ?_ hbt.1
    rw [hcast, div_eq_mul_one_div (x : ℝ) lh]
    have a1 : (x : ℝ) * ((1 - 1 / 2 ^ 52) * (1 / l)) ≤ x * (1 / lh) := mul_le_mul_of_nonneg_left k1 hx0'
    have a2 : 0 ≤ (x : ℝ) * (1 / lh) := by positivity
    have a3 : 0 ≤ (x : ℝ) * (1 / l) := by positivity
    nlinarith
  · push_cast
    refine le_trans hbt.2 ?_
    rw [hcast, div_eq_mul_one_div (x : ℝ) lh]
    have a1 : (x : ℝ) * (1 / lh) ≤ x * ((1 + 1 / 2 ^ 52) ^ 2 * (1 / l)) := mul_le_mul_of_nonneg_left k2 hx0'
    have a2 : 0 ≤ (x : ℝ) * (1 / lh) := by positivity
    have a3 : 0 ≤ (x : ℝ) * (1 / l) := by positivity
    nlinarith

/-- The computed sum lies within a factor of the exact sum of the same gains. -/
theorem fsum_btw (g : List ℚ) (hg : ∀ x ∈ g, x = 0 ∨ 1 / 2 ^ 40 ≤ x) : ∀ (i : ℕ) (acc : ℚ) (b : ℝ) (k : ℕ),
    1 ≤ i → i + g.length ≤ 2 ^ 53 → Sound acc → 0 ≤ b →
    (1 - 1 / 2 ^ 52) ^ (k + 3) * b ≤ acc → (acc : ℝ) ≤ (1 + 1 / 2 ^ 52) ^ (k + 3) * b →
    Sound (fsum m i acc g) ∧
    (1 - 1 / 2 ^ 52) ^ (k + 3 + g.length) * (b + dsum i (g.map (fun x : ℚ => (x : ℝ)))) ≤ fsum m i acc g ∧
    (fsum m i acc g : ℝ) ≤
      (1 + 1 / 2 ^ 52) ^ (k + 3 + g.length) * (b + dsum i (g.map (fun x : ℚ => (x : ℝ)))) := by
  induction g with
  | nil =>
    intro i acc b k _ _ hs _ h1 h2
    simp only [List.map_nil, List.length_nil, Nat.add_zero, fsum]
    have : dsum i [] = 0 := by simp [dsum]
    rw [this, add_zero]
    exact ⟨hs, h1, h2⟩
  | cons x g ih =>
    intro i acc b k hi hn hs hb h1 h2
    rw [List.length_cons] at hn
    obtain ⟨t0, t1, t2⟩ := term_btw m hm x (hg x (by simp)) i hi (by omega)
    have hx0 : (0 : ℝ) ≤ x := by
      rcases hg x (by simp) with rfl | h
      · simp
      · exact_mod_cast le_trans (by norm_num) h
    have hq0 : 0 ≤ (x : ℝ) * disc i := mul_nonneg hx0 (disc_pos i hi).le
    have hsum := (hs.add t0).btw
    rw [fsum, List.map_cons, dsum_cons, List.length_cons,
      show k + 3 + (g.length + 1) = (k + 1) + 3 + g.length by omega, ← add_assoc]
    refine ih (fun y hy => hg y (by simp [hy])) (i + 1) _ (b + x * disc i) (k + 1) (by omega)
      (by omega) (hs.add t0).round (by linarith) ?_ ?_
    · refine le_trans ?_ hsum.1
      push_cast at t1 ⊢
      have p1 : (1 - 1 / 2 ^ 52 : ℝ) ^ (k + 3) ≤ (1 - 1 / 2 ^ 52) ^ 2 :=
        pow_le_pow_of_le_one (by norm_num) (by norm_num) (by omega)
      have p2 : (1 - 1 / 2 ^ 52 : ℝ) ^ (k + 3) * (x * disc i) ≤ (1 - 1 / 2 ^ 52) ^ 2 * (x * disc i) :=
        mul_le_mul_of_nonneg_right p1 hq0
      have p3 : 0 ≤ (1 - 1 / 2 ^ 52 : ℝ) ^ (k + 3) * (b + x * disc i) :=
        mul_nonneg (pow_nonneg (by norm_num) _) (by linarith)
      rw [show k + 1 + 3 = (k + 3) + 1 by omega, pow_succ]
      calc (1 - 1 / 2 ^ 52 : ℝ) ^ (k + 3) * (1 - 1 / 2 ^ 52) * (b + x * disc i)
          = (1 - 1 / 2 ^ 52) * ((1 - 1 / 2 ^ 52 : ℝ) ^ (k + 3) * (b + x * disc i)) := by ring
        _ ≤ (1 - 1 / 2 ^ 53) * ((1 - 1 / 2 ^ 52 : ℝ) ^ (k + 3) * (b + x * disc i)) :=
            mul_le_mul_of_nonneg_right (by norm_num) p3
        _ ≤ _ := by
            refine mul_le_mul_of_nonneg_left ?_ (by norm_num)
            rw [mul_add]
            exact add_le_add h1 (p2.trans t1)
    · refine le_trans hsum.2 ?_
      push_cast at t2 ⊢
      have p1 : (1 + 1 / 2 ^ 52 : ℝ) ^ 3 ≤ (1 + 1 / 2 ^ 52) ^ (k + 3) :=
        pow_le_pow_right₀ (by norm_num) (by omega)
      have p2 : (1 + 1 / 2 ^ 52 : ℝ) ^ 3 * (x * disc i) ≤ (1 + 1 / 2 ^ 52) ^ (k + 3) * (x * disc i) :=
        mul_le_mul_of_nonneg_right p1 hq0
      have p3 : 0 ≤ (1 + 1 / 2 ^ 52 : ℝ) ^ (k + 3) * (b + x * disc i) :=
        mul_nonneg (by positivity) (by linarith)
      rw [show k + 1 + 3 = (k + 3) + 1 by omega, pow_succ]
      calc (1 + 1 / 2 ^ 53 : ℝ) * _
          ≤ (1 + 1 / 2 ^ 53) * ((1 + 1 / 2 ^ 52 : ℝ) ^ (k + 3) * (b + x * disc i)) := by
            refine mul_le_mul_of_nonneg_left ?_ (by norm_num)
            rw [mul_add]
            exact add_le_add h2 (t2.trans p2)
        _ ≤ (1 + 1 / 2 ^ 52) * ((1 + 1 / 2 ^ 52 : ℝ) ^ (k + 3) * (b + x * disc i)) :=
            mul_le_mul_of_nonneg_right (by norm_num) p3
        _ = _ := by ring

end

end Kws
