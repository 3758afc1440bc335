import Verif.Lemmas.NdcgNear

/-! The gains of NDCG in `double`. -/

set_option linter.unusedSectionVars false

namespace Kws
open Spec

theorem two_rpow_low (r : ℝ) (h0 : 0 ≤ r) : r / 2 ≤ (2 : ℝ) ^ r - 1 := by
  have h1 : (2 : ℝ) ^ r = Real.exp (r * Real.log 2) := by
    rw [Real.rpow_def_of_pos (by norm_num), mul_comm]
  have h2 := Real.add_one_le_exp (r * Real.log 2)
  have h3 := Real.one_sub_inv_le_log_of_pos (show (0 : ℝ) < 2 by norm_num)
  rw [h1]
  nlinarith

theorem two_rpow_lip (a b : ℝ) (ha : 0 ≤ a) (hab : a ≤ b) (hb : b ≤ 1) :
    (2 : ℝ) ^ b - (2 : ℝ) ^ a ≤ 2 * (b - a) := by
  have h1 : (2 : ℝ) ^ b = (2 : ℝ) ^ a * (2 : ℝ) ^ (b - a) := by
    rw [← Real.rpow_add (by norm_num)]; ring_nf
  have h2 := two_rpow_le (b - a) (by linarith) (by linarith)
  have h3 : (2 : ℝ) ^ a ≤ 2 := by
    have := two_rpow_le a ha (by linarith)
    linarith
  have h4 : (0 : ℝ) < (2 : ℝ) ^ a := Real.rpow_pos_of_pos (by norm_num) a
  have h5 := two_rpow_ge (b - a) (by linarith)
  rw [h1]
  nlinarith

theorem two_rpow_near (a b : ℝ) (ha : 0 ≤ a) (ha1 : a ≤ 1) (hb : 0 ≤ b) (hb1 : b ≤ 1) :
    |(2 : ℝ) ^ a - (2 : ℝ) ^ b| ≤ 2 * |a - b| := by
  rcases le_total a b with h | h
  · have h1 := two_rpow_lip a b ha h hb1
    have h2 : (2 : ℝ) ^ a ≤ (2 : ℝ) ^ b := Real.rpow_le_rpow_of_exponent_le (by norm_num) h
    rw [abs_of_nonpos (by linarith), abs_of_nonpos (by linarith)]
    linarith
  · have h1 := two_rpow_lip b a hb h ha1
    have h2 : (2 : ℝ) ^ b ≤ (2 : ℝ) ^ a := Real.rpow_le_rpow_of_exponent_le (by norm_num) h
    rw [abs_of_nonneg (by linarith), abs_of_nonneg (by linarith)]
    exact h1

section
variable (m : Libm) (hm : m.Accurate)
include hm

theorem gain_zero : Rnd.ieee.f64 (m.exp2 0 - 1) = 0 := by
  rw [hm.exp2_zero, sub_self, ieee_faithful.zero64]

theorem gain_one : Rnd.ieee.f64 (m.exp2 1 - 1) = 1 := by
  rw [hm.exp2_one, show (2 : ℚ) - 1 = 1 by norm_num, ieee_faithful.one64]

/-- The computed gain is near the gain. -/
theorem gain_near (rh : ℚ) (r : ℝ) (h0 : 0 ≤ rh) (h1 : rh ≤ 1) (h0' : 0 ≤ r) (h1' : r ≤ 1) :
    |(Rnd.ieee.f64 (m.exp2 rh - 1) : ℝ) - ((2 : ℝ) ^ r - 1)| ≤ 2 * |(rh : ℝ) - r| + 1 / 2 ^ 50 := by
  have c0 : (0 : ℝ) ≤ rh := by exact_mod_cast h0
  have c1 : (rh : ℝ) ≤ 1 := by exact_mod_cast h1
  have e1 := hm.exp2_err rh h0 h1
  have e2 := two_rpow_le rh c0 c1
  have e3 := two_rpow_ge rh c0
  have e4 := two_rpow_near rh r c0 c1 h0' h1'
  have e5 : |m.exp2 rh - 1| ≤ 2 := by
    have : |(m.exp2 rh : ℝ) - 1| ≤ 2 := by
      rw [abs_le] at e1 ⊢
      constructor <;> linarith [e1.1, e1.2]
    exact_mod_cast this
  have e6 := ieee_relErr (m.exp2 rh - 1) 2 e5 (by norm_num)
  have e7 : |(Rnd.ieee.f64 (m.exp2 rh - 1) : ℝ) - ((m.exp2 rh : ℝ) - 1)| ≤ 2 / 2 ^ 53 := by
    have := (Rat.cast_le (K := ℝ)).2 e6
    push_cast at this
    exact this
  rw [abs_le] at e1 e4 e7 ⊢
  constructor <;> linarith [e1.1, e1.2, e4.1, e4.2, e7.1, e7.2]

variable {ε : Type} [IsError ε]

omit hm in
/-- The relevance of a point. -/
noncomputable def relevance (e : ε) : ℝ := 1 - (IsError.fp e : ℝ) / (IsError.nh e : ℝ)

omit hm in
theorem forall₂_gains (P : ℝ → ℝ → Prop) (es : List ε)
    (h : ∀ e ∈ es, 0 < IsError.nh e → P (gainD m e : ℝ) ((2 : ℝ) ^ relevance e - 1)) :
    List.Forall₂ P ((gainsD m es).map (fun x : ℚ => (x : ℝ))) (gains es) := by
  induction es with
  | nil => exact List.Forall₂.nil
  | cons e es ih =>
    have hg : gainsD m (e :: es) = List.replicate (IsError.nh e) (gainD m e) ++ gainsD m es := rfl
    have hg' : gains (e :: es) = List.replicate (IsError.nh e) ((2 : ℝ) ^ relevance e - 1) ++ gains es := rfl
    rw [hg, hg', List.map_append, List.map_replicate]
    refine List.rel_append ?_ (ih fun x hx => h x (by simp [hx]))
    have h0 := h e (by simp)
    revert h0
    generalize IsError.nh e = n
    intro h0
    rcases Nat.eq_zero_or_pos n with rfl | hp
    · exact List.Forall₂.nil
    · have := h0 hp
      clear h0 hp
      induction n with
      | zero => exact List.Forall₂.nil
      | succ n ihn => exact List.Forall₂.cons this ihn

/-- A point whose false positives are a multiple of `2^-24`, with one hypothesis. -/
theorem gain_grid (e : ε) (a : ℕ) (ha : a ≤ 2 ^ 24) (hfp : IsError.fp e = a / 2 ^ 24)
    (hn : IsError.nh e = 1) :
    (gainD m e = 0 ∨ 1 / 2 ^ 40 ≤ gainD m e) ∧
    |(gainD m e : ℝ) - ((2 : ℝ) ^ relevance e - 1)| ≤ 1 / 2 ^ 50 := by
  have ha' : (a : ℚ) ≤ 2 ^ 24 := by exact_mod_cast ha
  have hsub : ((2 ^ 24 - a : ℕ) : ℚ) = 2 ^ 24 - a := by rw [Nat.cast_sub ha]; norm_num
  have hr : Rnd.ieee.f32 (1 - Rnd.ieee.f32 (IsError.fp e / Rnd.ieee.f32 (IsError.nh e))) =
      ((2 ^ 24 - a : ℕ) : ℚ) / 2 ^ 24 := by
    rw [hn, ieee_faithful.nat32 1 (by norm_num), Nat.cast_one, div_one, hfp,
      ieee_faithful.dyadic32 a 24 ha (by norm_num),
      ← ieee_faithful.dyadic32 (2 ^ 24 - a) 24 (by omega) (by norm_num)]
    congr 1
    rw [hsub]
    ring
  have hrel : relevance e = (((2 ^ 24 - a : ℕ) : ℚ) / 2 ^ 24 : ℚ) := by
    unfold relevance
    rw [hn, hfp, hsub]
    push_cast
    ring
  unfold gainD
  rw [hr, hrel]
  set r : ℚ := ((2 ^ 24 - a : ℕ) : ℚ) / 2 ^ 24 with hrdef
  have r0 : 0 ≤ r := by positivity
  have r1 : r ≤ 1 := by
    rw [hrdef, div_le_one (by positivity), hsub]
    have : (0 : ℚ) ≤ a := by positivity
    linarith
  have h := gain_near m hm r r r0 r1 (by exact_mod_cast r0) (by exact_mod_cast r1)
  simp only [sub_self, abs_zero, mul_zero, zero_add] at h
  refine ⟨?_, h⟩
  rcases Nat.eq_zero_or_pos (2 ^ 24 - a) with hz | hz
  · left
    have : r = 0 := by rw [hrdef, hz]; simp
    rw [this]
    exact gain_zero m hm
  · right
    have h1 : (1 : ℚ) / 2 ^ 24 ≤ r := by
      rw [hrdef]
      gcongr
      exact_mod_cast hz
    have h1' : (1 : ℝ) / 2 ^ 24 ≤ r := by
      have := (Rat.cast_le (K := ℝ)).2 h1
      push_cast at this
      exact this
    have h2 := two_rpow_low r (by exact_mod_cast r0)
    have : ((1 / 2 ^ 40 : ℚ) : ℝ) ≤ (Rnd.ieee.f64 (m.exp2 r - 1) : ℝ) := by
      push_cast
      have := (abs_le.1 h).1
      norm_num at h1' this ⊢
      linarith
    exact_mod_cast this

/-- A point with a whole number of false positives. -/
theorem gain_hard (e : ε) (a k : ℕ) (hfp : IsError.fp e = a) (ha : a ≤ IsError.nh e)
    (hk : IsError.nh e ≤ k) (hk' : k ≤ 2 ^ 19) (hp : 0 < IsError.nh e) :
    (gainD m e = 0 ∨ 1 / 2 ^ 40 ≤ gainD m e) ∧
    |(gainD m e : ℝ) - ((2 : ℝ) ^ relevance e - 1)| ≤
      ((k - 1 : ℕ) : ℝ) / 2 ^ 20 * ((2 : ℝ) ^ relevance e - 1) := by
  set n := IsError.nh e with hn
  have hn24 : n ≤ 2 ^ 24 := by
    have : (2 : ℕ) ^ 19 ≤ 2 ^ 24 := by norm_num
    omega
  have hnq : (0 : ℚ) < n := by exact_mod_cast hp
  have hnr : (0 : ℝ) < n := by exact_mod_cast hp
  have hrel : relevance e = ((1 - (a : ℚ) / n : ℚ) : ℝ) := by
    unfold relevance
    rw [hfp, ← hn]
    push_cast
    rfl
  have hk0 : (0 : ℝ) ≤ ((k - 1 : ℕ) : ℝ) / 2 ^ 20 := by positivity
  unfold gainD
  rw [← hn, ieee_faithful.nat32 n hn24, hfp, hrel]
  rcases Nat.eq_zero_or_pos a with rfl | ha0
  · have e1 : Rnd.ieee.f32 (1 - Rnd.ieee.f32 (((0 : ℕ) : ℚ) / n)) = 1 := by
      rw [Nat.cast_zero, zero_div, ieee_faithful.zero32, sub_zero, ieee_faithful.one32]
    rw [e1, gain_one m hm]
    refine ⟨Or.inr (by norm_num), ?_⟩
    norm_num
    positivity
  rcases eq_or_lt_of_le ha with hae | hlt
  · have e1 : Rnd.ieee.f32 (1 - Rnd.ieee.f32 ((a : ℚ) / n)) = 0 := by
      rw [hae, div_self hnq.ne', ieee_faithful.one32, sub_self, ieee_faithful.zero32]
    rw [e1, gain_zero m hm]
    refine ⟨Or.inl rfl, ?_⟩
    rw [hae, div_self hnq.ne']
    norm_num
  · have haq : (a : ℚ) + 1 ≤ n := by exact_mod_cast hlt
    have haq1 : (1 : ℚ) ≤ a := by exact_mod_cast ha0
    have q0 : (0 : ℚ) ≤ a / n := by positivity
    have q1 : (a : ℚ) / n ≤ 1 := by rw [div_le_one hnq]; linarith
    have e1 := Ieee.round_err32 ((a : ℚ) / n) q0 q1
    set f := Rnd.ieee.f32 ((a : ℚ) / n) with hf
    have e1' : |f - (a : ℚ) / n| ≤ 1 / 2 ^ 25 := e1
    have f0 : 0 ≤ f := ieee_faithful.nonneg32 q0
    have f1 : f ≤ 1 := ieee_faithful.le_one32 q1
    have e2 := Ieee.round_err32 (1 - f) (by linarith) (by linarith)
    set rh := Rnd.ieee.f32 (1 - f) with hrh
    have e2' : |rh - (1 - f)| ≤ 1 / 2 ^ 25 := e2
    have rh0 : 0 ≤ rh := ieee_faithful.nonneg32 (by linarith)
    have rh1 : rh ≤ 1 := ieee_faithful.le_one32 (by linarith)
    set r : ℚ := 1 - (a : ℚ) / n with hr
    have r0 : 0 ≤ r := by linarith
    have r1 : r ≤ 1 := by linarith
    have hd : |rh - r| ≤ 1 / 2 ^ 24 := by
      rw [abs_le] at *
      constructor <;> linarith [e1'.1, e1'.2, e2'.1, e2'.2]
    have hd' : |(rh : ℝ) - r| ≤ 1 / 2 ^ 24 := by
      have := (Rat.cast_le (K := ℝ)).2 hd
      push_cast at this
      exact this
    have hnear := gain_near m hm rh r rh0 rh1 (by exact_mod_cast r0) (by exact_mod_cast r1)
    have hlow : (1 : ℚ) / n ≤ r := by
      rw [hr, le_sub_iff_add_le, ← add_div, div_le_one hnq]
      linarith
    have hlow' : (1 : ℝ) / n ≤ r := by
      have := (Rat.cast_le (K := ℝ)).2 hlow
      push_cast at this
      exact this
    have ht := two_rpow_low r (by exact_mod_cast r0)
    set t : ℝ := (2 : ℝ) ^ (r : ℝ) - 1 with htdef
    set x := Rnd.ieee.f64 (m.exp2 rh - 1) with hx
    have hk2 : 2 ≤ k := by omega
    have hkr : (n : ℝ) ≤ k := by exact_mod_cast hk
    have hkr0 : (0 : ℝ) < k := by linarith
    have hk19 : (k : ℝ) ≤ 2 ^ 19 := by exact_mod_cast hk'
    have hkt : 1 ≤ 2 * k * t := by
      have h1 : 1 / (k : ℝ) ≤ 1 / n := one_div_le_one_div_of_le hnr hkr
      have h2 : 1 / (k : ℝ) ≤ 2 * t := by linarith
      rw [div_le_iff₀ hkr0] at h2
      linarith
    have hcast : ((k - 1 : ℕ) : ℝ) = k - 1 := by rw [Nat.cast_sub (by omega)]; norm_num
    have hk2' : (2 : ℝ) ≤ k := by exact_mod_cast hk2
    have ht0 : 0 < t := by nlinarith
    have hbound : |(x : ℝ) - t| ≤ 1 / 2 ^ 22 := by
      refine hnear.trans ?_
      norm_num at hd' ⊢
      linarith
    have hmain : |(x : ℝ) - t| ≤ ((k - 1 : ℕ) : ℝ) / 2 ^ 20 * t := by
      refine hbound.trans ?_
      rw [hcast, div_mul_eq_mul_div, le_div_iff₀ (by positivity)]
      norm_num
      nlinarith
    refine ⟨Or.inr ?_, hmain⟩
    have hhalf : ((k - 1 : ℕ) : ℝ) / 2 ^ 20 ≤ 1 / 2 := by
      rw [hcast, div_le_iff₀ (by positivity)]
      norm_num at hk19 ⊢
      linarith
    have : ((1 / 2 ^ 40 : ℚ) : ℝ) ≤ (x : ℝ) := by
      push_cast
      have h1 := (abs_le.1 hmain).1
      have h2 : ((k - 1 : ℕ) : ℝ) / 2 ^ 20 * t ≤ 1 / 2 * t := mul_le_mul_of_nonneg_right hhalf ht0.le
      have h3 : 1 / (2 : ℝ) ^ 39 ≤ t := by
        have : 1 / (2 : ℝ) ^ 20 ≤ t := by
          rw [div_le_iff₀ (by positivity)]
          have := mul_le_mul_of_nonneg_right hk19 ht0.le
          linarith
        refine le_trans (by norm_num) this
      norm_num at h3 ⊢
      linarith
    exact_mod_cast this

end

end Kws
