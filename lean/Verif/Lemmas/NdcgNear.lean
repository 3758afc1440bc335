import Verif.Lemmas.NdcgDouble

/-! NDCG in `double` is near the exact NDCG. -/

set_option linter.unusedSectionVars false

namespace Kws
open Spec

theorem disc_le_one (i : ℕ) (hi : 1 ≤ i) : disc i ≤ 1 := by
  have h := disc_anti 1 i le_rfl hi
  have h1 : disc 1 = 1 := by unfold disc; norm_num
  rwa [h1] at h

/-- The sum of the gains depends on the gains continuously. -/
theorem dsum_near (ρ δ : ℝ) (hδ : 0 ≤ δ) (a b : List ℝ)
    (h : List.Forall₂ (fun x y => |x - y| ≤ ρ * y + δ) a b) : ∀ i, 1 ≤ i →
    |dsum i a - dsum i b| ≤ ρ * dsum i b + δ * b.length := by
  induction h with
  | nil => intro i _; simp [dsum]
  | @cons x y a b hxy _ ih =>
    intro i hi
    rw [dsum_cons, dsum_cons, List.length_cons]
    have h1 := ih (i + 1) (by omega)
    have hd := disc_pos i hi
    have hd1 := disc_le_one i hi
    have h2 : |x * disc i - y * disc i| ≤ ρ * (y * disc i) + δ := by
      rw [← sub_mul, abs_mul, abs_of_pos hd]
      have := mul_le_mul_of_nonneg_right hxy hd.le
      nlinarith
    have h3 : x * disc i + dsum (i + 1) a - (y * disc i + dsum (i + 1) b) =
        (x * disc i - y * disc i) + (dsum (i + 1) a - dsum (i + 1) b) := by ring
    rw [h3]
    refine (abs_add_le _ _).trans ?_
    push_cast
    linarith

theorem dsum_ones (n i : ℕ) : dsum i (List.replicate n (1 : ℝ)) = ∑ k ∈ Finset.range n, disc (i + k) := by
  unfold dsum
  rw [List.length_replicate]
  refine Finset.sum_congr rfl fun k hk => ?_
  rw [Finset.mem_range] at hk
  rw [List.getD_eq_getElem?_getD, List.getElem?_replicate, if_pos hk]
  simp

theorem ideal_ge_one (n : ℕ) (hn : 0 < n) : 1 ≤ ∑ k ∈ Finset.range n, disc (1 + k) := by
  have h1 : disc (1 + 0) = 1 := by unfold disc; norm_num
  rw [← h1]
  exact Finset.single_le_sum (f := fun k => disc (1 + k)) (fun k _ => (disc_pos _ (by omega)).le)
    (Finset.mem_range.2 hn)

theorem ideal_le (n : ℕ) : ∑ k ∈ Finset.range n, disc (1 + k) ≤ n := by
  have h : ∑ k ∈ Finset.range n, disc (1 + k) ≤ ∑ _k ∈ Finset.range n, (1 : ℝ) :=
    Finset.sum_le_sum fun k _ => disc_le_one _ (by omega)
  simpa using h

theorem pow_up (N : ℕ) (hN : N ≤ 2 ^ 52) : (1 + 1 / 2 ^ 52 : ℝ) ^ N ≤ 1 + 2 * (N / 2 ^ 52) := by
  have hN' : (N : ℝ) / 2 ^ 52 ≤ 1 := by
    rw [div_le_one (by positivity)]; exact_mod_cast hN
  have h0 : (0 : ℝ) ≤ N / 2 ^ 52 := by positivity
  have h1 : (1 + 1 / 2 ^ 52 : ℝ) ≤ Real.exp (1 / 2 ^ 52) := by
    have := Real.add_one_le_exp (1 / 2 ^ 52 : ℝ)
    linarith
  have h2 : (1 + 1 / 2 ^ 52 : ℝ) ^ N ≤ Real.exp (N / 2 ^ 52) := by
    refine (pow_le_pow_left₀ (by positivity) h1 N).trans ?_
    rw [← Real.exp_nat_mul]
    exact le_of_eq (by ring_nf)
  have h3 := Real.abs_exp_sub_one_le (x := (N : ℝ) / 2 ^ 52) (by rwa [abs_of_nonneg h0])
  rw [abs_of_nonneg h0] at h3
  linarith [le_abs_self (Real.exp ((N : ℝ) / 2 ^ 52) - 1)]

theorem pow_down (N : ℕ) : 1 - N / 2 ^ 52 ≤ (1 - 1 / 2 ^ 52 : ℝ) ^ N := by
  have h := one_add_mul_le_pow (show (-2 : ℝ) ≤ -(1 / 2 ^ 52) by norm_num) N
  have h1 : (1 : ℝ) + -(1 / 2 ^ 52) = 1 - 1 / 2 ^ 52 := by ring
  rw [h1] at h
  refine le_trans (le_of_eq ?_) h
  ring

theorem inv_up (N : ℕ) : 1 / (1 - 1 / 2 ^ 52 : ℝ) ^ N ≤ (1 + 1 / 2 ^ 52) ^ (2 * N) := by
  rw [div_le_iff₀ (pow_pos (by norm_num) _), pow_mul, ← mul_pow]
  exact one_le_pow₀ (by norm_num)

theorem inv_down (N : ℕ) : (1 - 1 / 2 ^ 52 : ℝ) ^ N ≤ 1 / (1 + 1 / 2 ^ 52) ^ N := by
  rw [le_div_iff₀ (by positivity), ← mul_pow]
  exact pow_le_one₀ (by norm_num) (by norm_num)

section
variable {ε : Type} [IsError ε] (m : Libm) (hm : m.Accurate)
include hm

/-- The sum of the ideal gains. -/
theorem ideal_btw (T : ℕ) (hT : T + 1 ≤ 2 ^ 53) :
    Sound (fsum m 1 0 (List.replicate T 1)) ∧
    (1 - 1 / 2 ^ 52) ^ (3 + T) * ∑ k ∈ Finset.range T, disc (1 + k) ≤ fsum m 1 0 (List.replicate T 1) ∧
    (fsum m 1 0 (List.replicate T 1) : ℝ) ≤
      (1 + 1 / 2 ^ 52) ^ (3 + T) * ∑ k ∈ Finset.range T, disc (1 + k) := by
  have h := fsum_btw m hm (List.replicate T 1) (by
    intro x hx
    rw [List.eq_of_mem_replicate hx]
    right; norm_num) 1 0 0 0 le_rfl (by rw [List.length_replicate]; omega) (Or.inl rfl) le_rfl
    (by simp) (by simp)
  simpa only [List.map_replicate, Rat.cast_one, dsum_ones, zero_add, List.length_replicate] using h

theorem computeNDCGD_near (es : List ε) (d : ℝ) (hok : ∀ e ∈ es, ErrOk e)
    (hs : (es.map (fun e => ((IsError.nh e : ℝ) - (IsError.fp e : ℝ)))).sum ≤ (es.map IsError.nr).sum)
    (hn : (es.map IsError.nh).sum ≤ 2 ^ 30) (hT : (es.map IsError.nr).sum ≤ 2 ^ 30)
    (hg : ∀ x ∈ gainsD m es, x = 0 ∨ 1 / 2 ^ 40 ≤ x) (hd : d ≤ 1 / 2)
    (hX : |dsum 1 ((gainsD m es).map (fun x : ℚ => (x : ℝ))) - dsum 1 (gains es)| ≤
      d * ∑ k ∈ Finset.range (es.map IsError.nr).sum, disc (1 + k)) (hd0 : 0 ≤ d) :
    ∃ v, computeNDCGD Rnd.ieee m es = .ok v ∧ |(v : ℝ) - computeNDCG es| ≤
      d + 3 * (((es.map IsError.nh).sum + 2 * (es.map IsError.nr).sum + 10 : ℕ) / 2 ^ 52) := by
  have hunit := computeNDCG_unit es hok hs
  rw [computeNDCG_eq] at hunit
  rw [computeNDCG_eq]
  unfold computeNDCGD
  simp only [numTotal_eq]
  by_cases h0 : (es.map IsError.nr).sum = 0
  · rw [if_pos h0, if_neg (by omega)]
    refine ⟨0, rfl, ?_⟩
    simp only [Rat.cast_zero, sub_self, abs_zero]
    positivity
  rw [if_neg h0] at hunit ⊢
  rw [if_pos (by omega)]
  set T := (es.map IsError.nr).sum with hTdef
  set n := (es.map IsError.nh).sum with hndef
  set Z := ∑ k ∈ Finset.range T, disc (1 + k) with hZdef
  have hlen : (gainsD m es).length = n := by
    rw [hndef]
    unfold gainsD
    rw [List.length_flatMap]
    simp
  rw [dcgLoopD_eq m hm es 1 0 le_rfl (by omega), idealDcgD_eq m hm T 1 0 le_rfl (by omega)]
  simp only [bind, Except.bind]
  obtain ⟨z0, z1, z2⟩ := ideal_btw m hm T (by omega)
  obtain ⟨x0, x1, x2⟩ := fsum_btw m hm (gainsD m es) hg 1 0 0 0 le_rfl (by omega) (Or.inl rfl) le_rfl
    (by simp) (by simp)
  rw [zero_add, zero_add, hlen] at x1 x2
  rw [← hZdef] at z1 z2
  set X := dsum 1 ((gainsD m es).map (fun x : ℚ => (x : ℝ))) with hXdef
  set Dh := fsum m 1 0 (gainsD m es) with hDh
  set Zh := fsum m 1 0 (List.replicate T 1) with hZh
  have hZ1 : 1 ≤ Z := ideal_ge_one T (by omega)
  have hZp : 0 < Z := by linarith
  have hZle : Z ≤ T := ideal_le T
  have hZhp' : (0 : ℝ) < Zh := lt_of_lt_of_le (mul_pos (pow_pos (by norm_num) _) hZp) z1
  have hZhp : 0 < Zh := by exact_mod_cast hZhp'
  have hX0 : 0 ≤ X := by
    have h := x1
    have hDh0 : (0 : ℝ) ≤ Dh := by exact_mod_cast x0.nonneg
    have h2 := x2.trans' hDh0
    exact nonneg_of_mul_nonneg_right h2 (by positivity)
  unfold fdiv
  rw [if_neg hZhp.ne']
  refine ⟨_, rfl, ?_⟩
  have hT' : (T : ℝ) ≤ 2 ^ 30 := by exact_mod_cast hT
  have hup : (1 + 1 / 2 ^ 52 : ℝ) ^ (3 + T) ≤ 2 := by
    have h1 := pow_up (3 + T) (by omega)
    refine h1.trans ?_
    push_cast
    norm_num
    linarith
  have hratio : Dh / Zh = 0 ∨ 1 / 2 ^ 200 ≤ Dh / Zh := by
    rcases x0 with h | h
    · left; rw [h, zero_div]
    · right
      rw [le_div_iff₀ hZhp]
      have hz : Zh ≤ 2 ^ 40 := by
        have : (Zh : ℝ) ≤ ((2 ^ 40 : ℚ) : ℝ) := by
          push_cast
          refine z2.trans ((mul_le_mul hup (hZle.trans hT') hZp.le (by norm_num)).trans (by norm_num))
        exact_mod_cast this
      refine le_trans ?_ h
      nlinarith
  have hb := f64_btw hratio
  push_cast at hb
  have hq0 : (0 : ℝ) ≤ Dh / Zh := div_nonneg (by exact_mod_cast x0.nonneg) hZhp'.le
  set N := n + 2 * T + 10 with hN
  have hXZ : 0 ≤ X / Z := div_nonneg hX0 hZp.le
  have up : (Dh : ℝ) / Zh ≤ (1 + 1 / 2 ^ 52) ^ (n + 2 * T + 9) * (X / Z) := by
    have a1 : (Dh : ℝ) / Zh ≤ ((1 + 1 / 2 ^ 52) ^ (3 + n) * X) / ((1 - 1 / 2 ^ 52) ^ (3 + T) * Z) :=
      div_le_div₀ (by positivity) x2 (mul_pos (pow_pos (by norm_num) _) hZp) z1
    refine a1.trans ?_
    have a2 := inv_up (3 + T)
    calc ((1 + 1 / 2 ^ 52 : ℝ) ^ (3 + n) * X) / ((1 - 1 / 2 ^ 52) ^ (3 + T) * Z)
        = ((1 + 1 / 2 ^ 52 : ℝ) ^ (3 + n) * (X / Z)) * (1 / (1 - 1 / 2 ^ 52) ^ (3 + T)) := by
          have hne : (1 - 1 / 2 ^ 52 : ℝ) ^ (3 + T) ≠ 0 := (pow_pos (by norm_num) _).ne'
          field_simp
      _ ≤ ((1 + 1 / 2 ^ 52 : ℝ) ^ (3 + n) * (X / Z)) * (1 + 1 / 2 ^ 52) ^ (2 * (3 + T)) :=
          mul_le_mul_of_nonneg_left a2 (by positivity)
      _ = _ := by
          rw [show n + 2 * T + 9 = (3 + n) + 2 * (3 + T) by omega, pow_add]
          ring
  have down : (1 - 1 / 2 ^ 52) ^ (n + 2 * T + 9) * (X / Z) ≤ (Dh : ℝ) / Zh := by
    have a1 : ((1 - 1 / 2 ^ 52) ^ (3 + n) * X) / ((1 + 1 / 2 ^ 52) ^ (3 + T) * Z) ≤ (Dh : ℝ) / Zh :=
      div_le_div₀ (by exact_mod_cast x0.nonneg) x1 hZhp' z2
    refine le_trans ?_ a1
    have a2 := inv_down (3 + T)
    have a3 : (0 : ℝ) ≤ (1 - 1 / 2 ^ 52) ^ (3 + n) := pow_nonneg (by norm_num) _
    calc (1 - 1 / 2 ^ 52 : ℝ) ^ (n + 2 * T + 9) * (X / Z)
        ≤ (1 - 1 / 2 ^ 52 : ℝ) ^ ((3 + n) + (3 + T)) * (X / Z) :=
          mul_le_mul_of_nonneg_right (pow_le_pow_of_le_one (by norm_num) (by norm_num) (by omega)) hXZ
      _ = ((1 - 1 / 2 ^ 52 : ℝ) ^ (3 + n) * (X / Z)) * (1 - 1 / 2 ^ 52) ^ (3 + T) := by
          rw [pow_add]; ring
      _ ≤ ((1 - 1 / 2 ^ 52 : ℝ) ^ (3 + n) * (X / Z)) * (1 / (1 + 1 / 2 ^ 52) ^ (3 + T)) :=
          mul_le_mul_of_nonneg_left a2 (mul_nonneg a3 hXZ)
      _ = _ := by field_simp
  set v : ℝ := (Rnd.ieee.f64 (Dh / Zh) : ℝ) with hv
  have vup : v ≤ (1 + 1 / 2 ^ 52) ^ N * (X / Z) := by
    rw [hN, show n + 2 * T + 10 = (n + 2 * T + 9) + 1 by omega, pow_succ]
    refine hb.2.trans ?_
    calc (1 + 1 / 2 ^ 53 : ℝ) * (Dh / Zh) ≤ (1 + 1 / 2 ^ 52) * (Dh / Zh) :=
          mul_le_mul_of_nonneg_right (by norm_num) hq0
      _ ≤ (1 + 1 / 2 ^ 52) * ((1 + 1 / 2 ^ 52) ^ (n + 2 * T + 9) * (X / Z)) :=
          mul_le_mul_of_nonneg_left up (by norm_num)
      _ = _ := by ring
  have vdown : (1 - 1 / 2 ^ 52) ^ N * (X / Z) ≤ v := by
    rw [hN, show n + 2 * T + 10 = (n + 2 * T + 9) + 1 by omega, pow_succ]
    refine le_trans ?_ hb.1
    have b1 : (1 - 1 / 2 ^ 52) * ((1 - 1 / 2 ^ 52 : ℝ) ^ (n + 2 * T + 9) * (X / Z)) ≤
        (1 - 1 / 2 ^ 52) * ((Dh : ℝ) / Zh) := mul_le_mul_of_nonneg_left down (by norm_num)
    have b2 : (1 - 1 / 2 ^ 52) * ((Dh : ℝ) / Zh) ≤ (1 - 1 / 2 ^ 53) * ((Dh : ℝ) / Zh) :=
      mul_le_mul_of_nonneg_right (by norm_num) hq0
    refine le_trans (le_of_eq ?_) (b1.trans b2)
    ring
  have p1 := pow_up N (by omega)
  have p2 := pow_down N
  set w : ℝ := (N : ℝ) / 2 ^ 52 with hw
  have hw0 : 0 ≤ w := by positivity
  have c1 : v - X / Z ≤ 2 * w * (X / Z) := by
    have := mul_le_mul_of_nonneg_right p1 hXZ
    linarith
  have c2 : -(2 * w * (X / Z)) ≤ v - X / Z := by
    have := mul_le_mul_of_nonneg_right p2 hXZ
    have h3 : 0 ≤ w * (X / Z) := mul_nonneg hw0 hXZ
    linarith
  have c3 : |X / Z - dsum 1 (gains es) / Z| ≤ d := by
    rw [← sub_div, abs_div, abs_of_pos hZp, div_le_iff₀ hZp]
    exact hX
  have c4 : X / Z ≤ 3 / 2 := by
    have := (abs_le.1 c3).2
    linarith [hunit.2]
  have c5 : |v - X / Z| ≤ 3 * w := by
    have : w * (X / Z) ≤ w * (3 / 2) := mul_le_mul_of_nonneg_left c4 hw0
    rw [abs_le]
    constructor <;> linarith
  have c6 : v - dsum 1 (gains es) / Z = (v - X / Z) + (X / Z - dsum 1 (gains es) / Z) := by ring
  rw [c6]
  refine (abs_add_le _ _).trans ?_
  linarith

end

end Kws
