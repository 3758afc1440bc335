import Verif.Lemmas.AP
import Mathlib.Analysis.Convex.SpecificFunctions.Basic

/-! Facts about NDCG -/

set_option linter.unusedSectionVars false

namespace Kws
open Spec

/-- The discount at rank `i`. -/
noncomputable def disc (i : Nat) : ℝ := 1 / Real.logb 2 ((i : ℝ) + 1)

theorem logb_pos' (i : Nat) (hi : 1 ≤ i) : 0 < Real.logb 2 ((i : ℝ) + 1) := by
  refine Real.logb_pos (by norm_num) ?_
  have : (1 : ℝ) ≤ i := by exact_mod_cast hi
  linarith

theorem disc_pos (i : Nat) (hi : 1 ≤ i) : 0 < disc i := by
  unfold disc
  have := logb_pos' i hi
  positivity

theorem disc_anti (i j : Nat) (hi : 1 ≤ i) (hij : i ≤ j) : disc j ≤ disc i := by
  unfold disc
  refine one_div_le_one_div_of_le (logb_pos' i hi) ?_
  refine Real.logb_le_logb_of_le (by norm_num) (by positivity) ?_
  have : (i : ℝ) ≤ j := by exact_mod_cast hij
  linarith

theorem two_rpow_le (r : ℝ) (h0 : 0 ≤ r) (h1 : r ≤ 1) : (2 : ℝ) ^ r - 1 ≤ r := by
  have h := rpow_one_add_le_one_add_mul_self (s := 1) (p := r) (by norm_num) h0 h1
  norm_num at h
  linarith

theorem two_rpow_ge (r : ℝ) (h0 : 0 ≤ r) : 0 ≤ (2 : ℝ) ^ r - 1 := by
  have := Real.one_le_rpow (x := 2) (by norm_num) h0
  linarith

/-- Sum of discounted gains. -/
noncomputable def dsum (i : Nat) (g : List ℝ) : ℝ :=
  ∑ k ∈ Finset.range g.length, g.getD k 0 * disc (i + k)

theorem dsum_cons (i : Nat) (x : ℝ) (g : List ℝ) : dsum i (x :: g) = x * disc i + dsum (i + 1) g := by
  unfold dsum
  rw [List.length_cons, Finset.sum_range_succ']
  simp only [List.getD_cons_zero, List.getD_cons_succ, Nat.add_zero]
  rw [add_comm]
  congr 1
  refine Finset.sum_congr rfl fun k _ => ?_
  rw [show i + (k + 1) = i + 1 + k by omega]

theorem dsum_append (g h : List ℝ) : ∀ i, dsum i (g ++ h) = dsum i g + dsum (i + g.length) h := by
  induction g with
  | nil => intro i; simp [dsum]
  | cons x g ih =>
    intro i
    rw [List.cons_append, dsum_cons, dsum_cons, ih, List.length_cons,
      show i + (g.length + 1) = i + 1 + g.length by omega]
    ring

theorem dcgRun_eq (r : ℝ) (n : Nat) : ∀ i acc, dcgRun r n i acc =
    acc + dsum i (List.replicate n ((2 : ℝ) ^ r - 1)) := by
  induction n with
  | zero => intro i acc; simp [dcgRun, dsum]
  | succ n ih =>
    intro i acc
    rw [dcgRun, ih, List.replicate_succ, dsum_cons, disc]
    ring

section
variable {ε : Type} [IsError ε]

/-- The gains of the hypotheses in rank order. -/
noncomputable def gains (es : List ε) : List ℝ :=
  es.flatMap (fun e => List.replicate (IsError.nh e)
    ((2 : ℝ) ^ (1 - (IsError.fp e : ℝ) / (IsError.nh e : ℝ)) - 1))

theorem dcgLoop_eq (es : List ε) : ∀ i acc, dcgLoop i acc es = acc + dsum i (gains es) := by
  induction es with
  | nil => intro i acc; simp [dcgLoop, gains, dsum]
  | cons e es ih =>
    intro i acc
    have hg : gains (e :: es) = List.replicate (IsError.nh e)
      ((2 : ℝ) ^ (1 - (IsError.fp e : ℝ) / (IsError.nh e : ℝ)) - 1) ++ gains es := rfl
    rw [hg, dsum_append, List.length_replicate, dcgLoop]
    split
    · simp only [ih, dcgRun_eq]
      ring
    · rename_i h
      have : IsError.nh e = 0 := by omega
      rw [this, ih]
      simp [dsum]

theorem idealDcg_eq (n : Nat) : ∀ j z, idealDcg n j z = z + ∑ k ∈ Finset.range n, disc (j + k) := by
  induction n with
  | zero => intro j z; simp [idealDcg]
  | succ n ih =>
    intro j z
    rw [idealDcg, ih, Finset.sum_range_succ', disc, Nat.add_zero, add_assoc]
    congr 1
    rw [add_comm]
    congr 1
    refine Finset.sum_congr rfl fun k _ => ?_
    rw [show j + (k + 1) = j + 1 + k by omega]

theorem gains_bounds (es : List ε) (h : ∀ e ∈ es, ErrOk e) : ∀ x ∈ gains es, 0 ≤ x ∧ x ≤ 1 := by
  intro x hx
  obtain ⟨e, he, hx⟩ := List.mem_flatMap.1 hx
  obtain ⟨hn, rfl⟩ := List.mem_replicate.1 hx
  have hok := h e he
  have hp : (0 : ℝ) < IsError.nh e := by exact_mod_cast Nat.pos_of_ne_zero hn
  have hr0 : (0 : ℝ) ≤ IsError.fp e := by exact_mod_cast hok.fp0
  have hr1 : (IsError.fp e : ℝ) ≤ IsError.nh e := by exact_mod_cast hok.fp1
  have a : 0 ≤ 1 - (IsError.fp e : ℝ) / IsError.nh e := by
    rw [sub_nonneg, div_le_one hp]; exact hr1
  have b : 1 - (IsError.fp e : ℝ) / IsError.nh e ≤ 1 := by
    have := div_nonneg hr0 hp.le; linarith
  exact ⟨two_rpow_ge _ a, le_trans (two_rpow_le _ a b) b⟩

theorem gains_sum (es : List ε) (h : ∀ e ∈ es, ErrOk e) :
    (gains es).sum ≤ (es.map (fun e => ((IsError.nh e : ℝ) - (IsError.fp e : ℝ)))).sum := by
  induction es with
  | nil => simp [gains]
  | cons e es ih =>
    have hg : gains (e :: es) = List.replicate (IsError.nh e)
      ((2 : ℝ) ^ (1 - (IsError.fp e : ℝ) / (IsError.nh e : ℝ)) - 1) ++ gains es := rfl
    rw [hg, List.sum_append, List.map_cons, List.sum_cons, List.sum_replicate, nsmul_eq_mul]
    have ih' := ih (fun x hx => h x (by simp [hx]))
    refine add_le_add ?_ ih'
    have hok := h e (by simp)
    have hr0 : (0 : ℝ) ≤ IsError.fp e := by exact_mod_cast hok.fp0
    have hr1 : (IsError.fp e : ℝ) ≤ IsError.nh e := by exact_mod_cast hok.fp1
    rcases Nat.eq_zero_or_pos (IsError.nh e) with h0 | h0
    · rw [h0] at hr1 ⊢
      simp only [Nat.cast_zero, zero_mul] at *
      linarith
    · have hp : (0 : ℝ) < IsError.nh e := by exact_mod_cast h0
      have a : 0 ≤ 1 - (IsError.fp e : ℝ) / IsError.nh e := by
        rw [sub_nonneg, div_le_one hp]; exact hr1
      have b : 1 - (IsError.fp e : ℝ) / IsError.nh e ≤ 1 := by
        have := div_nonneg hr0 hp.le; linarith
      calc (IsError.nh e : ℝ) * ((2 : ℝ) ^ (1 - (IsError.fp e : ℝ) / (IsError.nh e : ℝ)) - 1)
          ≤ IsError.nh e * (1 - (IsError.fp e : ℝ) / IsError.nh e) :=
            mul_le_mul_of_nonneg_left (two_rpow_le _ a b) hp.le
        _ = IsError.nh e - IsError.fp e := by field_simp

end

theorem getD_sum (g : List ℝ) : ∀ n, g.length ≤ n → ∑ k ∈ Finset.range n, g.getD k 0 = g.sum := by
  induction g with
  | nil => intro n _; simp
  | cons x g ih =>
    intro n hn
    cases n with
    | zero => simp at hn
    | succ n =>
      rw [Finset.sum_range_succ']
      simp only [List.getD_cons_zero, List.getD_cons_succ, List.sum_cons]
      rw [ih n (by simpa using hn), add_comm]

theorem dsum_extend (g : List ℝ) (i n : Nat) (hn : g.length ≤ n) :
    dsum i g = ∑ k ∈ Finset.range n, g.getD k 0 * disc (i + k) := by
  unfold dsum
  refine Finset.sum_subset (by
    intro k hk; rw [Finset.mem_range] at *; omega) fun k _ hk => ?_
  rw [Finset.mem_range, not_lt] at hk
  rw [List.getD_eq_getElem?_getD, List.getElem?_eq_none hk]
  simp

/-- Rearrangement: gains in [0,1] of total at most `n` are best placed on the first `n` ranks. -/
theorem dsum_le (g : List ℝ) (i n : Nat) (hi : 1 ≤ i) (hg : ∀ x ∈ g, 0 ≤ x ∧ x ≤ 1)
    (hs : g.sum ≤ n) : dsum i g ≤ ∑ k ∈ Finset.range n, disc (i + k) := by
  have hb : ∀ k, 0 ≤ g.getD k 0 ∧ g.getD k 0 ≤ 1 := by
    intro k
    rw [List.getD_eq_getElem?_getD]
    cases h : g[k]? with
    | none => simp
    | some x => exact hg x (List.mem_of_getElem? h)
  set M := max g.length n
  have h1 : dsum i g = ∑ k ∈ Finset.range M, g.getD k 0 * (disc (i + k) - disc (i + n)) +
      disc (i + n) * g.sum := by
    rw [dsum_extend g i M (le_max_left _ _), ← getD_sum g M (le_max_left _ _), Finset.mul_sum,
      ← Finset.sum_add_distrib]
    refine Finset.sum_congr rfl fun k _ => by ring
  have h2 : ∑ k ∈ Finset.range M, g.getD k 0 * (disc (i + k) - disc (i + n)) ≤
      ∑ k ∈ Finset.range n, (disc (i + k) - disc (i + n)) := by
    have h3 : ∑ k ∈ Finset.range n, (disc (i + k) - disc (i + n)) =
        ∑ k ∈ Finset.range M, if k < n then disc (i + k) - disc (i + n) else 0 := by
      rw [← Finset.sum_filter]
      refine Finset.sum_congr ?_ fun _ _ => rfl
      ext k
      simp only [Finset.mem_range, Finset.mem_filter, M]
      omega
    rw [h3]
    refine Finset.sum_le_sum fun k _ => ?_
    obtain ⟨b0, b1⟩ := hb k
    split
    · rename_i hk
      have := disc_anti (i + k) (i + n) (by omega) (by omega)
      exact mul_le_of_le_one_left (by linarith) b1
    · rename_i hk
      have := disc_anti (i + n) (i + k) (by omega) (by omega)
      exact mul_nonpos_of_nonneg_of_nonpos b0 (by linarith)
  have h4 : disc (i + n) * g.sum ≤ disc (i + n) * n :=
    mul_le_mul_of_nonneg_left hs (disc_pos _ (by omega)).le
  rw [h1]
  refine le_trans (add_le_add h2 h4) ?_
  rw [Finset.sum_sub_distrib, Finset.sum_const, Finset.card_range, nsmul_eq_mul]
  linarith

theorem dsum_nonneg (g : List ℝ) (i : Nat) (hi : 1 ≤ i) (hg : ∀ x ∈ g, 0 ≤ x ∧ x ≤ 1) :
    0 ≤ dsum i g := by
  unfold dsum
  refine Finset.sum_nonneg fun k _ => mul_nonneg ?_ (disc_pos _ (by omega)).le
  rw [List.getD_eq_getElem?_getD]
  cases h : g[k]? with
  | none => simp
  | some x => exact (hg x (List.mem_of_getElem? h)).1

theorem ideal_pos (n : Nat) (hn : 0 < n) : 0 < ∑ k ∈ Finset.range n, disc (1 + k) := by
  refine Finset.sum_pos (fun k _ => disc_pos _ (by omega)) ?_
  exact ⟨0, Finset.mem_range.2 hn⟩

section
variable {ε : Type} [IsError ε]

theorem computeNDCG_eq (es : List ε) : computeNDCG es =
    if (es.map IsError.nr).sum = 0 then 0 else
      dsum 1 (gains es) / ∑ k ∈ Finset.range (es.map IsError.nr).sum, disc (1 + k) := by
  unfold computeNDCG
  simp only [numTotal_eq, dcgLoop_eq, idealDcg_eq, zero_add]
  split
  · rename_i h; rw [if_neg (by omega)]
  · rename_i h; rw [if_pos (by omega)]

theorem computeNDCG_unit (es : List ε) (h : ∀ e ∈ es, ErrOk e)
    (hs : (es.map (fun e => ((IsError.nh e : ℝ) - (IsError.fp e : ℝ)))).sum ≤ (es.map IsError.nr).sum) :
    0 ≤ computeNDCG es ∧ computeNDCG es ≤ 1 := by
  rw [computeNDCG_eq]
  split
  · norm_num
  · rename_i h0
    have hp := ideal_pos _ (Nat.pos_of_ne_zero h0)
    have hb := gains_bounds es h
    refine ⟨div_nonneg (dsum_nonneg _ 1 le_rfl hb) hp.le, ?_⟩
    rw [div_le_one hp]
    exact dsum_le _ 1 _ le_rfl hb (le_trans (gains_sum es h) (by exact_mod_cast hs))

theorem computeNDCG_perfect (es : List ε) (h : ∀ e ∈ es, IsError.fp e = 0)
    (hs : (es.map IsError.nh).sum = (es.map IsError.nr).sum) (hp : 0 < (es.map IsError.nr).sum) :
    computeNDCG es = 1 := by
  rw [computeNDCG_eq, if_neg hp.ne']
  have hg : gains es = List.replicate (es.map IsError.nr).sum 1 := by
    rw [← hs]
    clear hs hp
    induction es with
    | nil => rfl
    | cons e es ih =>
      have hg : gains (e :: es) = List.replicate (IsError.nh e)
        ((2 : ℝ) ^ (1 - (IsError.fp e : ℝ) / (IsError.nh e : ℝ)) - 1) ++ gains es := rfl
      rw [hg, ih (fun x hx => h x (by simp [hx])), h e (by simp), List.map_cons, List.sum_cons,
        List.replicate_add]
      norm_num
  rw [hg, div_eq_one_iff_eq (ideal_pos _ hp).ne']
  unfold dsum
  rw [List.length_replicate]
  refine Finset.sum_congr rfl fun k hk => ?_
  rw [Finset.mem_range] at hk
  rw [List.getD_eq_getElem?_getD, List.getElem?_replicate, if_pos hk]
  simp

end

end Kws
