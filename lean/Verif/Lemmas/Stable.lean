import Verif.Lemmas.Endings
import Verif.Lemmas.Rounding

/-!
# Confidence bounds depend continuously on the statistic
-/

namespace Kws
open Spec

/-- In a sorted list, more than `k` entries are at most the `k`-th. -/
theorem sorted_count_ge {l : List ℝ} (hs : l.Pairwise (· ≤ ·)) (k : ℕ) (hk : k < l.length) (t : ℝ)
    (h : l[k] ≤ t) : k + 1 ≤ l.countP (fun x => decide (x ≤ t)) := by
  have e : l = l.take (k + 1) ++ l.drop (k + 1) := (List.take_append_drop _ _).symm
  have : (l.take (k + 1)).countP (fun x => decide (x ≤ t)) = (l.take (k + 1)).length := by
    rw [List.countP_eq_length]
    intro x hx
    obtain ⟨i, hi, rfl⟩ := List.mem_iff_getElem.1 hx
    rw [List.length_take] at hi
    rw [List.getElem_take, decide_eq_true_eq]
    refine le_trans ?_ h
    rcases Nat.lt_or_ge i k with hik | hik
    · exact List.pairwise_iff_getElem.1 hs i k _ _ hik
    · have : i = k := by omega
      subst this; exact le_rfl
  rw [e, List.countP_append, this, List.length_take]
  omega

/-- If more than `k` entries of a sorted list are at most `t`, so is the `k`-th. -/
theorem sorted_count_le {l : List ℝ} (hs : l.Pairwise (· ≤ ·)) (k : ℕ) (hk : k < l.length) (t : ℝ)
    (h : k + 1 ≤ l.countP (fun x => decide (x ≤ t))) : l[k] ≤ t := by
  by_contra hc
  push Not at hc
  have e : l = l.take k ++ l.drop k := (List.take_append_drop _ _).symm
  have : (l.drop k).countP (fun x => decide (x ≤ t)) = 0 := by
    rw [List.countP_eq_zero]
    intro x hx
    obtain ⟨i, hi, rfl⟩ := List.mem_iff_getElem.1 hx
    rw [List.length_drop] at hi
    rw [List.getElem_drop, decide_eq_true_eq, not_le]
    refine lt_of_lt_of_le hc ?_
    rcases Nat.eq_zero_or_pos i with rfl | hp
    · exact le_rfl
    · exact List.pairwise_iff_getElem.1 hs k (k + i) _ _ (by omega)
  rw [e, List.countP_append, this] at h
  have h1 := List.countP_le_length (p := fun x => decide (x ≤ t)) (l := l.take k)
  rw [List.length_take] at h1
  omega

theorem count_near {a b : List ℝ} {δ : ℝ} (h : List.Forall₂ (fun x y => |x - y| ≤ δ) a b) (t : ℝ) :
    a.countP (fun x => decide (x ≤ t)) ≤ b.countP (fun x => decide (x ≤ t + δ)) := by
  induction h with
  | nil => simp
  | @cons x y a b h _ ih =>
    rw [List.countP_cons, List.countP_cons]
    have hxy := abs_le.1 h
    by_cases hx : x ≤ t
    · have hy : y ≤ t + δ := by linarith [hxy.1]
      simp only [hx, hy, decide_true, if_true]
      omega
    · simp only [hx, decide_false, Bool.false_eq_true, if_false]
      omega

/-- Sorting does not move lists apart. -/
theorem sorted_near {a b a' b' : List ℝ} {δ : ℝ} (h : List.Forall₂ (fun x y => |x - y| ≤ δ) a b)
    (ha : a'.Perm a) (hb : b'.Perm b) (sa : a'.Pairwise (· ≤ ·)) (sb : b'.Pairwise (· ≤ ·)) (k : ℕ)
    (hk : k < a'.length) (hk' : k < b'.length) : |a'[k] - b'[k]| ≤ δ := by
  have h' : List.Forall₂ (fun x y => |x - y| ≤ δ) b a :=
    h.flip.imp fun x y hxy => by rw [abs_sub_comm]; exact hxy
  rw [abs_le]
  constructor
  · have h1 := sorted_count_ge sa k hk _ le_rfl
    rw [ha.countP_eq] at h1
    have h2 := h1.trans (count_near h _)
    rw [← hb.countP_eq] at h2
    have := sorted_count_le sb k hk' _ h2
    linarith
  · have h1 := sorted_count_ge sb k hk' _ le_rfl
    rw [hb.countP_eq] at h1
    have h2 := h1.trans (count_near h' _)
    rw [← ha.countP_eq] at h2
    have := sorted_count_le sa k hk _ h2
    linarith

theorem successive_unique {C G : Type} {sampler : G → Cpp (C × G)} {g : G} {cs cs' : List C}
    (h : Successive sampler g cs) (h' : Successive sampler g cs') (hl : cs.length = cs'.length) :
    cs = cs' := by
  induction h generalizing cs' with
  | nil g => cases h' with
    | nil => rfl
    | cons => simp at hl
  | cons g g' c cs e _ ih =>
    cases h' with
    | nil => simp at hl
    | cons _ g'' c' cs' e' h' =>
      rw [e] at e'
      injection e' with e'
      rw [Prod.mk.injEq] at e'
      obtain ⟨rfl, rfl⟩ := e'
      rw [ih h' (by simpa using hl)]

theorem successive_all {C G : Type} {sampler : G → Cpp (C × G)} {g : G} {cs : List C}
    (h : Successive sampler g cs) (P : C → Prop) (hP : ∀ g c g', sampler g = .ok (c, g') → P c) :
    ∀ c ∈ cs, P c := by
  induction h with
  | nil => simp
  | cons g g' c cs e _ ih =>
    intro x hx
    rcases List.mem_cons.1 hx with rfl | hx
    · exact hP _ _ _ e
    · exact ih x hx

/-- A rounded difference of rounded statistics. -/
theorem round_sub_near (x y : ℚ) (x' y' : ℝ) (d e b : ℝ) (hx : |(x : ℝ) - x'| ≤ d)
    (hy : |(y : ℝ) - y'| ≤ e) (c : ℚ) (hc : 1 ≤ c) (hb : |x - y| ≤ c) (hcb : (c : ℝ) / 2 ^ 53 ≤ b) :
    |(Rnd.ieee.f64 (x - y) : ℝ) - (x' - y')| ≤ d + e + b := by
  have h1 := ieee_relErr (x - y) c hb hc
  have h2 : |(Rnd.ieee.f64 (x - y) : ℝ) - ((x : ℝ) - y)| ≤ c / 2 ^ 53 := by
    have := (Rat.cast_le (K := ℝ)).2 h1
    push_cast at this
    exact this
  rw [abs_le] at *
  constructor <;> linarith [h2.1, h2.2]

section
variable {G M : Type}

/-- The percentile interval of a statistic in `double` that is within `ε` of an exact one in [0,1]:
both computations are defined or neither is, and the bounds are within `3 ε + 2^-48`. -/
theorem percentile_near (S : StdSort) (rng : Rng G) (o : ToolOptions) (groups : List (List M))
    (sD : List (List M) → Cpp ℚ) (s : List (List M) → Cpp ℝ) (ε : ℝ) (hε : ε ≤ 1)
    (h : ∀ sample, Resample groups sample → ∃ v v', sD sample = .ok v ∧ s sample = .ok v' ∧
      0 ≤ v' ∧ v' ≤ 1 ∧ |(v : ℝ) - v'| ≤ ε) :
    (∃ v lo hi v' lo' hi',
      percentileCIGrouped Rnd.ieee S Rnd.ieee.f64 rng groups o.samples o.alpha o.seed sD =
        .ok (v, lo, hi) ∧
      percentileCIGrouped Rnd.ieee S id rng groups o.samples o.alpha o.seed s = .ok (v', lo', hi') ∧
      |(v : ℝ) - v'| ≤ ε ∧ |(lo : ℝ) - lo'| ≤ 3 * ε + 1 / 2 ^ 48 ∧
      |(hi : ℝ) - hi'| ≤ 3 * ε + 1 / 2 ^ 48) ∨
    (percentileCIGrouped Rnd.ieee S Rnd.ieee.f64 rng groups o.samples o.alpha o.seed sD =
        .error .ub ∧
      percentileCIGrouped Rnd.ieee S id rng groups o.samples o.alpha o.seed s = .error .ub) := by
  classical
  by_cases hi : IndicesOk Rnd.ieee o
  swap
  · right
    exact ⟨percentile_ub Rnd.ieee S Rnd.ieee.f64 rng o groups sD
        (fun c hc => by obtain ⟨v, _, e, _⟩ := h c hc; exact ⟨v, e⟩) hi,
      percentile_ub Rnd.ieee S id rng o groups s
        (fun c hc => by obtain ⟨_, v, _, e, _⟩ := h c hc; exact ⟨v, e⟩) hi⟩
  left
  obtain ⟨li, ui, e1, e2, l1, l2⟩ := hi
  obtain ⟨v, v', hv, hv', u0, u1, hvv⟩ := h groups (resample_self groups)
  let fD : List (List M) → ℚ := fun c => match sD c with | .ok x => x | .error _ => 0
  let f : List (List M) → ℝ := fun c => match s c with | .ok x => x | .error _ => 0
  have hsam : ∀ g c g', matchesByQuerySampler rng groups g = .ok (c, g') → Resample groups c := by
    intro g c g' e
    obtain ⟨c', g'', e', hr⟩ := C40_shape rng groups g
    rw [e] at e'
    injection e' with e'
    rw [Prod.mk.injEq] at e'
    rw [e'.1]; exact hr
  have hstot : ∀ g, ∃ c g', matchesByQuerySampler rng groups g = .ok (c, g') := fun g => by
    obtain ⟨c, g', e, _⟩ := C40_shape rng groups g
    exact ⟨c, g', e⟩
  have hf : ∀ c, Resample groups c → sD c = .ok (fD c) ∧ s c = .ok (f c) ∧ 0 ≤ f c ∧ f c ≤ 1 ∧
      |(fD c : ℝ) - f c| ≤ ε := by
    intro c hc
    obtain ⟨x, y, a1, a2, a3, a4, a5⟩ := h c hc
    have b1 : fD c = x := by simp only [fD, a1]
    have b2 : f c = y := by simp only [f, a2]
    rw [b1, b2]
    exact ⟨a1, a2, a3, a4, a5⟩
  obtain ⟨cs, devs, dl, du, p1, p2, p3, p4, p5, p6, p7⟩ := percentileCI_eq Rnd.ieee S Rnd.ieee.f64 groups
    o.samples o.alpha sD (matchesByQuerySampler rng groups) (rng.seed o.seed) v fD li ui hv hstot
    (fun g c g' e => (hf c (hsam g c g' e)).1) e1 e2 l1 l2
  obtain ⟨cs', devs', dl', du', q1, q2, q3, q4, q5, q6, q7⟩ := percentileCI_eq Rnd.ieee S id groups
    o.samples o.alpha s (matchesByQuerySampler rng groups) (rng.seed o.seed) v' f li ui hv' hstot
    (fun g c g' e => (hf c (hsam g c g' e)).2.1) e1 e2 l1 l2
  obtain rfl := successive_unique p1 q1 (p2.trans q2.symm)
  have hall := successive_all p1 (Resample groups) hsam
  have hv2 : |v| ≤ 2 := by
    have : |(v : ℝ)| ≤ 2 := by
      rw [abs_le] at hvv ⊢
      constructor <;> linarith [hvv.1, hvv.2]
    exact_mod_cast this
  -- the deviations
  have hd : ∀ c ∈ cs, |(Rnd.ieee.f64 (fD c - v) : ℝ) - (f c - v')| ≤ 2 * ε + 1 / 2 ^ 51 ∧
      |f c - v'| ≤ 1 := by
    intro c hc
    obtain ⟨_, _, g0, g1, gg⟩ := hf c (hall c hc)
    have hx2 : |fD c| ≤ 2 := by
      have : |(fD c : ℝ)| ≤ 2 := by
        rw [abs_le] at gg ⊢
        constructor <;> linarith [gg.1, gg.2]
      exact_mod_cast this
    refine ⟨?_, ?_⟩
    · have := round_sub_near (fD c) v (f c) v' ε ε (1 / 2 ^ 51) gg hvv 4 (by norm_num)
        (by rw [abs_le] at *; constructor <;> linarith [hx2.1, hx2.2, hv2.1, hv2.2]) (by norm_num)
      linarith
    · rw [abs_le]; constructor <;> linarith
  have hdev : List.Forall₂ (fun x y : ℝ => |x - y| ≤ 2 * ε + 1 / 2 ^ 51)
      (cs.map (fun c => ((Rnd.ieee.f64 (fD c - v) : ℚ) : ℝ))) (cs.map (fun c => f c - v')) := by
    rw [List.forall₂_map_left_iff, List.forall₂_map_right_iff]
    exact List.forall₂_same.2 fun c hc => (hd c hc).1
  have hperm : (devs.map (fun x : ℚ => (x : ℝ))).Perm
      (cs.map (fun c => ((Rnd.ieee.f64 (fD c - v) : ℚ) : ℝ))) := by
    have := p3.map (fun x : ℚ => (x : ℝ))
    rwa [List.map_map] at this
  have hsort : (devs.map (fun x : ℚ => (x : ℝ))).Pairwise (· ≤ ·) := by
    rw [List.pairwise_map]
    exact p4.imp fun hxy => by exact_mod_cast hxy
  have key : ∀ (i : ℕ) (d : ℚ) (d' : ℝ), devs[i]? = some d → devs'[i]? = some d' →
      |(Rnd.ieee.f64 (v - d) : ℝ) - (v' - d')| ≤ 3 * ε + 1 / 2 ^ 48 := by
    intro i d d' a b
    obtain ⟨ha, a⟩ := List.getElem?_eq_some_iff.1 a
    obtain ⟨hb, b⟩ := List.getElem?_eq_some_iff.1 b
    have hn := sorted_near hdev hperm q3 hsort q4 i (by simpa using ha) hb
    rw [List.getElem_map, a, b] at hn
    have hd' : |d'| ≤ 1 := by
      have : d' ∈ devs' := b ▸ List.getElem_mem hb
      obtain ⟨c, hc, rfl⟩ := List.mem_map.1 (q3.mem_iff.1 this)
      exact (hd c hc).2
    have hd4 : |d| ≤ 4 := by
      have : |(d : ℝ)| ≤ 4 := by
        rw [abs_le] at hn hd' ⊢
        have : (1 : ℝ) / 2 ^ 51 ≤ 1 := by norm_num
        constructor <;> linarith [hn.1, hn.2, hd'.1, hd'.2]
      exact_mod_cast this
    have := round_sub_near v d v' d' ε (2 * ε + 1 / 2 ^ 51) (1 / 2 ^ 50) hvv hn 8 (by norm_num)
      (by rw [abs_le] at *; constructor <;> linarith [hd4.1, hd4.2, hv2.1, hv2.2]) (by norm_num)
    have h48 : (1 : ℝ) / 2 ^ 51 + 1 / 2 ^ 50 ≤ 1 / 2 ^ 48 := by norm_num
    linarith
  exact ⟨v, _, _, v', _, _, p7, q7, hvv, key _ _ _ p5 q5, key _ _ _ p6 q6⟩

end

end Kws
