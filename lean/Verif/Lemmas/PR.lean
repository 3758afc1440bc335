import Verif.Model.Assessment
import Verif.Model.Ieee
import Verif.Spec.Assessment
import Verif.Lemmas.Ieee
import Verif.Lemmas.Tactics
import Mathlib.Algebra.BigOperators.Intervals
import Mathlib.Algebra.Order.BigOperators.Group.Finset
import Mathlib.Algebra.Order.BigOperators.Group.List

/-! Facts about precision, recall and average precision -/

set_option linter.unusedSectionVars false

namespace Kws
open Spec

/-! ## Errors -/

/-- Counts bound the masses. -/
structure ErrOk {ε : Type} [IsError ε] (e : ε) : Prop where
  fp0 : 0 ≤ IsError.fp e
  fp1 : IsError.fp e ≤ (IsError.nh e : ℚ)
  fn0 : 0 ≤ IsError.fn e
  fn1 : IsError.fn e ≤ (IsError.nr e : ℚ)

theorem rates_cases (e : MatchError) (h : Rates e) :
    (e.fp = 0 ∧ e.fn = 1 ∧ e.nh = 0 ∧ e.nr = 1) ∨ (e.fp = 1 ∧ e.fn = 0 ∧ e.nh = 1 ∧ e.nr = 0) ∨
    (e.nh = 1 ∧ e.nr = 1) := by
  obtain ⟨h1, h2, h3, h4⟩ := h
  by_cases a : e.fp = 0 ∧ e.fn = 1
  · left
    refine ⟨a.1, a.2, ?_, ?_⟩ <;> simp [MatchError.nh, MatchError.nr, a.1, a.2]
  · by_cases b : e.fp = 1 ∧ e.fn = 0
    · right; left
      refine ⟨b.1, b.2, ?_, ?_⟩ <;> simp [MatchError.nh, MatchError.nr, b.1, b.2]
    · right; right
      constructor
      · unfold MatchError.nh
        refine if_pos ?_
        by_contra hc
        push Not at hc
        exact a ⟨le_antisymm hc.1 h1, le_antisymm h4 hc.2⟩
      · unfold MatchError.nr
        refine if_pos ?_
        by_contra hc
        push Not at hc
        exact b ⟨le_antisymm h2 hc.1, le_antisymm hc.2 h3⟩

theorem rates_errOk (e : MatchError) (h : Rates e) : ErrOk e := by
  have := h
  obtain ⟨h1, h2, h3, h4⟩ := this
  rcases rates_cases e h with ⟨a, b, c, d⟩ | ⟨a, b, c, d⟩ | ⟨c, d⟩ <;>
    constructor <;> simp only [IsError.fp, IsError.fn, IsError.nh, IsError.nr, *] <;>
    norm_num [*]

theorem nh_le_one (e : MatchError) : e.nh ≤ 1 := by unfold MatchError.nh; split <;> omega
theorem nr_le_one (e : MatchError) : e.nr ≤ 1 := by unfold MatchError.nr; split <;> omega

/-! ## The loop -/

section
variable {ε : Type} [IsError ε]

/-- All running sums after a prefix. -/
def PRSums.run (R : Rnd) (s : PRSums) (es : List ε) : PRSums := es.foldl (PRSums.step R) s

theorem prLoop_length (R : Rnd) (TR : Nat) (es : List ε) : ∀ s, (prLoop R TR s es).length = es.length := by
  induction es with
  | nil => intro s; rfl
  | cons e es ih => intro s; simp [prLoop, ih]

theorem prLoop_get (R : Rnd) (TR : Nat) (es : List ε) : ∀ s k, k < es.length →
    (prLoop R TR s es)[k]? =
      some ((s.run R (es.take (k + 1))).precision R, (s.run R (es.take (k + 1))).recall R TR) := by
  induction es with
  | nil => intro s k hk; simp at hk
  | cons e es ih =>
    intro s k hk
    cases k with
    | zero => simp [prLoop, PRSums.run]
    | succ k =>
      have := ih (s.step R e) k (by simpa using hk)
      simp only [prLoop, List.getElem?_cons_succ, this]
      simp [PRSums.run]

theorem numTotal_eq (es : List ε) : numTotalReferences es = (es.map IsError.nr).sum := by
  unfold numTotalReferences
  have : ∀ (es : List ε) a, es.foldl (fun a e => a + IsError.nr e) a = a + (es.map IsError.nr).sum := by
    intro es
    induction es with
    | nil => simp
    | cons e es ih => intro a; simp [ih, add_assoc]
  simpa using this es 0

theorem run_counts (R : Rnd) (es : List ε) : ∀ s : PRSums,
    (s.run R es).sumNR = s.sumNR + (es.map IsError.nr).sum ∧
    (s.run R es).sumNH = s.sumNH + (es.map IsError.nh).sum := by
  induction es with
  | nil => intro s; simp [PRSums.run]
  | cons e es ih =>
    intro s
    have := ih (s.step R e)
    simp only [PRSums.run, List.foldl_cons] at *
    rw [this.1, this.2]
    simp [PRSums.step, add_assoc]

theorem run_exact (es : List ε) : ∀ s : PRSums,
    (s.run Rnd.exact es).sumFP = s.sumFP + (es.map IsError.fp).sum ∧
    (s.run Rnd.exact es).sumFN = s.sumFN + (es.map IsError.fn).sum := by
  induction es with
  | nil => intro s; simp [PRSums.run]
  | cons e es ih =>
    intro s
    have := ih (s.step Rnd.exact e)
    simp only [PRSums.run, List.foldl_cons] at *
    rw [this.1, this.2]
    simp [PRSums.step, Rnd.exact, add_assoc]

/-- `double` represents all counts up to `n`. -/
def Fits64 (R : Rnd) (n : Nat) : Prop := ∀ m : Nat, m ≤ n → R.f64 m = m

/-- `float` represents all counts up to `n`. -/
def Fits32 (R : Rnd) (n : Nat) : Prop := ∀ m : Nat, m ≤ n → R.f32 m = m

theorem fits64_exact (n : Nat) : Fits64 Rnd.exact n := fun _ _ => rfl
theorem fits32_exact (n : Nat) : Fits32 Rnd.exact n := fun _ _ => rfl
theorem fits64_of (R : Rnd) (hR : R.Faithful) (n : Nat) (h : n ≤ 2 ^ 53) : Fits64 R n :=
  fun m hm => hR.nat64 m (le_trans hm h)
theorem fits32_of (R : Rnd) (hR : R.Faithful) (n : Nat) (h : n ≤ 2 ^ 24) : Fits32 R n :=
  fun m hm => hR.nat32 m (le_trans hm h)

/-- The sums stay between zero and the counts. -/
theorem run_bounds (R : Rnd) (hR : R.Faithful) (es : List ε) (hes : ∀ e ∈ es, ErrOk e) :
    ∀ s : PRSums, 0 ≤ s.sumFP → s.sumFP ≤ s.sumNH → 0 ≤ s.sumFN → s.sumFN ≤ s.sumNR →
    Fits64 R (s.sumNH + (es.map IsError.nh).sum) → Fits64 R (s.sumNR + (es.map IsError.nr).sum) →
    0 ≤ (s.run R es).sumFP ∧ (s.run R es).sumFP ≤ (s.run R es).sumNH ∧
    0 ≤ (s.run R es).sumFN ∧ (s.run R es).sumFN ≤ (s.run R es).sumNR := by
  induction es with
  | nil => intro s a b c d _ _; exact ⟨a, b, c, d⟩
  | cons e es ih =>
    intro s a b c d f g
    have he := hes e (by simp)
    simp only [List.map_cons, List.sum_cons] at f g
    refine ih (fun x hx => hes x (by simp [hx])) (s.step R e) ?_ ?_ ?_ ?_ ?_ ?_
    · exact hR.nonneg64 (add_nonneg a he.fp0)
    · simp only [PRSums.step]
      rw [← f (s.sumNH + IsError.nh e) (by omega)]
      refine hR.mono64 _ _ ?_
      push_cast
      exact add_le_add b he.fp1
    · exact hR.nonneg64 (add_nonneg c he.fn0)
    · simp only [PRSums.step]
      rw [← g (s.sumNR + IsError.nr e) (by omega)]
      refine hR.mono64 _ _ ?_
      push_cast
      exact add_le_add d he.fn1
    · intro m hm; simp only [PRSums.step] at hm; exact f m (by omega)
    · intro m hm; simp only [PRSums.step] at hm; exact g m (by omega)

theorem precision_bounds (R : Rnd) (hR : R.Faithful) (s : PRSums) (h0 : 0 ≤ s.sumFP)
    (h1 : s.sumFP ≤ s.sumNH) (hf : R.f64 s.sumNH = s.sumNH) :
    0 ≤ s.precision R ∧ s.precision R ≤ 1 := by
  unfold PRSums.precision
  split
  · rw [hf]
    have hn : (0 : ℚ) ≤ s.sumNH := by positivity
    have a : R.f64 (s.sumFP / s.sumNH) ≤ 1 := hR.le_one64 (div_le_one_of_le₀ h1 hn)
    have b : 0 ≤ R.f64 (s.sumFP / s.sumNH) := hR.nonneg64 (div_nonneg h0 hn)
    exact ⟨hR.nonneg64 (by linarith), hR.le_one64 (by linarith)⟩
  · norm_num

theorem recall_bounds (R : Rnd) (hR : R.Faithful) (s : PRSums) (TR : Nat) (h0 : 0 ≤ s.sumFN)
    (h1 : s.sumFN ≤ s.sumNR) (h2 : s.sumNR ≤ TR) (hf : Fits64 R TR) :
    0 ≤ s.recall R TR ∧ s.recall R TR ≤ 1 := by
  unfold PRSums.recall
  split
  · rw [hf TR le_rfl, hf s.sumNR h2]
    have hn : (0 : ℚ) ≤ TR := by positivity
    have a : 0 ≤ R.f64 (s.sumNR - s.sumFN) := hR.nonneg64 (by linarith)
    have b : R.f64 (s.sumNR - s.sumFN) ≤ TR := by
      rw [← hf TR le_rfl]
      refine hR.mono64 _ _ ?_
      have : (s.sumNR : ℚ) ≤ TR := by exact_mod_cast h2
      linarith
    exact ⟨hR.nonneg64 (div_nonneg a hn), hR.le_one64 (div_le_one_of_le₀ b hn)⟩
  · norm_num

theorem sum_take_le (f : ε → Nat) (es : List ε) (k : Nat) :
    ((es.take k).map f).sum ≤ (es.map f).sum := by
  conv_rhs => rw [← List.take_append_drop k es, List.map_append, List.sum_append]
  omega

/-- Every point of the curve is in the unit square. -/
theorem prLoop_bounds (R : Rnd) (hR : R.Faithful) (es : List ε) (hes : ∀ e ∈ es, ErrOk e)
    (hh : Fits64 R (es.map IsError.nh).sum) (hr : Fits64 R (es.map IsError.nr).sum) :
    ∀ p ∈ prLoop R (numTotalReferences es) {} es, 0 ≤ p.1 ∧ p.1 ≤ 1 ∧ 0 ≤ p.2 ∧ p.2 ≤ 1 := by
  intro p hp
  obtain ⟨k, hk, rfl⟩ := List.mem_iff_getElem.1 hp
  have hk' : k < es.length := by rwa [prLoop_length] at hk
  have hg := prLoop_get R (numTotalReferences es) es {} k hk'
  rw [List.getElem?_eq_getElem hk, Option.some.injEq] at hg
  rw [hg]
  have c := run_counts R (es.take (k + 1)) {}
  have l1 := sum_take_le IsError.nh es (k + 1)
  have l2 := sum_take_le IsError.nr es (k + 1)
  simp only [zero_add] at c
  have b := run_bounds R hR (es.take (k + 1)) (fun e he => hes e (List.mem_of_mem_take he)) {}
    le_rfl (by simp) le_rfl (by simp) (fun m hm => hh m (by simp only [zero_add] at hm; omega))
    (fun m hm => hr m (by simp only [zero_add] at hm; omega))
  have b1 := precision_bounds R hR _ b.1 b.2.1 (hh _ (by rw [c.2]; exact l1))
  have b2 := recall_bounds R hR _ (numTotalReferences es) b.2.2.1 b.2.2.2
    (by rw [c.1, numTotal_eq]; exact l2) (by rw [numTotal_eq]; exact hr)
  exact ⟨b1.1, b1.2, b2.1, b2.2⟩

/-! ## Interpolation -/

theorem interpolate_length (l : List ℚ) : (interpolate l).length = l.length := by
  induction l with
  | nil => rfl
  | cons p ps ih =>
    unfold interpolate
    split
    · rename_i h; rw [h] at ih; simp at ih; simp [← ih]
    · rename_i h; rw [h] at ih; simp at ih; simp [← ih]

theorem interpolate_mem (l : List ℚ) : ∀ x ∈ interpolate l, x ∈ l := by
  induction l with
  | nil => intro x hx; simp [interpolate] at hx
  | cons p ps ih =>
    intro x hx
    unfold interpolate at hx
    split at hx
    · simp at hx; simp [hx]
    · rename_i q qs h
      rw [h] at ih
      rw [List.mem_cons] at hx
      rcases hx with rfl | hx
      · split
        · exact List.mem_cons_of_mem _ (ih q (by simp))
        · simp
      · exact List.mem_cons_of_mem _ (ih x hx)

theorem interpolate_sorted (l : List ℚ) : (interpolate l).Pairwise (fun a b => b ≤ a) := by
  induction l with
  | nil => exact List.Pairwise.nil
  | cons p ps ih =>
    unfold interpolate
    split
    · simp
    · rename_i q qs h
      rw [h] at ih
      have hq : q ≤ (if p < q then q else p) := by split <;> linarith
      refine List.pairwise_cons.2 ⟨fun x hx => ?_, ih⟩
      rw [List.mem_cons] at hx
      rcases hx with rfl | hx
      · exact hq
      · exact le_trans ((List.pairwise_cons.1 ih).1 x hx) hq

theorem interpolate_dominates (l : List ℚ) : Dominates (interpolate l) l := by
  induction l with
  | nil => exact List.Forall₂.nil
  | cons p ps ih =>
    unfold interpolate
    split
    · rename_i h
      rw [h] at ih
      cases ih
      exact List.Forall₂.cons le_rfl List.Forall₂.nil
    · rename_i q qs h
      rw [h] at ih
      exact List.Forall₂.cons (by split <;> linarith) ih

theorem interpolate_least (l : List ℚ) : ∀ q : List ℚ, q.Pairwise (fun a b => b ≤ a) →
    Dominates q l → Dominates q (interpolate l) := by
  induction l with
  | nil => intro q _ h; exact h
  | cons p ps ih =>
    intro q hs hd
    rcases hd with _ | ⟨hp, hd⟩
    rename_i y ys
    have hs' := List.pairwise_cons.1 hs
    have h2 := ih ys hs'.2 hd
    unfold interpolate
    split
    · rename_i h
      rw [h] at h2
      exact List.Forall₂.cons hp h2
    · rename_i z zs h
      rw [h] at h2
      refine List.Forall₂.cons ?_ h2
      cases h2 with
      | cons h3 h4 =>
        rename_i y' _
        have := hs'.1 y' (by simp)
        split <;> linarith

theorem interpolate_drop (l : List ℚ) : ∀ i, (interpolate l).drop i = interpolate (l.drop i) := by
  induction l with
  | nil => intro i; simp [interpolate]
  | cons p ps ih =>
    intro i
    cases i with
    | zero => rfl
    | succ i =>
      rw [List.drop_succ_cons, ← ih i]
      conv_lhs => rw [interpolate]
      split
      · rename_i h; rw [h]; simp
      · rename_i h; rw [h]; simp

/-- The interpolated value at `i` is the greatest value from `i` on. -/
theorem interpolate_get (l : List ℚ) (i : Nat) (x : ℚ) (hx : (interpolate l)[i]? = some x) :
    x ∈ l.drop i ∧ ∀ y ∈ l.drop i, y ≤ x := by
  have h : ((interpolate l).drop i).head? = some x := by rw [List.head?_drop]; exact hx
  rw [interpolate_drop] at h
  generalize l.drop i = d at h
  have hm := interpolate_mem d
  have hd := interpolate_dominates d
  have hs := interpolate_sorted d
  cases hi : interpolate d with
  | nil => rw [hi] at h; simp at h
  | cons z zs =>
    rw [hi] at h hm hd hs
    simp only [List.head?_cons, Option.some.injEq] at h
    subst h
    refine ⟨hm z (by simp), fun y hy => ?_⟩
    obtain ⟨k, hk, rfl⟩ := List.mem_iff_getElem.1 hy
    have hk' : k < (z :: zs).length := by rw [hd.length_eq]; exact hk
    have h1 : d[k] ≤ (z :: zs)[k] := (List.forall₂_iff_get.1 hd).2 k hk' hk
    refine le_trans h1 ?_
    cases k with
    | zero => exact le_rfl
    | succ k => exact (List.pairwise_cons.1 hs).1 _ (List.getElem_mem _)

end

end Kws
