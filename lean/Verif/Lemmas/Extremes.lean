import Verif.Lemmas.ToolDouble
import Verif.Lemmas.RunIntervals
import Verif.Props.NdcgDouble
import Verif.Props.Rounding
import Verif.Spec.Extremes

/-! What is printed for submissions that are all wrong or all right -/

namespace Kws
open Spec Traced

/-! ## Text -/

theorem roundEven_near (x : ℚ) (n : ℤ) (h : |x - n| < 1 / 2) : roundEven x = n := by
  rw [abs_lt] at h
  unfold roundEven
  by_cases hx : (n : ℚ) ≤ x
  · have hf : ⌊x⌋ = n := Int.floor_eq_iff.2 ⟨hx, by linarith⟩
    rw [hf, if_pos (by linarith)]
  · have hf : ⌊x⌋ = n - 1 := Int.floor_eq_iff.2 ⟨by push_cast; linarith, by push_cast; linarith⟩
    rw [hf]
    push_cast
    rw [if_neg (by linarith), if_pos (by linarith)]
    ring

theorem sciDigits_one (x : ℚ) (h : |x - 1| < 5 / 10 ^ 7) : sciDigits 5 x = (0, 10 ^ 5) := by
  have h' := abs_lt.1 h
  have hx0 : 0 < x := by linarith
  unfold sciDigits
  rw [if_neg hx0.ne']
  by_cases hx : 1 ≤ x
  · have hl : Int.log 10 x = 0 := by
      refine le_antisymm ?_ ?_
      · have := (Int.lt_zpow_iff_log_lt (b := 10) (by norm_num) (x := 1) hx0).1 (by norm_num; linarith)
        omega
      · exact (Int.zpow_le_iff_le_log (b := 10) (by norm_num) (x := 0) hx0).1 (by norm_num; linarith)
    have hr : roundEven (x / 10 ^ ((0 : ℤ) - (5 : ℕ))) = 100000 := by
      refine roundEven_near _ _ ?_
      rw [show (10 : ℚ) ^ ((0 : ℤ) - (5 : ℕ)) = 1 / 10 ^ 5 by norm_num, abs_lt]
      constructor <;> norm_num <;> linarith
    simp only [hl, hr]
    rfl
  · have hl : Int.log 10 x = -1 := by
      refine le_antisymm ?_ ?_
      · have := (Int.lt_zpow_iff_log_lt (b := 10) (by norm_num) (x := 0) hx0).1 (by norm_num; linarith)
        omega
      · exact (Int.zpow_le_iff_le_log (b := 10) (by norm_num) (x := -1) hx0).1 (by norm_num; linarith)
    have hr : roundEven (x / 10 ^ ((-1 : ℤ) - (5 : ℕ))) = 1000000 := by
      refine roundEven_near _ _ ?_
      rw [show (10 : ℚ) ^ ((-1 : ℤ) - (5 : ℕ)) = 1 / 10 ^ 6 by norm_num, abs_lt]
      constructor <;> norm_num <;> linarith
    simp only [hl, hr]
    rfl

theorem showGeneral_one (x : ℚ) (h : |x - 1| < 5 / 10 ^ 7) : showGeneral x = "1".toList := by
  have h' := abs_lt.1 h
  have hx0 : 0 < x := by linarith
  unfold showGeneral
  rw [abs_of_pos hx0, sciDigits_one x h]
  simp only [if_neg (not_lt.2 hx0.le)]
  decide +kernel

theorem showGeneral_zero : showGeneral (0 : ℚ) = "0".toList := by decide +kernel

/-- The number is within `δ` of `x`, and so are the bounds of its interval, which is there if it is asked for. -/
def MetricAt (x δ : ℚ) (b : Bool) (m : Metric ℚ) : Prop :=
  |m.value - x| ≤ δ ∧ (b = false ∧ m.ci = none ∨ b = true ∧ ∃ lo hi, m.ci = some (lo, hi) ∧ |lo - x| ≤ δ ∧ |hi - x| ≤ δ)

theorem showMetric_at (x δ : ℚ) (b : Bool) (m : Metric ℚ) (name s : String) (h : MetricAt x δ b m)
    (hs : ∀ y, |y - x| ≤ δ → showGeneral y = s.toList) : showMetric name m = resultLine name b s := by
  obtain ⟨h1, ⟨rfl, h2⟩ | ⟨rfl, lo, hi, h2, h3, h4⟩⟩ := h
  · simp [showMetric, resultLine, endl, h2, hs _ h1]
  · simp [showMetric, resultLine, endl, h2, hs _ h1, hs _ h3, hs _ h4]

/-! ## Intervals -/

section
variable {G Q L : Type}

theorem bootstrapLoop_all {C : Type} (rd : ℚ → ℚ) (statistic : C → Cpp ℚ) (sampler : G → Cpp (C × G))
    (v : ℚ) (P : C → Prop) (hP : ∀ g c g', sampler g = .ok (c, g') → P c) (n : ℕ) :
    ∀ g diffs, bootstrapLoop rd statistic sampler v n g = .ok diffs →
      ∀ d ∈ diffs, ∃ c y, P c ∧ statistic c = .ok y ∧ d = rd (y - v) := by
  induction n with
  | zero =>
    intro g diffs h
    simp only [bootstrapLoop, pure, Except.pure, Except.ok.injEq] at h
    subst h
    simp
  | succ n ih =>
    intro g diffs h
    simp only [bootstrapLoop, bind, Except.bind, pure, Except.pure] at h
    split at h
    · cases h
    · rename_i p e1
      obtain ⟨c, g'⟩ := p
      simp only at h
      split at h
      · cases h
      · rename_i y e2
        split at h
        · cases h
        · rename_i rest e3
          injection h with h
          subst h
          intro d hd
          rcases List.mem_cons.1 hd with rfl | hd
          · exact ⟨c, y, hP _ _ _ e1, e2, rfl⟩
          · exact ih g' rest e3 d hd

/-- If all values are within `ε` of `x`, an interval is within `δ` of it. -/
theorem percentile_at {M : Type} (S : StdSort) (rng : Rng G) (groups : List (List M)) (n : ℕ) (alpha : ℚ)
    (seed : ℕ) (stat : List (List M) → Cpp ℚ) (x ε η δ : ℚ)
    (hη : ∀ y, |y| ≤ 2 * ε → |Rnd.ieee.f64 y| ≤ η)
    (hδ : ∀ v d, |v - x| ≤ ε → |d| ≤ η → |Rnd.ieee.f64 (v - d) - x| ≤ δ)
    (hs : ∀ s, Resample groups s → ∀ v, stat s = .ok v → |v - x| ≤ ε) (v lo hi : ℚ)
    (h : percentileCIGrouped Rnd.ieee S Rnd.ieee.f64 rng groups n alpha seed stat = .ok (v, lo, hi)) :
    |v - x| ≤ ε ∧ |lo - x| ≤ δ ∧ |hi - x| ≤ δ := by
  obtain ⟨diffs, ds, li, ui, dl, du, a1, a2, a3, _, _, a6, a7, rfl, rfl⟩ :=
    percentileCI_parts _ _ _ _ _ _ _ _ _ _ _ _ h
  have hv := hs groups (resample_self groups) v a1
  obtain ⟨ds', s1, s2, _⟩ := sort_lt S diffs
  rw [a3] at s1
  injection s1 with s1
  subst s1
  have hd : ∀ d ∈ ds, |d| ≤ η := by
    intro d hd
    obtain ⟨c, y, c1, c2, rfl⟩ := bootstrapLoop_all _ _ _ v (Resample groups) (by
      intro g c g' e
      obtain ⟨c', g'', e', hr⟩ := C40_shape rng groups g
      rw [e] at e'
      injection e' with e'
      rw [Prod.mk.injEq] at e'
      rw [e'.1]; exact hr) n _ _ a2 d (s2.mem_iff.1 hd)
    refine hη _ ?_
    have := hs c c1 y c2
    rw [abs_le] at *
    constructor <;> linarith [this.1, this.2, hv.1, hv.2]
  exact ⟨hv, hδ _ _ hv (hd _ (List.mem_of_getElem? a6)), hδ _ _ hv (hd _ (List.mem_of_getElem? a7))⟩

theorem globalStatistic_at (S : StdSort) (rng : Rng G) (b : Bool) (o : ToolOptions)
    (ms : List (KwsMatch Q L)) (groups : List (List (KwsMatch Q L)))
    (plain : List (KwsMatch Q L) → Cpp ℚ) (stat : List (List (KwsMatch Q L)) → Bool → Cpp ℚ) (x ε η δ : ℚ)
    (hη : ∀ y, |y| ≤ 2 * ε → |Rnd.ieee.f64 y| ≤ η) (hεδ : ε ≤ δ)
    (hδ : ∀ v d, |v - x| ≤ ε → |d| ≤ η → |Rnd.ieee.f64 (v - d) - x| ≤ δ)
    (hp : ∀ v, plain ms = .ok v → |v - x| ≤ ε)
    (hs : b = true → ∀ s, Resample groups s → ∀ v, stat s true = .ok v → |v - x| ≤ ε) (m : Metric ℚ)
    (h : globalStatistic Rnd.ieee S Rnd.ieee.f64 rng b o ms groups plain stat = .ok m) : MetricAt x δ b m := by
  unfold globalStatistic at h
  cases b with
  | false =>
    simp only [Bool.false_eq_true, if_false, bind, Except.bind, pure, Except.pure] at h
    split at h
    · cases h
    · rename_i v e
      injection h with h
      subst h
      exact ⟨(hp v e).trans hεδ, Or.inl ⟨rfl, rfl⟩⟩
  | true =>
    simp only [if_true, bind, Except.bind, pure, Except.pure] at h
    split at h
    · cases h
    · rename_i v e
      obtain ⟨v, lo, hi⟩ := v
      injection h with h
      subst h
      obtain ⟨k1, k2, k3⟩ := percentile_at S rng groups _ _ _ _ x ε η δ hη hδ (hs rfl) v lo hi e
      exact ⟨k1.trans hεδ, Or.inr ⟨rfl, lo, hi, rfl, k2, k3⟩⟩

theorem meanStatistic_at (S : StdSort) (rng : Rng G) (b : Bool) (o : ToolOptions)
    (groups : List (List (KwsMatch Q L))) (stat : List (List (KwsMatch Q L)) → Bool → Cpp ℚ) (x ε η δ : ℚ)
    (hη : ∀ y, |y| ≤ 2 * ε → |Rnd.ieee.f64 y| ≤ η) (hεδ : ε ≤ δ)
    (hδ : ∀ v d, |v - x| ≤ ε → |d| ≤ η → |Rnd.ieee.f64 (v - d) - x| ≤ δ)
    (hp : ∀ v, stat groups false = .ok v → |v - x| ≤ ε)
    (hs : b = true → ∀ s, Resample groups s → ∀ v, stat s true = .ok v → |v - x| ≤ ε) (m : Metric ℚ)
    (h : meanStatistic Rnd.ieee S Rnd.ieee.f64 rng b o groups stat = .ok m) : MetricAt x δ b m :=
  globalStatistic_at S rng b o [] groups (fun _ => stat groups false) stat x ε η δ hη hεδ hδ hp hs m h

/-! ## Rounding -/

theorem f64_zero : Rnd.ieee.f64 0 = 0 := by
  have := ieee_faithful.dyadic64 0 0 (by norm_num) (by norm_num)
  simpa using this

theorem f64_nat (n : ℕ) (h : n ≤ 2 ^ 53) : Rnd.ieee.f64 n = n := by
  have := ieee_faithful.dyadic64 n 0 h (by norm_num)
  simpa using this

theorem eta_zero (y : ℚ) (h : |y| ≤ 2 * 0) : |Rnd.ieee.f64 y| ≤ 0 := by
  have : y = 0 := by simpa using h
  rw [this, f64_zero, abs_zero]

theorem delta_zero (v d : ℚ) (h : |v - 0| ≤ 0) (hd : |d| ≤ 0) : |Rnd.ieee.f64 (v - d) - 0| ≤ 0 := by
  have h1 : v = 0 := by simpa using h
  have h2 : d = 0 := by simpa using hd
  rw [h1, h2, sub_zero, sub_zero, f64_zero, abs_zero]

theorem eta_one (y : ℚ) (h : |y| ≤ 2 * (1 / 10 ^ 7)) : |Rnd.ieee.f64 y| ≤ 21 / 10 ^ 8 := by
  have := ieee_relErr y 1 (h.trans (by norm_num)) le_rfl
  have h53 : (1 : ℚ) / 2 ^ 53 ≤ 1 / 10 ^ 8 := by norm_num
  rw [abs_le] at *
  constructor <;> linarith [h.1, h.2, this.1, this.2]

theorem delta_one (v d : ℚ) (h : |v - 1| ≤ 1 / 10 ^ 7) (hd : |d| ≤ 21 / 10 ^ 8) :
    |Rnd.ieee.f64 (v - d) - 1| ≤ 4 / 10 ^ 7 := by
  have := ieee_relErr (v - d) 2 (by
    rw [abs_le] at *
    constructor <;> linarith [h.1, h.2, hd.1, hd.2]) (by norm_num)
  have h53 : (2 : ℚ) / 2 ^ 53 ≤ 1 / 10 ^ 8 := by norm_num
  rw [abs_le] at *
  constructor <;> linarith [h.1, h.2, this.1, this.2, hd.1, hd.2]

/-! ## Values -/

theorem globalAPGrouped_arrange (R : Rnd) (S : StdSort) (groups : List (List (KwsMatch Q L))) (c i t b : Bool)
    (hn : NoNaN groups.flatten) :
    globalAPGrouped R S groups c i t b = globalAP R (arrange S b groups.flatten) c i t := by
  have a3 := (arrange_spec S b _ hn).2.2
  unfold globalAPGrouped
  cases b with
  | false =>
    simp only [Bool.false_eq_true, if_false, pure, Except.pure, Except.ok.injEq] at a3
    rw [← a3]
    rfl
  | true =>
    simp only [if_true] at a3
    simp only [if_true, a3, bind, Except.bind]

theorem globalNDCGGroupedD_arrange (R : Rnd) (lm : Libm) (S : StdSort) (groups : List (List (KwsMatch Q L)))
    (c b : Bool) (hn : NoNaN groups.flatten) :
    globalNDCGGroupedD R lm S groups c b = globalNDCGD R lm (arrange S b groups.flatten) c := by
  have a3 := (arrange_spec S b _ hn).2.2
  unfold globalNDCGGroupedD
  cases b with
  | false =>
    simp only [Bool.false_eq_true, if_false, pure, Except.pure, Except.ok.injEq] at a3
    rw [← a3]
    rfl
  | true =>
    simp only [if_true] at a3
    simp only [if_true, a3, bind, Except.bind]

theorem meanAPLoop_arrange (R : Rnd) (S : StdSort) (g : List (KwsMatch Q L)) (groups : List (List (KwsMatch Q L)))
    (c i t b : Bool) (acc : ℚ) (hn : NoNaN g) :
    meanAPLoop R S c i t b acc (g :: groups) =
      (globalAP R (arrange S b g) c i t).bind fun v => meanAPLoop R S c i t b (R.f64 (acc + v)) groups := by
  have a3 := (arrange_spec S b _ hn).2.2
  rw [meanAPLoop]
  cases b with
  | false =>
    simp only [Bool.false_eq_true, if_false, pure, Except.pure, Except.ok.injEq] at a3
    rw [← a3]
    rfl
  | true =>
    simp only [if_true] at a3
    simp only [if_true, a3, bind, Except.bind]

theorem meanNDCGLoopD_arrange (R : Rnd) (lm : Libm) (S : StdSort) (g : List (KwsMatch Q L))
    (groups : List (List (KwsMatch Q L))) (c b : Bool) (acc : ℚ) (hn : NoNaN g) :
    meanNDCGLoopD R lm S c b acc (g :: groups) =
      (globalNDCGD R lm (arrange S b g) c).bind fun v => meanNDCGLoopD R lm S c b (R.f64 (acc + v)) groups := by
  have a3 := (arrange_spec S b _ hn).2.2
  rw [meanNDCGLoopD]
  cases b with
  | false =>
    simp only [Bool.false_eq_true, if_false, pure, Except.pure, Except.ok.injEq] at a3
    rw [← a3]
    rfl
  | true =>
    simp only [if_true] at a3
    simp only [if_true, a3, bind, Except.bind]

/-- Neither a false positive nor a false negative is right. -/
def Worthless (m : KwsMatch Q L) : Prop := m.error = Outcome.falsePos.error ∨ m.error = Outcome.falseNeg.error

theorem globalAPGrouped_zero (S : StdSort) (groups : List (List (KwsMatch Q L))) (c i t b : Bool)
    (hn : NoNaN groups.flatten) (h : ∀ m ∈ groups.flatten, Worthless m) (hl : groups.flatten.length ≤ 2 ^ 24) :
    globalAPGrouped Rnd.ieee S groups c i t b = .ok 0 := by
  obtain ⟨_, a2, a3⟩ := arrange_spec S b _ hn
  rw [globalAPGrouped_arrange _ S _ _ _ _ _ hn]
  exact C30_worthless_double _ c i t (fun m hm => h m (a2.mem_iff.1 hm)) (by rw [a2.length_eq]; exact hl)

theorem globalNDCGGroupedD_zero (lm : Libm) (hm : lm.Accurate) (S : StdSort)
    (groups : List (List (KwsMatch Q L))) (c b : Bool)
    (hn : NoNaN groups.flatten) (h : ∀ m ∈ groups.flatten, Worthless m) (hl : groups.flatten.length ≤ 2 ^ 24) :
    globalNDCGGroupedD Rnd.ieee lm S groups c b = .ok 0 := by
  obtain ⟨_, a2, a3⟩ := arrange_spec S b _ hn
  rw [globalNDCGGroupedD_arrange _ _ S _ _ _ hn]
  exact (C92_extremes lm hm _ c (by rw [a2.length_eq]; exact hl)).2 (fun m hm => h m (a2.mem_iff.1 hm))

theorem meanAP_zero (S : StdSort) (groups : List (List (KwsMatch Q L))) (c i t b : Bool)
    (hn : ∀ g ∈ groups, NoNaN g) (h : ∀ g ∈ groups, ∀ m ∈ g, Worthless m) (hl : ∀ g ∈ groups, g.length ≤ 2 ^ 24) :
    meanAP Rnd.ieee S groups c i t b = .ok 0 := by
  have key : ∀ groups : List (List (KwsMatch Q L)), (∀ g ∈ groups, NoNaN g) →
      (∀ g ∈ groups, ∀ m ∈ g, Worthless m) → (∀ g ∈ groups, g.length ≤ 2 ^ 24) →
      meanAPLoop Rnd.ieee S c i t b 0 groups = .ok 0 := by
    intro groups
    induction groups with
    | nil => intro _ _ _; rfl
    | cons g groups ih =>
      intro hn h hl
      obtain ⟨_, a2, a3⟩ := arrange_spec S b g (hn g (by simp))
      have hv := C30_worthless_double (arrange S b g) c i t (fun m hm => h g (by simp) m (a2.mem_iff.1 hm))
        (by rw [a2.length_eq]; exact hl g (by simp))
      rw [meanAPLoop_arrange _ S _ _ _ _ _ _ _ (hn g (by simp)), hv]
      simp only [Except.bind, add_zero]
      rw [f64_zero]
      exact ih (fun x hx => hn x (by simp [hx])) (fun x hx => h x (by simp [hx])) (fun x hx => hl x (by simp [hx]))
  unfold meanAP
  rw [key groups hn h hl]
  simp only [bind, Except.bind, pure, Except.pure, zero_div]
  rw [f64_zero, ite_self]

theorem meanNDCGLoopD_const (lm : Libm) (S : StdSort) (c b : Bool) (x : ℕ) (groups : List (List (KwsMatch Q L)))
    (hn : ∀ g ∈ groups, NoNaN g)
    (h : ∀ g ∈ groups, ∀ l : List (KwsMatch Q L), l.Perm g → globalNDCGD Rnd.ieee lm l c = .ok (x : ℚ)) :
    ∀ k : ℕ, k + groups.length * x ≤ 2 ^ 53 →
      meanNDCGLoopD Rnd.ieee lm S c b k groups = .ok ((k + groups.length * x : ℕ) : ℚ) := by
  induction groups with
  | nil => intro k _; simp [meanNDCGLoopD, pure, Except.pure]
  | cons g groups ih =>
    intro k hk
    obtain ⟨_, a2, a3⟩ := arrange_spec S b g (hn g (by simp))
    have hv := h g (by simp) _ a2
    rw [meanNDCGLoopD_arrange _ _ S _ _ _ _ _ (hn g (by simp)), hv]
    simp only [Except.bind, List.length_cons, Nat.add_mul, Nat.one_mul] at hk ⊢
    have e : Rnd.ieee.f64 ((k : ℚ) + (x : ℚ)) = ((k + x : ℕ) : ℚ) := by
      rw [← f64_nat (k + x) (by omega)]
      push_cast
      rfl
    rw [e, ih (fun y hy => hn y (by simp [hy])) (fun y hy => h y (by simp [hy])) (k + x) (by omega)]
    congr 2
    omega

theorem meanNDCGD_const (lm : Libm) (S : StdSort) (c b : Bool) (x : ℕ) (hx : x ≤ 1) (groups : List (List (KwsMatch Q L)))
    (hg : groups.length ≤ 2 ^ 53) (h0 : groups ≠ [] ∨ x = 0) (hn : ∀ g ∈ groups, NoNaN g)
    (h : ∀ g ∈ groups, ∀ l : List (KwsMatch Q L), l.Perm g → globalNDCGD Rnd.ieee lm l c = .ok (x : ℚ)) :
    meanNDCGD Rnd.ieee lm S groups c b = .ok (x : ℚ) := by
  have hb : groups.length * x ≤ 2 ^ 53 := by
    refine le_trans ?_ hg
    simpa using Nat.mul_le_mul_left groups.length hx
  have := meanNDCGLoopD_const lm S c b x groups hn h 0 (by omega)
  unfold meanNDCGD
  rw [show (0 : ℚ) = ((0 : ℕ) : ℚ) by simp, this]
  simp only [bind, Except.bind, pure, Except.pure, Nat.zero_add]
  by_cases hne : groups.length > 0
  · rw [if_pos hne, f64_nat _ hg]
    have hp : (groups.length : ℚ) ≠ 0 := by exact_mod_cast hne.ne'
    rw [show ((groups.length * x : ℕ) : ℚ) / (groups.length : ℚ) = (x : ℚ) by push_cast; field_simp,
      f64_nat _ (hx.trans (by norm_num))]
  · rw [if_neg hne]
    have : groups = [] := List.length_eq_zero_iff.1 (by omega)
    rw [h0.resolve_left (fun h => h this)]

/-- All matches are hits. -/
def AllHits (ms : List (KwsMatch Q L)) : Prop := ∀ m ∈ ms, HardMatch m ∧ rank m ≠ .nan ∧ IsHit m = true

theorem AllHits.error {ms : List (KwsMatch Q L)} (h : AllHits ms) : ∀ m ∈ ms, m.error = Outcome.hit.error := by
  intro m hm
  obtain ⟨h1, _, h2⟩ := h m hm
  unfold IsHit at h2
  rcases h1 with ⟨_, _, h⟩ | ⟨a, b, h⟩ | ⟨a, b, h⟩
  · exact h
  · simp_all
  · simp_all

theorem AllHits.listAP {ms : List (KwsMatch Q L)} (h : AllHits ms) (h0 : ms ≠ []) (c i t : Bool) :
    listAP c i t ms = 1 := by
  have hr : ∀ m ∈ ms, m.ref.isSome = true := fun m hm => by
    have := (h m hm).2.2
    unfold IsHit at this
    simp only [Bool.and_eq_true] at this
    exact this.1
  obtain ⟨⟨a1, a2⟩, _⟩ := MostlyHits.numbers (a := 1) (Or.inr rfl) (ms := ms) ⟨hr, by
    rw [List.countP_eq_length.2 (fun m hm' => (h m hm').2.2), one_mul]⟩ h0 c i t
  exact le_antisymm a2 a1

theorem AllHits.globalAP {ms : List (KwsMatch Q L)} (h : AllHits ms) (h0 : ms ≠ []) (hl : ms.length ≤ 2 ^ 14)
    (c i t : Bool) (v : ℚ) (hv : globalAP Rnd.ieee ms c i t = .ok v) : |v - 1| ≤ 1 / 10 ^ 7 := by
  have := listAP_rounded (R := Rnd.ieee) (n := 2 ^ 14) (Or.inr ⟨rfl, by norm_num, rfl⟩) c i t ms
    (fun m hm => (h m hm).1) (fun m hm => (h m hm).2.1) hl v hv
  rw [h.listAP h0] at this
  refine this.trans ?_
  norm_num

theorem globalAPGrouped_one (S : StdSort) (groups : List (List (KwsMatch Q L))) (c i t b : Bool)
    (h : AllHits groups.flatten) (h0 : groups.flatten ≠ []) (hl : groups.flatten.length ≤ 2 ^ 14) (v : ℚ)
    (hv : globalAPGrouped Rnd.ieee S groups c i t b = .ok v) : |v - 1| ≤ 1 / 10 ^ 7 := by
  obtain ⟨_, a2, a3⟩ := arrange_spec S b groups.flatten (fun m hm => (h m hm).2.1)
  rw [globalAPGrouped_arrange _ S _ _ _ _ _ (fun m hm => (h m hm).2.1)] at hv
  exact AllHits.globalAP (fun m hm => h m (a2.mem_iff.1 hm)) (fun e => h0 (by rw [e] at a2; exact List.nil_perm.1 a2))
    (by rw [a2.length_eq]; exact hl) c i t v hv

theorem globalNDCGGroupedD_one (lm : Libm) (hm : lm.Accurate) (S : StdSort)
    (groups : List (List (KwsMatch Q L))) (c b : Bool)
    (h : AllHits groups.flatten) (h0 : groups.flatten ≠ []) (hl : groups.flatten.length ≤ 2 ^ 14) :
    globalNDCGGroupedD Rnd.ieee lm S groups c b = .ok 1 := by
  obtain ⟨_, a2, a3⟩ := arrange_spec S b groups.flatten (fun m hm => (h m hm).2.1)
  rw [globalNDCGGroupedD_arrange _ _ S _ _ _ (fun m hm => (h m hm).2.1)]
  exact (C92_extremes lm hm _ c (by rw [a2.length_eq]; exact hl.trans (by norm_num))).1
    (fun e => h0 (by rw [e] at a2; exact List.nil_perm.1 a2)) (fun m hm => h.error m (a2.mem_iff.1 hm))

theorem meanAP_one (S : StdSort) (groups : List (List (KwsMatch Q L))) (c i t b : Bool)
    (h : ∀ g ∈ groups, AllHits g) (h0 : groups ≠ []) (hne : [] ∉ groups) (hl : ∀ g ∈ groups, g.length ≤ 2 ^ 14)
    (hg : groups.length ≤ 2 ^ 14) (v : ℚ)
    (hv : meanAP Rnd.ieee S groups c i t b = .ok v) : |v - 1| ≤ 1 / 10 ^ 7 := by
  obtain ⟨v1, v2, e1, e2, e3⟩ := C64_mean_ap S groups c i t b (2 ^ 14) (by norm_num)
    (fun g hg m hm => Or.inl ((h g hg).error m hm)) hl (hg.trans (by norm_num))
    (fun _ g hg m hm => (h g hg m hm).2.1)
  rw [hv] at e1
  injection e1 with e1
  subst e1
  rw [meanAP_list S c i t b groups (fun g hg m hm => (h g hg m hm).1) (fun g hg m hm => (h g hg m hm).2.1)] at e2
  injection e2 with e2
  have : average (groups.map fun g => listAP c i t (arrange S b g)) = 1 := by
    have he : groups.map (fun g => listAP c i t (arrange S b g)) = groups.map fun _ => (1 : ℚ) := by
      refine List.map_congr_left fun g hg => ?_
      obtain ⟨_, a2, _⟩ := arrange_spec S b g (fun m hm => (h g hg m hm).2.1)
      refine AllHits.listAP (fun m hm => h g hg m (a2.mem_iff.1 hm)) (fun e => ?_) c i t
      rw [e] at a2
      exact hne (List.nil_perm.1 a2 ▸ hg)
    have hp : (groups.length : ℚ) ≠ 0 := by
      exact_mod_cast (List.length_pos_iff.2 h0).ne'
    rw [he]
    unfold average
    simp [hp]
  rw [this] at e2
  subst e2
  refine e3.trans ?_
  have hg : (groups.length : ℚ) ≤ 2 ^ 14 := by exact_mod_cast hg
  push_cast
  linarith

end

/-! ## The program -/

/-- If the computation returns 0, the texts that it writes to standard output have the property. -/
def Outs (P : List Str → Prop) (t : Traced Nat) : Prop := t.result = .ok 0 → P (outsOf t.effects)

section
variable {P : List Str → Prop}

theorem Outs.bind {α : Type} (u : Traced α) (hu : outsOf u.effects = []) (f : α → Traced Nat)
    (h : ∀ a, u.result = .ok a → Outs P (f a)) : Outs P (u >>= f) := by
  obtain ⟨es, r⟩ := u
  cases r with
  | error e => exact fun h0 => by cases h0
  | ok a =>
    intro h0
    have := h a rfl h0
    show P (outsOf (es ++ (f a).effects))
    rw [outsOf_append, show outsOf es = [] from hu]
    exact this

theorem Outs.ite (c : Prop) [Decidable c] {f g : Traced Nat} (h : c → Outs P f) (h' : ¬c → Outs P g) :
    Outs P (if c then f else g) := by
  split
  · exact h ‹_›
  · exact h' ‹_›

end

section
variable {G Q L : Type}

theorem traceAssessD_outs (R : Rnd) (lm : Libm) (S : StdSort) (rng : Rng G) (w : World)
    (o : ToolOptions) (ms : List (KwsMatch Q L)) (groups : List (List (KwsMatch Q L)))
    (h : (traceAssessD R lm S rng w o ms groups).result = .ok 0) :
    ∃ a b c d, globalStatistic R S R.f64 rng o.ciGap o ms groups
      (fun ms => globalAP R ms o.collapse o.interp o.trapezoid)
      (fun gs b => globalAPGrouped R S gs o.collapse o.interp o.trapezoid b) = .ok a ∧
    meanStatistic R S R.f64 rng o.ciMap o groups
      (fun gs b => meanAP R S gs o.collapse o.interp o.trapezoid b) = .ok b ∧
    globalStatistic R S R.f64 rng o.ciGndcg o ms groups
      (fun ms => globalNDCGD R lm ms o.collapse)
      (fun gs b => globalNDCGGroupedD R lm S gs o.collapse b) = .ok c ∧
    meanStatistic R S R.f64 rng o.ciMndcg o groups
      (fun gs b => meanNDCGD R lm S gs o.collapse b) = .ok d ∧
    outsOf (traceAssessD R lm S rng w o ms groups).effects =
      [showMetric "gAP" a, showMetric "mAP" b, showMetric "gNDCG" c, showMetric "mNDCG" d] := by
  unfold traceAssessD at h ⊢
  generalize globalStatistic R S R.f64 rng o.ciGap o ms groups
      (fun ms => globalAP R ms o.collapse o.interp o.trapezoid)
      (fun gs b => globalAPGrouped R S gs o.collapse o.interp o.trapezoid b) = x1 at h ⊢
  generalize meanStatistic R S R.f64 rng o.ciMap o groups
      (fun gs b => meanAP R S gs o.collapse o.interp o.trapezoid b) = x2 at h ⊢
  generalize globalStatistic R S R.f64 rng o.ciGndcg o ms groups
      (fun ms => globalNDCGD R lm ms o.collapse)
      (fun gs b => globalNDCGGroupedD R lm S gs o.collapse b) = x3 at h ⊢
  generalize meanStatistic R S R.f64 rng o.ciMndcg o groups
      (fun gs b => meanNDCGD R lm S gs o.collapse b) = x4 at h ⊢
  generalize globalRPCurve R w o.outputGrp ms o.curveSamples o.collapse o.interp
      o.trapezoid = x5 at h ⊢
  generalize meanRPCurve R w o.outputMrp groups o.curveSamples o.collapse o.interp
      o.trapezoid = x6 at h ⊢
  cases x1 with
  | error e => cases h
  | ok x1 =>
  cases x2 with
  | error e => cases h
  | ok x2 =>
  cases x3 with
  | error e => cases h
  | ok x3 =>
  cases x4 with
  | error e => cases h
  | ok x4 =>
  refine ⟨x1, x2, x3, x4, rfl, rfl, rfl, rfl, ?_⟩
  by_cases hg : o.outputGrp = []
  · by_cases hm : o.outputMrp = []
    · simp [hg, hm, outsOf]
    · cases x6 <;> simp [hg, hm, outsOf]
  · cases x5 with
    | error e => simp [hg, outsOf]
    | ok x5 =>
      by_cases hm : o.outputMrp = []
      · simp [hg, hm, outsOf]
      · cases x6 <;> simp [hg, hm, outsOf]

/-- No match is a hit, and there are up to `2^24`; or all are, and there are up to `2^14`. -/
def Extreme (x : String) (B : ℕ) (ms : List (KwsMatch Q L)) : Prop :=
  x = "0" ∧ B = 2 ^ 24 ∧ (∀ m ∈ ms, IsHit m = false) ∨
  x = "1" ∧ B = 2 ^ 14 ∧ ms ≠ [] ∧ ∀ m ∈ ms, IsHit m = true

theorem HardMatch.worthless {m : KwsMatch Q L} (h : HardMatch m) (h0 : IsHit m = false) : Worthless m := by
  unfold IsHit at h0
  rcases h with ⟨a, b, _⟩ | ⟨_, _, h⟩ | ⟨_, _, h⟩
  · simp_all
  · exact Or.inl h
  · exact Or.inr h

theorem traceAssessD_extreme [DecidableEq Q] (lm : Libm) (hm : lm.Accurate) (S : StdSort) (rng : Rng G) (w : World)
    (o : ToolOptions) (q2g : List (Q × Q)) (ms : List (KwsMatch Q L)) (groups : List (List (KwsMatch Q L)))
    (hg : groupMatches q2g ms = .ok groups) (x : String) (B n : ℕ) (he : Extreme x B ms) (hh : ∀ m ∈ ms, HardMatch m)
    (hn : NoNaN ms) (hl : ms.length ≤ n) (ha : AtMost B n o) :
    Outs (· = resultLines o x) (traceAssessD Rnd.ieee lm S rng w o ms groups) := by
  intro h0
  obtain ⟨a, b, c, d, e1, e2, e3, e4, e5⟩ := traceAssessD_outs _ _ _ _ _ _ _ _ h0
  rw [e5]
  obtain ⟨g1, g2, g3⟩ := groupMatches_facts q2g ms groups hg
  have hgl : ∀ g ∈ groups, g.length ≤ ms.length := fun g hg => (g2 g hg).length_le
  have hgc : groups.length ≤ ms.length := by
    rw [← g1.length_eq]
    exact groups_le groups g3
  have hlB := hl.trans ha.events
  have hsq : o.ciGap = true ∨ o.ciGndcg = true → groups.length * ms.length ≤ B := fun h => by
    refine le_trans ?_ (ha.samples h)
    rw [pow_two]
    exact Nat.mul_le_mul (hgc.trans hl) hl
  have hsl : ∀ s, Resample groups s → (∀ g ∈ s, g.length ≤ B) ∧ s.length ≤ B ∧
      (o.ciGap = true ∨ o.ciGndcg = true → s.flatten.length ≤ B) := fun s hs => by
    obtain ⟨r1, r2⟩ := resample_length hs ms.length hgl
    exact ⟨fun g hg => (r1 g hg).trans hlB, by rw [hs.1]; omega, fun h => r2.trans (hsq h)⟩
  have hgh : ∀ g ∈ groups, ∀ m ∈ g, HardMatch m := fun g hg m hm => hh m ((g2 g hg).subset hm)
  have hgn : ∀ g ∈ groups, ∀ m ∈ g, rank m ≠ .nan := fun g hg m hm => hn m ((g2 g hg).subset hm)
  rcases he with ⟨rfl, rfl, hz⟩ | ⟨rfl, rfl, hne, hz⟩
  · have hw : ∀ m ∈ ms, Worthless m := fun m hm => HardMatch.worthless (hh m hm) (hz m hm)
    have hgw : ∀ g ∈ groups, ∀ m ∈ g, Worthless m := fun g hg m hm => hw m ((g2 g hg).subset hm)
    have sw := fun s hs => hardMatch_resample (s := s) hs Worthless hgw
    have sn := fun s hs => hardMatch_resample (s := s) hs (fun m => rank m ≠ .nan) hgn
    have z : ∀ {v : ℚ} {c : Cpp ℚ}, c = .ok 0 → c = .ok v → |v - 0| ≤ 0 := by
      intro v c h1 h2
      rw [h1] at h2
      injection h2 with h2
      rw [← h2]
      norm_num
    have zero : ∀ y : ℚ, |y - 0| ≤ 0 → showGeneral y = "0".toList := by
      intro y hy
      have : y = 0 := by simpa using hy
      rw [this, showGeneral_zero]
    have m1 := globalStatistic_at S rng _ o ms groups _ _ 0 0 0 0 eta_zero le_rfl delta_zero
      (fun v hv => z (C30_worthless_double ms _ _ _ hw hlB) hv)
      (fun hb s hs v hv => z (globalAPGrouped_zero S s _ _ _ _ (sn s hs).2 (sw s hs).2
        ((hsl s hs).2.2 (Or.inl hb))) hv) a e1
    have m2 := meanStatistic_at S rng _ o groups _ 0 0 0 0 eta_zero le_rfl delta_zero
      (fun v hv => z (meanAP_zero S groups _ _ _ _ hgn hgw (fun g hg => (hgl g hg).trans hlB)) hv)
      (fun _ s hs v hv => z (meanAP_zero S s _ _ _ _ (sn s hs).1 (sw s hs).1 (hsl s hs).1) hv) b e2
    have m3 := globalStatistic_at S rng _ o ms groups _ _ 0 0 0 0 eta_zero le_rfl delta_zero
      (fun v hv => z ((C92_extremes lm hm ms _ hlB).2 hw) hv)
      (fun hb s hs v hv => z (globalNDCGGroupedD_zero lm hm S s _ _ (sn s hs).2 (sw s hs).2
        ((hsl s hs).2.2 (Or.inr hb))) hv) c e3
    have mean : ∀ (s : List (List (KwsMatch Q L))) (b : Bool), (∀ g ∈ s, NoNaN g) → (∀ g ∈ s, ∀ m ∈ g, Worthless m) →
        (∀ g ∈ s, g.length ≤ 2 ^ 24) → s.length ≤ 2 ^ 24 →
        meanNDCGD Rnd.ieee lm S s o.collapse b = .ok 0 := by
      intro s b k1 k2 k3 k4
      have := meanNDCGD_const lm S o.collapse b 0 (by norm_num) s (k4.trans (by norm_num)) (Or.inr rfl) k1
        (fun g hg l hp => by
          rw [(C92_extremes lm hm l _ (by rw [hp.length_eq]; exact k3 g hg)).2
            (fun m hm => k2 g hg m (hp.mem_iff.1 hm))]
          simp)
      simpa using this
    have m4 := meanStatistic_at S rng _ o groups _ 0 0 0 0 eta_zero le_rfl delta_zero
      (fun v hv => z (mean groups _ hgn hgw (fun g hg => (hgl g hg).trans hlB) (hgc.trans hlB)) hv)
      (fun _ s hs v hv => z (mean s _ (sn s hs).1 (sw s hs).1 (hsl s hs).1 (hsl s hs).2.1) hv) d e4
    rw [showMetric_at 0 0 _ a "gAP" "0" m1 zero, showMetric_at 0 0 _ b "mAP" "0" m2 zero,
      showMetric_at 0 0 _ c "gNDCG" "0" m3 zero, showMetric_at 0 0 _ d "mNDCG" "0" m4 zero]
    rfl
  · have hw : AllHits ms := fun m hm => ⟨hh m hm, hn m hm, hz m hm⟩
    have hgw : ∀ g ∈ groups, AllHits g := fun g hg m hm => hw m ((g2 g hg).subset hm)
    have sw := fun s hs => hardMatch_resample (s := s) hs
      (fun m : KwsMatch Q L => HardMatch m ∧ rank m ≠ .nan ∧ IsHit m = true) hgw
    have g0 : groups ≠ [] := by
      rintro rfl
      exact hne (List.nil_perm.1 (by simpa using g1))
    have sne : ∀ s, Resample groups s → s ≠ [] ∧ [] ∉ s ∧ s.flatten ≠ [] := by
      intro s hs
      have s0 : s ≠ [] := by
        intro h
        have := hs.1
        rw [h] at this
        exact g0 (List.length_eq_zero_iff.1 this.symm)
      have s1 : [] ∉ s := by
        intro h
        obtain ⟨g, hg, hd⟩ := hs.2 [] h
        have : g = [] := List.length_eq_zero_iff.1 hd.1.symm
        exact g3 (this ▸ hg)
      refine ⟨s0, s1, fun h => ?_⟩
      obtain ⟨y, hy⟩ := List.exists_mem_of_ne_nil _ s0
      exact s1 ((List.flatten_eq_nil_iff.1 h y hy) ▸ hy)
    have z : ∀ {v : ℚ} {c : Cpp ℚ}, c = .ok 1 → c = .ok v → |v - 1| ≤ 1 / 10 ^ 7 := by
      intro v c h1 h2
      rw [h1] at h2
      injection h2 with h2
      rw [← h2]
      norm_num
    have one : ∀ y : ℚ, |y - 1| ≤ 4 / 10 ^ 7 → showGeneral y = "1".toList := fun y hy =>
      showGeneral_one y (hy.trans_lt (by norm_num))
    have hεδ : (1 : ℚ) / 10 ^ 7 ≤ 4 / 10 ^ 7 := by norm_num
    have m1 := globalStatistic_at S rng _ o ms groups _ _ 1 _ _ _ eta_one hεδ delta_one
      (fun v hv => hw.globalAP hne hlB _ _ _ v hv)
      (fun hb s hs v hv => globalAPGrouped_one S s _ _ _ _ (sw s hs).2 (sne s hs).2.2
        ((hsl s hs).2.2 (Or.inl hb)) v hv) a e1
    have m2 := meanStatistic_at S rng _ o groups _ 1 _ _ _ eta_one hεδ delta_one
      (fun v hv => meanAP_one S groups _ _ _ _ hgw g0 g3 (fun g hg => (hgl g hg).trans hlB) (hgc.trans hlB) v hv)
      (fun _ s hs v hv => meanAP_one S s _ _ _ _ (sw s hs).1 (sne s hs).1 (sne s hs).2.1 (hsl s hs).1
        (hsl s hs).2.1 v hv) b e2
    have m3 := globalStatistic_at S rng _ o ms groups _ _ 1 _ _ _ eta_one hεδ delta_one
      (fun v hv => z ((C92_extremes lm hm ms _ (hlB.trans (by norm_num))).1 hne hw.error) hv)
      (fun hb s hs v hv => z (globalNDCGGroupedD_one lm hm S s _ _ (sw s hs).2 (sne s hs).2.2
        ((hsl s hs).2.2 (Or.inr hb))) hv) c e3
    have mean : ∀ (s : List (List (KwsMatch Q L))) (b : Bool), s ≠ [] → [] ∉ s → (∀ g ∈ s, AllHits g) →
        (∀ g ∈ s, g.length ≤ 2 ^ 14) → s.length ≤ 2 ^ 14 →
        meanNDCGD Rnd.ieee lm S s o.collapse b = .ok 1 := by
      intro s b k0 k1 k2 k3 k4
      have := meanNDCGD_const lm S o.collapse b 1 (by norm_num) s (k4.trans (by norm_num)) (Or.inl k0)
        (fun g hg m hm => (k2 g hg m hm).2.1)
        (fun g hg l hp => by
          rw [(C92_extremes lm hm l _ (by rw [hp.length_eq]; exact (k3 g hg).trans (by norm_num))).1
            (fun e => k1 (by rw [e] at hp; exact List.nil_perm.1 hp ▸ hg))
            (fun m hm => (k2 g hg).error m (hp.mem_iff.1 hm))]
          simp)
      simpa using this
    have m4 := meanStatistic_at S rng _ o groups _ 1 _ _ _ eta_one hεδ delta_one
      (fun v hv => z (mean groups _ g0 g3 hgw (fun g hg => (hgl g hg).trans hlB) (hgc.trans hlB)) hv)
      (fun _ s hs v hv => z (mean s _ (sne s hs).1 (sne s hs).2.1 (sw s hs).1 (hsl s hs).1 (hsl s hs).2.1) hv) d e4
    rw [showMetric_at 1 _ _ a "gAP" "1" m1 one, showMetric_at 1 _ _ b "mAP" "1" m2 one,
      showMetric_at 1 _ _ c "gNDCG" "1" m3 one, showMetric_at 1 _ _ d "mNDCG" "1" m4 one]
    rfl

end

section
variable {μ σ Q L G : Type} [DecidableEq Q] [DecidableEq L] [Cmp Q] [Cmp L] [LawfulCmp Q] [LawfulCmp L]

theorem traceMatchAndAssessD_extreme (lm : Libm) (hm : lm.Accurate) (S : StdSort) (rng : Rng G)
    (kit : ToolKit μ σ Q L) (hk : FineKit kit) (texts : ToolTexts Q L) (w : World) (o : ToolOptions)
    (q2g : List (Q × Q)) (refs : List (Event Q L)) (hyps : List (ScoredEvent Q L)) (x : String) (B n : ℕ)
    (hn : ∀ h ∈ hyps, h.score ≠ .nan) (hl : refs.length + hyps.length ≤ n) (ha : AtMost B n o)
    (he : ∀ l s' ms rep, sortHyps S o.sort hyps = .ok l →
      SimpleMatcher.run kit.index kit.scorer kit.refsSet refs l = .ok (s', ms, rep) → Extreme x B ms) :
    Outs (· = resultLines o x) (traceMatchAndAssessD Rnd.ieee lm S rng kit texts w o q2g refs hyps) := by
  unfold traceMatchAndAssessD
  refine Outs.bind _ rfl _ fun l h1 => ?_
  refine Outs.bind _ (sayIf_outs _ _).1 _ fun _ _ => ?_
  refine Outs.bind _ rfl _ fun _ _ => ?_
  refine Outs.bind _ rfl _ fun t h2 => ?_
  obtain ⟨s', ms, rep⟩ := t
  have h1 : sortHyps S o.sort hyps = .ok l := h1
  have h2 : SimpleMatcher.run kit.index kit.scorer kit.refsSet refs l = .ok (s', ms, rep) := h2
  have hp := sortHyps_mem S o.sort hyps l h1
  refine Outs.ite _ (fun _ h => by cases h) fun _ => ?_
  refine Outs.bind _ (by unfold emitIf; split <;> rfl) _ fun _ _ => ?_
  refine Outs.ite _ (fun _ h => by cases h) fun _ => ?_
  refine Outs.bind _ (sayIf_outs _ _).1 _ fun _ _ => ?_
  refine Outs.bind _ rfl _ fun groups h3 => ?_
  have r1 := (run_ranks _ _ _ _ _ _ _ _ h2 (fun h hh => hn h (hp.mem_iff.1 hh))).1
  have r3 := run_length _ _ _ _ _ _ _ _ h2
  rw [hp.length_eq] at r3
  exact traceAssessD_extreme lm hm S rng w o q2g ms groups h3 x B n (he l s' ms rep h1 h2)
    (run_hardMatch _ _ _ _ _ _ _ _ h2 hk.scorer) r1 (r3.trans hl) ha

theorem traceEvaluateD_extreme (lm : Libm) (hm : lm.Accurate) (S : StdSort) (rng : Rng G)
    (kit : ToolKit μ σ Q L) (hk : FineKit kit) (texts : ToolTexts Q L) (w : World) (o : ToolOptions)
    (q2g : List (Q × Q)) (refs : List (Event Q L)) (hyps : List (ScoredEvent Q L)) (x : String) (B n : ℕ)
    (hn : ∀ h ∈ hyps, h.score ≠ .nan) (hl : refs.length + hyps.length ≤ n) (ha : AtMost B n o)
    (he : ∀ l s' ms rep, sortHyps S o.sort (usedHyps q2g hyps) = .ok l →
      SimpleMatcher.run kit.index kit.scorer kit.refsSet (usedRefs q2g refs) l = .ok (s', ms, rep) →
      Extreme x B ms) :
    Outs (· = resultLines o x) (traceEvaluateD Rnd.ieee lm S rng kit texts w o q2g refs hyps) := by
  unfold traceEvaluateD
  unfold usedHyps usedRefs at he
  refine Outs.ite _ (fun hq => ?_) fun hq => ?_
  · simp only [if_pos hq] at he
    exact traceMatchAndAssessD_extreme lm hm S rng kit hk texts w o _ refs hyps x B n hn hl ha he
  · simp only [if_neg hq] at he
    have f1 : (filterEvents q2g (·.query) refs).length ≤ refs.length := List.length_filter_le _ _
    have f2 : (filterEvents q2g (·.base.query) hyps).length ≤ hyps.length := List.length_filter_le _ _
    refine Outs.bind _ (sayIf_outs _ _).1 _ fun _ _ => ?_
    refine Outs.bind _ (sayIf_outs _ _).1 _ fun _ _ => ?_
    refine Outs.bind _ (sayIf_outs _ _).1 _ fun _ _ => ?_
    exact traceMatchAndAssessD_extreme lm hm S rng kit hk texts w o q2g _ _ x B n
      (fun h hh => hn h (List.mem_filter.1 hh).1) (by omega) ha he

/-- The program: what the files contain decides what is printed. -/
theorem traceMainWithD_extreme (lm : Libm) (hm : lm.Accurate) (S : StdSort) (rng : Rng G)
    (kit : ToolKit μ σ Q L) (hk : FineKit kit) (texts : ToolTexts Q L) (w : World) (argc : ℕ)
    (o : ToolOptions) (x : String) (B n : ℕ) (ha : AtMost B n o)
    (he : ∀ t u m refs m' hyps q2g, w.file o.refFilename = some t → hypText w o = some u →
      kit.readRef kit.mapper t = (m, refs, .ok) → kit.readHyp m u = (m', hyps, .ok) →
      readQueryMap kit.mapQuery w o m' = .ok (some q2g) → refs.length + hyps.length ≤ n ∧
      ∀ l s' ms rep, sortHyps S o.sort (usedHyps q2g hyps) = .ok l →
        SimpleMatcher.run kit.index kit.scorer kit.refsSet (usedRefs q2g refs) l = .ok (s', ms, rep) →
        Extreme x B ms) :
    Outs (· = resultLines o x) (traceMainWithD Rnd.ieee lm S rng kit texts w argc o) := by
  unfold traceMainWithD
  refine Outs.ite _ (fun _ h => by cases h) fun _ => ?_
  refine Outs.bind _ (traceRead_quiet _ _).outs _ fun y hy => ?_
  match y, hy with
  | none, _ => exact fun h => by cases h
  | some (m, refs), hy =>
    obtain ⟨t, ht, hy⟩ := traceRead_some _ _ _ _ hy
    refine Outs.bind _ rfl _ fun _ _ => ?_
    refine Outs.bind _ (traceRead_quiet _ _).outs _ fun y hy' => ?_
    match y, hy' with
    | none, _ => exact fun h => by cases h
    | some (m', hyps), hy' =>
      obtain ⟨u, hu, hy'⟩ := traceRead_some _ _ _ _ hy'
      refine Outs.bind _ rfl _ fun _ _ => ?_
      obtain ⟨q1, q2, _⟩ := traceQueryMap_facts kit.mapQuery w o m'
      refine Outs.bind _ q2.outs _ fun z hz => ?_
      match z, hz with
      | none, _ => exact fun h => by cases h
      | some q2g, hz =>
        rw [q1] at hz
        obtain ⟨h1, h2⟩ := he t u m refs m' hyps q2g ht hu hy hy' hz
        exact traceEvaluateD_extreme lm hm S rng kit hk texts w o q2g refs hyps x B n (hk.hyps _ _ _ _ _ hy').2
          h1 ha h2

end

end Kws
