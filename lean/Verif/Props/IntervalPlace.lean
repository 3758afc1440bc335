import Verif.Lemmas.Intervals
import Verif.Props.Bootstrap
import Verif.Props.Resampling
import Verif.Props.Ndcg
import Verif.Lemmas.Rounding

/-!
# C95: where the confidence intervals lie
-/

namespace Kws
open Spec

section
variable {C G K : Type} [LinearOrder K] [AddCommGroup K] [IsOrderedAddMonoid K]

/-- C95, in exact arithmetic: the interval goes down to the value or below it if and only if at most
`⌊(1 - alpha/2) n⌋` of the `n` samples have a smaller statistic, and up to it or above it if and only if
more than `⌊alpha/2 n⌋` samples do not have a larger one. Missing for C95: nothing makes the samples of a
run that way, see the refutation. -/
theorem C95_contains_partial (S : StdSort) (original : C) (n : Nat) (alpha : ℚ) (statistic : C → Cpp K)
    (sampler : G → Cpp (C × G)) (g : G) (v : K) (stat : C → K)
    (hv : statistic original = .ok v) (hs : ∀ g, ∃ c g', sampler g = .ok (c, g'))
    (hstat : ∀ g c g', sampler g = .ok (c, g') → statistic c = .ok (stat c))
    (hn : 0 < n) (hn' : n < 2 ^ 64) (h0 : 0 < alpha) (h2 : alpha < 2) :
    ∃ (cs : List C) (lo hi : K), Successive sampler g cs ∧ cs.length = n ∧
      percentileCI Rnd.exact S id original n alpha statistic sampler g = .ok (v, lo, hi) ∧
      (lo ≤ v ↔ cs.countP (fun c => decide (stat c < v)) ≤ ⌊(1 - alpha / 2) * n⌋.toNat) ∧
      (v ≤ hi ↔ ⌊alpha / 2 * n⌋.toNat < cs.countP (fun c => decide (stat c ≤ v))) := by
  obtain ⟨cs, devs, dl, du, a1, a2, a3, a4, a5, a6, a7, _⟩ := C42_bounds_partial S id monotone_id
    original n alpha statistic sampler g v stat hv hs hstat hn hn' h0 h2
  have count : ∀ P : K → Bool, devs.countP P = cs.countP (fun c => P (stat c - v)) := by
    intro P
    rw [a3.countP_eq, List.countP_map]
    rfl
  refine ⟨cs, v - dl, v - du, a1, a2, a7, ?_, ?_⟩
  · have := sorted_at_iff a4 (fun d => decide (d < 0)) (by
      intro a b hab hb
      simp only [decide_eq_true_eq] at hb ⊢
      exact lt_of_le_of_lt hab hb) a5
    rw [count] at this
    simp only [decide_eq_true_eq, sub_neg] at this
    rw [← not_lt (a := ⌊(1 - alpha / 2) * n⌋.toNat), ← this, not_lt]
    exact sub_le_self_iff v
  · have := sorted_at_iff a4 (fun d => decide (d ≤ 0)) (by
      intro a b hab hb
      simp only [decide_eq_true_eq] at hb ⊢
      exact le_trans hab hb) a6
    rw [count] at this
    simp only [decide_eq_true_eq, sub_nonpos] at this
    rw [← this]
    exact le_sub_self_iff v

/-- C95, in exact arithmetic: if the statistic of all samples is between `a` and `b`, both bounds are
between `v - (b - v)` and `v + (v - a)`. Missing for C95: that is not an interval between `a` and `b`. -/
theorem C95_range_partial (S : StdSort) (original : C) (n : Nat) (alpha : ℚ) (statistic : C → Cpp K)
    (sampler : G → Cpp (C × G)) (g : G) (v lo hi a b : K)
    (hstat : ∀ g c g' x, sampler g = .ok (c, g') → statistic c = .ok x → a ≤ x ∧ x ≤ b)
    (h : percentileCI Rnd.exact S id original n alpha statistic sampler g = .ok (v, lo, hi)) :
    (v - (b - v) ≤ lo ∧ lo ≤ v + (v - a)) ∧ (v - (b - v) ≤ hi ∧ hi ≤ v + (v - a)) := by
  obtain ⟨diffs, ds, li, ui, dl, du, _, a2, a3, _, _, a6, a7, rfl, rfl⟩ :=
    percentileCI_parts _ _ _ _ _ _ _ _ _ _ _ _ h
  obtain ⟨ds', s1, s2, _⟩ := sort_lt S diffs
  rw [a3] at s1
  injection s1 with s1
  subst s1
  have hd : ∀ (i : Nat) (d : K), ds[i]? = some d → v - (b - v) ≤ v - d ∧ v - d ≤ v + (v - a) := by
    intro i d hi
    obtain ⟨g, c, g', x, e1, e2, rfl⟩ := bootstrapLoop_mem _ _ _ _ _ _ _ a2 d
      (s2.mem_iff.1 (List.mem_of_getElem? hi))
    obtain ⟨k1, k2⟩ := hstat _ _ _ _ e1 e2
    refine ⟨sub_le_sub_left (sub_le_sub_right k2 v) v, ?_⟩
    rw [id, sub_eq_add_neg, neg_sub]
    exact add_le_add_right (sub_le_sub_left k1 v) v
  exact ⟨hd _ _ a6, hd _ _ a7⟩

end

section
variable {μ σ G Q L : Type}

/-- Both bounds of the interval, if there is one, are at most as far from the value as the value is
from 1 (below it) or from 0 (above it). -/
def Reflected {K : Type} [Ring K] [LinearOrder K] (m : Metric K) : Prop :=
  (0 ≤ m.value ∧ m.value ≤ 1) ∧ ∀ lo hi, m.ci = some (lo, hi) →
    (2 * m.value - 1 ≤ lo ∧ lo ≤ 2 * m.value) ∧ (2 * m.value - 1 ≤ hi ∧ hi ≤ 2 * m.value)

theorem globalStatistic_reflected {K : Type} [Field K] [LinearOrder K] [IsStrictOrderedRing K]
    (S : StdSort) (rng : Rng G) (b : Bool) (o : ToolOptions) (ms : List (KwsMatch Q L))
    (groups : List (List (KwsMatch Q L))) (plain : List (KwsMatch Q L) → Cpp K)
    (grouped : List (List (KwsMatch Q L)) → Bool → Cpp K) (m : Metric K)
    (hplain : ∀ x, plain ms = .ok x → 0 ≤ x ∧ x ≤ 1)
    (hgrouped : ∀ gs, Resample groups gs → ∀ x, grouped gs true = .ok x → 0 ≤ x ∧ x ≤ 1)
    (h : globalStatistic Rnd.exact S id rng b o ms groups plain grouped = .ok m) : Reflected m := by
  unfold globalStatistic at h
  cases b with
  | false =>
    simp only [Bool.false_eq_true, if_false, bind, Except.bind, pure, Except.pure] at h
    cases hp : plain ms with
    | error e => rw [hp] at h; cases h
    | ok v =>
      rw [hp] at h
      injection h with h
      rw [← h]
      exact ⟨hplain v hp, by simp⟩
  | true =>
    simp only [if_true, percentileCIGrouped, bind, Except.bind, pure, Except.pure] at h
    split at h
    · cases h
    · rename_i t e1
      obtain ⟨v, lo, hi⟩ := t
      injection h with h
      have hv := hgrouped groups (resample_self groups) v
        (percentileCI_parts _ _ _ _ _ _ _ _ _ _ _ _ e1).choose_spec.choose_spec.choose_spec.choose_spec.choose_spec.choose_spec.1
      have hr := C95_range_partial S _ _ _ _ _ _ v lo hi 0 1 (by
        intro g c g' x h1 h2
        obtain ⟨c', g'', k1, k2⟩ := C40_shape rng groups g
        rw [k1] at h1
        simp only [Except.ok.injEq, Prod.mk.injEq] at h1
        obtain ⟨rfl, rfl⟩ := h1
        exact hgrouped _ k2 x h2) e1
      rw [← h]
      refine ⟨hv, ?_⟩
      intro lo' hi' he
      simp only [Option.some.injEq, Prod.mk.injEq] at he
      obtain ⟨rfl, rfl⟩ := he
      dsimp only
      constructor <;> constructor <;> linarith [hr.1.1, hr.1.2, hr.2.1, hr.2.2]

/-- C95 for the four metrics of the tools, in exact arithmetic: both bounds are between twice the value
minus 1 and twice the value. Missing for C95: they may be outside [0,1]. -/
theorem C95_report_partial (S : StdSort) (rng : Rng G) (w : World) (o : ToolOptions)
    (ms : List (KwsMatch Q L)) (groups : List (List (KwsMatch Q L)))
    (dump : Option (List (KwsMatch Q L) × List (KwsMatch Q L))) (r : Report Q L)
    (hr : ∀ m ∈ ms, Rates m.error) (hnan : ∀ m ∈ ms, rank m ≠ .nan)
    (hg : groups.flatten.Perm ms) (h : assess Rnd.exact S rng w o ms groups dump = .ok r) :
    Reflected r.gAP ∧ Reflected r.mAP ∧ Reflected r.gNDCG ∧ Reflected r.mNDCG := by
  obtain ⟨a1, a2, a3, a4, _⟩ := assess_ok _ _ _ _ _ _ _ _ _ h
  have hgr : ∀ g ∈ groups, ∀ m ∈ g, Rates m.error ∧ rank m ≠ .nan := by
    intro g hgg m hm
    have := hg.mem_iff.1 (List.mem_flatten.2 ⟨g, hgg, hm⟩)
    exact ⟨hr m this, hnan m this⟩
  have all : ∀ gs, Resample groups gs → (∀ g ∈ gs, ∀ m ∈ g, Rates m.error) ∧
      ∀ g ∈ gs, ∀ m ∈ g, rank m ≠ .nan := fun gs hgs =>
    ⟨resample_all hgs _ (fun g h m hm => (hgr g h m hm).1),
      resample_all hgs _ (fun g h m hm => (hgr g h m hm).2)⟩
  have of : ∀ {K : Type} [Zero K] [One K] [LE K] {c : Cpp K},
      (∃ v, c = .ok v ∧ 0 ≤ v ∧ v ≤ 1) → ∀ x, c = .ok x → 0 ≤ x ∧ x ≤ 1 := by
    rintro K _ _ _ c ⟨v, rfl, hv⟩ x hx
    injection hx with hx
    exact hx ▸ hv
  have mAP : ∀ gs b, Resample groups gs → ∀ x,
      meanAP Rnd.exact S gs o.collapse o.interp o.trapezoid b = .ok x → 0 ≤ x ∧ x ≤ 1 := by
    intro gs b hgs
    obtain ⟨_, v, _, k2, _, k3⟩ := C29_mean_ap_partial S gs o.collapse o.interp o.trapezoid b (all gs hgs).1
      (fun _ => (all gs hgs).2)
    exact of ⟨v, k2, k3⟩
  have mN : ∀ gs b, Resample groups gs → ∀ x,
      meanNDCG Rnd.exact S gs o.collapse b = .ok x → 0 ≤ x ∧ x ≤ 1 := by
    intro gs b hgs
    obtain ⟨_, v, _, k2, _, k3⟩ := C36_mean S gs o.collapse b (all gs hgs).1 (fun _ => (all gs hgs).2)
    exact of ⟨v, k2, k3⟩
  refine ⟨globalStatistic_reflected S rng _ _ _ _ _ _ _ (of (C29_global_ap_partial ms _ _ _ hr)) ?_ a1,
    globalStatistic_reflected S rng _ _ [] _ (fun _ => _) _ _ (mAP groups false (resample_self _))
      (fun gs hgs => mAP gs true hgs) a2,
    globalStatistic_reflected S rng _ _ _ _ _ _ _ ?_ ?_ a3,
    globalStatistic_reflected S rng _ _ [] _ (fun _ => _) _ _ (mN groups false (resample_self _))
      (fun gs hgs => mN gs true hgs) a4⟩
  · intro gs hgs
    exact of (C29_global_ap_grouped_partial S gs _ _ _ true (all gs hgs).1 (fun _ => (all gs hgs).2))
  · intro x hx
    injection hx with hx
    exact hx ▸ C36_unit Rnd.exact ms o.collapse hr (Or.inl rfl)
  · intro gs hgs x hx
    unfold globalNDCGGrouped at hx
    simp only [if_true, bind, Except.bind, pure, Except.pure] at hx
    obtain ⟨l, l1, l2, _⟩ := sortMatches_spec S gs.flatten (by
      intro m hm
      obtain ⟨g, hgg, hm⟩ := List.mem_flatten.1 hm
      exact (all gs hgs).2 g hgg m hm)
    rw [l1] at hx
    injection hx with hx
    refine hx ▸ C36_unit Rnd.exact l o.collapse ?_ (Or.inl rfl)
    intro m hm
    obtain ⟨g, hgg, hm⟩ := List.mem_flatten.1 (l2.mem_iff.1 hm)
    exact (all gs hgs).1 g hgg m hm

/-- C95 for a whole evaluation with a scorer that accepts or rejects (as those of both tools do). -/
theorem C95_evaluate_partial [DecidableEq Q] [Cmp Q] [LawfulCmp Q] [Cmp L] [LawfulCmp L]
    (S : StdSort) (rng : Rng G) (kit : ToolKit μ σ Q L) (w : World) (o : ToolOptions)
    (q2g : List (Q × Q)) (refs : List (Event Q L)) (hyps : List (ScoredEvent Q L))
    (hnan : ∀ h ∈ hyps, h.score ≠ .nan)
    (hh : ∀ r x e, kit.scorer r x = .ok e → (e.fp = 0 ∨ e.fp = 1) ∧ (e.fn = 0 ∨ e.fn = 1))
    (r : Report Q L) (h : evaluate Rnd.exact S rng kit w o q2g refs hyps = .ok (.done r)) :
    Reflected r.gAP ∧ Reflected r.mAP ∧ Reflected r.gNDCG ∧ Reflected r.mNDCG := by
  obtain ⟨l, s1, ms, rep, groups, a1, a2, a3, a4⟩ := evaluate_done _ _ _ _ _ _ _ _ _ _ h
  have hl : ∀ x ∈ l, x ∈ usedHyps q2g hyps := by
    by_cases hc : o.sort = "desc".toList ∨ o.sort = "asc".toList
    · obtain ⟨l', b1, _, b3⟩ := sortHyps_unique S S o.sort (usedHyps q2g hyps) _
        (fun x hx => hnan x (usedHyps_mem q2g hyps x hx)) (List.Perm.refl _) hc
      rw [a1] at b1
      injection b1 with b1
      subst b1
      exact fun x hx => b3.mem_iff.1 hx
    · push Not at hc
      unfold sortHyps at a1
      rw [if_neg hc.1, if_neg hc.2] at a1
      injection a1 with a1
      subst a1
      exact fun x hx => hx
  obtain ⟨d1, _⟩ := run_ranks _ _ _ _ _ _ _ _ a2
    (fun x hx => hnan x (usedHyps_mem q2g hyps x (hl x hx)))
  obtain ⟨e1, _⟩ := groupMatches_facts _ _ _ a3
  refine C95_report_partial S rng w o ms groups _ r ?_ d1 e1 a4
  intro m hm
  exact hard_rates _ (run_hard _ _ _ _ _ _ _ _ a2 hh m hm)

end

/-! ## The refutation -/

theorem probability_le {N L : ℕ} {P Q : List ℕ → Prop} (h : ∀ l, P l → Q l) :
    probability N L P ≤ probability N L Q := by
  classical
  unfold probability
  refine div_le_div_of_nonneg_right ?_ (Nat.cast_nonneg _)
  exact_mod_cast List.countP_mono_left (fun l _ hl => by
    simp only [decide_eq_true_eq] at hl ⊢
    exact h l hl)

theorem successive_same {C G : Type} {sampler : G → Cpp (C × G)} {g : G} {cs : List C}
    (h : Successive sampler g cs) : ∀ {cs' : List C}, Successive sampler g cs' →
      cs'.length = cs.length → cs' = cs := by
  induction h with
  | nil => intro cs' _ hl; exact List.length_eq_zero_iff.1 hl
  | cons g g' c cs e _ ih =>
    intro cs' h' hl
    cases h' with
    | nil => simp at hl
    | cons _ g'' c' cs'' e' h'' =>
      rw [e] at e'
      simp only [Except.ok.injEq, Prod.mk.injEq] at e'
      obtain ⟨rfl, rfl⟩ := e'
      rw [ih h'' (by simpa using hl)]

/-- Three queries with one reference each: the first one is missed, the others are found. -/
def threeQueries : List (List (KwsMatch Nat Nat)) :=
  [[⟨some ⟨1, 1⟩, none, ⟨0, 1⟩⟩], [⟨some ⟨2, 1⟩, some ⟨⟨2, 1⟩, .fin 1⟩, ⟨0, 0⟩⟩],
    [⟨some ⟨3, 1⟩, some ⟨⟨3, 1⟩, .fin 1⟩, ⟨0, 0⟩⟩]]

/-- The sample in which the missed query was drawn three times. -/
def threeMisses : List (List (KwsMatch Nat Nat)) :=
  List.replicate 3 [⟨some ⟨1, 1⟩, none, ⟨0, 1⟩⟩]

theorem sort_single (S : StdSort) (m : KwsMatch Nat Nat) (hm : rank m ≠ .nan) :
    sortMatches S [m] = .ok [m] := by
  obtain ⟨l, l1, l2, _⟩ := sortMatches_spec S [m] (by simpa [NoNaN] using hm)
  rw [l1, List.perm_singleton.1 l2]

theorem threeQueries_value (S : StdSort) :
    meanAP Rnd.exact S threeQueries true true true true = .ok (2 / 3) := by
  have h1 : globalAP Rnd.exact [(⟨some ⟨1, 1⟩, none, ⟨0, 1⟩⟩ : KwsMatch Nat Nat)] true true true = .ok 0 := by
    decide +kernel
  have h2 : globalAP Rnd.exact [(⟨some ⟨2, 1⟩, some ⟨⟨2, 1⟩, .fin 1⟩, ⟨0, 0⟩⟩ : KwsMatch Nat Nat)]
      true true true = .ok 1 := by decide +kernel
  have h3 : globalAP Rnd.exact [(⟨some ⟨3, 1⟩, some ⟨⟨3, 1⟩, .fin 1⟩, ⟨0, 0⟩⟩ : KwsMatch Nat Nat)]
      true true true = .ok 1 := by decide +kernel
  unfold meanAP threeQueries
  simp only [meanAPLoop, if_true]
  rw [sort_single S _ (by simp [rank]), sort_single S _ (by simp [rank]), sort_single S _ (by simp [rank])]
  simp only [bind, Except.bind, pure, Except.pure, h1, h2, h3]
  norm_num [Rnd.exact]

theorem threeMisses_value (S : StdSort) :
    meanAP Rnd.exact S threeMisses true true true true = .ok 0 := by
  have h1 : globalAP Rnd.exact [(⟨some ⟨1, 1⟩, none, ⟨0, 1⟩⟩ : KwsMatch Nat Nat)] true true true = .ok 0 := by
    decide +kernel
  unfold meanAP threeMisses
  simp only [List.replicate, meanAPLoop, if_true]
  rw [sort_single S _ (by simp [rank])]
  simp only [bind, Except.bind, pure, Except.pure, h1]
  norm_num [Rnd.exact]

/-- C95 is false: with three queries, one of them missed, the mean average precision is 2/3. Whatever
the number of repetitions and alpha, the computed interval is [4/3, 4/3] with a positive probability.
It does not contain the value, and all of it is larger than 1. -/
theorem C95_refuted (S : StdSort) (n : Nat) (alpha : ℚ) (hn : 0 < n) (hn' : n < 2 ^ 64) (h0 : 0 < alpha)
    (h2 : alpha < 2) :
    groupMatches [] threeQueries.flatten = .ok threeQueries ∧
    (∀ m ∈ threeQueries.flatten, Rates m.error) ∧ (0 : ℚ) < (1 / 27) ^ n ∧
    (1 / 27) ^ n ≤ probability 3 (6 * n) (fun l =>
      percentileCI Rnd.exact S id threeQueries n alpha
        (fun gs => meanAP Rnd.exact S gs true true true true)
        (matchesByQuerySampler dice threeQueries) l = .ok (2 / 3, 4 / 3, 4 / 3)) := by
  have hr : ∀ m ∈ threeQueries.flatten, Rates m.error := by unfold Rates; decide +kernel
  have hnan : ∀ m ∈ threeQueries.flatten, rank m ≠ .nan := by decide +kernel
  refine ⟨by decide +kernel, hr, by positivity, ?_⟩
  have hlaw : resampleLaw threeQueries threeMisses = 1 / 27 := by decide +kernel
  have hind := C91_independent threeQueries (List.replicate n threeMisses) 3 (6 * n)
    ⟨by decide, fun _ => by decide, by decide⟩
    (by intro s hs; rw [List.eq_of_mem_replicate hs]; rfl)
    (by
      rw [List.map_replicate, List.sum_replicate]
      have : drawsOf threeMisses = 6 := by decide
      rw [this, smul_eq_mul, mul_comm])
  rw [List.map_replicate, List.prod_replicate, hlaw] at hind
  rw [← hind]
  refine probability_le fun l hl => ?_
  have hmem : ∀ g ∈ threeQueries, ∀ m ∈ g, m ∈ threeQueries.flatten := fun g hg m hm =>
    List.mem_flatten.2 ⟨g, hg, hm⟩
  let stat : List (List (KwsMatch Nat Nat)) → ℚ := fun gs =>
    match meanAP Rnd.exact S gs true true true true with
    | .ok x => x
    | .error _ => 0
  obtain ⟨cs, devs, dl, du, b1, b2, b3, _, b5, b6, b7, _⟩ := C42_bounds_partial S id monotone_id threeQueries n
    alpha (fun gs => meanAP Rnd.exact S gs true true true true) (matchesByQuerySampler dice threeQueries) l
    (2 / 3) stat (threeQueries_value S)
    (fun g => by
      obtain ⟨c, g', k, _⟩ := C40_shape dice threeQueries g
      exact ⟨c, g', k⟩)
    (fun g c g' hc => by
      obtain ⟨c', g'', k1, k2⟩ := C40_shape dice threeQueries g
      rw [k1] at hc
      simp only [Except.ok.injEq, Prod.mk.injEq] at hc
      obtain ⟨rfl, rfl⟩ := hc
      obtain ⟨_, v, _, k3, _⟩ := C29_mean_ap_partial S c' true true true true
        (resample_all k2 _ (fun g hg m hm => hr m (hmem g hg m hm)))
        (fun _ => resample_all k2 _ (fun g hg m hm => hnan m (hmem g hg m hm)))
      simp only [stat, k3])
    hn hn' h0 h2
  have hcs := successive_same hl b1 (by rw [b2, List.length_replicate])
  subst hcs
  have hs0 : stat threeMisses = 0 := by simp only [stat, threeMisses_value]
  have hd : ∀ (i : Nat) (d : ℚ), devs[i]? = some d → d = - (2 / 3) := by
    intro i d hi
    have := b3.mem_iff.1 (List.mem_of_getElem? hi)
    rw [List.map_replicate, hs0] at this
    have := List.eq_of_mem_replicate this
    simpa using this
  rw [b7, hd _ _ b5, hd _ _ b6]
  norm_num

/-- With alpha = 1 and two samples, one of them below the value and one at it. -/
example (S : StdSort) : ∃ (cs : List ℚ) (lo hi : ℚ), cs = [1, 3] ∧
    percentileCI (K := ℚ) (G := Bool) Rnd.exact S id 3 2 1 (fun c : ℚ => .ok c)
      (fun b => .ok (if b then 1 else 3, !b)) true = .ok (3, lo, hi) ∧ lo ≤ 3 ∧ 3 ≤ hi := by
  obtain ⟨cs, lo, hi, h1, h2, h3, h4, h5⟩ := C95_contains_partial (K := ℚ) (G := Bool) S 3 2 1
    (fun c : ℚ => .ok c) (fun b => .ok (if b then 1 else 3, !b)) true 3 id rfl (fun g => ⟨_, _, rfl⟩)
    (fun _ _ _ _ => rfl) (by norm_num) (by norm_num) (by norm_num) (by norm_num)
  have hcs : cs = [1, 3] := successive_same
    (.cons _ _ _ _ rfl (.cons _ _ _ _ rfl (.nil _))) h1 h2
  subst hcs
  refine ⟨_, lo, hi, rfl, h3, h4.2 ?_, h5.2 ?_⟩ <;> norm_num
end Kws
