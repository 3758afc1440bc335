import Verif.Lemmas.Draws
import Verif.Model.ToolDouble
import Verif.Lemmas.Bootstrap

/-!
# C106, C107: seeds and draws of the random engine
-/

namespace Kws
open MinStd

/-! ## Seeds -/

section
variable {μ σ G Q L : Type}

theorem globalStatistic_seed {K : Type} [LinearOrder K] [Sub K] (R : Rnd) (S : StdSort) (rd : K → K)
    (rng : Rng G) (b : Bool) (o : ToolOptions) (s : ℕ) (h : rng.seed s = rng.seed o.seed)
    (ms : List (KwsMatch Q L)) (groups : List (List (KwsMatch Q L))) (plain : List (KwsMatch Q L) → Cpp K)
    (grouped : List (List (KwsMatch Q L)) → Bool → Cpp K) :
    globalStatistic R S rd rng b { o with seed := s } ms groups plain grouped =
      globalStatistic R S rd rng b o ms groups plain grouped := by
  unfold globalStatistic percentileCIGrouped
  dsimp only
  rw [h]

theorem meanStatistic_seed {K : Type} [LinearOrder K] [Sub K] (R : Rnd) (S : StdSort) (rd : K → K)
    (rng : Rng G) (b : Bool) (o : ToolOptions) (s : ℕ) (h : rng.seed s = rng.seed o.seed)
    (groups : List (List (KwsMatch Q L))) (grouped : List (List (KwsMatch Q L)) → Bool → Cpp K) :
    meanStatistic R S rd rng b { o with seed := s } groups grouped =
      meanStatistic R S rd rng b o groups grouped := by
  unfold meanStatistic percentileCIGrouped
  dsimp only
  rw [h]

/-- C106: two seeds that give the same state of the generator give the same results. -/
theorem C106_same [DecidableEq Q] [Cmp Q] [Cmp L] (R : Rnd) (S : StdSort) (rng : Rng G)
    (kit : ToolKit μ σ Q L) (w : World) (o : ToolOptions) (s : ℕ) (h : rng.seed s = rng.seed o.seed) :
    mainWith R S rng kit w { o with seed := s } = mainWith R S rng kit w o := by
  unfold mainWith evaluate matchAndAssess assess
  simp only [globalStatistic_seed R S _ rng _ o s h, meanStatistic_seed R S _ rng _ o s h]
  rfl

theorem traceAssessD_seed (R : Rnd) (lm : Libm) (S : StdSort) (rng : Rng G) (w : World) (o : ToolOptions)
    (s : ℕ) (h : rng.seed s = rng.seed o.seed) (ms : List (KwsMatch Q L)) (groups : List (List (KwsMatch Q L))) :
    traceAssessD R lm S rng w { o with seed := s } ms groups = traceAssessD R lm S rng w o ms groups := by
  unfold traceAssessD
  simp only [globalStatistic_seed R S _ rng _ o s h, meanStatistic_seed R S _ rng _ o s h]

/-- C106: two seeds that give the same state of the generator make the program write the same text. -/
theorem C106_text [DecidableEq Q] [Cmp Q] [Cmp L] (R : Rnd) (lm : Libm) (S : StdSort) (rng : Rng G)
    (kit : ToolKit μ σ Q L) (texts : ToolTexts Q L) (w : World) (argc : ℕ) (o : ToolOptions) (s : ℕ)
    (h : rng.seed s = rng.seed o.seed) :
    traceMainWithD R lm S rng kit texts w argc { o with seed := s } =
      traceMainWithD R lm S rng kit texts w argc o := by
  unfold traceMainWithD traceEvaluateD traceMatchAndAssessD
  simp only [traceAssessD_seed R lm S rng w o s h]
  rfl

end

/-- Seeds that the engine cannot tell apart: equal modulo `2^31 - 1`, where 0 counts as 1. -/
def Spec.SameSeed (s s' : ℕ) : Prop :=
  (s : ZMod 2147483647) = s' ∨
    ((s : ZMod 2147483647) = 0 ∨ (s : ZMod 2147483647) = 1) ∧
      ((s' : ZMod 2147483647) = 0 ∨ (s' : ZMod 2147483647) = 1)

/-- C106: the engine starts in the same state exactly for the seeds that are equal modulo `2^31 - 1`, where 0
counts as 1. -/
theorem C106_seed (s s' : ℕ) : MinStd.rng.seed s = MinStd.rng.seed s' ↔ Spec.SameSeed s s' := by
  have e0 (a : ℕ) : (a : ZMod 2147483647) = 0 ↔ a % 2147483647 = 0 := by
    rw [ZMod.natCast_eq_zero_iff, Nat.dvd_iff_mod_eq_zero]
  have e1 (a : ℕ) : (a : ZMod 2147483647) = 1 ↔ a % 2147483647 = 1 := by
    have := ZMod.natCast_eq_natCast_iff' a 1 2147483647
    rwa [Nat.cast_one, Nat.mod_eq_of_lt (by decide : 1 < 2147483647)] at this
  unfold Spec.SameSeed
  rw [e0, e0, e1, e1, ZMod.natCast_eq_natCast_iff']
  show MinStd.seed s = MinStd.seed s' ↔ _
  unfold MinStd.seed
  split <;> split <;> rw [Subtype.mk.injEq] <;> omega

/-- C106: the tool with the engine of the program does not distinguish seeds that are equal modulo `2^31 - 1`
(where 0 counts as 1): everything that it writes is the same. -/
theorem C106_run {μ σ Q L : Type} [DecidableEq Q] [Cmp Q] [Cmp L] (R : Rnd) (lm : Libm) (S : StdSort)
    (kit : ToolKit μ σ Q L) (texts : ToolTexts Q L) (w : World) (argc : ℕ) (o : ToolOptions) (s : ℕ)
    (h : Spec.SameSeed s o.seed) :
    traceMainWithD R lm S MinStd.rng kit texts w argc { o with seed := s } =
      traceMainWithD R lm S MinStd.rng kit texts w argc o :=
  C106_text R lm S MinStd.rng kit texts w argc o s ((C106_seed s o.seed).2 h)

/-- The default seed and that seed plus `2^31 - 1` -/
example : Spec.SameSeed (0x12345 + 2147483647) 0x12345 := by
  left
  rw [Nat.cast_add, ZMod.natCast_self, add_zero]

/-- The seeds 0 and 1 -/
example : Spec.SameSeed 0 1 := Or.inr ⟨Or.inl Nat.cast_zero, Or.inr Nat.cast_one⟩

/-- The default seed and 1 are told apart. -/
example : ¬ Spec.SameSeed 0x12345 1 := by
  rw [← C106_seed, Subtype.ext_iff]
  decide

theorem draw_small (max s : ℕ) (hs : 1 ≤ s) (h : 16807 * s ≤ 2147483645 / (max + 1)) :
    (MinStd.rng.draw max (MinStd.rng.seed s)).1 = 0 := by
  have hd := Nat.div_le_self 2147483645 (max + 1)
  have hseed : MinStd.seed s = ⟨s, by omega⟩ := by
    unfold MinStd.seed
    have : s % 2147483647 = s := Nat.mod_eq_of_lt (by omega)
    rw [dif_neg (by omega)]
    exact Subtype.ext this
  have hn : (next (MinStd.seed s)).1 = 16807 * s := by
    rw [hseed]
    show 16807 * s % 2147483647 = 16807 * s
    exact Nat.mod_eq_of_lt (by omega)
  show (MinStd.draw max (MinStd.seed s)).1 = 0
  have hm : max < 2147483645 := by
    by_contra hc
    rw [Nat.div_eq_of_lt (by omega)] at h
    omega
  rw [MinStd.draw, drawAt_small 2 max hm]
  unfold MinStd.downscale
  dsimp only
  rw [show 2147483646 = 2147483645 + 1 from rfl, reject, if_neg, hn]
  · exact Nat.div_eq_of_lt (by omega)
  · rw [hn]
    have : 2147483645 / (max + 1) ≤ (max + 1) * (2147483645 / (max + 1)) := Nat.le_mul_of_pos_left _ (by omega)
    omega

/-- C106: for all small seeds, the first group of the first sample is drawn from the first group. -/
theorem C106_first {M : Type} (first : List M) (others : List (List M)) (s : ℕ) (hs : 1 ≤ s)
    (h : 16807 * s ≤ 2147483645 / (first :: others).length) :
    ∃ t ts g, matchesByQuerySampler MinStd.rng (first :: others) (MinStd.rng.seed s) = .ok (t :: ts, g) ∧
      t.length = first.length ∧ ∀ m ∈ t, m ∈ first := by
  have h0 := draw_small others.length s hs h
  obtain ⟨t, g1, e1, hl, hm⟩ := drawN_ok MinStd.rng first (first.length - 1) first.length (by omega)
    (MinStd.rng.draw others.length (MinStd.rng.seed s)).2
  obtain ⟨ts, g2, e2⟩ : ∃ ts g2, drawGroups MinStd.rng (first :: others) others.length others.length g1 =
      .ok (ts, g2) := by
    obtain ⟨ts, g2, e, _⟩ := drawGroups_ok MinStd.rng (first :: others) others.length others.length
      (Or.inr (by rw [List.length_cons]; omega)) g1
    exact ⟨ts, g2, e⟩
  refine ⟨t, ts, g2, ?_, hl, hm⟩
  unfold matchesByQuerySampler
  rw [List.length_cons, Nat.add_sub_cancel, drawGroups]
  simp only [h0, List.getElem?_cons_zero, e1, e2, bind, Except.bind, pure, Except.pure]

/-- Ten groups: all seeds from 1 to 12777 -/
example (s : ℕ) (h1 : 1 ≤ s) (h2 : s ≤ 12777) : 16807 * s ≤ 2147483645 / 10 := by omega

/-! ## Draws -/

/-- C107: from any state, every state is reached within `2^31 - 2` numbers, before any state repeats. -/
theorem C107_period (g : MinStd) : (∀ h, ∃ i < 2147483646, next^[i] g = h) ∧
    (∀ i < 2147483646, ∀ j < 2147483646, next^[i] g = next^[j] g → i = j) ∧ next^[2147483646] g = g :=
  ⟨reach g, fun _ hi _ hj e => iterate_inj g hi hj e, val_inj (by rw [iterate_val, pow_full, one_mul])⟩

/-- C107: for all ranges of a `size_t`, the loops of the distribution end, and the draw is the one specified, without
any bound on the numbers used. -/
theorem C107_draws (max : ℕ) (hm : max < 2 ^ 64) (g : MinStd) (k y : ℕ) :
    Spec.Draws max g.1 k y ↔ k = (MinStd.rng.draw max g).1 ∧ y = (MinStd.rng.draw max g).2.1 := by
  have h := draw_draws max hm g
  refine ⟨fun h' => h'.unique h, ?_⟩
  rintro ⟨rfl, rfl⟩
  exact h

/-- C107: drawing from `n` elements needs at most `n + 1` numbers of the engine; the loop of the distribution
ends, and it ends with the first number that is small enough. -/
theorem C107_ends (max : ℕ) (hm : max < 2147483645) (g : MinStd) :
    ∃ i ≤ max + 1, (MinStd.rng.draw max g).2 = next^[i + 1] g ∧
      (MinStd.rng.draw max g).1 * (2147483645 / (max + 1)) < (next^[i + 1] g).1 ∧
      (next^[i + 1] g).1 ≤ ((MinStd.rng.draw max g).1 + 1) * (2147483645 / (max + 1)) ∧
      ∀ j < i, (max + 1) * (2147483645 / (max + 1)) < (next^[j + 1] g).1 := by
  obtain ⟨i, hi, e, hp, hj⟩ := draw_spec max hm g
  have hsc : 0 < 2147483645 / (max + 1) := Nat.div_pos (by omega) (by omega)
  refine ⟨i, hi, ?_⟩
  show (MinStd.draw max g).2 = _ ∧ (MinStd.draw max g).1 * _ < _ ∧ _ ≤ ((MinStd.draw max g).1 + 1) * _ ∧ _
  rw [e]
  have h1 := (next^[i + 1] g).2.1
  refine ⟨rfl, ?_, ?_, fun j h => ?_⟩
  · have := Nat.div_mul_le_self ((next^[i + 1] g).1 - 1) (2147483645 / (max + 1))
    dsimp only
    omega
  · have := Nat.lt_div_mul_add (a := (next^[i + 1] g).1 - 1) hsc
    dsimp only
    rw [Nat.add_mul, Nat.one_mul]
    omega
  · have h2 := hj j h
    have := (next^[j + 1] g).2.1
    unfold past at h2
    omega

theorem draw_now (max : ℕ) (hm : max < 2147483645) (g : MinStd) (k : ℕ) :
    MinStd.draw max g = (k, next g) ↔
      k * (2147483645 / (max + 1)) < (next g).1 ∧ (next g).1 ≤ (k + 1) * (2147483645 / (max + 1)) ∧ k ≤ max := by
  obtain ⟨i, hi, h2, h1, h3, hj⟩ := C107_ends max hm g
  have hsc : 0 < 2147483645 / (max + 1) := Nat.div_pos (by omega) (by omega)
  have hle := draw_le max g
  change (MinStd.draw max g).2 = _ at h2
  change (MinStd.draw max g).1 * _ < _ at h1
  change _ ≤ ((MinStd.draw max g).1 + 1) * _ at h3
  constructor
  · intro e
    rw [e] at h2 h1 h3 hle
    dsimp only at h2 h1 h3 hle
    rw [← h2] at h1 h3
    exact ⟨h1, h3, hle⟩
  · rintro ⟨a, b, c⟩
    rcases i with _ | i
    · refine Prod.ext ?_ h2
      rw [zero_add, Function.iterate_one] at h1 h3
      show (MinStd.draw max g).1 = k
      have l1 := lt_of_mul_lt_mul_right (lt_of_lt_of_le h1 b) (Nat.zero_le _)
      have l2 := lt_of_mul_lt_mul_right (lt_of_lt_of_le a h3) (Nat.zero_le _)
      omega
    · have := hj 0 (by omega)
      rw [zero_add, Function.iterate_one] at this
      have := Nat.mul_le_mul_right (2147483645 / (max + 1)) (by omega : k + 1 ≤ max + 1)
      omega

/-- C107: each of the `n` elements is drawn at once, with the next number of the engine, from the same number
`⌊(2^31 - 3) / n⌋` of states. -/
theorem C107_uniform (max : ℕ) (hm : max < 2147483645) (k : ℕ) (hk : k ≤ max) :
    {g : MinStd | MinStd.rng.draw max g = (k, next g)}.ncard = 2147483645 / (max + 1) := by
  have hp := past_bounds max
  unfold past at hp
  have hle := Nat.mul_le_mul_right (2147483645 / (max + 1)) (by omega : k + 1 ≤ max + 1)
  have e : {g : MinStd | MinStd.rng.draw max g = (k, next g)} =
      {g | k * (2147483645 / (max + 1)) < (next g).1 ∧ (next g).1 ≤ (k + 1) * (2147483645 / (max + 1)) ∧ k ≤ max} :=
    Set.ext fun g => draw_now max hm g k
  rw [e, ncard_next fun x => k * (2147483645 / (max + 1)) < x ∧ x ≤ (k + 1) * (2147483645 / (max + 1)) ∧ k ≤ max]
  have e2 : {x | 0 < x ∧ x < 2147483647 ∧ k * (2147483645 / (max + 1)) < x ∧
      x ≤ (k + 1) * (2147483645 / (max + 1)) ∧ k ≤ max} =
      ↑(Finset.Ioc (k * (2147483645 / (max + 1))) ((k + 1) * (2147483645 / (max + 1)))) := by
    ext x
    rw [Finset.coe_Ioc, Set.mem_Ioc, Set.mem_ofPred_eq]
    omega
  rw [e2, Set.ncard_coe_finset, Nat.card_Ioc, Nat.add_mul, Nat.one_mul, Nat.add_sub_cancel_left]

/-- C107: a generator with so few states does not draw everything: from ten or more different groups there is a
sample with the right shape that no state, and so no seed, leads to (compare `C40_every_sample`). -/
theorem C107_missing {M : Type} (original : List (List M)) (hd : original.Nodup) (h : 10 ≤ original.length) :
    ∃ sample, Spec.Resample original sample ∧
      ∀ g g', matchesByQuerySampler MinStd.rng original g ≠ .ok (sample, g') := by
  by_contra hc
  push Not at hc
  have hR : ∀ f : Fin original.length → Fin original.length,
      Spec.Resample original (List.ofFn fun i => original[f i]) := by
    intro f
    refine ⟨List.length_ofFn, fun s hs => ?_⟩
    obtain ⟨i, rfl⟩ := (List.mem_ofFn' _ _).1 hs
    exact ⟨_, List.getElem_mem _, rfl, fun m hm => hm⟩
  choose g g' hg using fun f => hc _ (hR f)
  have hinj : Function.Injective fun f => g f := by
    intro f f' (e : g f = g f')
    have h1 := hg f
    rw [e, hg f', Except.ok.injEq, Prod.mk.injEq] at h1
    have h2 := List.ofFn_injective h1.1
    funext i
    have h3 := congrFun h2 i
    exact (Fin.ext ((List.Nodup.getElem_inj_iff hd).1 h3)).symm
  have hf : Finite MinStd := (Set.finite_Iio 2147483647).subset (fun x (h : 0 < x ∧ _) => h.2) |>.to_subtype
  have hcard := Nat.card_le_card_of_injective _ hinj
  rw [Nat.card_fun, Nat.card_fin] at hcard
  have hm : Nat.card MinStd ≤ 2147483646 := by
    have : (Set.Ioo 0 2147483647 : Set ℕ).ncard = 2147483646 := by
      rw [← Finset.coe_Ioo, Set.ncard_coe_finset, Nat.card_Ioo]
    exact this.le
  have h10 : 10 ^ 10 ≤ original.length ^ original.length :=
    (Nat.pow_le_pow_left h 10).trans (Nat.pow_le_pow_right (by omega) h)
  omega

/-- Ten groups of one match -/
example : ((List.range 10).map fun i => [i]).Nodup ∧ 10 ≤ ((List.range 10).map fun i => [i]).length := by decide

/-- C107: of the `2^31 - 2` states, the ones from which an element is drawn number at least `⌊(2^31 - 3) / n⌋` and
at most `n` more than that: every element is drawn with the same probability, up to `n / (2^31 - 2)`. -/
theorem C107_bias (max : ℕ) (hm : max < 2147483645) (k : ℕ) (hk : k ≤ max) :
    2147483645 / (max + 1) ≤ {g : MinStd | (MinStd.rng.draw max g).1 = k}.ncard ∧
      {g : MinStd | (MinStd.rng.draw max g).1 = k}.ncard ≤ 2147483645 / (max + 1) + (max + 1) := by
  have hf : Finite MinStd := (Set.finite_Iio 2147483647).subset (fun x (h : 0 < x ∧ _) => h.2) |>.to_subtype
  have hu := C107_uniform max hm k hk
  refine ⟨hu ▸ Set.ncard_le_ncard (fun g (hg : _ = _) => ?_) (Set.toFinite _), ?_⟩
  · show (MinStd.rng.draw max g).1 = k
    rw [hg]
  · have hsub : {g : MinStd | (MinStd.rng.draw max g).1 = k} ⊆
        {g : MinStd | MinStd.rng.draw max g = (k, next g)} ∪
        {g : MinStd | (max + 1) * (2147483645 / (max + 1)) < (next g).1} := by
      intro g (hg : _ = k)
      obtain ⟨i, hi, h2, h1, h3, hj⟩ := C107_ends max hm g
      rcases i with _ | i
      · exact Or.inl (Prod.ext hg h2)
      · exact Or.inr (hj 0 (by omega))
    refine le_trans (Set.ncard_le_ncard hsub (Set.toFinite _)) (le_trans (Set.ncard_union_le _ _) ?_)
    rw [hu]
    refine Nat.add_le_add_left ?_ _
    rw [ncard_next fun x => (max + 1) * (2147483645 / (max + 1)) < x]
    have e2 : {x | 0 < x ∧ x < 2147483647 ∧ (max + 1) * (2147483645 / (max + 1)) < x} =
        ↑(Finset.Ioo ((max + 1) * (2147483645 / (max + 1))) 2147483647) := by
      ext x
      rw [Finset.coe_Ioo, Set.mem_Ioo, Set.mem_ofPred_eq]
      omega
    rw [e2, Set.ncard_coe_finset, Nat.card_Ioo]
    have hp := past_bounds max
    unfold past at hp
    omega

/-- Seven elements: each of them is drawn from 306783377 to 306783384 of the 2147483646 states. -/
example (k : ℕ) (hk : k ≤ 6) : 306783377 ≤ {g : MinStd | (MinStd.rng.draw 6 g).1 = k}.ncard ∧
    {g : MinStd | (MinStd.rng.draw 6 g).1 = k}.ncard ≤ 306783384 :=
  C107_bias 6 (by decide) k hk

theorem card_states : Nat.card MinStd = 2147483646 := by
  have : (Set.Ioo 0 2147483647 : Set ℕ).ncard = 2147483646 := by
    rw [← Finset.coe_Ioo, Set.ncard_coe_finset, Nat.card_Ioo]
  exact this

/-- C107: each of `2^31 - 2` elements is drawn from exactly one state. -/
theorem C107_same (k : ℕ) (hk : k ≤ 2147483645) :
    {g : MinStd | (MinStd.rng.draw 2147483645 g).1 = k}.ncard = 1 := by
  have e : {g : MinStd | (MinStd.rng.draw 2147483645 g).1 = k} = {g | (next g).1 = k + 1} := by
    ext g
    show (MinStd.drawAt 2 2147483645 g).1 = k ↔ _
    rw [drawAt_same]
    have := (next g).2.1
    show (next g).1 - 1 = k ↔ (next g).1 = k + 1
    omega
  rw [e, ncard_next fun x => x = k + 1]
  have e2 : {x | 0 < x ∧ x < 2147483647 ∧ x = k + 1} = {k + 1} := by
    ext x
    rw [Set.mem_ofPred_eq, Set.mem_singleton_iff]
    omega
  rw [e2, Set.ncard_singleton]

/-- C107: of more elements than that, the ones beyond this number or as many others are never drawn, whatever the
state and so whatever the seed and the numbers used before. -/
theorem C107_huge (max : ℕ) :
    max + 1 - 2147483646 ≤ {k | k ≤ max ∧ ∀ g, (MinStd.rng.draw max g).1 ≠ k}.ncard := by
  have hf : Finite MinStd := (Set.finite_Iio 2147483647).subset (fun x (h : 0 < x ∧ _) => h.2) |>.to_subtype
  have e : {k | k ≤ max ∧ ∀ g, (MinStd.rng.draw max g).1 ≠ k} =
      ↑(Finset.range (max + 1)) \ Set.range fun g => (MinStd.rng.draw max g).1 := by
    ext k
    rw [Set.mem_sdiff, Finset.coe_range, Set.mem_Iio, Set.mem_range, Set.mem_ofPred_eq, not_exists]
    exact and_congr_left' (by omega)
  rw [e]
  have h1 := Set.le_ncard_sdiff (Set.range fun g => (MinStd.rng.draw max g).1) (↑(Finset.range (max + 1)) : Set ℕ)
  have h2 : (Set.range fun g => (MinStd.rng.draw max g).1).ncard ≤ Nat.card MinStd := by
    rw [← Set.image_univ]
    exact (Set.ncard_image_le Set.finite_univ).trans_eq (Set.ncard_univ _)
  rw [card_states] at h2
  rw [Set.ncard_coe_finset, Finset.card_range] at h1
  omega

/-- Draws from ranges of all kinds after the number 1; two recursive calls for the last -/
example : Spec.Draws 6 1 0 16807 ∧ Spec.Draws (2 ^ 31 - 3) 1 16806 16807 ∧
    Spec.Draws (2 ^ 32) 1 282475248 282475249 ∧
    Spec.Draws (2 ^ 63) 1 (282475248 * (2 ^ 31 - 2) + 1622650072) 1622650073 := by
  refine ⟨(C107_draws _ (by decide) one _ _).2 ?_, (C107_draws _ (by decide) one _ _).2 ?_,
    (C107_draws _ (by decide) one _ _).2 ?_, (C107_draws _ (by decide) one _ _).2 ?_⟩ <;> decide +kernel

/-- Numbers that are thrown away: 739806647 is followed by the largest number, 2147483646. -/
example : Spec.Draws 1 739806647 1 2147466840 ∧ Spec.Draws (2 ^ 31 - 2) 739806647 1162539988 1162539989 := by
  refine ⟨(C107_draws _ (by decide) ⟨739806647, by decide⟩ _ _).2 ?_,
    (C107_draws _ (by decide) ⟨739806647, by decide⟩ _ _).2 ?_⟩ <;> decide +kernel

end Kws
