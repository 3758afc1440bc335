import Verif.Lemmas.SegMonotone
import Verif.Lemmas.SegTally
import Verif.Lemmas.NoWrong

/-! # Numbers of matches that are better for every set of queries -/

set_option linter.unusedSectionVars false

namespace Kws
open Spec

section
variable {Q L : Type} [DecidableEq Q] [DecidableEq L]

/-- For every set of queries there are no fewer hits and no more false positives with at least a given
score in the second list, out of the same number of references. -/
structure BetterMatches (ms ms' : List (KwsMatch Q L)) : Prop where
  found : ∀ (P : Q → Bool) (s : Flt), s ≠ .nan →
    foundAbove s (ms.filter (about P)) ≤ foundAbove s (ms'.filter (about P))
  wrong : ∀ (P : Q → Bool) (s : Flt), s ≠ .nan →
    wrongAbove s (ms'.filter (about P)) ≤ wrongAbove s (ms.filter (about P))
  refs : ∀ P : Q → Bool, references (ms'.filter (about P)) = references (ms.filter (about P))

theorem BetterMatches.ap {ms ms' : List (KwsMatch Q L)} (h : BetterMatches ms ms') (hn : NoNaN ms)
    (hn' : NoNaN ms') (t : Bool) (P : Q → Bool) :
    (tallyOf (ms.filter (about P))).ap true t (descending (scoresIn (ms.filter (about P)))) ≤
      (tallyOf (ms'.filter (about P))).ap true t (descending (scoresIn (ms'.filter (about P)))) := by
  have k : NoNaN (ms.filter (about P)) := fun m hm => hn m (List.mem_of_mem_filter hm)
  have k' : NoNaN (ms'.filter (about P)) := fun m hm => hn' m (List.mem_of_mem_filter hm)
  exact ap_mono _ _ _ _ (tallyOf_counts _ k _ (scoresIn_thresholds _ k))
    (tallyOf_counts _ k' _ (scoresIn_thresholds _ k')) (h.found P) (h.wrong P) (h.refs P).le t

theorem inGroup_is_about (grp : Q → Q) (g : Q) :
    (InGroup grp g : KwsMatch Q L → Bool) = about (fun q => decide (grp q = g)) := by
  funext m
  obtain ⟨r, h, e⟩ := m
  cases r <;> cases h <;> rfl

theorem mem_groups (grp : Q → Q) (ms : List (KwsMatch Q L)) (g : Q) :
    g ∈ (((ms.filterMap eventOf).map (grp ·.query)).dedup) ↔
      ∃ m ∈ ms.filter (InGroup grp g), (eventOf m).isSome = true := by
  simp only [List.mem_dedup, List.mem_map, List.mem_filterMap, List.mem_filter]
  constructor
  · rintro ⟨e, ⟨m, hm, he⟩, rfl⟩
    exact ⟨m, ⟨hm, by unfold InGroup; rw [he]; simp⟩, by rw [he]; rfl⟩
  · rintro ⟨m, ⟨hm, hg⟩, hs⟩
    obtain ⟨e, he⟩ := Option.isSome_iff_exists.1 hs
    refine ⟨e, ⟨m, hm, he⟩, ?_⟩
    unfold InGroup at hg
    rw [he] at hg
    simpa using hg

theorem countP_about (ms : List (KwsMatch Q L)) (p : KwsMatch Q L → Bool)
    (h : ∀ m, p m = true → m.ref = none → m.hyp ≠ none) :
    (ms.filter (about fun _ => true)).countP p = ms.countP p := by
  rw [List.countP_filter]
  refine List.countP_congr fun m _ => ?_
  rw [Bool.and_eq_true, and_iff_left_iff_imp]
  intro hp
  have := h m hp
  obtain ⟨r, x, e⟩ := m
  cases r <;> cases x <;> simp_all [about, queryOf]

/-- Better matches get no lower global and mean average precision. -/
theorem BetterMatches.numbers {ms ms' : List (KwsMatch Q L)} (h : BetterMatches ms ms') (hn : NoNaN ms)
    (hn' : NoNaN ms') (grp : Q → Q) (t : Bool) :
    (matchNumbers grp true t ms).gAP ≤ (matchNumbers grp true t ms').gAP ∧
    (matchNumbers grp true t ms).mAP ≤ (matchNumbers grp true t ms').mAP := by
  constructor
  · show (tallyOf ms).ap true t (descending (scoresIn ms)) ≤
      (tallyOf ms').ap true t (descending (scoresIn ms'))
    refine ap_mono _ _ _ _ (tallyOf_counts ms hn _ (scoresIn_thresholds ms hn))
      (tallyOf_counts ms' hn' _ (scoresIn_thresholds ms' hn')) ?_ ?_ ?_ t
    · intro s hs
      have := h.found (fun _ => true) s hs
      unfold foundAbove at this
      rw [countP_about ms _ (by intro m h1 h2 h3; simp [h2, h3] at h1), countP_about ms' _ (by intro m h1 h2 h3; simp [h2, h3] at h1)] at this
      exact this
    · intro s hs
      have := h.wrong (fun _ => true) s hs
      unfold wrongAbove at this
      rw [countP_about ms _ (by intro m h1 h2 h3; simp [h2, h3] at h1), countP_about ms' _ (by intro m h1 h2 h3; simp [h2, h3] at h1)] at this
      exact this
    · have := h.refs (fun _ => true)
      unfold references at this
      rw [countP_about ms _ (by intro m h1 h2 h3; simp [h2, h3] at h1), countP_about ms' _ (by intro m h1 h2 h3; simp [h2, h3] at h1)] at this
      exact this.le
  let ap (l : List (KwsMatch Q L)) (g : Q) : ℚ :=
    (tallyOf (l.filter (InGroup grp g))).ap true t (descending (scoresIn (l.filter (InGroup grp g))))
  let G (l : List (KwsMatch Q L)) : List Q := ((l.filterMap eventOf).map (grp ·.query)).dedup
  have e : ∀ l, (matchNumbers grp true t l).mAP = (∑ g ∈ (G l).toFinset, ap l g) / ((G l).toFinset.card : ℕ) := by
    intro l
    show average _ = _
    unfold average
    rw [List.map_map, List.length_map]
    have nd : (G l).Nodup := List.nodup_dedup _
    rw [List.sum_toFinset _ nd, List.toFinset_card_of_nodup nd]
    rfl
  have hap : ∀ g, ap ms g ≤ ap ms' g := fun g => by
    simp only [ap, inGroup_is_about]
    exact h.ap hn hn' t _
  have hf : ∀ l : List (KwsMatch Q L), NoNaN l → ∀ g, NoNaN (l.filter (InGroup grp g)) :=
    fun l hl g m hm => hl m (List.mem_of_mem_filter hm)
  have hcount : ∀ l : List (KwsMatch Q L), NoNaN l → ∀ g, CountsAt (tallyOf (l.filter (InGroup grp g)))
      (descending (scoresIn (l.filter (InGroup grp g)))) := fun l hl g =>
    tallyOf_counts _ (hf l hl g) _ (scoresIn_thresholds _ (hf l hl g))
  have hnonneg : ∀ g, 0 ≤ ap ms g := fun g => by
    simp only [ap]
    rw [(hcount ms hn g).ap_hits]
    exact div_nonneg (Finset.sum_nonneg fun i _ => atHit_nonneg _ _ _ _) (by positivity)
  have href : ∀ l : List (KwsMatch Q L), ∀ g, 0 < references (l.filter (InGroup grp g)) → g ∈ G l := by
    intro l g hl
    obtain ⟨m, hm, hr⟩ := List.countP_pos_iff.1 hl
    refine (mem_groups grp l g).2 ⟨m, hm, ?_⟩
    unfold eventOf
    obtain ⟨r, hr⟩ := Option.isSome_iff_exists.1 hr
    rw [hr]
    rfl
  have hrefs : ∀ g, references (ms'.filter (InGroup grp g)) = references (ms.filter (InGroup grp g)) := by
    intro g
    rw [inGroup_is_about]
    exact h.refs _
  have sub : (G ms').toFinset ⊆ (G ms).toFinset := by
    intro g hg
    rw [List.mem_toFinset] at hg ⊢
    obtain ⟨m, hm, hs⟩ := (mem_groups grp ms' g).1 hg
    cases hr : m.ref with
    | some r =>
      refine href ms g ?_
      rw [← hrefs]
      exact List.countP_pos_iff.2 ⟨m, hm, by rw [hr]; rfl⟩
    | none =>
      cases hx : m.hyp with
      | none => unfold eventOf at hs; rw [hr, hx] at hs; simp at hs
      | some x =>
        have hnx : x.score ≠ .nan := by
          have := hf ms' hn' g m hm
          rwa [rank_of_hyp hx] at this
        have h1 : 0 < wrongAbove x.score (ms'.filter (InGroup grp g)) :=
          List.countP_pos_iff.2 ⟨m, hm, by simp [hr, hx, Flt.lt_irrefl']⟩
        have h2 := h.wrong (fun q => decide (grp q = g)) x.score hnx
        rw [← inGroup_is_about] at h2
        obtain ⟨y, hy, hp⟩ := List.countP_pos_iff.1 (lt_of_lt_of_le h1 h2)
        refine (mem_groups grp ms g).2 ⟨y, hy, ?_⟩
        unfold eventOf
        cases h3 : y.ref <;> cases h4 : y.hyp <;> simp_all
  have zero : ∀ g ∈ (G ms).toFinset, g ∉ (G ms').toFinset → ap ms g = 0 := by
    intro g _ hg
    rw [List.mem_toFinset] at hg
    have h0 : references (ms.filter (InGroup grp g)) = 0 := by
      rw [← hrefs]
      by_contra hne
      exact hg (href ms' g (Nat.pos_of_ne_zero hne))
    simp only [ap]
    rw [(hcount ms hn g).ap_hits]
    have : (tallyOf (ms.filter (InGroup grp g))).refs = 0 := h0
    rw [this]
    simp
  rw [e, e, ← Finset.sum_subset sub zero]
  rcases Nat.eq_zero_or_pos (G ms').toFinset.card with h0 | hpos
  · rw [Finset.card_eq_zero] at h0
    rw [h0]
    simp
  · exact div_le_div₀ (Finset.sum_nonneg fun g _ => (hnonneg g).trans (hap g))
      (Finset.sum_le_sum fun g _ => hap g) (by exact_mod_cast hpos)
      (by exact_mod_cast Finset.card_le_card sub)

end

end Kws
