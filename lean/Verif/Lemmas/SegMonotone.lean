import Verif.Spec.Ranking
import Verif.Lemmas.Monotone

/-! Better hypotheses in the segmentation-based evaluation -/

set_option linter.unusedSectionVars false

namespace Kws
open Spec

/-- The least threshold that is not below a number. -/
theorem least_threshold (scores : List Flt) (hs : scores.Pairwise (fun a b => Flt.lt b a = true))
    (hn : ∀ x ∈ scores, x ≠ .nan) (s : Flt) (hex : ∃ x ∈ scores, Flt.lt x s = false) :
    ∃ y ∈ scores, Flt.lt y s = false ∧ ∀ x ∈ scores, (Flt.lt x s = false ↔ Flt.lt x y = false) := by
  have hf : scores.filter (fun x => !Flt.lt x s) ≠ [] := by
    obtain ⟨x, hx, hxs⟩ := hex
    exact List.ne_nil_of_mem (List.mem_filter.2 ⟨hx, by simpa using hxs⟩)
  obtain ⟨pre, y, e⟩ : ∃ pre y, scores.filter (fun x => !Flt.lt x s) = pre ++ [y] :=
    ⟨_, _, (List.dropLast_append_getLast hf).symm⟩
  have hy : y ∈ scores.filter (fun x => !Flt.lt x s) := by rw [e]; simp
  obtain ⟨hy1, hy2⟩ := List.mem_filter.1 hy
  have hy2 : Flt.lt y s = false := by simpa using hy2
  refine ⟨y, hy1, hy2, fun x hx => ⟨fun h => ?_, fun h => Flt.lt_false_trans (hn y hy1) h hy2⟩⟩
  have hxm : x ∈ scores.filter (fun x => !Flt.lt x s) := List.mem_filter.2 ⟨hx, by simpa using h⟩
  rw [e] at hxm
  rcases List.mem_append.1 hxm with h1 | h1
  · have hp := hs.sublist (List.filter_sublist (p := fun x => !Flt.lt x s))
    rw [e] at hp
    exact Flt.lt_asymm' _ _ ((List.pairwise_append.1 hp).2.2 _ h1 y (by simp))
  · rw [List.mem_singleton.1 h1]
    exact Flt.lt_irrefl' _

section
variable {Q L : Type} [DecidableEq Q] [DecidableEq L]

theorem segTally_hits (refs : List (Event Q L)) (hyps : List (ScoredEvent Q L)) (s : Flt) :
    (segTally refs hyps).hits s =
      (refs.toFinset.filter (fun r => ∃ h ∈ hyps, h.base = r ∧ Flt.lt h.score s = false)).card := rfl

theorem segTally_counts (refs : List (Event Q L)) (hyps : List (ScoredEvent Q L))
    (hn : ∀ h ∈ hyps, h.score ≠ .nan) :
    CountsAt (segTally refs hyps) (descending (hyps.map (·.score))) := by
  have hd := descending_thresholds (hyps.map (·.score)) (by
    intro s hs
    obtain ⟨x, hx, rfl⟩ := List.mem_map.1 hs
    exact hn x hx)
  have hnan : ∀ s ∈ descending (hyps.map (·.score)), s ≠ .nan := by
    intro s hs
    obtain ⟨x, hx, rfl⟩ := List.mem_map.1 ((hd.mem s).1 hs)
    exact hn x hx
  have hmem : ∀ h ∈ hyps, h.score ∈ descending (hyps.map (·.score)) :=
    fun h hh => (hd.mem _).2 (List.mem_map_of_mem hh)
  refine ⟨hd.sorted, hnan, ?_, ?_, ?_, ?_⟩
  · intro a b ha hab
    constructor
    · rw [segTally_hits, segTally_hits]
      refine Finset.card_le_card fun r hr => ?_
      rw [Finset.mem_filter] at hr ⊢
      obtain ⟨h1, h, hh, e, h2⟩ := hr
      exact ⟨h1, h, hh, e, Flt.lt_false_trans ha h2 hab⟩
    · refine List.countP_mono_left fun h _ hp => ?_
      simp only [decide_eq_true_eq] at hp ⊢
      exact ⟨hp.1, Flt.lt_false_trans ha hp.2 hab⟩
  · intro s hsn
    by_cases hex : ∃ x ∈ descending (hyps.map (·.score)), Flt.lt x s = false
    · obtain ⟨y, hy1, hy2, hy3⟩ := least_threshold _ hd.sorted hnan s hex
      refine Or.inr ⟨y, hy1, hy2, ?_, ?_⟩
      · rw [segTally_hits, segTally_hits]
        congr 1
        refine Finset.filter_congr fun r _ => ?_
        constructor
        · rintro ⟨h, hh, e, h2⟩
          exact ⟨h, hh, e, (hy3 _ (hmem h hh)).2 h2⟩
        · rintro ⟨h, hh, e, h2⟩
          exact ⟨h, hh, e, (hy3 _ (hmem h hh)).1 h2⟩
      · refine List.countP_congr fun h hh => ?_
        simp only [decide_eq_true_eq]
        exact and_congr_right fun _ => (hy3 _ (hmem h hh)).symm
    · push Not at hex
      refine Or.inl ⟨?_, ?_⟩
      · rw [segTally_hits, Finset.card_eq_zero, Finset.filter_eq_empty_iff]
        rintro r _ ⟨h, hh, _, h2⟩
        exact hex _ (hmem h hh) h2
      · refine List.countP_eq_zero.2 fun h hh => ?_
        simp only [decide_eq_true_eq, not_and]
        exact fun _ => hex _ (hmem h hh)
  · intro s hs
    obtain ⟨h, hh, rfl⟩ := List.mem_map.1 ((hd.mem s).1 hs)
    by_cases hr : h.base ∈ refs
    · have : 0 < (segTally refs hyps).hits h.score := by
        rw [segTally_hits]
        exact Finset.card_pos.2 ⟨h.base, Finset.mem_filter.2 ⟨by simpa using hr, h, hh, rfl, Flt.lt_irrefl' _⟩⟩
      omega
    · have : 0 < (segTally refs hyps).wrong h.score :=
        List.countP_pos_iff.2 ⟨h, hh, by simp [hr, Flt.lt_irrefl']⟩
      omega
  · intro s
    rw [segTally_hits]
    exact Finset.card_le_card (Finset.filter_subset _ _)

/-- The counts of events whose query has a property, summed over the queries. -/
theorem countP_queries (l : List (ScoredEvent Q L)) (p : ScoredEvent Q L → Bool) (c : Q → Bool) (S : Finset Q)
    (hS : ∀ h ∈ l, h.base.query ∈ S) :
    l.countP (fun h => p h && c h.base.query) =
      ∑ q ∈ S.filter (fun q => c q = true), l.countP (fun h => p h && decide (h.base.query = q)) := by
  induction l with
  | nil => simp
  | cons h l ih =>
    simp only [List.countP_cons]
    rw [ih (fun x hx => hS x (by simp [hx])), Finset.sum_add_distrib]
    congr 1
    by_cases hp : p h = true
    · by_cases hc : c h.base.query = true
      · rw [if_pos (by simp [hp, hc])]
        rw [Finset.sum_eq_single h.base.query]
        · simp [hp]
        · intro b _ hb
          simp [hp, hb.symm]
        · intro hq
          exact absurd (Finset.mem_filter.2 ⟨hS h (by simp), hc⟩) hq
      · rw [if_neg (by simp [hc])]
        symm
        refine Finset.sum_eq_zero fun q hq => ?_
        rw [Finset.mem_filter] at hq
        rw [if_neg]
        simp only [Bool.and_eq_true, decide_eq_true_eq, not_and]
        intro _ e
        rw [e] at hc
        exact hc hq.2
    · simp [hp]

/-- Restriction to the events whose queries have a property. -/
theorem Spec.Improved.filter {refs : List (Event Q L)} {hyps hyps' : List (ScoredEvent Q L)}
    (h : Improved refs hyps hyps') (c : Q → Bool) :
    Improved (refs.filter (fun r => c r.query)) (hyps.filter (fun h => c h.base.query))
      (hyps'.filter (fun h => c h.base.query)) where
  right x hx hr := by
    obtain ⟨hx1, hx2⟩ := List.mem_filter.1 hx
    obtain ⟨y, hy, e, hs⟩ := h.right x hx1 (List.mem_of_mem_filter hr)
    exact ⟨y, List.mem_filter.2 ⟨hy, by rw [e]; exact hx2⟩, e, hs⟩
  wrong q s hs := by
    have key : ∀ l : List (ScoredEvent Q L), (l.filter (fun h => c h.base.query)).countP
        (fun h => h.base ∉ refs.filter (fun r => c r.query) ∧ h.base.query = q ∧ Flt.lt h.score s = false) =
        if c q then l.countP (fun h => h.base ∉ refs ∧ h.base.query = q ∧ Flt.lt h.score s = false) else 0 := by
      intro l
      rw [List.countP_filter]
      split
      · rename_i hc
        refine List.countP_congr fun x _ => ?_
        simp only [decide_eq_true_eq, Bool.and_eq_true, List.mem_filter]
        constructor
        · rintro ⟨⟨h1, h2, h3⟩, h4⟩
          exact ⟨fun hm => h1 ⟨hm, h4⟩, h2, h3⟩
        · rintro ⟨h1, h2, h3⟩
          exact ⟨⟨fun hm => h1 hm.1, h2, h3⟩, by rw [h2]; exact hc⟩
      · rename_i hc
        refine List.countP_eq_zero.2 fun x _ hx => ?_
        simp only [decide_eq_true_eq, Bool.and_eq_true] at hx
        exact hc (by rw [← hx.1.2.1]; exact hx.2)
    rw [key, key]
    split
    · exact h.wrong q s hs
    · exact le_rfl

/-- Better hypotheses have no fewer hits and no more false positives. -/
theorem Spec.Improved.tally {refs : List (Event Q L)} {hyps hyps' : List (ScoredEvent Q L)}
    (h : Improved refs hyps hyps') (hn : ∀ x ∈ hyps, x.score ≠ .nan) (s : Flt) (hs : s ≠ .nan) :
    (segTally refs hyps).hits s ≤ (segTally refs hyps').hits s ∧
    (segTally refs hyps').wrong s ≤ (segTally refs hyps).wrong s := by
  constructor
  · rw [segTally_hits, segTally_hits]
    refine Finset.card_le_card fun r hr => ?_
    rw [Finset.mem_filter] at hr ⊢
    obtain ⟨h1, x, hx, e, h2⟩ := hr
    obtain ⟨y, hy, e', h3⟩ := h.right x hx (by rw [e]; simpa using h1)
    exact ⟨h1, y, hy, by rw [e', e], Flt.lt_false_trans (hn x hx) h3 h2⟩
  · let S := (hyps.map (·.base.query) ++ hyps'.map (·.base.query)).toFinset
    have hS1 : ∀ x ∈ hyps, x.base.query ∈ S := fun x hx => by
      simp only [S, List.mem_toFinset, List.mem_append, List.mem_map]; exact Or.inl ⟨x, hx, rfl⟩
    have hS2 : ∀ x ∈ hyps', x.base.query ∈ S := fun x hx => by
      simp only [S, List.mem_toFinset, List.mem_append, List.mem_map]; exact Or.inr ⟨x, hx, rfl⟩
    have key : ∀ l : List (ScoredEvent Q L), (∀ x ∈ l, x.base.query ∈ S) →
        (segTally refs l).wrong s = ∑ q ∈ S, l.countP (fun h => h.base ∉ refs ∧ h.base.query = q ∧
          Flt.lt h.score s = false) := by
      intro l hl
      have := countP_queries l (fun h => decide (h.base ∉ refs ∧ Flt.lt h.score s = false)) (fun _ => true) S hl
      simp only [Bool.and_true, Finset.filter_true] at this
      show List.countP _ _ = _
      rw [this]
      refine Finset.sum_congr rfl fun q _ => List.countP_congr fun x _ => ?_
      simp only [Bool.and_eq_true, decide_eq_true_eq]
      tauto
    rw [key _ hS1, key _ hS2]
    exact Finset.sum_le_sum fun q _ => h.wrong q s hs

/-- The interpolated average precision of better hypotheses is not lower. -/
theorem Spec.Improved.ap {refs : List (Event Q L)} {hyps hyps' : List (ScoredEvent Q L)}
    (h : Improved refs hyps hyps') (hn : ∀ x ∈ hyps, x.score ≠ .nan) (hn' : ∀ x ∈ hyps', x.score ≠ .nan)
    (t : Bool) :
    (segTally refs hyps).ap true t (descending (hyps.map (·.score))) ≤
      (segTally refs hyps').ap true t (descending (hyps'.map (·.score))) :=
  ap_mono _ _ _ _ (segTally_counts refs hyps hn) (segTally_counts refs hyps' hn')
    (fun s hs => (h.tally hn s hs).1) (fun s hs => (h.tally hn s hs).2) le_rfl t

theorem segTally_ap_nonneg (refs : List (Event Q L)) (hyps : List (ScoredEvent Q L))
    (hn : ∀ x ∈ hyps, x.score ≠ .nan) (interp t : Bool) :
    0 ≤ (segTally refs hyps).ap interp t (descending (hyps.map (·.score))) := by
  rw [(segTally_counts refs hyps hn).ap_hits]
  exact div_nonneg (Finset.sum_nonneg fun i _ => atHit_nonneg _ _ _ _) (by positivity)

theorem segTally_ap_none (hyps : List (ScoredEvent Q L))
    (hn : ∀ x ∈ hyps, x.score ≠ .nan) (interp t : Bool) :
    (segTally [] hyps).ap interp t (descending (hyps.map (·.score))) = 0 := by
  rw [(segTally_counts [] hyps hn).ap_hits]
  simp [segTally]

/-- Better hypotheses get no lower global and mean average precision. -/
theorem Spec.Improved.numbers {refs : List (Event Q L)} {hyps hyps' : List (ScoredEvent Q L)}
    (h : Improved refs hyps hyps') (hn : ∀ x ∈ hyps, x.score ≠ .nan) (hn' : ∀ x ∈ hyps', x.score ≠ .nan)
    (grp : Q → Q) (t : Bool) :
    (segNumbers grp true t refs hyps).gAP ≤ (segNumbers grp true t refs hyps').gAP ∧
    (segNumbers grp true t refs hyps).mAP ≤ (segNumbers grp true t refs hyps').mAP := by
  refine ⟨h.ap hn hn' t, ?_⟩
  let ap (l : List (ScoredEvent Q L)) (g : Q) : ℚ :=
    (segTally (refs.filter (grp ·.query = g)) (l.filter (grp ·.base.query = g))).ap true t
      (descending ((l.filter (grp ·.base.query = g)).map (·.score)))
  let G (l : List (ScoredEvent Q L)) : List Q := (refs.map (grp ·.query) ++ l.map (grp ·.base.query)).dedup
  have e : ∀ l, (segNumbers grp true t refs l).mAP = (∑ g ∈ (G l).toFinset, ap l g) / ((G l).toFinset.card : ℕ) := by
    intro l
    show average _ = _
    unfold average
    rw [List.map_map, List.length_map]
    have nd : (G l).Nodup := List.nodup_dedup _
    rw [List.sum_toFinset _ nd, List.toFinset_card_of_nodup nd]
    rfl
  have hf : ∀ l : List (ScoredEvent Q L), (∀ x ∈ l, x.score ≠ .nan) → ∀ g,
      ∀ x ∈ l.filter (grp ·.base.query = g), x.score ≠ .nan :=
    fun l hl g x hx => hl x (List.mem_of_mem_filter hx)
  have hap : ∀ g, ap hyps g ≤ ap hyps' g := fun g =>
    (h.filter (fun q => decide (grp q = g))).ap (hf hyps hn g) (hf hyps' hn' g) t
  have hnonneg : ∀ g, 0 ≤ ap hyps g := fun g => segTally_ap_nonneg _ _ (hf hyps hn g) _ _
  have sub : (G hyps').toFinset ⊆ (G hyps).toFinset := by
    intro g hg
    simp only [G, List.mem_toFinset, List.mem_dedup, List.mem_append, List.mem_map] at hg ⊢
    rcases hg with hg | ⟨x, hx, rfl⟩
    · exact Or.inl hg
    · by_cases hr : x.base ∈ refs
      · exact Or.inl ⟨x.base, hr, rfl⟩
      · have h1 : 0 < hyps'.countP (fun h => h.base ∉ refs ∧ h.base.query = x.base.query ∧
            Flt.lt h.score x.score = false) :=
          List.countP_pos_iff.2 ⟨x, hx, by simp [hr, Flt.lt_irrefl']⟩
        have h2 := h.wrong x.base.query x.score (hn' x hx)
        obtain ⟨y, hy, hp⟩ := List.countP_pos_iff.1 (lt_of_lt_of_le h1 h2)
        simp only [decide_eq_true_eq] at hp
        exact Or.inr ⟨y, hy, by rw [hp.2.1]⟩
  have zero : ∀ g ∈ (G hyps).toFinset, g ∉ (G hyps').toFinset → ap hyps g = 0 := by
    intro g _ hg
    have : refs.filter (grp ·.query = g) = [] := by
      rw [List.filter_eq_nil_iff]
      intro r hr hc
      refine hg ?_
      simp only [G, List.mem_toFinset, List.mem_dedup, List.mem_append, List.mem_map]
      exact Or.inl ⟨r, hr, by simpa using hc⟩
    show (segTally (refs.filter (grp ·.query = g)) _).ap _ _ _ = 0
    rw [this]
    exact segTally_ap_none _ (hf hyps hn g) _ _
  rw [e, e, ← Finset.sum_subset sub zero]
  rcases Nat.eq_zero_or_pos (G hyps').toFinset.card with h0 | hpos
  · rw [Finset.card_eq_zero] at h0
    rw [h0]
    simp
  · exact div_le_div₀ (Finset.sum_nonneg fun g _ => (hnonneg g).trans (hap g))
      (Finset.sum_le_sum fun g _ => hap g) (by exact_mod_cast hpos)
      (by exact_mod_cast Finset.card_le_card sub)

end

end Kws
