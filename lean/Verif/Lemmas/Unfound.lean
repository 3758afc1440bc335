import Verif.Lemmas.Dilution
import Verif.Spec.Unfound

/-! # References that nothing finds -/

set_option linter.unusedSectionVars false

namespace Kws
open Spec

section
variable {RE HE : Type} {overl : HE → List RE} {score : RE → HE → MatchError}

/-- References that are not accepted may be left out. -/
theorem deserves_filter {earlier entry : List (Match RE HE)} {o : List RE} {sc : RE → MatchError} {h : HE}
    (p : RE → Bool) (hp : ∀ r ∈ o, p r = false → 1 ≤ (sc r).fp) (hd : Deserves earlier o sc h entry) :
    Deserves earlier (o.filter p) sc h entry := by
  have hp' : ∀ r ∈ o, (sc r).fp < 1 → p r = true := fun r hr hlt => by
    by_contra hc
    exact absurd (hp r hr (by simpa using hc)) (not_le.2 hlt)
  rcases hd with ⟨a, e⟩ | ⟨l1, r, l2, rfl, b, c, d, e⟩ | ⟨⟨r, hr, b⟩, c, e⟩
  · exact .inl ⟨fun r hr => a r (List.mem_of_mem_filter hr), e⟩
  · refine .inr (.inl ⟨l1.filter p, r, l2.filter p, ?_, b, c,
      fun r' hr' => d r' (List.mem_of_mem_filter hr'), e⟩)
    rw [List.filter_append, List.filter_cons_of_pos (hp' r (by simp) b)]
  · exact .inr (.inr ⟨⟨r, List.mem_filter.2 ⟨hr, hp' r hr b⟩, b⟩,
      fun r hr => c r (List.mem_of_mem_filter hr), e⟩)

theorem deservesRepeated_filter {earlier rep : List (Match RE HE)} {o : List RE} {sc : RE → MatchError} {h : HE}
    (p : RE → Bool) (hp : ∀ r ∈ o, p r = false → 1 ≤ (sc r).fp) (hd : DeservesRepeated earlier o sc h rep) :
    DeservesRepeated earlier (o.filter p) sc h rep := by
  have hp' : ∀ r ∈ o, (sc r).fp < 1 → p r = true := fun r hr hlt => by
    by_contra hc
    exact absurd (hp r hr (by simpa using hc)) (not_le.2 hlt)
  obtain ⟨l1, l2, rfl, b, c, e⟩ := hd
  refine ⟨l1.filter p, l2.filter p, List.filter_append _ _, fun r hr => b r (List.mem_of_mem_filter hr), ?_, ?_⟩
  · cases l2 with
    | nil => simp
    | cons x l2 =>
      obtain ⟨c1, c2⟩ := c x rfl
      rw [List.filter_cons_of_pos (hp' x (by simp) c1)]
      rintro r ⟨⟩
      exact ⟨c1, c2⟩
  · rw [e, List.filter_filter]
    congr 1
    refine List.filter_congr fun r hr => ?_
    by_cases hlt : (sc r).fp < 1
    · simp [hlt, hp' r (by simp [hr]) hlt]
    · simp [hlt]

theorem greedy_filter {e en rep : List (Match RE HE)} {l : List HE} (p : RE → Bool)
    (h : Greedy overl score e l en rep)
    (hp : ∀ x ∈ l, ∀ r ∈ overl x, p r = false → 1 ≤ (score r x).fp) :
    Greedy (fun x => (overl x).filter p) score e l en rep := by
  induction h with
  | nil => exact .nil _
  | cons earlier h hs entry repeats entries repeated h1 h2 _ ih =>
    exact .cons _ _ _ _ _ _ _ (deserves_filter p (hp h (by simp)) h1)
      (deservesRepeated_filter p (hp h (by simp)) h2) (ih fun x hx => hp x (by simp [hx]))

theorem greedy_hyp {e en rep : List (Match RE HE)} {l : List HE} (h : Greedy overl score e l en rep) :
    ∀ m ∈ en, m.hyp ≠ none := by
  induction h with
  | nil => simp
  | cons earlier h hs entry repeats entries repeated h1 h2 _ ih =>
    intro m hm
    rcases List.mem_append.1 hm with hm | hm
    · rcases h1 with ⟨_, rfl⟩ | ⟨_, _, _, _, _, _, _, rfl⟩ | ⟨_, _, rfl⟩
      · rw [List.mem_singleton] at hm; subst hm; simp
      · rw [List.mem_singleton] at hm; subst hm; simp
      · simp at hm
    · exact ih m hm

end

/-! ## Counts -/

section
variable {c c' : Tally} {scores : List Flt}

theorem gain_nonneg : ∀ (scores : List Flt) (h w : ℕ), (∀ s ∈ scores, h ≤ c.hits s ∧ w ≤ c.wrong s) →
    scores.Pairwise (fun a b => c.hits a ≤ c.hits b ∧ c.wrong a ≤ c.wrong b) → 0 ≤ c.gain h w scores := by
  intro scores
  induction scores with
  | nil => intro h w _ _; exact le_rfl
  | cons s scores ih =>
    intro h w hs hp
    obtain ⟨p1, p2⟩ := List.pairwise_cons.1 hp
    obtain ⟨h1, h2⟩ := hs s (by simp)
    rw [Tally.gain]
    refine add_nonneg (Finset.sum_nonneg fun k _ => ?_) (ih _ _ p1 p2)
    have e1 : (0 : ℝ) ≤ (c.hits s : ℝ) - h := sub_nonneg.2 (by exact_mod_cast h1)
    have e2 : (0 : ℝ) ≤ (c.wrong s : ℝ) - w := sub_nonneg.2 (by exact_mod_cast h2)
    refine div_nonneg (sub_nonneg.2 (Real.one_le_rpow (by norm_num) (div_nonneg e1 (add_nonneg e1 e2)))) ?_
    exact (one_div_pos.1 (discount_pos k)).le

theorem CountsAt.gain_nonneg (h : CountsAt c scores) : 0 ≤ c.gain 0 0 scores := by
  refine Kws.gain_nonneg _ _ _ (fun _ _ => ⟨Nat.zero_le _, Nat.zero_le _⟩) ?_
  refine h.sorted.imp_of_mem fun {a b} ha hb hab => h.mono a b (h.nan a ha) ?_
  exact Flt.lt_asymm' _ _ hab

theorem CountsAt.ndcg_nonneg (h : CountsAt c scores) : 0 ≤ c.ndcg scores := by
  unfold Tally.ndcg
  split
  · exact le_rfl
  · exact div_nonneg h.gain_nonneg (Finset.sum_nonneg fun k _ => (discount_pos k).le)

theorem CountsAt.ap_nonneg (h : CountsAt c scores) (interp t : Bool) : 0 ≤ c.ap interp t scores := by
  rw [h.ap_hits]
  exact div_nonneg (Finset.sum_nonneg fun i _ => atHit_nonneg _ _ _ _) (by positivity)

theorem fall_of_mul {α : Type} [Field α] [LinearOrder α] [IsStrictOrderedRing α] {x y a b : α}
    (h : y * b = x * a) (hx : 0 ≤ x) (hab : a ≤ b) (hb : 0 < b) : y ≤ x := by
  refine le_of_mul_le_mul_right ?_ hb
  rw [h]
  exact mul_le_mul_of_nonneg_left hab hx

/-- The same hits and false positives out of more references. -/
theorem CountsAt.fall (h : CountsAt c scores) (h' : CountsAt c' scores) (h1 : c.hits = c'.hits)
    (h2 : c.wrong = c'.wrong) (h3 : c.refs ≤ c'.refs) (interp t : Bool) :
    c'.ap interp t scores ≤ c.ap interp t scores ∧ c'.ndcg scores ≤ c.ndcg scores := by
  by_cases h0 : c'.refs = 0
  · have hz : ∀ s, c'.hits s = 0 := fun s => by have := h'.refs s; omega
    rw [h'.ap_zero hz, ndcg_zero hz]
    exact ⟨h.ap_nonneg _ _, h.ndcg_nonneg⟩
  · refine ⟨fall_of_mul (h.ap_refs h' h1 h2 interp t) (h.ap_nonneg _ _) (by exact_mod_cast h3)
      (by exact_mod_cast Nat.pos_of_ne_zero h0), fall_of_mul (h.ndcg_refs h' h1 h2) h.ndcg_nonneg ?_
      (idealGain_pos _ h0)⟩
    exact Finset.sum_le_sum_of_subset_of_nonneg (Finset.range_subset_range.2 h3) fun k _ _ => (discount_pos k).le

/-- A mean falls if values fall and zeros are added. -/
theorem average_falls {Q α : Type} [DecidableEq Q] [Field α] [LinearOrder α] [IsStrictOrderedRing α]
    (gs gs' : List Q) (f f' : Q → α) (hd : gs.Nodup) (hd' : gs'.Nodup)
    (hs : ∀ g ∈ gs, g ∈ gs' ∧ f' g ≤ f g) (hf : ∀ g, 0 ≤ f g) (h0 : ∀ g ∈ gs', g ∉ gs → f' g = 0) :
    average (gs'.map f') ≤ average (gs.map f) := by
  have hsum : (gs'.map f').sum ≤ (gs.map f).sum := by
    rw [← List.sum_toFinset _ hd, ← List.sum_toFinset _ hd']
    have : ∑ g ∈ gs'.toFinset, f' g = ∑ g ∈ gs.toFinset, f' g := by
      symm
      refine Finset.sum_subset (fun g hg => ?_) (fun g hg hn => ?_)
      · exact List.mem_toFinset.2 (hs g (List.mem_toFinset.1 hg)).1
      · exact h0 g (List.mem_toFinset.1 hg) (fun h => hn (List.mem_toFinset.2 h))
    rw [this]
    exact Finset.sum_le_sum fun g hg => (hs g (List.mem_toFinset.1 hg)).2
  have hpos : 0 ≤ (gs.map f).sum := List.sum_nonneg fun x hx => by
    obtain ⟨g, _, rfl⟩ := List.mem_map.1 hx
    exact hf g
  have hlen : gs.length ≤ gs'.length := by
    rw [← List.toFinset_card_of_nodup hd, ← List.toFinset_card_of_nodup hd']
    exact Finset.card_le_card fun g hg => List.mem_toFinset.2 (hs g (List.mem_toFinset.1 hg)).1
  unfold average
  rw [List.length_map, List.length_map]
  rcases Nat.eq_zero_or_pos gs.length with h | h
  · have e : (gs.map f).sum = 0 := by rw [List.length_eq_zero_iff.1 h]; rfl
    rw [e] at hsum ⊢
    rw [zero_div]
    exact div_nonpos_of_nonpos_of_nonneg hsum (Nat.cast_nonneg _)
  · refine (div_le_div_of_nonneg_right hsum (Nat.cast_nonneg _)).trans ?_
    exact div_le_div_of_nonneg_left hpos (by exact_mod_cast h) (by exact_mod_cast hlen)

end

/-! ## Numbers -/

section
variable {Q L : Type} [DecidableEq Q] [DecidableEq L] {grp : Q → Q}

/-- Only matches with a hypothesis count, apart from the number of references. -/
theorem tally_misses {a b b' : List (KwsMatch Q L)} (h2 : ∀ m ∈ b ++ b', m.hyp = none) :
    (tallyOf (a ++ b)).hits = (tallyOf (a ++ b')).hits ∧ (tallyOf (a ++ b)).wrong = (tallyOf (a ++ b')).wrong ∧
      scoresIn (a ++ b) = scoresIn (a ++ b') := by
  have z : ∀ (p : KwsMatch Q L → Bool), (∀ m, m.hyp = none → p m = false) →
      b.countP p = 0 ∧ b'.countP p = 0 := by
    intro p hp
    constructor <;> refine List.countP_eq_zero.2 fun m hm => ?_
    · rw [hp m (h2 m (by simp [hm]))]; simp
    · rw [hp m (h2 m (by simp [hm]))]; simp
  have y : ∀ k : List (KwsMatch Q L), (∀ m ∈ k, m.hyp = none) → scoresIn (a ++ k) = scoresIn a := by
    intro k hk
    unfold scoresIn
    rw [List.filterMap_append, List.filterMap_eq_nil_iff (l := k).2 (fun m hm => by rw [hk m hm]; rfl),
      List.append_nil]
  refine ⟨?_, ?_, ?_⟩
  · funext s
    unfold tallyOf
    simp only [List.countP_append]
    rw [(z _ fun m hm => by simp [hm]).1, (z _ fun m hm => by simp [hm]).2]
  · funext s
    unfold tallyOf
    simp only [List.countP_append]
    rw [(z _ fun m hm => by simp [hm]).1, (z _ fun m hm => by simp [hm]).2]
  · rw [y b fun m hm => h2 m (by simp [hm]), y b' fun m hm => h2 m (by simp [hm])]

/-- The global numbers of two lists of matches that differ in references without hypothesis only. -/
theorem matchNumbers_unfound {more : List (Event Q L)} {ms ms' : List (KwsMatch Q L)}
    (h : OnlyMissesAdded more ms ms') (hn : NoNaN ms) (hn' : NoNaN ms') (i t : Bool) :
    (matchNumbers grp i t ms').gAP * references ms' = (matchNumbers grp i t ms).gAP * references ms ∧
    (matchNumbers grp i t ms').gNDCG * idealGain (references ms') =
      (matchNumbers grp i t ms).gNDCG * idealGain (references ms) := by
  obtain ⟨a, b, b', rfl, rfl, _, h2, _, _⟩ := h
  obtain ⟨e1, e2, e3⟩ := tally_misses (a := a) h2
  have c1 := tallyOf_counts _ hn _ (scoresIn_thresholds _ hn)
  have c2 := tallyOf_counts _ hn' _ (scoresIn_thresholds _ hn')
  rw [e3] at c1
  unfold matchNumbers Numbers.of
  simp only [e3]
  exact ⟨c1.ap_refs c2 e1 e2 i t, c1.ndcg_refs c2 e1 e2⟩

/-- None of the numbers rises. -/
theorem matchNumbers_fall {more : List (Event Q L)} {ms ms' : List (KwsMatch Q L)}
    (h : OnlyMissesAdded more ms ms') (hn : NoNaN ms) (hn' : NoNaN ms') (i t : Bool) :
    NoneLower (matchNumbers grp i t ms') (matchNumbers grp i t ms) 0 := by
  obtain ⟨a, b, b', rfl, rfl, _, h2, h3, _⟩ := h
  have part : ∀ p : KwsMatch Q L → Bool,
      (tallyOf ((a ++ b').filter p)).ap i t (descending (scoresIn ((a ++ b').filter p))) ≤
        (tallyOf ((a ++ b).filter p)).ap i t (descending (scoresIn ((a ++ b).filter p))) ∧
      (tallyOf ((a ++ b').filter p)).ndcg (descending (scoresIn ((a ++ b').filter p))) ≤
        (tallyOf ((a ++ b).filter p)).ndcg (descending (scoresIn ((a ++ b).filter p))) := by
    intro p
    have m1 : NoNaN ((a ++ b).filter p) := fun m hm => hn m (List.mem_of_mem_filter hm)
    have m2 : NoNaN ((a ++ b').filter p) := fun m hm => hn' m (List.mem_of_mem_filter hm)
    have c1 := tallyOf_counts _ m1 _ (scoresIn_thresholds _ m1)
    have c2 := tallyOf_counts _ m2 _ (scoresIn_thresholds _ m2)
    rw [List.filter_append] at c1 c2 ⊢
    rw [List.filter_append]
    obtain ⟨e1, e2, e3⟩ := tally_misses (a := a.filter p) (b := b.filter p) (b' := b'.filter p) (fun m hm => by
      rw [← List.filter_append] at hm
      exact h2 m (List.mem_of_mem_filter hm))
    rw [e3] at c1 ⊢
    refine c1.fall c2 e1 e2 ?_ i t
    unfold tallyOf
    simp only [List.countP_append]
    exact Nat.add_le_add_left (h3.filter p).countP_le _
  have nonneg : ∀ p : KwsMatch Q L → Bool,
      0 ≤ (tallyOf ((a ++ b).filter p)).ap i t (descending (scoresIn ((a ++ b).filter p))) ∧
      0 ≤ (tallyOf ((a ++ b).filter p)).ndcg (descending (scoresIn ((a ++ b).filter p))) := by
    intro p
    have m1 : NoNaN ((a ++ b).filter p) := fun m hm => hn m (List.mem_of_mem_filter hm)
    have c1 := tallyOf_counts _ m1 _ (scoresIn_thresholds _ m1)
    exact ⟨c1.ap_nonneg i t, c1.ndcg_nonneg⟩
  have sub : ∀ g ∈ groupsIn grp (a ++ b), g ∈ groupsIn grp (a ++ b') := by
    intro g hg
    obtain ⟨m, hm, r⟩ := (mem_groupsIn _ _ _).1 hg
    refine (mem_groupsIn _ _ _).2 ⟨m, ?_, r⟩
    exact ((List.Sublist.refl a).append h3).subset hm
  have zero : ∀ g ∉ groupsIn grp (a ++ b), ∀ s, (tallyOf ((a ++ b').filter (InGroup grp g))).hits s = 0 := by
    intro g hg
    refine fun s => tallyOf_zero (fun m hm => ?_) s
    obtain ⟨k1, k2⟩ := List.mem_filter.1 hm
    rcases List.mem_append.1 k1 with k | k
    · exact absurd ((mem_groupsIn _ _ _).2 ⟨m, by simp [k], (inGroup_iff _ _ _).1 k2⟩) hg
    · unfold IsHit
      rw [h2 m (by simp [k])]
      simp
  have all := part fun _ => true
  rw [List.filter_true, List.filter_true] at all
  refine ⟨by rw [add_zero]; exact all.1, ?_, all.2, ?_⟩
  · rw [add_zero]
    unfold matchNumbers Numbers.of
    simp only [List.map_map]
    refine average_falls _ _ _ _ (List.nodup_dedup _) (List.nodup_dedup _) (fun g hg => ⟨sub g hg, (part _).1⟩)
      (fun g => (nonneg _).1) (fun g _ hg => ?_)
    have m2 : NoNaN ((a ++ b').filter (InGroup grp g)) := fun m hm => hn' m (List.mem_of_mem_filter hm)
    exact (tallyOf_counts _ m2 _ (scoresIn_thresholds _ m2)).ap_zero (zero g hg) i t
  · unfold matchNumbers Numbers.of
    simp only [List.map_map]
    exact average_falls _ _ _ _ (List.nodup_dedup _) (List.nodup_dedup _) (fun g hg => ⟨sub g hg, (part _).2⟩)
      (fun g => (nonneg _).2) (fun g _ hg => ndcg_zero (zero g hg))

/-- The counts of the segmentation-based evaluation with references that nothing finds. -/
theorem segTally_unfound {refs more refs' : List (Event Q L)} {hyps hyps' : List (ScoredEvent Q L)}
    (hr : AddsRefs refs more refs') (hp : hyps'.Perm hyps) (hno : ∀ x ∈ hyps, x.base ∉ more) :
    (segTally refs hyps).hits = (segTally refs' hyps').hits ∧
      (segTally refs hyps).wrong = (segTally refs' hyps').wrong := by
  replace hno : ∀ x ∈ hyps', x.base ∉ more := fun x hx => hno x (hp.mem_iff.1 hx)
  rw [show segTally refs hyps = segTally refs hyps' from segTally_congr _ _ _ _ (fun _ => Iff.rfl) hp.symm]
  constructor
  · funext s
    unfold segTally
    simp only
    congr 1
    ext r
    simp only [Finset.mem_filter, List.mem_toFinset, hr r]
    constructor
    · rintro ⟨a, b⟩; exact ⟨.inl a, b⟩
    · rintro ⟨a | a, x, b, rfl, c⟩
      · exact ⟨a, x, b, rfl, c⟩
      · exact absurd a (hno x b)
  · funext s
    unfold segTally
    simp only
    refine List.countP_congr fun x hx => ?_
    have := hno x hx
    simp [hr x.base, this]

theorem descending_perm {hyps hyps' : List (ScoredEvent Q L)} (hp : hyps'.Perm hyps)
    (hn : ∀ x ∈ hyps', x.score ≠ .nan) :
    descending (hyps.map (·.score)) = descending (hyps'.map (·.score)) :=
  descending_congr (fun s hs => by
    obtain ⟨x, hx, rfl⟩ := List.mem_map.1 hs
    exact hn x (hp.mem_iff.2 hx)) (fun s => (hp.symm.map _).mem_iff)

/-- The global numbers of the segmentation-based evaluation with references that nothing finds. -/
theorem segNumbers_unfound {refs more refs' : List (Event Q L)} {hyps hyps' : List (ScoredEvent Q L)}
    (hr : AddsRefs refs more refs') (hp : hyps'.Perm hyps) (hno : ∀ x ∈ hyps, x.base ∉ more)
    (hn : ∀ x ∈ hyps', x.score ≠ .nan) (i t : Bool) :
    (segNumbers grp i t refs' hyps').gAP * refs'.toFinset.card =
      (segNumbers grp i t refs hyps).gAP * refs.toFinset.card ∧
    (segNumbers grp i t refs' hyps').gNDCG * idealGain refs'.toFinset.card =
      (segNumbers grp i t refs hyps).gNDCG * idealGain refs.toFinset.card := by
  obtain ⟨e1, e2⟩ := segTally_unfound hr hp hno
  have c1 := segTally_counts refs hyps fun x hx => hn x (hp.mem_iff.2 hx)
  rw [descending_perm hp hn] at c1
  unfold segNumbers Numbers.of
  simp only [descending_perm hp hn]
  exact ⟨c1.ap_refs (segTally_counts refs' hyps' hn) e1 e2 i t, c1.ndcg_refs (segTally_counts refs' hyps' hn) e1 e2⟩

/-- None of the numbers of the segmentation-based evaluation rises. -/
theorem segNumbers_fall {refs more refs' : List (Event Q L)} {hyps hyps' : List (ScoredEvent Q L)}
    (hr : AddsRefs refs more refs') (hp : hyps'.Perm hyps) (hno : ∀ x ∈ hyps, x.base ∉ more)
    (hn : ∀ x ∈ hyps', x.score ≠ .nan) (i t : Bool) :
    NoneLower (segNumbers grp i t refs' hyps') (segNumbers grp i t refs hyps) 0 := by
  have whole : ∀ {refs more refs' : List (Event Q L)} {hyps hyps' : List (ScoredEvent Q L)},
      AddsRefs refs more refs' → hyps'.Perm hyps → (∀ x ∈ hyps, x.base ∉ more) →
      (∀ x ∈ hyps', x.score ≠ .nan) →
      ((segTally refs' hyps').ap i t (descending (hyps'.map (·.score))) ≤
        (segTally refs hyps).ap i t (descending (hyps.map (·.score))) ∧
      (segTally refs' hyps').ndcg (descending (hyps'.map (·.score))) ≤
        (segTally refs hyps).ndcg (descending (hyps.map (·.score)))) ∧
      0 ≤ (segTally refs hyps).ap i t (descending (hyps.map (·.score))) ∧
      0 ≤ (segTally refs hyps).ndcg (descending (hyps.map (·.score))) := by
    intro refs more refs' hyps hyps' hr hp hno hn
    obtain ⟨e1, e2⟩ := segTally_unfound hr hp hno
    have c1 := segTally_counts refs hyps fun x hx => hn x (hp.mem_iff.2 hx)
    rw [descending_perm hp hn] at c1 ⊢
    have hc : refs.toFinset.card ≤ refs'.toFinset.card := Finset.card_le_card fun r hrr =>
      List.mem_toFinset.2 ((hr r).2 (.inl (List.mem_toFinset.1 hrr)))
    exact ⟨c1.fall (segTally_counts refs' hyps' hn) e1 e2 hc i t, c1.ap_nonneg i t, c1.ndcg_nonneg⟩
  have part : ∀ g : Q, _ := fun g => whole (refs := refs.filter (grp ·.query = g))
    (more := more.filter (grp ·.query = g)) (refs' := refs'.filter (grp ·.query = g))
    (hyps := hyps.filter (grp ·.base.query = g)) (hyps' := hyps'.filter (grp ·.base.query = g))
    (fun r => by simp only [List.mem_filter, hr r, or_and_right]) (hp.filter _)
    (fun x hx hm => hno x (List.mem_of_mem_filter hx) (List.mem_of_mem_filter hm))
    (fun x hx => hn x (List.mem_of_mem_filter hx))
  have sub : ∀ g, (∃ q ∈ queriesOf refs hyps, grp q = g) → ∃ q ∈ queriesOf refs' hyps', grp q = g := by
    rintro g ⟨q, hq, e⟩
    refine ⟨q, ?_, e⟩
    rcases List.mem_append.1 hq with hq | hq <;> obtain ⟨x, hx, rfl⟩ := List.mem_map.1 hq
    · exact mem_queriesOf_ref ((hr x).2 (.inl hx))
    · exact mem_queriesOf_hyp (hp.mem_iff.2 hx)
  have zero : ∀ g, (¬ ∃ q ∈ queriesOf refs hyps, grp q = g) → ∀ s,
      (segTally (refs'.filter (grp ·.query = g)) (hyps'.filter (grp ·.base.query = g))).hits s = 0 := by
    intro g hg
    refine segTally_zero fun x hx _ => hg ⟨x.base.query, ?_, ?_⟩
    · exact mem_queriesOf_hyp (hp.mem_iff.1 (List.mem_of_mem_filter hx))
    · simpa using (List.mem_filter.1 hx).2
  obtain ⟨⟨w1, w2⟩, _⟩ := whole hr hp hno hn
  refine ⟨by rw [add_zero]; exact w1, ?_, w2, ?_⟩
  · rw [add_zero]
    unfold segNumbers Numbers.of
    simp only [List.map_map]
    refine average_falls _ _ _ _ (List.nodup_dedup _) (List.nodup_dedup _) (fun g hg => ?_)
      (fun g => (part g).2.1) (fun g _ hg => ?_)
    · rw [mem_groupList] at hg ⊢
      exact ⟨sub g hg, (part g).1.1⟩
    · rw [mem_groupList] at hg
      exact (segTally_counts _ _ (fun x hx => hn x (List.mem_of_mem_filter hx))).ap_zero (zero g hg) i t
  · unfold segNumbers Numbers.of
    simp only [List.map_map]
    refine average_falls _ _ _ _ (List.nodup_dedup _) (List.nodup_dedup _) (fun g hg => ?_)
      (fun g => (part g).2.2) (fun g _ hg => ?_)
    · rw [mem_groupList] at hg ⊢
      exact ⟨sub g hg, (part g).1.2⟩
    · rw [mem_groupList] at hg
      exact ndcg_zero (zero g hg)

end

end Kws
