import Verif.Lemmas.BoxMonotone
import Verif.Spec.Dilution

/-! # Groups in which nothing is found -/

set_option linter.unusedSectionVars false

namespace Kws
open Spec

theorem average_mul {α : Type} [Field α] [CharZero α] (l : List α) : average l * l.length = l.sum := by
  unfold average
  rcases Nat.eq_zero_or_pos l.length with h | h
  · rw [List.length_eq_zero_iff.1 h]
    simp
  · rw [div_mul_cancel₀]
    exact_mod_cast h.ne'

/-- Values that are 0 outside `gs` do not change the sum. -/
theorem average_diluted {Q α : Type} [DecidableEq Q] [Field α] [CharZero α] (gs gs' : List Q) (f f' : Q → α)
    (hd : gs.Nodup) (hd' : gs'.Nodup) (hs : ∀ g ∈ gs, g ∈ gs' ∧ f' g = f g)
    (h0 : ∀ g ∈ gs', g ∉ gs → f' g = 0) :
    average (gs'.map f') * gs'.length = average (gs.map f) * gs.length := by
  have h1 := average_mul (gs'.map f')
  have h2 := average_mul (gs.map f)
  rw [List.length_map] at h1 h2
  rw [h1, h2, ← List.sum_toFinset _ hd, ← List.sum_toFinset _ hd']
  symm
  rw [Finset.sum_congr rfl fun g hg => ((hs g (List.mem_toFinset.1 hg)).2).symm]
  refine Finset.sum_subset (fun g hg => ?_) (fun g hg hn => ?_)
  · exact List.mem_toFinset.2 (hs g (List.mem_toFinset.1 hg)).1
  · exact h0 g (List.mem_toFinset.1 hg) (fun h => hn (List.mem_toFinset.2 h))

theorem topped_zero (pts : List (ℚ × ℚ)) (h : ∀ p ∈ pts, p.1 = 0) : ∀ p ∈ topped pts, p.1 = 0 := by
  induction pts with
  | nil => simp [topped]
  | cons a pts ih =>
    intro p hp
    have h1 : ∀ (l : List (ℚ × ℚ)), (∀ q ∈ l, q.1 = 0) → ∀ x : ℚ, x = 0 →
        l.foldr (fun q m => max q.1 m) x = 0 := by
      intro l hl x hx
      induction l with
      | nil => exact hx
      | cons b l ih =>
        rw [List.foldr_cons, ih (fun q hq => hl q (by simp [hq])), hl b (by simp), max_self]
    rw [topped, List.mem_cons] at hp
    rcases hp with rfl | hp
    · exact h1 pts (fun q hq => h q (by simp [hq])) _ (h a (by simp))
    · exact ih (fun q hq => h q (by simp [hq])) p hp

section
variable {c c' : Tally} {scores : List Flt}

/-- Without hits the average precision is 0. -/
theorem CountsAt.ap_zero (h : CountsAt c scores) (h0 : ∀ s, c.hits s = 0) (interp t : Bool) :
    c.ap interp t scores = 0 := by
  have hp : ∀ p ∈ scores.map c.point, p.1 = 0 := by
    intro p hp
    obtain ⟨s, hs, rfl⟩ := List.mem_map.1 hp
    have := h.pos s hs
    unfold Tally.point
    rw [h0] at this ⊢
    simp only
    rw [if_neg (by omega)]
    simp
  unfold Tally.ap Spec.curveArea
  simp only
  refine areaUnder_zero _ _ _ (Or.inl ?_)
  intro x hx
  obtain ⟨p, hp', rfl⟩ := List.mem_map.1 hx
  cases interp
  · exact hp p hp'
  · exact topped_zero _ hp p hp'

/-- Without hits there is no gain. -/
theorem noHits_gain (h0 : ∀ s, c.hits s = 0) : ∀ w, c.gain 0 w scores = 0 := by
  induction scores with
  | nil => intro w; rfl
  | cons s scores ih =>
    intro w
    rw [Tally.gain, h0, ih]
    simp

theorem ndcg_zero (h0 : ∀ s, c.hits s = 0) : c.ndcg scores = 0 := by
  unfold Tally.ndcg
  rw [noHits_gain h0]
  simp

theorem discount_pos (k : ℕ) : (0 : ℝ) < 1 / Real.logb 2 ((k : ℝ) + 2) :=
  one_div_pos.2 (Real.logb_pos (by norm_num) (by have : (0 : ℝ) ≤ k := Nat.cast_nonneg k; linarith))

theorem idealGain_pos (n : ℕ) (h : n ≠ 0) : 0 < idealGain n :=
  Finset.sum_pos (fun k _ => discount_pos k) (Finset.nonempty_range_iff.2 h)

theorem CountsAt.ndcg_mul (h : CountsAt c scores) : c.ndcg scores * idealGain c.refs = c.gain 0 0 scores := by
  unfold Tally.ndcg
  by_cases h0 : c.refs = 0
  · have hz : ∀ s, c.hits s = 0 := fun s => by have := h.refs s; omega
    rw [if_pos h0, noHits_gain hz, zero_mul]
  · rw [if_neg h0]
    exact div_mul_cancel₀ _ (idealGain_pos _ h0).ne'

theorem gain_sameCounts (h1 : c.hits = c'.hits) (h2 : c.wrong = c'.wrong) :
    ∀ a b, c.gain a b scores = c'.gain a b scores := by
  induction scores with
  | nil => intro a b; rfl
  | cons s scores ih =>
    intro a b
    rw [Tally.gain, Tally.gain, h1, h2, ih]

/-- The same hits and false positives out of another number of references. -/
theorem CountsAt.ap_refs (h : CountsAt c scores) (h' : CountsAt c' scores) (h1 : c.hits = c'.hits)
    (h2 : c.wrong = c'.wrong) (interp t : Bool) :
    c'.ap interp t scores * c'.refs = c.ap interp t scores * c.refs := by
  by_cases h0 : c.refs = 0
  · have hz : ∀ s, c.hits s = 0 := fun s => by have := h.refs s; omega
    rw [h'.ap_zero (fun s => by rw [← h1]; exact hz s), h0]
    simp
  by_cases h0' : c'.refs = 0
  · have hz : ∀ s, c'.hits s = 0 := fun s => by have := h'.refs s; omega
    rw [h.ap_zero (fun s => by rw [h1]; exact hz s), h0']
    simp
  have key : ∀ (d : Tally), CountsAt d scores → d.refs ≠ 0 → d.refs ≤ c.refs + c'.refs →
      d.ap interp t scores * d.refs =
        ∑ i ∈ Finset.range (c.refs + c'.refs), atHit (hts t none (hitCurve interp (d.counts scores))) i := by
    intro d hd hne hle
    have e := curveArea_hits interp t d.refs (c.refs + c'.refs) (d.counts scores) (by
      intro x hx
      obtain ⟨s, _, rfl⟩ := List.mem_map.1 hx
      exact (hd.refs s).trans hle) hd.counts_sorted
    have e' : d.ap interp t scores =
        curveArea interp t ((d.counts scores).map (fun c => (precOf c, (c.1 : ℚ) / d.refs))) := by
      unfold Tally.ap Tally.counts
      rw [List.map_map]
      congr 1
      refine List.map_congr_left fun s _ => ?_
      unfold Tally.point precOf
      simp only [Function.comp_apply, if_neg hne]
    rw [e', e, div_mul_cancel₀]
    exact_mod_cast hne
  rw [key c h h0 (by omega), key c' h' h0' (by omega)]
  have : c.counts scores = c'.counts scores := by
    unfold Tally.counts
    rw [h1, h2]
  rw [this]

theorem CountsAt.ndcg_refs (h : CountsAt c scores) (h' : CountsAt c' scores) (h1 : c.hits = c'.hits)
    (h2 : c.wrong = c'.wrong) :
    c'.ndcg scores * idealGain c'.refs = c.ndcg scores * idealGain c.refs := by
  rw [h.ndcg_mul, h'.ndcg_mul]
  exact (gain_sameCounts h1 h2 0 0).symm

end

/-! ## The segmentation-based evaluation -/

section
variable {Q L : Type} [DecidableEq Q] [DecidableEq L] {grp : Q → Q} {refs more refs' : List (Event Q L)}
  {hyps others hyps' : List (ScoredEvent Q L)}

theorem groupCount_eq (grp : Q → Q) (refs : List (Event Q L)) (hyps : List (ScoredEvent Q L)) :
    groupCount grp refs hyps = (refs.map (grp ·.query) ++ hyps.map (grp ·.base.query)).dedup.length := by
  unfold groupCount queriesOf
  rw [List.map_append, List.map_map, List.map_map]
  rfl

theorem Spec.AddsQueries.mem_queries (h : AddsQueries grp refs more refs' hyps others hyps') (q : Q) :
    q ∈ queriesOf refs' hyps' ↔ q ∈ queriesOf refs hyps ∨ q ∈ queriesOf more others := by
  unfold queriesOf
  simp only [List.mem_append, List.mem_map, h.allRefs, h.allHyps.mem_iff]
  constructor
  · rintro (⟨a, b | b, c⟩ | ⟨a, b | b, c⟩)
    · exact .inl (.inl ⟨a, b, c⟩)
    · exact .inr (.inl ⟨a, b, c⟩)
    · exact .inl (.inr ⟨a, b, c⟩)
    · exact .inr (.inr ⟨a, b, c⟩)
  · rintro ((⟨a, b, c⟩ | ⟨a, b, c⟩) | (⟨a, b, c⟩ | ⟨a, b, c⟩))
    · exact .inl ⟨a, .inl b, c⟩
    · exact .inr ⟨a, .inl b, c⟩
    · exact .inl ⟨a, .inr b, c⟩
    · exact .inr ⟨a, .inr b, c⟩

theorem mem_groupList (grp : Q → Q) (refs : List (Event Q L)) (hyps : List (ScoredEvent Q L)) (g : Q) :
    g ∈ (refs.map (grp ·.query) ++ hyps.map (grp ·.base.query)).dedup ↔
      ∃ q ∈ queriesOf refs hyps, grp q = g := by
  unfold queriesOf
  simp only [List.mem_dedup, List.mem_append, List.mem_map]
  constructor
  · rintro (⟨a, b, c⟩ | ⟨a, b, c⟩)
    · exact ⟨_, .inl ⟨a, b, rfl⟩, c⟩
    · exact ⟨_, .inr ⟨a, b, rfl⟩, c⟩
  · rintro ⟨q, ⟨a, b, rfl⟩ | ⟨a, b, rfl⟩, c⟩
    · exact .inl ⟨a, b, c⟩
    · exact .inr ⟨a, b, c⟩

theorem mem_queriesOf_ref {r : Event Q L} (h : r ∈ refs) : r.query ∈ queriesOf refs hyps :=
  List.mem_append.2 (.inl (List.mem_map_of_mem h))

theorem mem_queriesOf_hyp {x : ScoredEvent Q L} (h : x ∈ hyps) : x.base.query ∈ queriesOf refs hyps :=
  List.mem_append.2 (.inr (List.mem_map_of_mem (f := fun x : ScoredEvent Q L => x.base.query) h))

/-- The references of a group that was there before. -/
theorem Spec.AddsQueries.old_refs (h : AddsQueries grp refs more refs' hyps others hyps') {g : Q}
    (hg : ∃ q ∈ queriesOf refs hyps, grp q = g) (r : Event Q L) :
    r ∈ refs'.filter (grp ·.query = g) ↔ r ∈ refs.filter (grp ·.query = g) := by
  obtain ⟨q, hq, rfl⟩ := hg
  simp only [List.mem_filter, h.allRefs, decide_eq_true_eq]
  constructor
  · rintro ⟨a | a, b⟩
    · exact ⟨a, b⟩
    · exact absurd b.symm (h.apart q hq _ (mem_queriesOf_ref a))
  · rintro ⟨a, b⟩
    exact ⟨.inl a, b⟩

/-- The hypotheses of a group that was there before. -/
theorem Spec.AddsQueries.old_hyps (h : AddsQueries grp refs more refs' hyps others hyps') {g : Q}
    (hg : ∃ q ∈ queriesOf refs hyps, grp q = g) :
    (hyps'.filter (grp ·.base.query = g)).Perm (hyps.filter (grp ·.base.query = g)) := by
  obtain ⟨q, hq, rfl⟩ := hg
  refine (h.allHyps.filter _).trans ?_
  have e : others.filter (grp ·.base.query = grp q) = [] := List.filter_eq_nil_iff.2 fun x hx hb => by
    rw [decide_eq_true_eq] at hb
    exact h.apart q hq _ (mem_queriesOf_hyp hx) hb.symm
  rw [List.filter_append, e, List.append_nil]

/-- The events of a new group. -/
theorem Spec.AddsQueries.new_events (h : AddsQueries grp refs more refs' hyps others hyps') {g : Q}
    (hg : ¬ ∃ q ∈ queriesOf refs hyps, grp q = g) :
    (∀ r ∈ refs'.filter (grp ·.query = g), r ∈ more) ∧
      ∀ x ∈ hyps'.filter (grp ·.base.query = g), x ∈ others := by
  constructor
  · intro r hr
    obtain ⟨a, b⟩ := List.mem_filter.1 hr
    rcases (h.allRefs r).1 a with a | a
    · exact absurd ⟨_, mem_queriesOf_ref a, by simpa using b⟩ hg
    · exact a
  · intro x hx
    obtain ⟨a, b⟩ := List.mem_filter.1 hx
    rcases List.mem_append.1 (h.allHyps.mem_iff.1 a) with a | a
    · exact absurd ⟨_, mem_queriesOf_hyp a, by simpa using b⟩ hg
    · exact a

theorem segTally_zero (h : ∀ x ∈ hyps, x.base ∉ refs) (s : Flt) : (segTally refs hyps).hits s = 0 := by
  unfold segTally
  rw [Finset.card_eq_zero, Finset.filter_eq_empty_iff]
  rintro r hr ⟨x, hx, rfl, _⟩
  exact h x hx (List.mem_toFinset.1 hr)

/-- The means of the segmentation-based evaluation, if nothing is found for the added queries. -/
theorem segNumbers_means (h : AddsQueries grp refs more refs' hyps others hyps')
    (hw : ∀ x ∈ others, x.base ∉ more) (hn : ∀ x ∈ hyps', x.score ≠ .nan) (i t : Bool) :
    (segNumbers grp i t refs' hyps').mAP * groupCount grp refs' hyps' =
      (segNumbers grp i t refs hyps).mAP * groupCount grp refs hyps ∧
    (segNumbers grp i t refs' hyps').mNDCG * groupCount grp refs' hyps' =
      (segNumbers grp i t refs hyps).mNDCG * groupCount grp refs hyps := by
  have hsub : ∀ g, (∃ q ∈ queriesOf refs hyps, grp q = g) → ∃ q ∈ queriesOf refs' hyps', grp q = g := by
    rintro g ⟨q, hq, e⟩
    exact ⟨q, (h.mem_queries q).2 (.inl hq), e⟩
  have hnan : ∀ g : Q, ∀ x ∈ hyps'.filter (grp ·.base.query = g), x.score ≠ .nan :=
    fun g x hx => hn x (List.mem_of_mem_filter hx)
  have hold : ∀ g, (∃ q ∈ queriesOf refs hyps, grp q = g) →
      segTally (refs'.filter (grp ·.query = g)) (hyps'.filter (grp ·.base.query = g)) =
        segTally (refs.filter (grp ·.query = g)) (hyps.filter (grp ·.base.query = g)) ∧
      descending ((hyps'.filter (grp ·.base.query = g)).map (·.score)) =
        descending ((hyps.filter (grp ·.base.query = g)).map (·.score)) := by
    intro g hg
    refine ⟨segTally_congr _ _ _ _ (h.old_refs hg) (h.old_hyps hg), ?_⟩
    refine descending_congr ?_ (fun s => ((h.old_hyps hg).map _).mem_iff)
    intro s hs
    obtain ⟨x, hx, rfl⟩ := List.mem_map.1 hs
    exact hnan g x hx
  have hnew : ∀ g, (¬ ∃ q ∈ queriesOf refs hyps, grp q = g) → ∀ s,
      (segTally (refs'.filter (grp ·.query = g)) (hyps'.filter (grp ·.base.query = g))).hits s = 0 := by
    intro g hg
    obtain ⟨a, b⟩ := h.new_events hg
    exact segTally_zero fun x hx hr => hw x (b x hx) (a _ hr)
  rw [groupCount_eq, groupCount_eq]
  constructor
  · unfold segNumbers Numbers.of
    simp only [List.map_map]
    refine average_diluted _ _ _ _ (List.nodup_dedup _) (List.nodup_dedup _) (fun g hg => ?_)
      (fun g hg hg' => ?_)
    · rw [mem_groupList] at hg ⊢
      refine ⟨hsub g hg, ?_⟩
      simp only [Function.comp_apply]
      rw [(hold g hg).1, (hold g hg).2]
    · rw [mem_groupList] at hg'
      exact (segTally_counts _ _ (hnan g)).ap_zero (hnew g hg') i t
  · unfold segNumbers Numbers.of
    simp only [List.map_map]
    refine average_diluted _ _ _ _ (List.nodup_dedup _) (List.nodup_dedup _) (fun g hg => ?_)
      (fun g hg hg' => ?_)
    · rw [mem_groupList] at hg ⊢
      refine ⟨hsub g hg, ?_⟩
      simp only [Function.comp_apply]
      rw [(hold g hg).1, (hold g hg).2]
    · rw [mem_groupList] at hg'
      exact ndcg_zero (hnew g hg')

/-- The global numbers of the segmentation-based evaluation, if only references are added. -/
theorem segNumbers_globals (h : AddsQueries grp refs more refs' hyps [] hyps')
    (hn : ∀ x ∈ hyps', x.score ≠ .nan) (i t : Bool) :
    (segNumbers grp i t refs' hyps').gAP * refs'.toFinset.card =
      (segNumbers grp i t refs hyps).gAP * refs.toFinset.card ∧
    (segNumbers grp i t refs' hyps').gNDCG * idealGain refs'.toFinset.card =
      (segNumbers grp i t refs hyps).gNDCG * idealGain refs.toFinset.card := by
  have hp : hyps'.Perm hyps := by simpa using h.allHyps
  have hno : ∀ x ∈ hyps', x.base ∉ more := fun x hx hm =>
    h.apart _ (mem_queriesOf_hyp (hp.mem_iff.1 hx)) _ (mem_queriesOf_ref hm) rfl
  have e1 : (segTally refs hyps').hits = (segTally refs' hyps').hits := by
    funext s
    unfold segTally
    simp only
    congr 1
    ext r
    simp only [Finset.mem_filter, List.mem_toFinset, h.allRefs]
    constructor
    · rintro ⟨a, b⟩; exact ⟨.inl a, b⟩
    · rintro ⟨a | a, x, b, rfl, c⟩
      · exact ⟨a, x, b, rfl, c⟩
      · exact absurd a (hno x b)
  have e2 : (segTally refs hyps').wrong = (segTally refs' hyps').wrong := by
    funext s
    unfold segTally
    simp only
    refine List.countP_congr fun x hx => ?_
    have := hno x hx
    simp [h.allRefs, this]
  have e3 : segTally refs hyps = segTally refs hyps' := segTally_congr _ _ _ _ (fun _ => Iff.rfl) hp.symm
  have e4 : descending (hyps.map (·.score)) = descending (hyps'.map (·.score)) :=
    descending_congr (fun s hs => by
      obtain ⟨x, hx, rfl⟩ := List.mem_map.1 hs
      exact hn x (hp.mem_iff.2 hx)) (fun s => (hp.symm.map _).mem_iff)
  unfold segNumbers Numbers.of
  simp only [e3, e4]
  exact ⟨(segTally_counts refs hyps' hn).ap_refs (segTally_counts refs' hyps' hn) e1 e2 i t,
    (segTally_counts refs hyps' hn).ndcg_refs (segTally_counts refs' hyps' hn) e1 e2⟩

end

/-! ## Lists of matches -/

section
variable {Q L : Type} [DecidableEq Q] [DecidableEq L] {grp : Q → Q} {P : Q → Bool} {ms : List (KwsMatch Q L)}

theorem eventOf_about (m : KwsMatch Q L) {e : Event Q L} (h : eventOf m = some e) (P : Q → Bool) :
    about P m = P e.query := by
  obtain ⟨r, x, err⟩ := m
  cases r <;> cases x <;> simp_all [eventOf, about, queryOf]

theorem mem_groupsIn (grp : Q → Q) (ms : List (KwsMatch Q L)) (g : Q) :
    g ∈ groupsIn grp ms ↔ ∃ m ∈ ms, ∃ e, eventOf m = some e ∧ grp e.query = g := by
  unfold groupsIn
  simp only [List.mem_dedup, List.mem_map, List.mem_filterMap]
  constructor
  · rintro ⟨e, ⟨m, hm, he⟩, hg⟩; exact ⟨m, hm, e, he, hg⟩
  · rintro ⟨m, hm, e, he, hg⟩; exact ⟨e, ⟨m, hm, he⟩, hg⟩

theorem inGroup_iff (grp : Q → Q) (g : Q) (m : KwsMatch Q L) :
    InGroup grp g m = true ↔ ∃ e, eventOf m = some e ∧ grp e.query = g := by
  unfold InGroup
  cases eventOf m <;> simp

theorem tallyOf_zero (h : ∀ m ∈ ms, IsHit m = false) (s : Flt) : (tallyOf ms).hits s = 0 := by
  refine List.countP_eq_zero.2 fun m hm hp => ?_
  have := h m hm
  obtain ⟨r, x, e⟩ := m
  cases r <;> cases x <;> simp_all [IsHit]

/-- The means of a list of matches, if the groups outside `P` have no hits. -/
theorem matchNumbers_means (hP : ∀ q q', grp q = grp q' → P q = P q')
    (hh : ∀ m ∈ ms, about P m = false → IsHit m = false) (hn : NoNaN ms) (i t : Bool) :
    (matchNumbers grp i t ms).mAP * (groupsIn grp ms).length =
      (matchNumbers grp i t (ms.filter (about P))).mAP * (groupsIn grp (ms.filter (about P))).length ∧
    (matchNumbers grp i t ms).mNDCG * (groupsIn grp ms).length =
      (matchNumbers grp i t (ms.filter (about P))).mNDCG * (groupsIn grp (ms.filter (about P))).length := by
  have hsub : ∀ g ∈ groupsIn grp (ms.filter (about P)), g ∈ groupsIn grp ms := by
    intro g hg
    obtain ⟨m, hm, e, he, hg⟩ := (mem_groupsIn _ _ _).1 hg
    exact (mem_groupsIn _ _ _).2 ⟨m, List.mem_of_mem_filter hm, e, he, hg⟩
  have hold : ∀ g ∈ groupsIn grp (ms.filter (about P)),
      ms.filter (InGroup grp g) = (ms.filter (about P)).filter (InGroup grp g) := by
    intro g hg
    obtain ⟨m, hm, e, he, rfl⟩ := (mem_groupsIn _ _ _).1 hg
    have hPe : P e.query = true := by
      rw [← eventOf_about m he P]
      exact (List.mem_filter.1 hm).2
    rw [List.filter_filter]
    refine List.filter_congr fun m' _ => ?_
    cases hgm : InGroup grp (grp e.query) m' with
    | false => rfl
    | true =>
      obtain ⟨e', he', hge⟩ := (inGroup_iff _ _ _).1 hgm
      rw [eventOf_about m' he', hP _ _ hge, hPe]
      rfl
  have hnew : ∀ g ∉ groupsIn grp (ms.filter (about P)), ∀ m ∈ ms.filter (InGroup grp g),
      IsHit m = false := by
    intro g hg m hm
    obtain ⟨h1, h2⟩ := List.mem_filter.1 hm
    refine hh m h1 ?_
    by_contra hab
    rw [Bool.not_eq_false] at hab
    obtain ⟨e, he, hge⟩ := (inGroup_iff _ _ _).1 h2
    exact hg ((mem_groupsIn _ _ _).2 ⟨m, List.mem_filter.2 ⟨h1, hab⟩, e, he, hge⟩)
  have hcount : ∀ g, CountsAt (tallyOf (ms.filter (InGroup grp g)))
      (descending (scoresIn (ms.filter (InGroup grp g)))) := fun g => by
    have : NoNaN (ms.filter (InGroup grp g)) := fun m hm => hn m (List.mem_of_mem_filter hm)
    exact tallyOf_counts _ this _ (scoresIn_thresholds _ this)
  constructor
  · unfold matchNumbers Numbers.of
    simp only [List.map_map]
    refine average_diluted _ _ _ _ (List.nodup_dedup _) (List.nodup_dedup _) (fun g hg => ⟨hsub g hg, ?_⟩)
      (fun g _ hg => (hcount g).ap_zero (tallyOf_zero (hnew g hg)) i t)
    simp only [Function.comp_apply]
    rw [hold g hg]
  · unfold matchNumbers Numbers.of
    simp only [List.map_map]
    refine average_diluted _ _ _ _ (List.nodup_dedup _) (List.nodup_dedup _) (fun g hg => ⟨hsub g hg, ?_⟩)
      (fun g _ hg => ndcg_zero (tallyOf_zero (hnew g hg)))
    simp only [Function.comp_apply]
    rw [hold g hg]

/-- The global numbers of a list of matches, if there are no hypotheses outside `P`. -/
theorem matchNumbers_globals (hh : ∀ m ∈ ms, about P m = false → m.hyp = none) (hn : NoNaN ms) (i t : Bool) :
    (matchNumbers grp i t ms).gAP * references ms =
      (matchNumbers grp i t (ms.filter (about P))).gAP * references (ms.filter (about P)) ∧
    (matchNumbers grp i t ms).gNDCG * idealGain (references ms) =
      (matchNumbers grp i t (ms.filter (about P))).gNDCG * idealGain (references (ms.filter (about P))) := by
  have key : ∀ p : KwsMatch Q L → Bool, (∀ m, p m = true → m.hyp ≠ none) →
      (ms.filter (about P)).countP p = ms.countP p := by
    intro p hp
    rw [List.countP_filter]
    refine List.countP_congr fun m hm => ?_
    rw [Bool.and_eq_true, and_iff_left_iff_imp]
    intro h
    by_contra hab
    rw [Bool.not_eq_true] at hab
    exact hp m h (hh m hm hab)
  have e1 : (tallyOf (ms.filter (about P))).hits = (tallyOf ms).hits := by
    funext s
    refine key _ fun m hm h => ?_
    simp [h] at hm
  have e2 : (tallyOf (ms.filter (about P))).wrong = (tallyOf ms).wrong := by
    funext s
    refine key _ fun m hm h => ?_
    simp [h] at hm
  have e3 : scoresIn (ms.filter (about P)) = scoresIn ms := by
    unfold scoresIn
    rw [List.filterMap_filter]
    refine List.filterMap_congr fun m hm => ?_
    split
    · rfl
    · rename_i h
      rw [hh m hm (by simpa using h)]
      rfl
  have hn' : NoNaN (ms.filter (about P)) := fun m hm => hn m (List.mem_of_mem_filter hm)
  have c1 := tallyOf_counts _ hn _ (scoresIn_thresholds _ hn)
  have c2 := tallyOf_counts _ hn' _ (scoresIn_thresholds _ hn')
  rw [e3] at c2
  unfold matchNumbers Numbers.of
  simp only [e3]
  exact ⟨c2.ap_refs c1 e1 e2 i t, c2.ndcg_refs c1 e1 e2⟩

end

end Kws
