import Verif.Lemmas.Dilution
import Verif.Spec.Pooling

/-! # Joint evaluations -/

set_option linter.unusedSectionVars false

namespace Kws
open Spec

/-- The sums over two separate sets of groups. -/
theorem average_pooled {Q α : Type} [DecidableEq Q] [Field α] [CharZero α] (gs₁ gs₂ gs : List Q) (f₁ f₂ f : Q → α)
    (hd₁ : gs₁.Nodup) (hd₂ : gs₂.Nodup) (hd : gs.Nodup) (hm : ∀ g, g ∈ gs ↔ g ∈ gs₁ ∨ g ∈ gs₂)
    (hx : ∀ g ∈ gs₁, g ∉ gs₂) (h₁ : ∀ g ∈ gs₁, f g = f₁ g) (h₂ : ∀ g ∈ gs₂, f g = f₂ g) :
    gs.length = gs₁.length + gs₂.length ∧
    average (gs.map f) * gs.length = average (gs₁.map f₁) * gs₁.length + average (gs₂.map f₂) * gs₂.length := by
  have hp : gs.Perm (gs₁ ++ gs₂) := by
    refine (List.perm_ext_iff_of_nodup hd ?_).2 fun g => by rw [hm, List.mem_append]
    exact List.Nodup.append hd₁ hd₂ fun g a b => hx g a b
  refine ⟨by rw [hp.length_eq, List.length_append], ?_⟩
  have e := average_mul (gs.map f)
  have e₁ := average_mul (gs₁.map f₁)
  have e₂ := average_mul (gs₂.map f₂)
  rw [List.length_map] at e e₁ e₂
  rw [e, e₁, e₂, (hp.map f).sum_eq, List.map_append, List.sum_append, List.map_congr_left h₁, List.map_congr_left h₂]

section
variable {Q L : Type} {grp : Q → Q} {refs more refs' : List (Event Q L)}
  {hyps others hyps' : List (ScoredEvent Q L)}

/-- The two sides can be exchanged. -/
theorem Spec.AddsQueries.symm (h : AddsQueries grp refs more refs' hyps others hyps') :
    AddsQueries grp more refs refs' others hyps hyps' :=
  ⟨fun r => by rw [h.allRefs, or_comm], h.allHyps.trans List.perm_append_comm,
    fun a ha b hb e => h.apart b hb a ha e.symm⟩

variable [DecidableEq Q] [DecidableEq L]

theorem Spec.AddsQueries.groupCount (h : AddsQueries grp refs more refs' hyps others hyps') :
    groupCount grp refs' hyps' = groupCount grp refs hyps + groupCount grp more others := by
  rw [groupCount_eq, groupCount_eq, groupCount_eq]
  refine (average_pooled (α := ℚ) _ _ _ (fun _ => 0) (fun _ => 0) (fun _ => 0) (List.nodup_dedup _)
    (List.nodup_dedup _) (List.nodup_dedup _) (fun g => ?_) (fun g h1 h2 => ?_) (fun _ _ => rfl)
    (fun _ _ => rfl)).1
  · rw [mem_groupList, mem_groupList, mem_groupList]
    constructor
    · rintro ⟨q, hq, e⟩
      rcases (h.mem_queries q).1 hq with hq | hq
      · exact .inl ⟨q, hq, e⟩
      · exact .inr ⟨q, hq, e⟩
    · rintro (⟨q, hq, e⟩ | ⟨q, hq, e⟩)
      · exact ⟨q, (h.mem_queries q).2 (.inl hq), e⟩
      · exact ⟨q, (h.mem_queries q).2 (.inr hq), e⟩
  · rw [mem_groupList] at h1 h2
    obtain ⟨q, hq, rfl⟩ := h1
    obtain ⟨q', hq', e⟩ := h2
    exact h.apart q hq q' hq' e.symm

/-- The means of the segmentation-based evaluation of both sides. -/
theorem segNumbers_pooled (h : AddsQueries grp refs more refs' hyps others hyps')
    (hn : ∀ x ∈ hyps', x.score ≠ .nan) (i t : Bool) :
    (segNumbers grp i t refs' hyps').mAP * groupCount grp refs' hyps' =
      (segNumbers grp i t refs hyps).mAP * groupCount grp refs hyps +
      (segNumbers grp i t more others).mAP * groupCount grp more others ∧
    (segNumbers grp i t refs' hyps').mNDCG * groupCount grp refs' hyps' =
      (segNumbers grp i t refs hyps).mNDCG * groupCount grp refs hyps +
      (segNumbers grp i t more others).mNDCG * groupCount grp more others := by
  have hold : ∀ {refs more : List (Event Q L)} {hyps others : List (ScoredEvent Q L)},
      AddsQueries grp refs more refs' hyps others hyps' → ∀ g, (∃ q ∈ queriesOf refs hyps, grp q = g) →
      segTally (refs'.filter (grp ·.query = g)) (hyps'.filter (grp ·.base.query = g)) =
        segTally (refs.filter (grp ·.query = g)) (hyps.filter (grp ·.base.query = g)) ∧
      descending ((hyps'.filter (grp ·.base.query = g)).map (·.score)) =
        descending ((hyps.filter (grp ·.base.query = g)).map (·.score)) := by
    intro refs more hyps others h g hg
    refine ⟨segTally_congr _ _ _ _ (h.old_refs hg) (h.old_hyps hg), ?_⟩
    refine descending_congr ?_ (fun s => ((h.old_hyps hg).map _).mem_iff)
    intro s hs
    obtain ⟨x, hx, rfl⟩ := List.mem_map.1 hs
    exact hn x (List.mem_of_mem_filter hx)
  have hm : ∀ g, g ∈ (refs'.map (grp ·.query) ++ hyps'.map (grp ·.base.query)).dedup ↔
      g ∈ (refs.map (grp ·.query) ++ hyps.map (grp ·.base.query)).dedup ∨
      g ∈ (more.map (grp ·.query) ++ others.map (grp ·.base.query)).dedup := by
    intro g
    rw [mem_groupList, mem_groupList, mem_groupList]
    constructor
    · rintro ⟨q, hq, e⟩
      rcases (h.mem_queries q).1 hq with hq | hq
      · exact .inl ⟨q, hq, e⟩
      · exact .inr ⟨q, hq, e⟩
    · rintro (⟨q, hq, e⟩ | ⟨q, hq, e⟩)
      · exact ⟨q, (h.mem_queries q).2 (.inl hq), e⟩
      · exact ⟨q, (h.mem_queries q).2 (.inr hq), e⟩
  have hx : ∀ g ∈ (refs.map (grp ·.query) ++ hyps.map (grp ·.base.query)).dedup,
      g ∉ (more.map (grp ·.query) ++ others.map (grp ·.base.query)).dedup := by
    intro g h1 h2
    rw [mem_groupList] at h1 h2
    obtain ⟨q, hq, rfl⟩ := h1
    obtain ⟨q', hq', e⟩ := h2
    exact h.apart q hq q' hq' e.symm
  rw [groupCount_eq, groupCount_eq, groupCount_eq]
  constructor
  all_goals
    unfold segNumbers Numbers.of
    simp only [List.map_map]
    refine (average_pooled _ _ _ _ _ _ (List.nodup_dedup _) (List.nodup_dedup _) (List.nodup_dedup _) hm hx
      (fun g hg => ?_) (fun g hg => ?_)).2
    · rw [mem_groupList] at hg
      simp only [Function.comp_apply]
      rw [(hold h g hg).1, (hold h g hg).2]
    · rw [mem_groupList] at hg
      simp only [Function.comp_apply]
      rw [(hold h.symm g hg).1, (hold h.symm g hg).2]

end

/-! ## Lists of matches -/

section
variable {Q L : Type} [DecidableEq Q] [DecidableEq L] {grp : Q → Q} {P : Q → Bool} {ms : List (KwsMatch Q L)}

/-- The means of a list of matches, from those about the queries with and without `P`. -/
theorem matchNumbers_pooled (hP : ∀ q q', grp q = grp q' → P q = P q') (i t : Bool) :
    (groupsIn grp ms).length = (groupsIn grp (ms.filter (about P))).length +
      (groupsIn grp (ms.filter (about (fun q => !P q)))).length ∧
    (matchNumbers grp i t ms).mAP * (groupsIn grp ms).length =
      (matchNumbers grp i t (ms.filter (about P))).mAP * (groupsIn grp (ms.filter (about P))).length +
      (matchNumbers grp i t (ms.filter (about (fun q => !P q)))).mAP *
        (groupsIn grp (ms.filter (about (fun q => !P q)))).length ∧
    (matchNumbers grp i t ms).mNDCG * (groupsIn grp ms).length =
      (matchNumbers grp i t (ms.filter (about P))).mNDCG * (groupsIn grp (ms.filter (about P))).length +
      (matchNumbers grp i t (ms.filter (about (fun q => !P q)))).mNDCG *
        (groupsIn grp (ms.filter (about (fun q => !P q)))).length := by
  have hold : ∀ P : Q → Bool, (∀ q q', grp q = grp q' → P q = P q') →
      ∀ g ∈ groupsIn grp (ms.filter (about P)),
      ms.filter (InGroup grp g) = (ms.filter (about P)).filter (InGroup grp g) := by
    intro P hP g hg
    obtain ⟨m, hm, e, he, rfl⟩ := (mem_groupsIn _ _ _).1 hg
    have hPe : P e.query = true := by
      rw [← eventOf_about m he P]
      exact (List.mem_filter.1 hm).2
    rw [List.filter_filter]
    refine List.filter_congr fun m' _ => ?_
    cases hgm : InGroup grp (grp e.query) m' with
    | false => rfl
    | true =>
      obtain ⟨e', he', hge⟩ := (inGroup_iff _ _ _).1 hgm
      rw [eventOf_about m' he', hP _ _ hge, hPe]
      rfl
  have hP' : ∀ q q', grp q = grp q' → (fun q => !P q) q = (fun q => !P q) q' := fun q q' e => by
    simp only [hP q q' e]
  have hm : ∀ g, g ∈ groupsIn grp ms ↔ g ∈ groupsIn grp (ms.filter (about P)) ∨
      g ∈ groupsIn grp (ms.filter (about (fun q => !P q))) := by
    intro g
    rw [mem_groupsIn, mem_groupsIn, mem_groupsIn]
    constructor
    · rintro ⟨m, hm, e, he, hg⟩
      cases hp : P e.query with
      | true => exact .inl ⟨m, List.mem_filter.2 ⟨hm, by rw [eventOf_about m he, hp]⟩, e, he, hg⟩
      | false => exact .inr ⟨m, List.mem_filter.2 ⟨hm, by rw [eventOf_about m he, hp]; rfl⟩, e, he, hg⟩
    · rintro (⟨m, hm, h⟩ | ⟨m, hm, h⟩)
      · exact ⟨m, List.mem_of_mem_filter hm, h⟩
      · exact ⟨m, List.mem_of_mem_filter hm, h⟩
  have hx : ∀ g ∈ groupsIn grp (ms.filter (about P)), g ∉ groupsIn grp (ms.filter (about (fun q => !P q))) := by
    intro g h1 h2
    obtain ⟨m, hm, e, he, rfl⟩ := (mem_groupsIn _ _ _).1 h1
    obtain ⟨m', hm', e', he', hg⟩ := (mem_groupsIn _ _ _).1 h2
    have a := (List.mem_filter.1 hm).2
    have b := (List.mem_filter.1 hm').2
    rw [eventOf_about m he] at a
    rw [eventOf_about m' he', hP _ _ hg, a] at b
    cases b
  have key : ∀ {α : Type} [Field α] [CharZero α] (F : List (KwsMatch Q L) → α), _ := fun {α} _ _ F =>
    average_pooled (α := α) _ _ _ (fun g => F ((ms.filter (about P)).filter (InGroup grp g)))
      (fun g => F ((ms.filter (about (fun q => !P q))).filter (InGroup grp g)))
      (fun g => F (ms.filter (InGroup grp g))) (List.nodup_dedup _) (List.nodup_dedup _) (List.nodup_dedup _)
      hm hx (fun g hg => by rw [hold P hP g hg]) (fun g hg => by rw [hold _ hP' g hg])
  refine ⟨(key (α := ℚ) (fun _ => 0)).1, ?_, ?_⟩
  · unfold matchNumbers Numbers.of
    simp only [List.map_map]
    exact (key (fun l => (tallyOf l).ap i t (descending (scoresIn l)))).2
  · unfold matchNumbers Numbers.of
    simp only [List.map_map]
    exact (key (fun l => (tallyOf l).ndcg (descending (scoresIn l)))).2

end

end Kws
