import Verif.Lemmas.Sets
import Verif.Spec.Matching
import Verif.Model.Matcher

set_option linter.unusedSectionVars false

namespace Kws
open Spec

section
variable {σ RE HE : Type} [Cmp RE] [LawfulCmp RE]

/-! ## Facts that need no assumption besides a normal return -/

theorem tryRefs_cases (scorer : RE → HE → Cpp MatchError) (hyp : HE) (unm os : List RE)
    (matched : Bool) (u : List RE) (res : Option (Match RE HE)) (rep : List (Match RE HE))
    (h : SimpleMatcher.tryRefs scorer hyp unm os = .ok (matched, u, res, rep)) :
    (res = none ∧ u = unm) ∨
    (∃ r e, scorer r hyp = .ok e ∧ e.fp < 1 ∧ r ∈ unm ∧ u = (StdSet.erase Cmp.lt r unm).1 ∧
      res = some (Match.make r hyp e) ∧ matched = true) := by
  induction os generalizing matched u res rep with
  | nil =>
    simp only [SimpleMatcher.tryRefs, pure, Except.pure, Except.ok.injEq, Prod.mk.injEq] at h
    exact Or.inl ⟨h.2.2.1.symm, h.2.1.symm⟩
  | cons r os ih =>
    unfold SimpleMatcher.tryRefs at h
    cases hs : scorer r hyp with
    | error f => rw [hs] at h; simp [bind, Except.bind] at h
    | ok e =>
      rw [hs] at h
      simp only [bind, Except.bind] at h
      by_cases hfp : e.fp < 1
      · rw [if_pos hfp] at h
        by_cases hm : (StdSet.find? Cmp.lt r unm).isSome = true
        · rw [if_pos hm] at h
          simp only [pure, Except.pure, Except.ok.injEq, Prod.mk.injEq] at h
          exact Or.inr ⟨r, e, hs, hfp, (StdSet.find?_isSome r unm).1 hm, h.2.1.symm,
            h.2.2.1.symm, h.1.symm⟩
        · rw [if_neg hm] at h
          cases ht : SimpleMatcher.tryRefs scorer hyp unm os with
          | error f => rw [ht] at h; simp at h
          | ok t =>
            obtain ⟨m', u', res', rep'⟩ := t
            rw [ht] at h
            simp only [pure, Except.pure, Except.ok.injEq, Prod.mk.injEq] at h
            obtain ⟨h1, h2, h3, h4⟩ := h
            subst h1; subst h2; subst h3
            rcases ih m' u' res' rep' ht with h | ⟨r', e', a, b, c, d, f, _⟩
            · exact Or.inl h
            · exact Or.inr ⟨r', e', a, b, c, d, f, rfl⟩
      · rw [if_neg hfp] at h
        exact ih matched u res rep h

theorem perm_erase_cons {r : RE} {l : List RE} (h : r ∈ l) :
    (r :: (StdSet.erase Cmp.lt r l).1).Perm l := by
  classical
  rw [StdSet.erase_eq]
  exact (List.perm_cons_erase h).symm

/-- What a normal return of the loop guarantees. -/
theorem loop_facts (ix : RefIndex σ RE HE) (scorer : RE → HE → Cpp MatchError) (s : σ)
    (unm : List RE) (hyps : List HE) (u : List RE) (res rep : List (Match RE HE))
    (hsorted : Sorted unm)
    (h : SimpleMatcher.loop ix scorer s unm hyps = .ok (u, res, rep)) :
    Sorted u ∧
    (res.filterMap (·.ref) ++ u).Perm unm ∧
    (∃ hs : List HE, hs.Sublist hyps ∧ res.map (·.hyp) = hs.map some) ∧
    (∀ m ∈ res, (∃ hyp, m = Match.makeFalsePositive hyp) ∨
      ∃ r hyp e, m = Match.make r hyp e ∧ scorer r hyp = .ok e ∧ e.fp < 1) := by
  induction hyps generalizing unm u res rep with
  | nil =>
    simp only [SimpleMatcher.loop, pure, Except.pure, Except.ok.injEq, Prod.mk.injEq] at h
    obtain ⟨rfl, rfl, rfl⟩ := h
    exact ⟨hsorted, by simp, ⟨[], by simp, rfl⟩, by simp⟩
  | cons hyp hyps ih =>
    unfold SimpleMatcher.loop at h
    cases ho : ix.findOverlapping s hyp with
    | error f => rw [ho] at h; simp [bind, Except.bind] at h
    | ok os =>
      rw [ho] at h
      simp only [bind, Except.bind] at h
      cases ht : SimpleMatcher.tryRefs scorer hyp unm os with
      | error f => rw [ht] at h; simp at h
      | ok t =>
        obtain ⟨matched, u1, res1, rep1⟩ := t
        rw [ht] at h
        simp only at h
        cases hl : SimpleMatcher.loop ix scorer s u1 hyps with
        | error f => rw [hl] at h; simp at h
        | ok t =>
          obtain ⟨u2, res2, rep2⟩ := t
          rw [hl] at h
          simp only [pure, Except.pure, Except.ok.injEq, Prod.mk.injEq] at h
          obtain ⟨rfl, rfl, rfl⟩ := h
          rcases tryRefs_cases scorer hyp unm os matched u1 res1 rep1 ht with
            ⟨rfl, rfl⟩ | ⟨r, e, hsc, hfp, hmem, rfl, rfl, rfl⟩
          · obtain ⟨h1, h2, ⟨hs, h3, h4⟩, h5⟩ := ih u1 u2 res2 rep2 hsorted hl
            cases matched with
            | true =>
              exact ⟨h1, by simpa using h2, ⟨hs, h3.cons _, by simpa using h4⟩, by simpa using h5⟩
            | false =>
              refine ⟨h1, by simpa [Match.makeFalsePositive] using h2,
                ⟨hyp :: hs, h3.cons_cons _, by simpa [Match.makeFalsePositive] using h4⟩, ?_⟩
              intro m hm
              simp only [Option.toList_none, List.nil_append, Bool.false_eq_true, if_false,
                List.cons_append, List.mem_cons] at hm
              rcases hm with rfl | hm
              · exact Or.inl ⟨hyp, rfl⟩
              · exact h5 m hm
          · obtain ⟨h1, h2, ⟨hs, h3, h4⟩, h5⟩ := ih _ u2 res2 rep2 (StdSet.sorted_erase r _ hsorted) hl
            refine ⟨h1, ?_, ⟨hyp :: hs, h3.cons_cons _, by simpa [Match.make] using h4⟩, ?_⟩
            · have : (r :: (res2.filterMap (·.ref) ++ u2)).Perm unm :=
                (List.Perm.cons r h2).trans (perm_erase_cons hmem)
              simpa [Match.make] using this
            · intro m hm
              simp only [Option.toList_some, if_true, List.append_nil, List.cons_append,
                List.nil_append, List.mem_cons] at hm
              rcases hm with rfl | hm
              · exact Or.inr ⟨r, hyp, e, rfl, hsc, hfp⟩
              · exact h5 m hm

theorem run_facts (ix : RefIndex σ RE HE) (scorer : RE → HE → Cpp MatchError) (s s' : σ)
    (refs : List RE) (hyps : List HE) (result rep : List (Match RE HE))
    (h : SimpleMatcher.run ix scorer s refs hyps = .ok (s', result, rep)) :
    ∃ hits fns, result = hits ++ fns.map Match.makeFalseNegative ∧
      Sorted fns ∧ (hits.filterMap (·.ref) ++ fns).Perm (StdSet.ofList Cmp.lt refs) ∧
      (∃ hs : List HE, hs.Sublist hyps ∧ hits.map (·.hyp) = hs.map some) ∧
      (∀ m ∈ hits, (∃ hyp, m = Match.makeFalsePositive hyp) ∨
        ∃ r hyp e, m = Match.make r hyp e ∧ scorer r hyp = .ok e ∧ e.fp < 1) := by
  unfold SimpleMatcher.run at h
  simp only [bind, Except.bind] at h
  cases hl : SimpleMatcher.loop ix scorer (refs.foldl ix.insert (ix.clear s))
      (StdSet.ofList Cmp.lt refs) hyps with
  | error f => rw [hl] at h; simp at h
  | ok t =>
    obtain ⟨u, res, rep'⟩ := t
    rw [hl] at h
    simp only [pure, Except.pure, Except.ok.injEq, Prod.mk.injEq] at h
    obtain ⟨h1, h2, h3, h4⟩ := loop_facts ix scorer _ _ hyps u res rep' (StdSet.ofList_sorted refs) hl
    exact ⟨res, u, h.2.1.symm, h1, h2, h3, h4⟩

/-! ## The exact behaviour when searches and scores succeed -/

/-- Behaviour of the search for a free accepted reference. -/
theorem tryRefs_spec (scorer : RE → HE → Cpp MatchError) (score : RE → HE → MatchError) (hyp : HE)
    (refs : List RE) (earlier : List (Match RE HE)) (unm os : List RE)
    (hunm : ∀ r, r ∈ unm ↔ r ∈ refs ∧ ¬ Taken earlier r)
    (hos : ∀ r ∈ os, r ∈ refs) (hsc : ∀ r ∈ os, scorer r hyp = .ok (score r hyp)) :
    ∃ matched u res rep, SimpleMatcher.tryRefs scorer hyp unm os = .ok (matched, u, res, rep) ∧
      Deserves earlier os (fun r => score r hyp) hyp
        (res.toList ++ if matched then [] else [Match.makeFalsePositive hyp]) ∧
      DeservesRepeated earlier os (fun r => score r hyp) hyp rep ∧
      (res = none → u = unm) ∧
      (∀ m, res = some m → ∃ r, m = Match.make r hyp (score r hyp) ∧
        u = (StdSet.erase Cmp.lt r unm).1) := by
  induction os with
  | nil =>
    refine ⟨false, unm, none, [], rfl, Or.inl ⟨by simp, rfl⟩, ⟨[], [], rfl, by simp, by simp, rfl⟩,
      by simp, by simp⟩
  | cons r os ih =>
    have hr := hsc r List.mem_cons_self
    obtain ⟨matched, u, res, rep, h1, h2, h3, h4, h5⟩ := ih
      (fun r' hr' => hos r' (List.mem_cons_of_mem _ hr'))
      (fun r' hr' => hsc r' (List.mem_cons_of_mem _ hr'))
    unfold SimpleMatcher.tryRefs
    rw [hr]
    simp only [bind, Except.bind]
    by_cases hfp : (score r hyp).fp < 1
    · rw [if_pos hfp]
      by_cases hm : (StdSet.find? Cmp.lt r unm).isSome = true
      · rw [if_pos hm]
        have hfree := ((hunm r).1 ((StdSet.find?_isSome r unm).1 hm)).2
        refine ⟨_, _, _, _, rfl, Or.inr (Or.inl ⟨[], r, os, rfl, hfp, hfree, by simp, rfl⟩),
          ⟨[], r :: os, rfl, by simp, ?_, rfl⟩, by simp, ?_⟩
        · intro r' hr'
          simp only [List.head?_cons, Option.some.injEq] at hr'
          subst hr'
          exact ⟨hfp, hfree⟩
        · intro m hm'
          simp only [Option.some.injEq] at hm'
          exact ⟨r, hm'.symm, rfl⟩
      · rw [if_neg hm, h1]
        have htaken : Taken earlier r := by
          by_contra hc
          exact hm ((StdSet.find?_isSome r unm).2 ((hunm r).2 ⟨hos r List.mem_cons_self, hc⟩))
        refine ⟨_, _, _, _, rfl, ?_, ?_, h4, h5⟩
        · rw [if_pos rfl, List.append_nil]
          rcases h2 with ⟨ha, hb⟩ | ⟨l1, r', l2, ha, hb, hc, hd, he⟩ | ⟨ha, hb, hc⟩
          · refine Or.inr (Or.inr ⟨⟨r, List.mem_cons_self, hfp⟩, ?_, ?_⟩)
            · intro r' hr' hr''
              rcases List.mem_cons.1 hr' with rfl | hr'
              · exact htaken
              · exact absurd hr'' (not_lt.2 (ha r' hr'))
            · cases res with
              | none => rfl
              | some m =>
                obtain ⟨r', rfl, _⟩ := h5 m rfl
                simp [Match.make] at hb
          · have hres : res.toList = [⟨some r', some hyp, score r' hyp⟩] := by
              cases res with
              | none =>
                cases matched <;> simp [Match.makeFalsePositive] at he
              | some m =>
                cases matched with
                | true => simpa using he
                | false => simp at he
            refine Or.inr (Or.inl ⟨r :: l1, r', l2, by rw [ha]; rfl, hb, hc, ?_, hres⟩)
            intro r'' hr'' hlt
            rcases List.mem_cons.1 hr'' with rfl | hr''
            · exact htaken
            · exact hd r'' hr'' hlt
          · refine Or.inr (Or.inr ⟨⟨r, List.mem_cons_self, hfp⟩, ?_, ?_⟩)
            · intro r' hr' hlt
              rcases List.mem_cons.1 hr' with rfl | hr'
              · exact htaken
              · exact hb r' hr' hlt
            · rw [List.append_eq_nil_iff] at hc
              exact hc.1
        · obtain ⟨l1, l2, ha, hb, hc, hd⟩ := h3
          refine ⟨r :: l1, l2, by rw [ha]; rfl, ?_, hc, ?_⟩
          · intro r' hr' hlt
            rcases List.mem_cons.1 hr' with rfl | hr'
            · exact htaken
            · exact hb r' hr' hlt
          · rw [hd, List.filter_cons, if_pos (by simpa using hfp)]
            rfl
    · rw [if_neg hfp, h1]
      refine ⟨_, _, _, _, rfl, ?_, ?_, h4, h5⟩
      · rcases h2 with ⟨ha, hb⟩ | ⟨l1, r', l2, ha, hb, hc, hd, he⟩ | ⟨ha, hb, hc⟩
        · refine Or.inl ⟨?_, hb⟩
          intro r' hr'
          rcases List.mem_cons.1 hr' with rfl | hr'
          · exact not_lt.1 hfp
          · exact ha r' hr'
        · refine Or.inr (Or.inl ⟨r :: l1, r', l2, by rw [ha]; rfl, hb, hc, ?_, he⟩)
          intro r'' hr'' hlt
          rcases List.mem_cons.1 hr'' with rfl | hr''
          · exact absurd hlt hfp
          · exact hd r'' hr'' hlt
        · obtain ⟨r', hr', hlt⟩ := ha
          refine Or.inr (Or.inr ⟨⟨r', List.mem_cons_of_mem _ hr', hlt⟩, ?_, hc⟩)
          intro r'' hr'' hlt'
          rcases List.mem_cons.1 hr'' with rfl | hr''
          · exact absurd hlt' hfp
          · exact hb r'' hr'' hlt'
      · obtain ⟨l1, l2, ha, hb, hc, hd⟩ := h3
        refine ⟨r :: l1, l2, by rw [ha]; rfl, ?_, hc, ?_⟩
        · intro r' hr' hlt
          rcases List.mem_cons.1 hr' with rfl | hr'
          · exact absurd hlt hfp
          · exact hb r' hr' hlt
        · rw [hd, List.filter_cons, if_neg (by simpa using hfp)]

theorem taken_append (a b : List (Match RE HE)) (r : RE) :
    Taken (a ++ b) r ↔ Taken a r ∨ Taken b r := by
  unfold Taken
  constructor
  · rintro ⟨m, hm, h⟩
    rcases List.mem_append.1 hm with hm | hm
    · exact Or.inl ⟨m, hm, h⟩
    · exact Or.inr ⟨m, hm, h⟩
  · rintro (⟨m, hm, h⟩ | ⟨m, hm, h⟩)
    · exact ⟨m, List.mem_append_left _ hm, h⟩
    · exact ⟨m, List.mem_append_right _ hm, h⟩

theorem loop_spec (ix : RefIndex σ RE HE) (scorer : RE → HE → Cpp MatchError) (s : σ)
    (overl : HE → List RE) (score : RE → HE → MatchError) (refs : List RE) (hyps : List HE)
    (hov : ∀ h ∈ hyps, ix.findOverlapping s h = .ok (overl h))
    (hsub : ∀ h ∈ hyps, ∀ r ∈ overl h, r ∈ refs)
    (hsc : ∀ h ∈ hyps, ∀ r ∈ overl h, scorer r h = .ok (score r h))
    (earlier : List (Match RE HE)) (unm : List RE) (hsorted : Sorted unm)
    (hunm : ∀ r, r ∈ unm ↔ r ∈ refs ∧ ¬ Taken earlier r) :
    ∃ u res rep, SimpleMatcher.loop ix scorer s unm hyps = .ok (u, res, rep) ∧
      Greedy overl score earlier hyps res rep ∧ Sorted u ∧
      (∀ r, r ∈ u ↔ r ∈ refs ∧ ¬ Taken (earlier ++ res) r) := by
  induction hyps generalizing earlier unm with
  | nil => exact ⟨unm, [], [], rfl, Greedy.nil _, hsorted, by simpa using hunm⟩
  | cons hyp hyps ih =>
    obtain ⟨matched, u1, res1, rep1, h1, h2, h3, h4, h5⟩ := tryRefs_spec scorer score hyp refs
      earlier unm (overl hyp) hunm (hsub hyp List.mem_cons_self) (hsc hyp List.mem_cons_self)
    set entry := res1.toList ++ if matched then [] else [Match.makeFalsePositive hyp] with hentry
    have hu1 : Sorted u1 ∧ ∀ r, r ∈ u1 ↔ r ∈ refs ∧ ¬ Taken (earlier ++ entry) r := by
      cases hres : res1 with
      | none =>
        rw [h4 hres]
        refine ⟨hsorted, fun r => ?_⟩
        rw [hunm, taken_append]
        have : ¬ Taken entry r := by
          rintro ⟨m, hm, hr⟩
          rw [hentry, hres] at hm
          cases matched with
          | true => simp at hm
          | false =>
            simp only [Option.toList_none, List.nil_append, Bool.false_eq_true, if_false,
              List.mem_singleton] at hm
            subst hm
            simp [Match.makeFalsePositive] at hr
        tauto
      | some m =>
        obtain ⟨r', rfl, hu⟩ := h5 m hres
        rw [hu]
        refine ⟨StdSet.sorted_erase r' _ hsorted, fun r => ?_⟩
        rw [StdSet.mem_erase _ _ _ hsorted, hunm, taken_append]
        have : Taken entry r ↔ r = r' := by
          unfold Taken
          rw [hentry, hres]
          constructor
          · rintro ⟨m, hm, hr⟩
            rcases List.mem_append.1 hm with hm | hm
            · simp only [Option.toList_some, List.mem_singleton] at hm
              subst hm
              simpa [Match.make] using hr.symm
            · cases matched with
              | true => simp at hm
              | false =>
                simp only [Bool.false_eq_true, if_false, List.mem_singleton] at hm
                subst hm
                simp [Match.makeFalsePositive] at hr
          · rintro rfl
            exact ⟨Match.make r hyp (score r hyp), by simp, rfl⟩
        tauto
    obtain ⟨u, res, rep, g1, g2, g3, g4⟩ := ih
      (fun h hh => hov h (List.mem_cons_of_mem _ hh))
      (fun h hh => hsub h (List.mem_cons_of_mem _ hh))
      (fun h hh => hsc h (List.mem_cons_of_mem _ hh)) (earlier ++ entry) u1 hu1.1 hu1.2
    refine ⟨u, entry ++ res, rep1 ++ rep, ?_, Greedy.cons _ _ _ _ _ _ _ h2 h3 g2, g3, ?_⟩
    · unfold SimpleMatcher.loop
      rw [hov hyp List.mem_cons_self]
      simp only [bind, Except.bind, h1, g1, pure, Except.pure, hentry]
    · intro r
      rw [g4, List.append_assoc]

/-- The whole run: greedy entries, then the references that were not taken. -/
theorem run_spec (ix : RefIndex σ RE HE) (scorer : RE → HE → Cpp MatchError) (s : σ)
    (overl : HE → List RE) (score : RE → HE → MatchError) (refs : List RE) (hyps : List HE)
    (hov : ∀ h ∈ hyps, ix.findOverlapping (refs.foldl ix.insert (ix.clear s)) h = .ok (overl h))
    (hsub : ∀ h ∈ hyps, ∀ r ∈ overl h, r ∈ refs)
    (hsc : ∀ h ∈ hyps, ∀ r ∈ overl h, scorer r h = .ok (score r h)) :
    ∃ entries missed rep,
      SimpleMatcher.run ix scorer s refs hyps = .ok (refs.foldl ix.insert (ix.clear s),
        entries ++ missed.map Match.makeFalseNegative, rep) ∧
      Greedy overl score [] hyps entries rep ∧ Sorted missed ∧
      (∀ r, r ∈ missed ↔ r ∈ refs ∧ ¬ Taken entries r) := by
  obtain ⟨u, res, rep, h1, h2, h3, h4⟩ := loop_spec ix scorer (refs.foldl ix.insert (ix.clear s))
    overl score refs hyps hov hsub hsc [] (StdSet.ofList Cmp.lt refs) (StdSet.ofList_sorted refs)
    (fun r => by rw [StdSet.mem_ofList]; simp [Taken])
  refine ⟨res, u, rep, ?_, h2, h3, by simpa using h4⟩
  unfold SimpleMatcher.run
  simp only [bind, Except.bind, h1, pure, Except.pure]

/-! ## Consequences of being greedy -/

theorem Spec.Greedy.split {overl : HE → List RE} {score : RE → HE → MatchError}
    {earlier : List (Match RE HE)} {pre post : List HE} {entries rep : List (Match RE HE)}
    (h : Greedy overl score earlier (pre ++ post) entries rep) :
    ∃ e1 e2 r1 r2, entries = e1 ++ e2 ∧ rep = r1 ++ r2 ∧ Greedy overl score earlier pre e1 r1 ∧
      Greedy overl score (earlier ++ e1) post e2 r2 := by
  induction pre generalizing earlier entries rep with
  | nil => exact ⟨[], entries, [], rep, rfl, rfl, Greedy.nil _, by simpa using h⟩
  | cons x pre ih =>
    cases h with
    | cons _ _ _ entry repeats entries' repeated' h1 h2 h3 =>
      obtain ⟨e1, e2, r1, r2, rfl, rfl, g1, g2⟩ := ih h3
      refine ⟨entry ++ e1, e2, repeats ++ r1, r2, by simp, by simp,
        Greedy.cons _ _ _ _ _ _ _ h1 h2 g1, ?_⟩
      rwa [← List.append_assoc]

theorem deserves_unique {earlier : List (Match RE HE)} {os : List RE} {score : RE → MatchError}
    {h : HE} {a b : List (Match RE HE)} (ha : Deserves earlier os score h a)
    (hb : Deserves earlier os score h b) : a = b := by
  have first : ∀ (l1 l1' : List RE) (r r' : RE) (l2 l2' : List RE),
      l1 ++ r :: l2 = l1' ++ r' :: l2' → (score r).fp < 1 → (score r').fp < 1 →
      ¬ Taken earlier r → ¬ Taken earlier r' →
      (∀ x ∈ l1, (score x).fp < 1 → Taken earlier x) →
      (∀ x ∈ l1', (score x).fp < 1 → Taken earlier x) → r = r' := by
    intro l1
    induction l1 with
    | nil =>
      intro l1' r r' l2 l2' he hr hr' hf hf' _ h2
      cases l1' with
      | nil => simp at he; exact he.1
      | cons x l1' =>
        simp at he
        obtain ⟨rfl, _⟩ := he
        exact absurd (h2 r List.mem_cons_self hr) hf
    | cons y l1 ih =>
      intro l1' r r' l2 l2' he hr hr' hf hf' h1 h2
      cases l1' with
      | nil =>
        simp at he
        obtain ⟨rfl, _⟩ := he
        exact absurd (h1 y List.mem_cons_self hr') hf'
      | cons x l1' =>
        simp at he
        exact ih l1' r r' l2 l2' he.2 hr hr' hf hf' (fun z hz => h1 z (List.mem_cons_of_mem _ hz))
          (fun z hz => h2 z (List.mem_cons_of_mem _ hz))
  rcases ha with ⟨a1, a2⟩ | ⟨l1, r, l2, a1, a2, a3, a4, a5⟩ | ⟨⟨r, a0, a1⟩, a2, a3⟩ <;>
  rcases hb with ⟨b1, b2⟩ | ⟨l1', r', l2', b1, b2, b3, b4, b5⟩ | ⟨⟨r', b0, b1⟩, b2, b3⟩
  · rw [a2, b2]
  · exact absurd b2 (not_lt.2 (a1 r' (by rw [b1]; simp)))
  · exact absurd b1 (not_lt.2 (a1 r' b0))
  · exact absurd a2 (not_lt.2 (b1 r (by rw [a1]; simp)))
  · have := first l1 l1' r r' l2 l2' (a1.symm.trans b1) a2 b2 a3 b3 a4 b4
    rw [a5, b5, this]
  · exact absurd (b2 r (by rw [a1]; simp) a2) a3
  · exact absurd a1 (not_lt.2 (b1 r a0))
  · exact absurd (a2 r' (by rw [b1]; simp) b2) b3
  · rw [a3, b3]

theorem deservesRepeated_unique {earlier : List (Match RE HE)} {os : List RE}
    {score : RE → MatchError} {h : HE} {a b : List (Match RE HE)}
    (ha : DeservesRepeated earlier os score h a) (hb : DeservesRepeated earlier os score h b) :
    a = b := by
  obtain ⟨l1, l2, a1, a2, a3, a4⟩ := ha
  obtain ⟨k1, k2, b1, b2, b3, b4⟩ := hb
  have : l1 = k1 := by
    subst a1
    clear a4 b4
    induction l1 generalizing k1 with
    | nil =>
      cases k1 with
      | nil => rfl
      | cons x k1 =>
        simp at b1
        have := a3 x (by rw [b1]; rfl)
        exact absurd (b2 x List.mem_cons_self this.1) this.2
    | cons y l1 ih =>
      cases k1 with
      | nil =>
        simp at b1
        have := b3 y (by rw [← b1]; rfl)
        exact absurd (a2 y List.mem_cons_self this.1) this.2
      | cons x k1 =>
        simp at b1
        obtain ⟨rfl, b1⟩ := b1
        rw [ih (fun z hz => a2 z (List.mem_cons_of_mem _ hz)) k1
          (fun z hz => b2 z (List.mem_cons_of_mem _ hz)) b1]
  rw [a4, b4, this]

/-- The specification determines entries and repeated matches. -/
theorem Spec.Greedy.unique {overl : HE → List RE} {score : RE → HE → MatchError}
    {earlier : List (Match RE HE)} {hyps : List HE} {e e' r r' : List (Match RE HE)}
    (h : Greedy overl score earlier hyps e r) (h' : Greedy overl score earlier hyps e' r') :
    e = e' ∧ r = r' := by
  induction hyps generalizing earlier e e' r r' with
  | nil => cases h; cases h'; exact ⟨rfl, rfl⟩
  | cons x hyps ih =>
    cases h with
    | cons _ _ _ en re en2 re2 h1 h2 h3 =>
      cases h' with
      | cons _ _ _ en' re' en2' re2' h1' h2' h3' =>
        have := deserves_unique h1 h1'
        subst this
        have := deservesRepeated_unique h2 h2'
        subst this
        obtain ⟨rfl, rfl⟩ := ih h3 h3'
        exact ⟨rfl, rfl⟩

theorem deserves_shape {earlier : List (Match RE HE)} {os : List RE} {score : RE → MatchError}
    {h : HE} {entry : List (Match RE HE)} (hd : Deserves earlier os score h entry) :
    ∀ m ∈ entry, m.hyp = some h := by
  rcases hd with ⟨_, rfl⟩ | ⟨_, _, _, _, _, _, _, rfl⟩ | ⟨_, _, rfl⟩ <;> simp

theorem Spec.Greedy.hyp_mem {overl : HE → List RE} {score : RE → HE → MatchError}
    {earlier : List (Match RE HE)} {hyps : List HE} {e r : List (Match RE HE)}
    (h : Greedy overl score earlier hyps e r) : ∀ m ∈ e, ∃ x ∈ hyps, m.hyp = some x := by
  induction h with
  | nil => simp
  | cons _ x _ en _ _ _ h1 _ _ ih =>
    intro m hm
    rcases List.mem_append.1 hm with hm | hm
    · exact ⟨x, List.mem_cons_self, deserves_shape h1 m hm⟩
    · obtain ⟨y, hy, hy'⟩ := ih m hm
      exact ⟨y, List.mem_cons_of_mem _ hy, hy'⟩

open Classical in
/-- The false positives are the hypotheses without accepted overlapping reference, in order. -/
theorem Spec.Greedy.falsePositives {overl : HE → List RE} {score : RE → HE → MatchError}
    {earlier : List (Match RE HE)} {hyps : List HE} {e r : List (Match RE HE)}
    (h : Greedy overl score earlier hyps e r) :
    e.filter (fun m => m.ref = none) =
      (hyps.filter (fun h => ∀ r ∈ overl h, 1 ≤ (score r h).fp)).map
        (fun h => ⟨none, some h, ⟨1, 0⟩⟩) := by
  induction h with
  | nil => simp
  | cons _ x _ en _ _ _ h1 _ _ ih =>
    rw [List.filter_append, ih, List.filter_cons]
    rcases h1 with ⟨a, rfl⟩ | ⟨l1, r', l2, a, b, _, _, rfl⟩ | ⟨⟨r', a, b⟩, _, rfl⟩
    · have : (∀ r ∈ overl x, 1 ≤ (score r x).fp) := a
      rw [if_pos (by simpa using this)]
      simp
    · have : ¬ (∀ r ∈ overl x, 1 ≤ (score r x).fp) := fun h' =>
        absurd b (not_lt.2 (h' r' (by rw [a]; simp)))
      rw [if_neg (by simpa using this)]
      simp
    · have : ¬ (∀ r ∈ overl x, 1 ≤ (score r x).fp) := fun h' => absurd b (not_lt.2 (h' r' a))
      rw [if_neg (by simpa using this)]
      simp

end

end Kws

/-! ## The two index classes -/

namespace Kws
open Spec

section
variable {Q L : Type} [Cmp Q] [LawfulCmp Q] [Cmp L] [LawfulCmp L]

theorem plain_foldl_insert (refs : List (Event Q L)) (s : EventSet (Event Q L)) :
    (refs.foldl (plainIndex Q L).insert ((plainIndex Q L).clear s)).events =
      StdSet.ofList Cmp.lt refs := by
  have h : ∀ (l : List (Event Q L)) (s : EventSet (Event Q L)),
      (l.foldl EventSet.insert s).events =
        l.foldl (fun s x => (StdSet.insert Cmp.lt x s).1) s.events := by
    intro l
    induction l with
    | nil => intro s; rfl
    | cons x l ih => intro s; exact ih _
  exact h refs _

theorem plain_find [DecidableEq (Event Q L)] (refs : List (Event Q L)) (s : EventSet (Event Q L))
    (h : ScoredEvent Q L) :
    (plainIndex Q L).findOverlapping
      (refs.foldl (plainIndex Q L).insert ((plainIndex Q L).clear s)) h =
      .ok (if h.base ∈ refs then [h.base] else []) := by
  change Except.ok _ = _
  congr 1
  unfold EventSet.findOverlapping
  rw [plain_foldl_insert, StdSet.find?_eq]
  simp only [StdSet.mem_ofList]
  split <;> rename_i h' <;> split at h' <;> simp_all

end

section
variable {Q D T : Type} [DecidableEq Q] [DecidableEq D] [Cmp Q] [LawfulCmp Q]
  [Cmp D] [LawfulCmp D] [Coord T] [LawfulCmp T]

theorem doc_foldl_holds (S : StdSort) (refs : List (Event Q (DocBox D T)))
    (s : DocEventSet Q D T) :
    (refs.foldl (docIndex S Q D T).insert ((docIndex S Q D T).clear s)).Holds (· ∈ refs) :=
  DocEventSet.holds_congr
    (DocEventSet.foldl_insert_holds refs _ _ (DocEventSet.holds_empty (some 0))) (by simp)

/-- The search depends only on the contents, not on the sorting algorithm. -/
theorem DocEventSet.find_congr (S S' : StdSort) (s s' : DocEventSet Q D T)
    (P : Event Q (DocBox D T) → Prop) (hs : s.Holds P) (hs' : s'.Holds P)
    (e : Event Q (DocBox D T)) : s.findOverlapping S e = s'.findOverlapping S' e := by
  have hb : s.bucket e.query e.location.document = s'.bucket e.query e.location.document :=
    StdSet.sorted_ext (hs _ _).1 (hs' _ _).1 (fun x => by rw [(hs _ _).2, (hs' _ _).2])
  have hdef : ∀ (S : StdSort) (s : DocEventSet Q D T), s.findOverlapping S e = (do
      let aux ← DocEventSet.collect e (s.bucket e.query e.location.document)
      let sorted ← S.sort (fun a b => DocEventSet.pairLt b a) aux
      return sorted.map (·.2)) := by
    intro S s
    unfold DocEventSet.findOverlapping DocEventSet.bucket
    cases AMap.find? e.query s.byQuery with
    | none => rfl
    | some p =>
      simp only [Option.bind_some]
      cases AMap.find? e.location.document p <;> rfl
  rw [hdef, hdef, hb]
  have hT := (pairLt_strictTotal T (Event Q (DocBox D T))
    (DocEventSet.pairLt) (fun a b => rfl)).flip
  cases DocEventSet.collect e (s'.bucket e.query e.location.document) with
  | error f => rfl
  | ok aux =>
    obtain ⟨l, hl, hl'⟩ := S.ok _ aux (hT.strictWeak aux)
    obtain ⟨k, hk, hk'⟩ := S'.ok _ aux (hT.strictWeak aux)
    have := hT.sortedPerm_unique (List.Perm.refl aux) hl' hk'
    simp only [bind, Except.bind, hl, hk, this]

end

/-- The loop looks at the index only through its searches. -/
theorem loop_congr {σ σ' RE HE : Type} [Cmp RE] (ix : RefIndex σ RE HE) (ix' : RefIndex σ' RE HE)
    (scorer : RE → HE → Cpp MatchError) (s : σ) (s' : σ') (unm : List RE) (hyps : List HE)
    (h : ∀ x ∈ hyps, ix.findOverlapping s x = ix'.findOverlapping s' x) :
    SimpleMatcher.loop ix scorer s unm hyps = SimpleMatcher.loop ix' scorer s' unm hyps := by
  induction hyps generalizing unm with
  | nil => rfl
  | cons x hyps ih =>
    unfold SimpleMatcher.loop
    rw [h x List.mem_cons_self]
    have ih' := fun u => ih u (fun y hy => h y (List.mem_cons_of_mem _ hy))
    simp only [ih']

theorem ofList_congr {α : Type} [Cmp α] [LawfulCmp α] {l l' : List α} (h : ∀ x, x ∈ l ↔ x ∈ l') :
    StdSet.ofList Cmp.lt l = StdSet.ofList Cmp.lt l' :=
  StdSet.sorted_ext (StdSet.ofList_sorted l) (StdSet.ofList_sorted l')
    (fun x => by rw [StdSet.mem_ofList, StdSet.mem_ofList, h])

end Kws
