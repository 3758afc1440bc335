import Verif.Props.Order
import Verif.Props.Collapse
import Verif.Props.Grouping
import Verif.Lemmas.Matcher
import Verif.Model.Tool

/-!
Facts about sorting the hypotheses, the matches of a run and `evaluate`.
-/

set_option linter.unusedSectionVars false

namespace Kws
open Spec

/-! ## Orders that are total on part of a type -/

section
variable {α : Type} {P : α → Prop} {r : α → α → Prop} {eq ne lt gt le ge : α → α → Bool}

theorem Spec.SixOps.weak_of (h : SixOps P r eq ne lt gt le ge) (f : α → α → Bool)
    (hf : (∀ a b, P a → P b → (f a b = true ↔ r a b)) ∨ (∀ a b, P a → P b → (f a b = true ↔ r b a)))
    (l : List α) (hl : ∀ a ∈ l, P a) : StrictWeakOn f l := by
  have key : ∀ a b, P a → P b → f a b = false → f b a = false → a = b := by
    intro a b ha hb h1 h2
    rcases hf with hf | hf
    · have e1 := hf a b ha hb
      have e2 := hf b a hb ha
      rcases h.tri a b ha hb with h' | h' | h'
      · rw [← e1, h1] at h'; exact absurd h' (by decide)
      · exact h'
      · rw [← e2, h2] at h'; exact absurd h' (by decide)
    · have e1 := hf a b ha hb
      have e2 := hf b a hb ha
      rcases h.tri a b ha hb with h' | h' | h'
      · rw [← e2, h2] at h'; exact absurd h' (by decide)
      · exact h'
      · rw [← e1, h1] at h'; exact absurd h' (by decide)
  have hirr : ∀ a, P a → f a a = false := by
    intro a ha
    by_contra hc
    rw [Bool.not_eq_false] at hc
    rcases hf with hf | hf <;> exact h.irrefl a ha ((hf a a ha ha).1 hc)
  refine ⟨fun a ha => hirr a (hl a ha), ?_, ?_⟩
  · intro a ha b hb c hc h1 h2
    rcases hf with hf | hf
    · exact (hf a c (hl a ha) (hl c hc)).2 (h.trans a b c (hl a ha) (hl b hb) (hl c hc)
        ((hf _ _ (hl a ha) (hl b hb)).1 h1) ((hf _ _ (hl b hb) (hl c hc)).1 h2))
    · exact (hf a c (hl a ha) (hl c hc)).2 (h.trans c b a (hl c hc) (hl b hb) (hl a ha)
        ((hf _ _ (hl b hb) (hl c hc)).1 h2) ((hf _ _ (hl a ha) (hl b hb)).1 h1))
  · intro a ha b hb c hc h1 h2 h3 h4
    have e1 := key a b (hl a ha) (hl b hb) h1 h2
    have e2 := key b c (hl b hb) (hl c hc) h3 h4
    subst e1; subst e2
    exact ⟨hirr _ (hl a ha), hirr _ (hl a ha)⟩

theorem Spec.SixOps.sorted_unique (h : SixOps P r eq ne lt gt le ge) (f : α → α → Bool)
    (hf : (∀ a b, P a → P b → (f a b = true ↔ r a b)) ∨ (∀ a b, P a → P b → (f a b = true ↔ r b a)))
    {l l' s s' : List α} (hl : ∀ a ∈ l, P a) (hp : l.Perm l') (hs : SortedPerm f l s)
    (hs' : SortedPerm f l' s') : s = s' := by
  have hp' : s.Perm s' := hs.perm.trans (hp.trans hs'.perm.symm)
  refine hp'.eq_of_pairwise (fun a b ha hb h1 h2 => ?_) hs.sorted hs'.sorted
  have ha' : P a := hl a (hs.perm.mem_iff.1 ha)
  have hb' : P b := hl b (hp.mem_iff.2 (hs'.perm.mem_iff.1 hb))
  rcases hf with hf | hf
  · rcases h.tri a b ha' hb' with h' | h' | h'
    · rw [← hf a b ha' hb', h2] at h'; exact absurd h' (by decide)
    · exact h'
    · rw [← hf b a hb' ha', h1] at h'; exact absurd h' (by decide)
  · rcases h.tri a b ha' hb' with h' | h' | h'
    · rw [← hf b a hb' ha', h1] at h'; exact absurd h' (by decide)
    · exact h'
    · rw [← hf a b ha' hb', h2] at h'; exact absurd h' (by decide)

end

/-! ## Sorting the hypotheses -/

section
variable {Q L : Type} [Cmp Q] [LawfulCmp Q] [Cmp L] [LawfulCmp L]

theorem gt_ops : (∀ a b : ScoredEvent Q L, a.score ≠ .nan → b.score ≠ .nan →
    (ScoredEvent.gt a b = true ↔
      ScoredLt (fun a b => Cmp.lt a b = true) (fun a b => Cmp.lt a b = true) b a)) :=
  (C07_scored_order_partial Q L).gt_iff

theorem lt_ops : (∀ a b : ScoredEvent Q L, a.score ≠ .nan → b.score ≠ .nan →
    (ScoredEvent.lt a b = true ↔
      ScoredLt (fun a b => Cmp.lt a b = true) (fun a b => Cmp.lt a b = true) a b)) :=
  (C07_scored_order_partial Q L).lt_iff

theorem gt_score (a b : ScoredEvent Q L) (h : Flt.lt b.score a.score = true) :
    ScoredEvent.gt a b = true := by
  unfold ScoredEvent.gt ScoredEvent.lt
  have : Flt.ne b.score a.score = true := by
    revert h
    cases b.score <;> cases a.score <;> simp [Flt.lt, Flt.ne, Flt.eq]
    intro h
    exact ne_of_lt h
  rw [this]
  exact h

/-- Sorting in decreasing order succeeds on hypotheses without NaN; scores never increase. -/
theorem sortHyps_desc (S : StdSort) (hyps : List (ScoredEvent Q L)) (hn : ∀ h ∈ hyps, h.score ≠ .nan) :
    ∃ l, sortHyps S "desc".toList hyps = .ok l ∧ l.Perm hyps ∧
      l.Pairwise (fun a b => Flt.lt a.score b.score = false) := by
  have hw := (C07_scored_order_partial Q L).weak_of ScoredEvent.gt (Or.inr gt_ops) hyps hn
  obtain ⟨l, h1, h2⟩ := S.ok _ _ hw
  refine ⟨l, ?_, h2.perm, ?_⟩
  · unfold sortHyps
    rw [if_pos rfl]
    exact h1
  · refine h2.sorted.imp_of_mem ?_
    intro a b ha hb hab
    by_contra hc
    rw [Bool.not_eq_false] at hc
    rw [gt_score b a hc] at hab
    exact absurd hab (by decide)

/-- The sorted hypotheses do not depend on their order nor on the algorithm. -/
theorem sortHyps_unique (S S' : StdSort) (criterion : Str) (hyps hyps' : List (ScoredEvent Q L))
    (hn : ∀ h ∈ hyps, h.score ≠ .nan) (hp : hyps.Perm hyps')
    (hc : criterion = "desc".toList ∨ criterion = "asc".toList) :
    ∃ l, sortHyps S criterion hyps = .ok l ∧ sortHyps S' criterion hyps' = .ok l ∧ l.Perm hyps := by
  have hn' : ∀ h ∈ hyps', h.score ≠ .nan := fun h hh => hn h (hp.mem_iff.2 hh)
  have ho := C07_scored_order_partial Q L
  rcases hc with rfl | rfl
  · obtain ⟨l, h1, h2⟩ := S.ok _ _ (ho.weak_of ScoredEvent.gt (Or.inr gt_ops) hyps hn)
    obtain ⟨l', h1', h2'⟩ := S'.ok _ _ (ho.weak_of ScoredEvent.gt (Or.inr gt_ops) hyps' hn')
    have : l = l' := ho.sorted_unique ScoredEvent.gt (Or.inr gt_ops) hn hp h2 h2'
    subst this
    exact ⟨l, by unfold sortHyps; rw [if_pos rfl]; exact h1,
      by unfold sortHyps; rw [if_pos rfl]; exact h1', h2.perm⟩
  · obtain ⟨l, h1, h2⟩ := S.ok _ _ (ho.weak_of ScoredEvent.lt (Or.inl lt_ops) hyps hn)
    obtain ⟨l', h1', h2'⟩ := S'.ok _ _ (ho.weak_of ScoredEvent.lt (Or.inl lt_ops) hyps' hn')
    have : l = l' := ho.sorted_unique ScoredEvent.lt (Or.inl lt_ops) hn hp h2 h2'
    subst this
    have hne : ¬ ("asc".toList = "desc".toList) := by decide
    exact ⟨l, by unfold sortHyps; rw [if_neg hne, if_pos rfl]; exact h1,
      by unfold sortHyps; rw [if_neg hne, if_pos rfl]; exact h1', h2.perm⟩

end

theorem sortHyps_mem {Q L : Type} [Cmp Q] [Cmp L] (S : StdSort) (criterion : Str)
    (hyps l : List (ScoredEvent Q L)) (h : sortHyps S criterion hyps = .ok l) : l.Perm hyps := by
  have key : ∀ f, S.sort f hyps = .ok l → l.Perm hyps := by
    intro f hf
    by_cases hw : StrictWeakOn f hyps
    · obtain ⟨l', h1, h2⟩ := S.ok f hyps hw
      rw [hf] at h1
      injection h1 with h1
      subst h1
      exact h2.perm
    · rw [S.bad f hyps hw] at hf
      cases hf
  unfold sortHyps at h
  split at h
  · exact key _ h
  · split at h
    · exact key _ h
    · injection h with h
      subst h
      exact List.Perm.refl _

/-! ## The matches of a run -/

section
variable {σ Q L : Type} [Cmp Q] [LawfulCmp Q] [Cmp L] [LawfulCmp L]

theorem run_ranks (ix : RefIndex σ (Event Q L) (ScoredEvent Q L))
    (scorer : Event Q L → ScoredEvent Q L → Cpp MatchError) (s s' : σ) (refs : List (Event Q L))
    (hyps : List (ScoredEvent Q L)) (ms rep : List (KwsMatch Q L))
    (h : SimpleMatcher.run ix scorer s refs hyps = .ok (s', ms, rep))
    (hn : ∀ h ∈ hyps, h.score ≠ .nan) :
    NoNaN ms ∧
    (hyps.Pairwise (fun a b => Flt.lt a.score b.score = false) → ByRank ms) := by
  obtain ⟨hits, fns, rfl, _, _, ⟨hs, h3, h4⟩, _⟩ := run_facts ix scorer s s' refs hyps ms rep h
  have hrank : hits.map rank = hs.map (·.score) := by
    have : hits.map rank = (hits.map (·.hyp)).map (fun o => (o.map (·.score)).getD .ninf) := by
      rw [List.map_map]; rfl
    rw [this, h4, List.map_map]
    rfl
  constructor
  · intro m hm
    rcases List.mem_append.1 hm with hm | hm
    · have : rank m ∈ hits.map rank := List.mem_map_of_mem hm
      rw [hrank, List.mem_map] at this
      obtain ⟨x, hx, e⟩ := this
      rw [← e]
      exact hn x (h3.subset hx)
    · obtain ⟨r, _, rfl⟩ := List.mem_map.1 hm
      simp [rank, Match.makeFalseNegative]
  · intro hp
    unfold ByRank
    rw [← List.pairwise_map (f := rank) (R := fun a b => Flt.lt a b = false), List.map_append, hrank,
      List.pairwise_append]
    refine ⟨?_, ?_, ?_⟩
    · rw [List.pairwise_map]
      exact hp.sublist h3
    · rw [List.map_map, List.pairwise_map]
      exact List.pairwise_of_forall (fun _ _ => rfl)
    · intro a _ b hb
      rw [List.map_map] at hb
      obtain ⟨r, _, rfl⟩ := List.mem_map.1 hb
      change Flt.lt a .ninf = false
      cases a <;> rfl

theorem run_length (ix : RefIndex σ (Event Q L) (ScoredEvent Q L))
    (scorer : Event Q L → ScoredEvent Q L → Cpp MatchError) (s s' : σ) (refs : List (Event Q L))
    (hyps : List (ScoredEvent Q L)) (ms rep : List (KwsMatch Q L))
    (h : SimpleMatcher.run ix scorer s refs hyps = .ok (s', ms, rep)) :
    ms.length ≤ refs.length + hyps.length := by
  classical
  obtain ⟨hits, fns, rfl, h1, h2, ⟨hs, h3, h4⟩, _⟩ := run_facts ix scorer s s' refs hyps ms rep h
  have e1 : hits.length = hs.length := by
    have := congrArg List.length h4
    simpa using this
  have e2 : (StdSet.ofList Cmp.lt refs).length ≤ refs.length := by
    have hnd : (StdSet.ofList Cmp.lt refs).Nodup := StdSet.sorted_nodup (StdSet.ofList_sorted refs)
    exact (List.subperm_of_subset hnd (fun x hx => (StdSet.mem_ofList refs x).1 hx)).length_le
  have e3 := h2.length_eq
  have e4 := h3.length_le
  simp only [List.length_append, List.length_map] at *
  omega

theorem run_hard (ix : RefIndex σ (Event Q L) (ScoredEvent Q L))
    (scorer : Event Q L → ScoredEvent Q L → Cpp MatchError) (s s' : σ) (refs : List (Event Q L))
    (hyps : List (ScoredEvent Q L)) (ms rep : List (KwsMatch Q L))
    (h : SimpleMatcher.run ix scorer s refs hyps = .ok (s', ms, rep))
    (hh : ∀ r x e, scorer r x = .ok e → (e.fp = 0 ∨ e.fp = 1) ∧ (e.fn = 0 ∨ e.fn = 1)) :
    ∀ m ∈ ms, (m.error.fp = 0 ∨ m.error.fp = 1) ∧ (m.error.fn = 0 ∨ m.error.fn = 1) := by
  obtain ⟨hits, fns, rfl, _, _, _, h5⟩ := run_facts ix scorer s s' refs hyps ms rep h
  intro m hm
  rcases List.mem_append.1 hm with hm | hm
  · rcases h5 m hm with ⟨x, rfl⟩ | ⟨r, x, e, rfl, he, _⟩
    · simp [Match.makeFalsePositive]
    · exact hh r x e he
  · obtain ⟨r, _, rfl⟩ := List.mem_map.1 hm
    simp [Match.makeFalseNegative]

end

/-! ## Grouping -/

theorem groupMatches_facts {Q L : Type} [DecidableEq Q] (q2g : List (Q × Q)) (ms : List (KwsMatch Q L))
    (groups : List (List (KwsMatch Q L))) (h : groupMatches q2g ms = .ok groups) :
    groups.flatten.Perm ms ∧ (∀ g ∈ groups, g.Sublist ms) ∧ [] ∉ groups := by
  classical
  cases hms : ms with
  | nil =>
    subst hms
    have : groups = [] := by
      injection h with h
      exact h.symm
    subst this
    simp
  | cons m0 ms0 =>
    rw [← hms]
    -- every match has a query
    have hloop : ∀ (l : List (KwsMatch Q L)) st st', groupLoop q2g l st = .ok st' → ∀ m ∈ l, ∃ q, matchQuery m = .ok q := by
      intro l
      induction l with
      | nil => intro _ _ _ m hm; simp at hm
      | cons a l ih =>
        intro st st' hl m hm
        simp only [groupLoop, bind, Except.bind] at hl
        cases hq : matchQuery a with
        | error e => rw [hq] at hl; cases hl
        | ok q =>
          rw [hq] at hl
          rcases List.mem_cons.1 hm with rfl | hm
          · exact ⟨q, hq⟩
          · exact ih _ _ hl m hm
    have hg : ∃ st, groupLoop q2g ms ([], []) = .ok st := by
      unfold groupMatches at h
      cases hl : groupLoop q2g ms ([], []) with
      | error e => rw [hl] at h; cases h
      | ok st => exact ⟨st, rfl⟩
    obtain ⟨st, hst⟩ := hg
    have hq := hloop ms _ _ hst
    obtain ⟨q0, _⟩ := hq m0 (by rw [hms]; simp)
    let query : KwsMatch Q L → Q := fun m =>
      match matchQuery m with
      | .ok q => q
      | .error _ => q0
    have hquery : ∀ m ∈ ms, matchQuery m = .ok (query m) := by
      intro m hm
      obtain ⟨q, e⟩ := hq m hm
      simp only [query, e]
    obtain ⟨keys, k1, k2, k3, k4⟩ := group_fold (fun m => groupOf q2g (query m)) ms
    have key : ∀ (l : List (KwsMatch Q L)), (∀ m ∈ l, m ∈ ms) → ∀ st,
        groupLoop q2g l st =
          .ok (l.foldl (fun st m => groupStep (groupOf q2g (query m)) m st) st) := by
      intro l
      induction l with
      | nil => intro _ st; rfl
      | cons m l ih =>
        intro hl st
        simp only [groupLoop, hquery m (hl m (by simp)), bind, Except.bind, List.foldl_cons]
        exact ih (fun x hx => hl x (by simp [hx])) _
    have he : groups = keys.map (fun k => ms.filter (fun m => groupOf q2g (query m) = k)) := by
      unfold groupMatches at h
      simp only [key ms (fun _ h => h), k4, bind, Except.bind, pure, Except.pure] at h
      injection h with h
      exact h.symm
    subst he
    refine ⟨flatten_filter_perm (fun m => groupOf q2g (query m)) keys k1 ms
      (fun m hm => (k2 _).2 ⟨m, hm, rfl⟩), ?_, ?_⟩
    · intro g hg
      obtain ⟨k, _, rfl⟩ := List.mem_map.1 hg
      exact List.filter_sublist
    · intro hc
      obtain ⟨k, hk, he⟩ := List.mem_map.1 hc
      obtain ⟨m, hm, hm'⟩ := (k2 k).1 hk
      rw [List.filter_eq_nil_iff] at he
      exact he m hm (by simpa using hm')

/-! ## `evaluate` -/

section
variable {μ σ Q L G : Type} [DecidableEq Q] [Cmp Q] [Cmp L]

/-- the references used, after filtering -/
def usedRefs (q2g : List (Q × Q)) (refs : List (Event Q L)) : List (Event Q L) :=
  if q2g = [] then refs else filterEvents q2g (·.query) refs

/-- the hypotheses used, after filtering -/
def usedHyps (q2g : List (Q × Q)) (hyps : List (ScoredEvent Q L)) : List (ScoredEvent Q L) :=
  if q2g = [] then hyps else filterEvents q2g (·.base.query) hyps

theorem usedHyps_mem (q2g : List (Q × Q)) (hyps : List (ScoredEvent Q L)) (h : ScoredEvent Q L)
    (hh : h ∈ usedHyps q2g hyps) : h ∈ hyps := by
  unfold usedHyps filterEvents at hh
  split at hh
  · exact hh
  · exact (List.mem_filter.1 hh).1

theorem used_length (q2g : List (Q × Q)) (refs : List (Event Q L)) (hyps : List (ScoredEvent Q L)) :
    (usedRefs q2g refs).length ≤ refs.length ∧ (usedHyps q2g hyps).length ≤ hyps.length := by
  unfold usedRefs usedHyps filterEvents
  constructor <;> split
  · exact le_rfl
  · exact List.length_filter_le _ _
  · exact le_rfl
  · exact List.length_filter_le _ _

theorem evaluate_done (R : Rnd) (S : StdSort) (rng : Rng G) (kit : ToolKit μ σ Q L) (w : World)
    (o : ToolOptions) (q2g : List (Q × Q)) (refs : List (Event Q L)) (hyps : List (ScoredEvent Q L))
    (r : Report Q L) (h : evaluate R S rng kit w o q2g refs hyps = .ok (.done r)) :
    ∃ (l : List (ScoredEvent Q L)) (s' : σ) (ms rep : List (KwsMatch Q L))
      (groups : List (List (KwsMatch Q L))),
      sortHyps S o.sort (usedHyps q2g hyps) = .ok l ∧
      SimpleMatcher.run kit.index kit.scorer kit.refsSet (usedRefs q2g refs) l =
        .ok (s', ms, rep) ∧
      groupMatches q2g ms = .ok groups ∧
      assess R S rng w o ms groups (if o.dumpMatches = [] then none else some (ms, rep)) = .ok r := by
  have heq : evaluate R S rng kit w o q2g refs hyps =
      (sortHyps S o.sort (usedHyps q2g hyps)).bind fun l =>
      (SimpleMatcher.run kit.index kit.scorer kit.refsSet (usedRefs q2g refs) l).bind fun t =>
      if o.dumpMatches ≠ [] ∧ w.writable o.dumpMatches = false then .ok .failed
      else if t.2.1.foldl (fun n m => n + m.error.nh) 0 > l.length then .ok .failed
      else (groupMatches q2g t.2.1).bind fun groups =>
        (assess R S rng w o t.2.1 groups
          (if o.dumpMatches = [] then none else some (t.2.1, t.2.2))).bind fun r =>
        .ok (.done r) := rfl
  rw [heq] at h
  cases h1 : sortHyps S o.sort (usedHyps q2g hyps) with
  | error e => rw [h1] at h; cases h
  | ok l =>
    rw [h1] at h
    simp only [Except.bind] at h
    cases h2 : SimpleMatcher.run kit.index kit.scorer kit.refsSet (usedRefs q2g refs) l with
    | error e => rw [h2] at h; cases h
    | ok t =>
      obtain ⟨s', ms, rep⟩ := t
      rw [h2] at h
      simp only at h
      split at h
      · cases h
      · split at h
        · cases h
        · cases h3 : groupMatches q2g ms with
          | error e => rw [h3] at h; cases h
          | ok groups =>
            rw [h3] at h
            simp only at h
            refine ⟨l, s', ms, rep, groups, rfl, h2, h3, ?_⟩
            cases h4 : assess R S rng w o ms groups
                (if o.dumpMatches = [] then none else some (ms, rep)) with
            | error e => rw [h4] at h; cases h
            | ok r' =>
              rw [h4] at h
              injection h with h
              injection h with h
              rw [h]

omit [DecidableEq Q] [Cmp Q] [Cmp L] in
theorem assess_ok (R : Rnd) (S : StdSort) (rng : Rng G) (w : World) (o : ToolOptions)
    (ms : List (KwsMatch Q L)) (groups : List (List (KwsMatch Q L)))
    (dump : Option (List (KwsMatch Q L) × List (KwsMatch Q L))) (r : Report Q L)
    (h : assess R S rng w o ms groups dump = .ok r) :
    globalStatistic R S R.f64 rng o.ciGap o ms groups
      (fun ms => globalAP R ms o.collapse o.interp o.trapezoid)
      (fun gs b => globalAPGrouped R S gs o.collapse o.interp o.trapezoid b) = .ok r.gAP ∧
    meanStatistic R S R.f64 rng o.ciMap o groups
      (fun gs b => meanAP R S gs o.collapse o.interp o.trapezoid b) = .ok r.mAP ∧
    globalStatistic R S id rng o.ciGndcg o ms groups
      (fun ms => .ok (globalNDCG R ms o.collapse))
      (fun gs b => globalNDCGGrouped R S gs o.collapse b) = .ok r.gNDCG ∧
    meanStatistic R S id rng o.ciMndcg o groups
      (fun gs b => meanNDCG R S gs o.collapse b) = .ok r.mNDCG ∧ r.dump = dump := by
  unfold assess at h
  simp only [bind, Except.bind, pure, Except.pure] at h
  split at h
  · cases h
  · rename_i a1 e1
    split at h
    · cases h
    · rename_i a2 e2
      split at h
      · cases h
      · rename_i a3 e3
        split at h
        · cases h
        · rename_i a4 e4
          (repeat' split at h) <;> first
            | (injection h with h
               subst h
               exact ⟨e1, e2, e3, e4, rfl⟩)
            | cases h

end

end Kws
