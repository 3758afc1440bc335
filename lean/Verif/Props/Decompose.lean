import Verif.Lemmas.Decompose
import Verif.Props.Query
import Verif.Lemmas.ToolDouble
import Verif.Props.Evaluation

/-!
# C96: an evaluation is made up of the evaluations of its queries
-/

set_option linter.unusedSectionVars false

namespace Kws
open Spec

/-! ## Matching -/

/-- C96 for the box tool's matcher, any scorer and any property `P` of queries: matching only the
events with such queries gives the matches about such queries, in the same order. -/
theorem C96_matching_box {Q D T : Type} [DecidableEq Q] [DecidableEq D] [Cmp Q] [LawfulCmp Q]
    [Cmp D] [LawfulCmp D] [Coord T] [LawfulCmp T] (S : StdSort)
    (scorer : Event Q (DocBox D T) → ScoredEvent Q (DocBox D T) → Cpp MatchError)
    (s s' : DocEventSet Q D T) (refs : List (Event Q (DocBox D T)))
    (hyps : List (ScoredEvent Q (DocBox D T))) (ms rep : List (KwsMatch Q (DocBox D T)))
    (h : SimpleMatcher.run (docIndex S Q D T) scorer s refs hyps = .ok (s', ms, rep)) (P : Q → Bool) :
    ∃ s'', SimpleMatcher.run (docIndex S Q D T) scorer s (refs.filter (fun r => P r.query))
        (hyps.filter (fun x => P x.base.query)) =
      .ok (s'', ms.filter (about P), rep.filter (about P)) := by
  have := run_split _ _ _ scorer s s' refs hyps (doc_splits S s P) ms rep h
  rwa [keptMatch_about] at this

/-- C96 for the segmentation-based tool's matcher. -/
theorem C96_matching_segmentation {Q L : Type} [Cmp Q] [LawfulCmp Q] [Cmp L] [LawfulCmp L]
    (scorer : Event Q L → ScoredEvent Q L → Cpp MatchError) (s s' : EventSet (Event Q L))
    (refs : List (Event Q L)) (hyps : List (ScoredEvent Q L)) (ms rep : List (KwsMatch Q L))
    (h : SimpleMatcher.run (plainIndex Q L) scorer s refs hyps = .ok (s', ms, rep)) (P : Q → Bool) :
    ∃ s'', SimpleMatcher.run (plainIndex Q L) scorer s (refs.filter (fun r => P r.query))
        (hyps.filter (fun x => P x.base.query)) =
      .ok (s'', ms.filter (about P), rep.filter (about P)) := by
  have := run_split _ _ _ scorer s s' refs hyps (plain_splits s P) ms rep h
  rwa [keptMatch_about] at this

/-! ## Evaluation -/

section
variable {μ σ Q L G : Type} [DecidableEq Q] [Cmp Q] [LawfulCmp Q] [Cmp L] [LawfulCmp L]

theorem filter_used {E : Type} (query : E → Q) (q2g q2g' : List (Q × Q)) (hne : q2g' ≠ [])
    (es : List E)
    (hsub : ∀ e ∈ es, (AMap.find? (query e) q2g').isSome = true → q2g = [] ∨
      (AMap.find? (query e) q2g).isSome = true) :
    (if q2g' = [] then es else filterEvents q2g' query es) =
      (if q2g = [] then es else filterEvents q2g query es).filter
        (fun e => (AMap.find? (query e) q2g').isSome) := by
  rw [if_neg hne]
  unfold filterEvents
  split
  · rfl
  · rename_i hq
    rw [List.filter_filter]
    refine List.filter_congr (fun e he => ?_)
    have := hsub e he
    cases h1 : (AMap.find? (query e) q2g').isSome with
    | false => simp
    | true => simpa [hq] using (this h1)

theorem find?_listed (q2g : List (Q × Q)) (q : Q) :
    (AMap.find? q q2g).isSome = true ↔ ∃ g, (q, g) ∈ q2g := by
  constructor
  · intro h
    obtain ⟨g, hg⟩ := Option.isSome_iff_exists.1 h
    exact ⟨g, AMap.mem_of_find? q g q2g hg⟩
  · rintro ⟨g, hg⟩
    induction q2g with
    | nil => simp at hg
    | cons a m ih =>
      obtain ⟨a, v⟩ := a
      unfold AMap.find?
      split
      · rfl
      · rcases List.mem_cons.1 hg with h' | h'
        · injection h' with h1 h2
          simp_all
        · exact ih h'

/-- The evaluation of fewer queries. -/
theorem evaluate_restricted (R : Rnd) (S : StdSort) (rng : Rng G) (kit : ToolKit μ σ Q L)
    (hk : QueryWise kit) (w : World) (o : ToolOptions) (ho : PlainOptions o)
    (q2g q2g' : List (Q × Q)) (refs : List (Event Q L)) (hyps : List (ScoredEvent Q L))
    (hnan : ∀ h ∈ hyps, h.score ≠ .nan) (hne : q2g' ≠ [])
    (hsub : ∀ q, ((∃ e ∈ refs, e.query = q) ∨ ∃ h ∈ hyps, h.base.query = q) →
      (∃ g, (q, g) ∈ q2g') → q2g = [] ∨ ∃ g, (q, g) ∈ q2g)
    (hd : ¬ (o.dumpMatches ≠ [] ∧ w.writable o.dumpMatches = false))
    (l : List (ScoredEvent Q L)) (s' : σ) (ms rep : List (KwsMatch Q L))
    (h1 : sortHyps S o.sort (usedHyps q2g hyps) = .ok l)
    (h2 : SimpleMatcher.run kit.index kit.scorer kit.refsSet (usedRefs q2g refs) l =
      .ok (s', ms, rep)) :
    ∃ r, evaluate R S rng kit w o q2g' refs hyps = .ok (.done r) ∧
      r.gAP.value = apWith R o (ms.filter (about fun q => (AMap.find? q q2g').isSome)) ∧
      r.gNDCG.value =
        globalNDCG R (ms.filter (about fun q => (AMap.find? q q2g').isSome)) o.collapse ∧
      r.dump = if o.dumpMatches = [] then none else
        some (ms.filter (about fun q => (AMap.find? q q2g').isSome),
          rep.filter (about fun q => (AMap.find? q q2g').isSome)) := by
  have hsub' : ∀ q, ((∃ e ∈ refs, e.query = q) ∨ ∃ h ∈ hyps, h.base.query = q) →
      (AMap.find? q q2g').isSome = true → q2g = [] ∨ (AMap.find? q q2g).isSome = true := by
    intro q hq hf
    rw [find?_listed] at hf ⊢
    exact hsub q hq hf
  have eh : usedHyps q2g' hyps = (usedHyps q2g hyps).filter
      (fun e => (AMap.find? e.base.query q2g').isSome) :=
    filter_used (E := ScoredEvent Q L) (fun e => e.base.query) q2g q2g' hne hyps (fun e he => hsub' _ (Or.inr ⟨e, he, rfl⟩))
  have er : usedRefs q2g' refs = (usedRefs q2g refs).filter
      (fun e => (AMap.find? e.query q2g').isSome) :=
    filter_used (E := Event Q L) (fun e => e.query) q2g q2g' hne refs (fun e he => hsub' _ (Or.inl ⟨e, he, rfl⟩))
  have h1' := sortHyps_filter S o.sort (usedHyps q2g hyps) l
    (fun h hh => hnan h (usedHyps_mem q2g hyps h hh))
    (fun e => (AMap.find? e.base.query q2g').isSome) h1
  obtain ⟨s'', h2'⟩ := run_split _ _ _ kit.scorer _ _ _ _
    (hk (fun q => (AMap.find? q q2g').isSome)) _ _ h2
  rw [keptMatch_about (fun q => (AMap.find? q q2g').isSome)] at h2'
  have r4 := C20_effective_hyps _ _ _ _ _ _ _ _ h2'
  have hnh : ∀ ms : List (KwsMatch Q L), ms.foldl (fun n m => n + m.error.nh) 0 =
      (ms.map (fun m => m.error.nh)).sum := by
    intro ms
    have key : ∀ (l : List (KwsMatch Q L)) (a : Nat), l.foldl (fun n m => n + m.error.nh) a =
        a + (l.map (fun m => m.error.nh)).sum := by
      intro l
      induction l with
      | nil => intro a; simp
      | cons m l ih => intro a; rw [List.foldl_cons, ih]; simp [Nat.add_assoc]
    rw [key]; simp
  have hq := (run_queries kit hk _ _ _ _ _ h2').1
  obtain ⟨groups, e3⟩ := groupMatches_total q2g'
    (ms.filter (about fun q => (AMap.find? q q2g').isSome)) (fun m hm => by
      obtain ⟨q, hq⟩ := hq m hm
      unfold queryOf at hq
      cases hr : m.ref with
      | some r => simp
      | none =>
        cases hh : m.hyp with
        | some r => simp
        | none => simp [hr, hh] at hq)
  rw [evaluate_eq, eh, er, h1']
  simp only [Except.bind, h2']
  rw [if_neg hd, if_neg (not_lt.2 ((hnh _).le.trans r4)), e3]
  simp only [assess_plain R S rng w o ho]
  exact ⟨_, rfl, rfl, rfl, rfl⟩

/-- C96: if only the four numbers (and perhaps the matches) are asked for and an evaluation ends with a
report, then the evaluations restricted to the queries of the single groups end with reports, too;
the mean average precision is the mean of their global average precisions, and the mean NDCG the mean
of their global NDCGs; the dumped matches are those about the queries of the group. `keys` are the
groups of the queries asked for, in some order. For a tool that compares events of the same query
only. -/
theorem C96_evaluate (R : Rnd) (S : StdSort) (rng : Rng G) (kit : ToolKit μ σ Q L)
    (hk : QueryWise kit) (w : World) (o : ToolOptions) (ho : PlainOptions o)
    (q2g : List (Q × Q)) (refs : List (Event Q L)) (hyps : List (ScoredEvent Q L))
    (hnan : ∀ h ∈ hyps, h.score ≠ .nan) (r : Report Q L)
    (h : evaluate R S rng kit w o q2g refs hyps = .ok (.done r)) (single : Q → List (Q × Q))
    (hs : ∀ k, (∃ q, Asked q2g refs hyps q ∧ groupOf q2g q = k) → single k ≠ [] ∧
      ∀ q, ((∃ e ∈ refs, e.query = q) ∨ ∃ h ∈ hyps, h.base.query = q) →
        ((∃ g, (q, g) ∈ single k) ↔ Asked q2g refs hyps q ∧ groupOf q2g q = k)) :
    ∃ (keys : List Q) (rs : Q → Report Q L), keys.Nodup ∧
      (∀ k, k ∈ keys ↔ ∃ q, Asked q2g refs hyps q ∧ groupOf q2g q = k) ∧
      (∀ k ∈ keys, evaluate R S rng kit w o (single k) refs hyps = .ok (.done (rs k))) ∧
      r.mAP.value = roundedMean R (keys.map (fun k => (rs k).gAP.value)) ∧
      r.mNDCG.value = average (keys.map (fun k => (rs k).gNDCG.value)) ∧
      ∀ k ∈ keys, (rs k).dump = r.dump.map (fun d =>
        (d.1.filter (about fun q => groupOf q2g q = k), d.2.filter (about fun q => groupOf q2g q = k)))
      := by
  obtain ⟨l, s', ms, rep, groups, h1, h2, h3, h4⟩ := evaluate_done _ _ _ _ _ _ _ _ _ _ h
  have hd := evaluate_dump _ _ _ _ _ _ _ _ _ _ h
  rw [assess_plain R S rng w o ho] at h4
  injection h4 with h4
  subst h4
  obtain ⟨q1, q2⟩ := run_queries kit hk _ _ _ _ _ h2
  have hp := sortHyps_mem S o.sort _ l h1
  -- the queries of the matches
  have hasked : ∀ q, (∃ m ∈ ms, queryOf m = some q) ↔ Asked q2g refs hyps q := by
    intro q
    rw [q2]
    have hx : (∃ x ∈ l, x.base.query = q) ↔ ∃ x ∈ usedHyps q2g hyps, x.base.query = q := by
      constructor
      · rintro ⟨x, hx, e⟩; exact ⟨x, hp.mem_iff.1 hx, e⟩
      · rintro ⟨x, hx, e⟩; exact ⟨x, hp.mem_iff.2 hx, e⟩
    rw [hx]
    unfold Asked usedHyps usedRefs filterEvents
    by_cases hq : q2g = []
    · simp [hq]
    · rw [if_neg hq, if_neg hq]
      simp only [hq, false_or, List.mem_filter, find?_listed]
      constructor
      · rintro (⟨e, ⟨a, b⟩, rfl⟩ | ⟨e, ⟨a, b⟩, rfl⟩)
        · exact ⟨Or.inl ⟨e, a, rfl⟩, b⟩
        · exact ⟨Or.inr ⟨e, a, rfl⟩, b⟩
      · rintro ⟨⟨e, a, rfl⟩ | ⟨e, a, rfl⟩, b⟩
        · exact Or.inl ⟨e, ⟨a, b⟩, rfl⟩
        · exact Or.inr ⟨e, ⟨a, b⟩, rfl⟩
  -- repeated matches are about such queries, too
  have hrep : ∀ m ∈ rep, ∀ q, queryOf m = some q → Asked q2g refs hyps q := by
    classical
    obtain ⟨s'', e⟩ := run_split _ _ _ kit.scorer _ _ _ _
      (hk (fun q => decide (Asked q2g refs hyps q))) _ _ h2
    have f1 : (usedRefs q2g refs).filter (fun r => decide (Asked q2g refs hyps r.query)) =
        usedRefs q2g refs := filter_all (fun x hx => by
      rw [decide_eq_true_iff, ← hasked, q2]
      exact Or.inl ⟨x, hx, rfl⟩)
    have f2 : l.filter (fun x => decide (Asked q2g refs hyps x.base.query)) = l :=
      filter_all (fun x hx => by
        rw [decide_eq_true_iff, ← hasked, q2]
        exact Or.inr ⟨x, hx, rfl⟩)
    rw [f1, f2, h2, keptMatch_about (fun q => decide (Asked q2g refs hyps q))] at e
    injection e with e
    simp only [Prod.mk.injEq] at e
    intro m hm q hq
    rw [e.2.2] at hm
    have := (List.mem_filter.1 hm).2
    unfold about at this
    rw [hq] at this
    simpa using this
  -- the groups
  have hgroups : ∃ keys : List Q, keys.Nodup ∧
      (∀ k, k ∈ keys ↔ ∃ q, Asked q2g refs hyps q ∧ groupOf q2g q = k) ∧
      groups = keys.map (fun k => ms.filter (about fun q => groupOf q2g q = k)) := by
    rcases isEmpty_or_nonempty Q with hE | ⟨⟨q0⟩⟩
    · have hms : ms = [] := by
        cases ms with
        | nil => rfl
        | cons m ms => exact (hE.false (q1 m (by simp)).choose).elim
      subst hms
      have : groups = [] := by
        injection h3 with h3
        exact h3.symm
      exact ⟨[], by simp, fun k => (hE.false k).elim, this⟩
    · have hquery : ∀ m ∈ ms, queryOf m = some ((queryOf m).getD q0) := by
        intro m hm
        obtain ⟨q, e⟩ := q1 m hm
        rw [e]
        rfl
      obtain ⟨keys, k1, k2, k3⟩ := groupMatches_keys q2g ms (fun m => (queryOf m).getD q0)
        (fun m hm => matchQuery_ok m _ (hquery m hm))
      rw [h3] at k3
      injection k3 with k3
      refine ⟨keys, k1, fun k => ?_, ?_⟩
      · rw [k2]
        constructor
        · rintro ⟨m, hm, e⟩
          exact ⟨_, (hasked _).1 ⟨m, hm, hquery m hm⟩, e⟩
        · rintro ⟨q, hq, e⟩
          obtain ⟨m, hm, hm'⟩ := (hasked q).2 hq
          refine ⟨m, hm, ?_⟩
          rw [hm']
          exact e
      · rw [k3]
        refine List.map_congr_left (fun k _ => List.filter_congr (fun m hm => ?_))
        unfold about
        rw [hquery m hm]
        simp
  obtain ⟨keys, k1, k2, rfl⟩ := hgroups
  -- the restricted evaluations
  have hex : ∀ k, ∃ rk : Report Q L, k ∈ keys →
      evaluate R S rng kit w o (single k) refs hyps = .ok (.done rk) ∧
      rk.gAP.value = apWith R o (ms.filter (about fun q => groupOf q2g q = k)) ∧
      rk.gNDCG.value = globalNDCG R (ms.filter (about fun q => groupOf q2g q = k)) o.collapse ∧
      rk.dump = if o.dumpMatches = [] then none else
        some (ms.filter (about fun q => groupOf q2g q = k),
          rep.filter (about fun q => groupOf q2g q = k)) := by
    intro k
    by_cases hkk : k ∈ keys
    · obtain ⟨hne, hs'⟩ := hs k ((k2 k).1 hkk)
      obtain ⟨rk, e1, e2, e3, e4⟩ := evaluate_restricted R S rng kit hk w o ho q2g (single k) refs hyps
        hnan hne (fun q hq hg => ((hs' q hq).1 hg).1.2) hd l s' ms rep h1 h2
      have hcongr : ∀ L' : List (KwsMatch Q L), (∀ m ∈ L', ∀ q, queryOf m = some q →
          Asked q2g refs hyps q) → L'.filter (about fun q => (AMap.find? q (single k)).isSome) =
          L'.filter (about fun q => groupOf q2g q = k) := by
        intro L' hL'
        refine List.filter_congr (fun m hm => ?_)
        unfold about
        cases hq : queryOf m with
        | none => rfl
        | some q =>
          have ha := hL' m hm q hq
          have := (find?_listed (single k) q).trans (hs' q ha.1)
          rw [Bool.eq_iff_iff]
          simp only [Option.any_some, this, decide_eq_true_iff]
          exact ⟨fun h => h.2, fun h => ⟨ha, h⟩⟩
      have c1 := hcongr ms (fun m hm q hq => (hasked q).1 ⟨m, hm, hq⟩)
      have c2 := hcongr rep hrep
      rw [c1] at e2 e3
      rw [c1, c2] at e4
      exact ⟨rk, fun _ => ⟨e1, e2, e3, e4⟩⟩
    · exact ⟨⟨⟨0, none⟩, ⟨0, none⟩, ⟨0, none⟩, ⟨0, none⟩, none, none, none⟩, fun h => absurd h hkk⟩
  choose rs hrs using hex
  refine ⟨keys, rs, k1, k2, fun k hk => (hrs k hk).1, ?_, ?_, fun k hk => ?_⟩
  · change roundedMean R _ = _
    rw [List.map_map]
    congr 1
    exact List.map_congr_left (fun k hk => (hrs k hk).2.1.symm)
  · change average _ = _
    rw [List.map_map]
    congr 1
    exact List.map_congr_left (fun k hk => (hrs k hk).2.2.1.symm)
  · rw [(hrs k hk).2.2.2]
    change _ = Option.map _ (if o.dumpMatches = [] then none else some (ms, rep))
    split <;> rfl

/-- The two tools are such tools. -/
theorem icdar_queryWise (R : Rnd) (S : StdSort) : QueryWise (icdarKit R S) := fun P => doc_splits S _ P

theorem simple_queryWise (R : Rnd) (qf : Bool) : QueryWise (simpleKit R qf) := fun P => plain_splits _ P

/-! ## The program -/

variable [DecidableEq L]

theorem mainWith_one (R : Rnd) (S : StdSort) (rng : Rng G) (kit : ToolKit μ σ Q L) (w : World)
    (o : ToolOptions) (refText hypText : Str) (m1 m2 : μ) (refs : List (Event Q L))
    (hyps : List (ScoredEvent Q L)) (hr : o.refFilename ≠ []) (hrt : w.file o.refFilename = some refText)
    (hht : (if o.hypFilename = [] then some w.stdin else w.file o.hypFilename) = some hypText)
    (h1 : kit.readRef kit.mapper refText = (m1, refs, .ok))
    (h2 : kit.readHyp m1 hypText = (m2, hyps, .ok)) (hg : o.queryGroups = []) (f text a : Str) (q : Q)
    (hf : f ≠ []) (ht : w.file f = some text) (ha : words text = [a])
    (hq : (kit.mapQuery m2 a).2 = .ok q) :
    mainWith R S rng kit w { o with querySet := f } =
      evaluate R S rng kit w o [(q, q)] refs hyps := by
  rw [mainWith_inputs R S rng kit w { o with querySet := f } refText hypText m1 m2 refs hyps hr hrt hht
    h1 h2]
  unfold readQueryMap
  rw [if_pos ⟨hf, hg⟩]
  simp only [ht]
  unfold readQuerySet
  rw [wordsOf_eq, ha]
  simp only [mapQueries]
  rcases hm : kit.mapQuery m2 a with ⟨m3, v⟩
  rw [hm] at hq
  simp only at hq
  subst hq
  rfl

/-- C96: a run without query set or groups that ends with a report, and the runs with the same options
and a query set naming a single query (`file q` names the query that the tool knows as `q`): for all
queries of the events these end with reports. The mean average precision is the mean of their global
average precisions, and the mean NDCG that of their global NDCGs. -/
theorem C96_program (R : Rnd) (S : StdSort) (rng : Rng G) (kit : ToolKit μ σ Q L)
    (hk : QueryWise kit) (hfine : FineKit kit) (w : World) (o : ToolOptions) (ho : PlainOptions o)
    (refText hypText : Str) (m1 m2 : μ) (refs : List (Event Q L)) (hyps : List (ScoredEvent Q L))
    (hr : o.refFilename ≠ []) (hrt : w.file o.refFilename = some refText)
    (hht : (if o.hypFilename = [] then some w.stdin else w.file o.hypFilename) = some hypText)
    (h1 : kit.readRef kit.mapper refText = (m1, refs, .ok))
    (h2 : kit.readHyp m1 hypText = (m2, hyps, .ok)) (hs : o.querySet = []) (hg : o.queryGroups = [])
    (file : Q → Str)
    (hfile : ∀ q, ((∃ e ∈ refs, e.query = q) ∨ ∃ h ∈ hyps, h.base.query = q) → file q ≠ [] ∧
      ∃ text a, w.file (file q) = some text ∧ words text = [a] ∧ (kit.mapQuery m2 a).2 = .ok q)
    (r : Report Q L) (h : mainWith R S rng kit w o = .ok (.done r)) :
    ∃ (qs : List Q) (rs : Q → Report Q L), qs.Nodup ∧
      (∀ q, q ∈ qs ↔ (∃ e ∈ refs, e.query = q) ∨ ∃ h ∈ hyps, h.base.query = q) ∧
      (∀ q ∈ qs, mainWith R S rng kit w { o with querySet := file q } = .ok (.done (rs q))) ∧
      r.mAP.value = roundedMean R (qs.map (fun q => (rs q).gAP.value)) ∧
      r.mNDCG.value = average (qs.map (fun q => (rs q).gNDCG.value)) ∧
      ∀ q ∈ qs, (rs q).dump = r.dump.map (fun d =>
        (d.1.filter (fun m => queryOf m = some q), d.2.filter (fun m => queryOf m = some q))) := by
  have hn := (hfine.hyps _ _ _ _ _ h2).2
  rw [mainWith_inputs R S rng kit w o refText hypText m1 m2 refs hyps hr hrt hht h1 h2] at h
  unfold readQueryMap at h
  rw [if_neg (fun h => h.1 hs), if_neg (fun h => h hg)] at h
  have h : evaluate R S rng kit w o [] refs hyps = .ok (.done r) := h
  have hasked : ∀ q, Asked [] refs hyps q ↔
      (∃ e ∈ refs, e.query = q) ∨ ∃ h ∈ hyps, h.base.query = q := fun q => by simp [Asked]
  obtain ⟨qs, rs, a1, a2, a3, a4, a5, a6⟩ := C96_evaluate R S rng kit hk w o ho [] refs hyps hn r h
    (fun q => [(q, q)]) (fun k hk => ⟨by simp, fun q hq => by
      rw [hasked]
      simp only [List.mem_singleton, Prod.mk.injEq, exists_and_left, exists_eq, and_true]
      exact ⟨fun h => ⟨hq, h⟩, fun h => h.2⟩⟩)
  have hmem : ∀ q, q ∈ qs ↔ (∃ e ∈ refs, e.query = q) ∨ ∃ h ∈ hyps, h.base.query = q := by
    intro q
    rw [a2, ← hasked]
    exact ⟨fun ⟨q', h, e⟩ => by have : q' = q := e; rwa [← this], fun h => ⟨q, h, rfl⟩⟩
  refine ⟨qs, rs, a1, hmem, fun q hq => ?_, a4, a5, fun q hq => ?_⟩
  · obtain ⟨b1, text, a, b2, b3, b4⟩ := hfile q ((hmem q).1 hq)
    rw [mainWith_one R S rng kit w o refText hypText m1 m2 refs hyps hr hrt hht h1 h2 hg (file q) text a q
      b1 b2 b3 b4]
    exact a3 q hq
  · rw [a6 q hq]
    have hab : (about fun q' => groupOf ([] : List (Q × Q)) q' = q : KwsMatch Q L → Bool) =
        fun m => decide (queryOf m = some q) := by
      funext m
      unfold about
      cases queryOf m with
      | none => rfl
      | some q' =>
        change decide (q' = q) = decide (some q' = some q)
        simp
    rw [hab]

end

/-- C96 for the box tool: the query set files hold the single queries. -/
theorem C96_box {G : Type} (R : Rnd) (S : StdSort) (rng : Rng G) (w : World) (o : ToolOptions)
    (ho : PlainOptions o) (refText hypText : Str) (refs : List (Event Str (DocBox Str UInt32)))
    (hyps : List (ScoredEvent Str (DocBox Str UInt32)))
    (hr : o.refFilename ≠ []) (hrt : w.file o.refFilename = some refText)
    (hht : (if o.hypFilename = [] then some w.stdin else w.file o.hypFilename) = some hypText)
    (h1 : readEvents extractBoxEvent identityMap () refText = ((), refs, .ok))
    (h2 : readEvents (extractScored R extractBoxEvent) identityMap () hypText = ((), hyps, .ok))
    (hs : o.querySet = []) (hg : o.queryGroups = []) (file : Str → Str)
    (hfile : ∀ q, ((∃ e ∈ refs, e.query = q) ∨ ∃ h ∈ hyps, h.base.query = q) → file q ≠ [] ∧
      ∃ text, w.file (file q) = some text ∧ words text = [q])
    (r : Report Str (DocBox Str UInt32))
    (h : mainWith R S rng (icdarKit R S) w o = .ok (.done r)) :
    ∃ (qs : List Str) (rs : Str → Report Str (DocBox Str UInt32)), qs.Nodup ∧
      (∀ q, q ∈ qs ↔ (∃ e ∈ refs, e.query = q) ∨ ∃ h ∈ hyps, h.base.query = q) ∧
      (∀ q ∈ qs,
        mainWith R S rng (icdarKit R S) w { o with querySet := file q } = .ok (.done (rs q))) ∧
      r.mAP.value = roundedMean R (qs.map (fun q => (rs q).gAP.value)) ∧
      r.mNDCG.value = average (qs.map (fun q => (rs q).gNDCG.value)) ∧
      ∀ q ∈ qs, (rs q).dump = r.dump.map (fun d =>
        (d.1.filter (fun m => queryOf m = some q), d.2.filter (fun m => queryOf m = some q))) :=
  C96_program R S rng (icdarKit R S) (icdar_queryWise R S) (icdar_fine R S) w o ho refText hypText () ()
    refs hyps hr hrt hht h1 h2 hs hg file
    (fun q hq => by
      obtain ⟨a, text, b, c⟩ := hfile q hq
      exact ⟨a, text, q, b, c, rfl⟩) r h

/-- C96 for the segmentation-based tool: `m2` is the table of strings after reading the events. -/
theorem C96_segmentation {G : Type} (R : Rnd) (S : StdSort) (rng : Rng G) (qf : Bool) (w : World)
    (o : ToolOptions) (ho : PlainOptions o) (refText hypText : Str) (m1 m2 : IntMapper)
    (refs : List (Event Nat Nat)) (hyps : List (ScoredEvent Nat Nat))
    (hr : o.refFilename ≠ []) (hrt : w.file o.refFilename = some refText)
    (hht : (if o.hypFilename = [] then some w.stdin else w.file o.hypFilename) = some hypText)
    (h1 : (simpleKit R qf).readRef IntMapper.new refText = (m1, refs, .ok))
    (h2 : (simpleKit R qf).readHyp m1 hypText = (m2, hyps, .ok))
    (hs : o.querySet = []) (hg : o.queryGroups = []) (file : Nat → Str)
    (hfile : ∀ q, ((∃ e ∈ refs, e.query = q) ∨ ∃ h ∈ hyps, h.base.query = q) → file q ≠ [] ∧
      ∃ text a, w.file (file q) = some text ∧ words text = [a] ∧
        (IntMapper.lookup (2 ^ 31 - 1) m2 a).2 = .ok q)
    (r : Report Nat Nat) (h : mainWith R S rng (simpleKit R qf) w o = .ok (.done r)) :
    ∃ (qs : List Nat) (rs : Nat → Report Nat Nat), qs.Nodup ∧
      (∀ q, q ∈ qs ↔ (∃ e ∈ refs, e.query = q) ∨ ∃ h ∈ hyps, h.base.query = q) ∧
      (∀ q ∈ qs,
        mainWith R S rng (simpleKit R qf) w { o with querySet := file q } = .ok (.done (rs q))) ∧
      r.mAP.value = roundedMean R (qs.map (fun q => (rs q).gAP.value)) ∧
      r.mNDCG.value = average (qs.map (fun q => (rs q).gNDCG.value)) ∧
      ∀ q ∈ qs, (rs q).dump = r.dump.map (fun d =>
        (d.1.filter (fun m => queryOf m = some q), d.2.filter (fun m => queryOf m = some q))) :=
  C96_program R S rng (simpleKit R qf) (simple_queryWise R qf) (simple_fine R qf) w o ho refText hypText
    m1 m2 refs hyps hr hrt hht h1 h2 hs hg file hfile r h

/-! ## A case -/

/-- The files of the following case: two queries, and for each of them a query set. -/
def decomposeExample : World where
  file f :=
    if f = "ref".toList then some "a d 0 0 2 2\nb d 0 0 2 2\n".toList
    else if f = "a".toList then some "a\n".toList
    else if f = "b".toList then some "b\n".toList
    else none
  stdin := "b d 0 0 2 2 0.5\n\n# x\na d 9 9 2 2 1.5\n".toList
  writable _ := false

/-- `b` is found and `a` is not; the runs for `a` and `b` alone end with reports. -/
example {G : Type} (S : StdSort) (rng : Rng G) :
    let o : ToolOptions := { refFilename := "ref".toList, alpha := 1 / 20 }
    let kit := icdarKit Rnd.exact S
    ∃ (r : Report Str (DocBox Str UInt32)) (qs : List Str)
      (rs : Str → Report Str (DocBox Str UInt32)),
      mainWith Rnd.exact S rng kit decomposeExample o = .ok (.done r) ∧
      qs.Nodup ∧ (∀ q, q ∈ qs ↔ q = "a".toList ∨ q = "b".toList) ∧
      (∀ q ∈ qs, mainWith Rnd.exact S rng kit decomposeExample { o with querySet := q } =
        .ok (.done (rs q))) ∧
      r.mAP.value = roundedMean Rnd.exact (qs.map (fun q => (rs q).gAP.value)) := by
  intro o kit
  obtain ⟨y1, y2⟩ := runExample_yields
  have hfile : decomposeExample.file "ref".toList = some "a d 0 0 2 2\nb d 0 0 2 2\n".toList := by
    unfold decomposeExample
    dsimp only
    rw [if_pos rfl]
  have hstdin : hypText decomposeExample o = some "b d 0 0 2 2 0.5\n\n# x\na d 9 9 2 2 1.5\n".toList :=
    if_pos rfl
  obtain ⟨r, hr, _⟩ := (C62_box_partial Rnd.exact S rng decomposeExample o (fun t t' _ _ =>
    ⟨fun h => by simp [o] at h, fun h => absurd rfl h, fun h => absurd rfl h,
      fun h => by simp [o] at h⟩)).1
    ⟨⟨by decide, ⟨_, hfile, yields_valid y1⟩, ⟨_, hstdin, yields_valid y2⟩,
      fun h => absurd rfl h, fun h => absurd rfl h⟩, Or.inl rfl⟩
  have h1 : readEvents extractBoxEvent identityMap () "a d 0 0 2 2\nb d 0 0 2 2\n".toList =
      ((), [⟨"a".toList, ⟨⟨0, 0, 2, 2⟩, "d".toList⟩⟩, ⟨"b".toList, ⟨⟨0, 0, 2, 2⟩, "d".toList⟩⟩],
        .ok) := by decide +kernel
  have h2 : readEvents (extractScored Rnd.exact extractBoxEvent) identityMap ()
      "b d 0 0 2 2 0.5\n\n# x\na d 9 9 2 2 1.5\n".toList =
      ((), [⟨⟨"b".toList, ⟨⟨0, 0, 2, 2⟩, "d".toList⟩⟩, .fin (1 / 2)⟩,
        ⟨⟨"a".toList, ⟨⟨9, 9, 2, 2⟩, "d".toList⟩⟩, .fin (3 / 2)⟩], .ok) := by decide +kernel
  have hocc : ∀ q : Str, ((∃ e ∈ ([⟨"a".toList, ⟨⟨0, 0, 2, 2⟩, "d".toList⟩⟩,
      ⟨"b".toList, ⟨⟨0, 0, 2, 2⟩, "d".toList⟩⟩] : List (Event Str (DocBox Str UInt32))), e.query = q) ∨
      ∃ h ∈ ([⟨⟨"b".toList, ⟨⟨0, 0, 2, 2⟩, "d".toList⟩⟩, .fin (1 / 2)⟩,
        ⟨⟨"a".toList, ⟨⟨9, 9, 2, 2⟩, "d".toList⟩⟩, .fin (3 / 2)⟩] :
        List (ScoredEvent Str (DocBox Str UInt32))), h.base.query = q) ↔
      q = "a".toList ∨ q = "b".toList := by
    intro q
    constructor
    · rintro (⟨e, he, rfl⟩ | ⟨e, he, rfl⟩)
      · simp only [List.mem_cons, List.not_mem_nil, or_false] at he
        rcases he with rfl | rfl
        · exact Or.inl rfl
        · exact Or.inr rfl
      · simp only [List.mem_cons, List.not_mem_nil, or_false] at he
        rcases he with rfl | rfl
        · exact Or.inr rfl
        · exact Or.inl rfl
    · rintro (rfl | rfl)
      · exact Or.inl ⟨_, List.mem_cons_self, rfl⟩
      · exact Or.inl ⟨_, List.mem_cons_of_mem _ List.mem_cons_self, rfl⟩
  obtain ⟨qs, rs, a1, a2, a3, a4, _⟩ := C96_box Rnd.exact S rng decomposeExample o
    ⟨rfl, rfl, rfl, rfl, rfl, rfl⟩ _ _ _ _ (by decide) hfile hstdin h1 h2 rfl rfl (fun q => q)
    (fun q hq => by
      rcases (hocc q).1 hq with rfl | rfl
      · exact ⟨by decide, "a\n".toList, by decide, by decide +kernel⟩
      · exact ⟨by decide, "b\n".toList, by decide, by decide +kernel⟩) r hr
  exact ⟨r, qs, rs, hr, a1, fun q => (a2 q).trans (hocc q), a3, a4⟩

end Kws
