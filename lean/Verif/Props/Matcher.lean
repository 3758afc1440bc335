import Verif.Lemmas.Matcher
import Verif.Lemmas.Coord
import Mathlib.Algebra.BigOperators.Group.List.Basic

/-!
# C14 - C20: the matcher

`SimpleMatcher.run ix scorer s refs hyps` is `Match(refs, hyps)` on an object whose index is in
state `s`. `ix`, `scorer`, `refs`, `hyps`, `s` are arbitrary.
-/

namespace Kws
open Spec

section Generic
variable {σ RE HE : Type} [Cmp RE] [LawfulCmp RE]

/-! ## C14 -/

/-- C14: whenever `Match` returns, the references occurring in the result are exactly the given
ones, each once; an entry without hypothesis is a false negative of its reference. -/
theorem C14_every_ref_once (ix : RefIndex σ RE HE) (scorer : RE → HE → Cpp MatchError) (s s' : σ)
    (refs : List RE) (hyps : List HE) (result rep : List (Match RE HE))
    (h : SimpleMatcher.run ix scorer s refs hyps = .ok (s', result, rep)) :
    (result.filterMap (·.ref)).Nodup ∧
    (∀ r, r ∈ result.filterMap (·.ref) ↔ r ∈ refs) ∧
    (∀ m ∈ result, m.hyp = none → ∃ r, m = ⟨some r, none, ⟨0, 1⟩⟩) := by
  obtain ⟨hits, fns, rfl, h1, h2, ⟨hs, h3, h4⟩, h5⟩ := run_facts ix scorer s s' refs hyps result rep h
  have hfm : (hits ++ fns.map Match.makeFalseNegative).filterMap
      (fun m : Match RE HE => m.ref) =
      hits.filterMap (·.ref) ++ fns := by
    rw [List.filterMap_append, List.filterMap_map]
    congr 1
    have : ((fun m : Match RE HE => m.ref) ∘ Match.makeFalseNegative) = some := rfl
    rw [this, List.filterMap_some]
  rw [hfm]
  refine ⟨h2.nodup_iff.2 (StdSet.sorted_nodup (StdSet.ofList_sorted refs)), fun r => ?_, ?_⟩
  · rw [h2.mem_iff, StdSet.mem_ofList]
  · intro m hm hn
    rcases List.mem_append.1 hm with hm | hm
    · rcases h5 m hm with ⟨x, rfl⟩ | ⟨r, x, e, rfl, _⟩
      · simp [Match.makeFalsePositive] at hn
      · simp [Match.make] at hn
    · obtain ⟨r, _, rfl⟩ := List.mem_map.1 hm
      exact ⟨r, rfl⟩

/-! ## C15 -/

/-- C15: the result consists of entries with hypotheses, which use hypothesis occurrences at most
once and in input order, followed by the false negatives in strictly increasing order. -/
theorem C15_hyps_in_order (ix : RefIndex σ RE HE) (scorer : RE → HE → Cpp MatchError) (s s' : σ)
    (refs : List RE) (hyps : List HE) (result rep : List (Match RE HE))
    (h : SimpleMatcher.run ix scorer s refs hyps = .ok (s', result, rep)) :
    ∃ (entries : List (Match RE HE)) (used : List HE) (missed : List RE),
      result = entries ++ missed.map (fun r => ⟨some r, none, ⟨0, 1⟩⟩) ∧
      entries.map (·.hyp) = used.map some ∧ used.Sublist hyps ∧
      missed.Pairwise (fun a b => Cmp.lt a b = true) := by
  obtain ⟨hits, fns, rfl, h1, _, ⟨hs, h3, h4⟩, _⟩ := run_facts ix scorer s s' refs hyps result rep h
  exact ⟨hits, hs, fns, rfl, h4, h3, h1⟩

/-! ## C20 -/

/-- C20: the effective number of hypotheses of the result is at most the number of hypotheses. -/
theorem C20_effective_hyps (ix : RefIndex σ RE HE) (scorer : RE → HE → Cpp MatchError) (s s' : σ)
    (refs : List RE) (hyps : List HE) (result rep : List (Match RE HE))
    (h : SimpleMatcher.run ix scorer s refs hyps = .ok (s', result, rep)) :
    (result.map (fun m => m.error.nh)).sum ≤ hyps.length := by
  obtain ⟨hits, fns, rfl, _, _, ⟨hs, h3, h4⟩, _⟩ := run_facts ix scorer s s' refs hyps result rep h
  have h1 : ∀ l : List (Match RE HE), (l.map (fun m => m.error.nh)).sum ≤ l.length := by
    intro l
    induction l with
    | nil => simp
    | cons m l ih =>
      have : m.error.nh ≤ 1 := by unfold MatchError.nh; split <;> omega
      simp only [List.map_cons, List.sum_cons, List.length_cons]
      omega
  have h2 : ∀ l : List RE,
      ((l.map (Match.makeFalseNegative (HE := HE))).map (fun m => m.error.nh)).sum = 0 := by
    intro l
    induction l with
    | nil => rfl
    | cons r l ih =>
      simp only [List.map_cons, List.sum_cons, ih, Match.makeFalseNegative]
      decide
  rw [List.map_append, List.sum_append, h2]
  have h5 : hits.length = hs.length := by
    have := congrArg List.length h4
    simpa using this
  have := h1 hits
  have := h3.length_le
  omega

/-! ## C16 - C18

Assumptions of the following theorems: on the given hypotheses the index search succeeds and
returns only references that were inserted (`overl`), and the scorer succeeds on them (`score`).
The theorems for the two tools at the end show that this is always the case there. -/

open Classical in
/-- C16: the entries without reference are, in order, exactly the hypotheses all of whose
overlapping references are rejected. -/
theorem C16_false_positives (ix : RefIndex σ RE HE) (scorer : RE → HE → Cpp MatchError) (s : σ)
    (overl : HE → List RE) (score : RE → HE → MatchError) (refs : List RE) (hyps : List HE)
    (hov : ∀ h ∈ hyps, ix.findOverlapping (refs.foldl ix.insert (ix.clear s)) h = .ok (overl h))
    (hsub : ∀ h ∈ hyps, ∀ r ∈ overl h, r ∈ refs)
    (hsc : ∀ h ∈ hyps, ∀ r ∈ overl h, scorer r h = .ok (score r h)) :
    ∃ s' result rep, SimpleMatcher.run ix scorer s refs hyps = .ok (s', result, rep) ∧
      result.filter (fun m => m.ref = none) =
        (hyps.filter (fun h => ∀ r ∈ overl h, 1 ≤ (score r h).fp)).map
          (fun h => ⟨none, some h, ⟨1, 0⟩⟩) := by
  obtain ⟨entries, missed, rep, h1, h2, _, _⟩ := run_spec ix scorer s overl score refs hyps hov hsub hsc
  refine ⟨_, _, _, h1, ?_⟩
  rw [List.filter_append, h2.falsePositives]
  have : (missed.map (Match.makeFalseNegative (HE := HE))).filter (fun m => m.ref = none) = [] := by
    rw [List.filter_eq_nil_iff]
    intro m hm
    obtain ⟨r, _, rfl⟩ := List.mem_map.1 hm
    simp [Match.makeFalseNegative]
  rw [this, List.append_nil]

/-- C17: the result is the greedy assignment; for every hypothesis occurrence its entry is
determined by the result of running on the earlier hypotheses only. -/
theorem C17_greedy (ix : RefIndex σ RE HE) (scorer : RE → HE → Cpp MatchError) (s : σ)
    (overl : HE → List RE) (score : RE → HE → MatchError) (refs : List RE) (hyps : List HE)
    (hov : ∀ h ∈ hyps, ix.findOverlapping (refs.foldl ix.insert (ix.clear s)) h = .ok (overl h))
    (hsub : ∀ h ∈ hyps, ∀ r ∈ overl h, r ∈ refs)
    (hsc : ∀ h ∈ hyps, ∀ r ∈ overl h, scorer r h = .ok (score r h)) :
    ∃ (s' : σ) (entries : List (Match RE HE)) (missed : List RE) (rep : List (Match RE HE)),
      SimpleMatcher.run ix scorer s refs hyps =
        .ok (s', entries ++ missed.map (fun r => ⟨some r, none, ⟨0, 1⟩⟩), rep) ∧
      (∀ r, r ∈ missed ↔ r ∈ refs ∧ ¬ Taken entries r) ∧
      ∀ pre h post, hyps = pre ++ h :: post →
        ∃ (earlier entry later : List (Match RE HE)) (missedPre : List RE) (repPre : _),
        entries = earlier ++ entry ++ later ∧
        SimpleMatcher.run ix scorer s refs pre =
          .ok (s', earlier ++ missedPre.map (fun r => ⟨some r, none, ⟨0, 1⟩⟩), repPre) ∧
        (∀ m ∈ earlier, m.hyp ≠ none) ∧
        Deserves earlier (overl h) (fun r => score r h) h entry := by
  obtain ⟨entries, missed, rep, h1, h2, _, h4⟩ := run_spec ix scorer s overl score refs hyps hov hsub hsc
  refine ⟨_, entries, missed, rep, h1, h4, ?_⟩
  rintro pre h post rfl
  obtain ⟨e1, e2, r1, r2, rfl, rfl, g1, g2⟩ := Greedy.split h2
  obtain ⟨e1', missed', r1', k1, k2, _, _⟩ := run_spec ix scorer s overl score refs pre
    (fun x hx => hov x (List.mem_append_left _ hx)) (fun x hx => hsub x (List.mem_append_left _ hx))
    (fun x hx => hsc x (List.mem_append_left _ hx))
  obtain ⟨rfl, rfl⟩ := g1.unique k2
  cases g2 with
  | cons _ _ _ entry repeats later rep' d1 d2 d3 =>
    refine ⟨e1, entry, later, missed', r1, by simp, k1, ?_, by simpa using d1⟩
    intro m hm hn
    obtain ⟨x, _, hx⟩ := g1.hyp_mem m hm
    rw [hn] at hx
    cases hx

/-- C18: for every hypothesis occurrence, its repeated matches are its accepted references up to
the first free one; they are listed in the order of the hypotheses. -/
theorem C18_repeated (ix : RefIndex σ RE HE) (scorer : RE → HE → Cpp MatchError) (s : σ)
    (overl : HE → List RE) (score : RE → HE → MatchError) (refs : List RE) (hyps : List HE)
    (hov : ∀ h ∈ hyps, ix.findOverlapping (refs.foldl ix.insert (ix.clear s)) h = .ok (overl h))
    (hsub : ∀ h ∈ hyps, ∀ r ∈ overl h, r ∈ refs)
    (hsc : ∀ h ∈ hyps, ∀ r ∈ overl h, scorer r h = .ok (score r h)) :
    ∃ s' result rep, SimpleMatcher.run ix scorer s refs hyps = .ok (s', result, rep) ∧
      (hyps = [] → rep = []) ∧
      ∀ pre h post, hyps = pre ++ h :: post →
        ∃ (earlier : List (Match RE HE)) (missedPre : List RE)
          (repPre repHere repLater : List (Match RE HE)),
        SimpleMatcher.run ix scorer s refs pre =
          .ok (s', earlier ++ missedPre.map (fun r => ⟨some r, none, ⟨0, 1⟩⟩), repPre) ∧
        (∀ m ∈ earlier, m.hyp ≠ none) ∧
        rep = repPre ++ repHere ++ repLater ∧ (post = [] → repLater = []) ∧
        DeservesRepeated earlier (overl h) (fun r => score r h) h repHere := by
  obtain ⟨entries, missed, rep, h1, h2, _, h4⟩ := run_spec ix scorer s overl score refs hyps hov hsub hsc
  refine ⟨_, _, rep, h1, ?_, ?_⟩
  · rintro rfl
    cases h2
    rfl
  rintro pre h post rfl
  obtain ⟨e1, e2, r1, r2, rfl, rfl, g1, g2⟩ := Greedy.split h2
  obtain ⟨e1', missed', r1', k1, k2, _, _⟩ := run_spec ix scorer s overl score refs pre
    (fun x hx => hov x (List.mem_append_left _ hx)) (fun x hx => hsub x (List.mem_append_left _ hx))
    (fun x hx => hsc x (List.mem_append_left _ hx))
  obtain ⟨rfl, rfl⟩ := g1.unique k2
  cases g2 with
  | cons _ _ _ entry repeats later rep' d1 d2 d3 =>
    refine ⟨e1, missed', r1, repeats, rep', k1, ?_, by simp, ?_, by simpa using d2⟩
    · intro m hm hn
      obtain ⟨x, _, hx⟩ := g1.hyp_mem m hm
      rw [hn] at hx
      cases hx
    · rintro rfl
      cases d3
      rfl

/-- C18: if no hypothesis is listed twice, no repeated match appears in the result. -/
theorem C18_repeated_not_in_result (ix : RefIndex σ RE HE) (scorer : RE → HE → Cpp MatchError)
    (s s' : σ) (overl : HE → List RE) (score : RE → HE → MatchError) (refs : List RE)
    (hyps : List HE)
    (hov : ∀ h ∈ hyps, ix.findOverlapping (refs.foldl ix.insert (ix.clear s)) h = .ok (overl h))
    (hsub : ∀ h ∈ hyps, ∀ r ∈ overl h, r ∈ refs)
    (hsc : ∀ h ∈ hyps, ∀ r ∈ overl h, scorer r h = .ok (score r h)) (hnd : hyps.Nodup)
    (result rep : List (Match RE HE))
    (h : SimpleMatcher.run ix scorer s refs hyps = .ok (s', result, rep)) :
    ∀ m ∈ rep, m ∉ result := by
  obtain ⟨entries, missed, rep', h1, h2, _, _⟩ := run_spec ix scorer s overl score refs hyps hov hsub hsc
  have hrefs := (C14_every_ref_once ix scorer s s' refs hyps result rep h).1
  rw [h1, Except.ok.injEq, Prod.mk.injEq, Prod.mk.injEq] at h
  obtain ⟨_, rfl, rfl⟩ := h
  clear h1
  -- a repeated match has a reference taken by an entry of an earlier, hence different, hypothesis
  have key : ∀ (earlier : List (Match RE HE)) (hyps : List HE) (e r : List (Match RE HE)),
      Greedy overl score earlier hyps e r → hyps.Nodup →
      (∀ m ∈ earlier, ∀ x ∈ hyps, m.hyp ≠ some x) →
      ∀ m ∈ r, ∃ m' ∈ earlier ++ e, m'.ref = m.ref ∧ m.ref ≠ none ∧ m' ≠ m ∧ m.hyp ≠ none := by
    intro earlier hyps e r hg
    induction hg with
    | nil => intro _ _ m hm; simp at hm
    | cons earlier x hs entry repeats entries repeated d1 d2 _ ih =>
      intro hnd hear m hm
      rw [List.nodup_cons] at hnd
      rcases List.mem_append.1 hm with hm | hm
      · obtain ⟨l1, l2, a1, a2, a3, rfl⟩ := d2
        obtain ⟨r, hr, rfl⟩ := List.mem_map.1 hm
        rw [List.mem_filter] at hr
        obtain ⟨m', hm', hm''⟩ := a2 r hr.1 (by simpa using hr.2)
        refine ⟨m', List.mem_append_left _ hm', hm'', by simp, ?_, by simp⟩
        rintro rfl
        exact hear _ hm' x List.mem_cons_self rfl
      · obtain ⟨m', hm', g⟩ := ih hnd.2 (by
          intro m' hm' y hy
          rcases List.mem_append.1 hm' with hm' | hm'
          · exact hear m' hm' y (List.mem_cons_of_mem _ hy)
          · rw [deserves_shape d1 m' hm']
            intro hxy
            cases hxy
            exact hnd.1 hy) m hm
        exact ⟨m', by simpa using hm', g⟩
  intro m hm hmem
  obtain ⟨m', hm', g1, g2, g3, g4⟩ := key [] hyps entries rep' h2 hnd (by simp) m hm
  have hm'' : m' ∈ entries := by simpa using hm'
  -- two different entries with the same reference contradict C14
  have hm2 : m' ∈ entries ++ missed.map Match.makeFalseNegative := List.mem_append_left _ hm''
  obtain ⟨r, hr⟩ := Option.ne_none_iff_exists'.1 g2
  have uniq : ∀ (l : List (Match RE HE)), (l.filterMap (·.ref)).Nodup → ∀ a ∈ l, ∀ b ∈ l,
      a.ref = some r → b.ref = some r → a = b := by
    intro l
    induction l with
    | nil => intro _ a ha; simp at ha
    | cons c l ih =>
      intro hn a ha b hb har hbr
      have memr : ∀ x ∈ l, x.ref = some r → r ∈ l.filterMap (·.ref) := fun x hx hxr =>
        List.mem_filterMap.2 ⟨x, hx, hxr⟩
      cases hc : c.ref with
      | none =>
        rw [List.filterMap_cons_none hc] at hn
        rcases List.mem_cons.1 ha with rfl | ha
        · rw [hc] at har; cases har
        · rcases List.mem_cons.1 hb with rfl | hb
          · rw [hc] at hbr; cases hbr
          · exact ih hn a ha b hb har hbr
      | some y =>
        rw [List.filterMap_cons_some hc, List.nodup_cons] at hn
        rcases List.mem_cons.1 ha with ha1 | ha1
        · rcases List.mem_cons.1 hb with hb1 | hb1
          · rw [ha1, hb1]
          · rw [ha1, hc] at har
            cases har
            exact absurd (memr b hb1 hbr) hn.1
        · rcases List.mem_cons.1 hb with hb1 | hb1
          · rw [hb1, hc] at hbr
            cases hbr
            exact absurd (memr a ha1 har) hn.1
          · exact ih hn.2 a ha1 b hb1 har hbr
  exact g3 (uniq _ hrefs m' hm2 m hmem (g1.trans hr) hr)

end Generic

/-- C18: the restriction to distinct hypotheses is needed: a hypothesis listed twice is once in
the result and once, with the same value, among the repeated matches. -/
theorem C18_repeated_needs_distinct :
    ∃ (refs : List (Event Nat Nat)) (hyps : List (ScoredEvent Nat Nat)) (m : Match _ _) (s' : _)
      (result rep : _),
      SimpleMatcher.run (plainIndex Nat Nat) trivialScorer EventSet.new refs hyps =
        .ok (s', result, rep) ∧ m ∈ result ∧ m ∈ rep :=
  ⟨[⟨1, 1⟩], [⟨⟨1, 1⟩, .fin 0⟩, ⟨⟨1, 1⟩, .fin 0⟩], ⟨some ⟨1, 1⟩, some ⟨⟨1, 1⟩, .fin 0⟩, ⟨0, 0⟩⟩, _, _, _,
    rfl, by decide, by decide⟩

/-! ## The box tool -/

/-- C16, C17, C18 apply to the box tool: with `uint32_t` coordinates every search succeeds and
returns inserted references, best first. -/
theorem C17_box_search {Q D : Type} [DecidableEq Q] [DecidableEq D] [Cmp Q]
    [LawfulCmp Q] [Cmp D] [LawfulCmp D] (S : StdSort) (s : DocEventSet Q D UInt32)
    (refs : List (Event Q (DocBox D UInt32))) (h : ScoredEvent Q (DocBox D UInt32)) :
    ∃ overl, (docIndex S Q D UInt32).findOverlapping
        (refs.foldl (docIndex S Q D UInt32).insert ((docIndex S Q D UInt32).clear s)) h =
        .ok overl ∧ overl.Nodup ∧
      (∀ r, r ∈ overl ↔ r ∈ refs ∧ r.query = h.base.query ∧
        r.location.document = h.base.location.document ∧
        ∃ a, r.location.toBBox.intersectionArea h.base.location.toBBox = .ok a ∧ 0 < a) ∧
      overl.Pairwise (fun x y => ∃ a b,
        x.location.toBBox.intersectionArea h.base.location.toBBox = .ok a ∧
        y.location.toBBox.intersectionArea h.base.location.toBBox = .ok b ∧ b ≤ a) := by
  have hex : ∀ x : Event Q (DocBox D UInt32), ∃ a,
      x.location.toBBox.intersectionArea h.base.location.toBBox = .ok a := fun x => u32_inter_ok _ _
  choose area harea using hex
  obtain ⟨l, h1, h2, h3, h4⟩ := DocEventSet.find_spec S _ _ (doc_foldl_holds S refs s) h.base area
    (by
      intro x _ _ hd
      unfold DocBox.intersectionArea
      rw [if_pos ((LawfulCmp.eq_iff _ _).2 hd), harea])
  refine ⟨l, h1, h2, ?_, ?_⟩
  · intro x
    have hpos : ∀ a : UInt32, Cmp.lt (Coord.zero : UInt32) a = true ↔ 0 < a := by
      intro a; simp [Cmp.lt, Coord.zero]
    rw [h3, hpos]
    constructor
    · rintro ⟨a, b, c, d⟩; exact ⟨a, b, c, area x, harea x, d⟩
    · rintro ⟨a, b, c, a', ha', d⟩
      rw [harea, Except.ok.injEq] at ha'
      subst ha'
      exact ⟨a, b, c, d⟩
  · refine h4.imp ?_
    intro x y hxy
    refine ⟨area x, area y, harea x, harea y, ?_⟩
    rcases hxy with hxy | ⟨hxy, _⟩
    · have : area y < area x := by simpa [Cmp.lt] using hxy
      exact UInt32.le_of_lt this
    · rw [hxy]; exact UInt32.le_refl _

/-- C17, box tool: the reference given to a hypothesis has the largest intersection area among the
accepted overlapping references that are still free. -/
theorem C17_box_best {Q D : Type} (area : Event Q (DocBox D UInt32) → UInt32)
    (earlier : List (Match (Event Q (DocBox D UInt32)) (ScoredEvent Q (DocBox D UInt32))))
    (overl : List (Event Q (DocBox D UInt32))) (score : Event Q (DocBox D UInt32) → MatchError)
    (hord : overl.Pairwise (fun x y => area y ≤ area x))
    (h : ScoredEvent Q (DocBox D UInt32)) (r : Event Q (DocBox D UInt32)) (err : MatchError)
    (hd : Deserves earlier overl score h [⟨some r, some h, err⟩]) :
    r ∈ overl ∧ (score r).fp < 1 ∧ ¬ Taken earlier r ∧ err = score r ∧
    ∀ r' ∈ overl, (score r').fp < 1 → ¬ Taken earlier r' → area r' ≤ area r := by
  rcases hd with ⟨_, hb⟩ | ⟨l1, r0, l2, ha, hb, hc, hd, he⟩ | ⟨_, _, hc⟩
  · simp at hb
  · simp only [List.cons.injEq, Match.mk.injEq, Option.some.injEq, and_true, true_and] at he
    obtain ⟨rfl, rfl⟩ := he
    refine ⟨by rw [ha]; simp, hb, hc, rfl, ?_⟩
    intro r' hr' hlt hfree
    rw [ha] at hr' hord
    rcases List.mem_append.1 hr' with hr' | hr'
    · exact absurd (hd r' hr' hlt) hfree
    · rcases List.mem_cons.1 hr' with rfl | hr'
      · exact UInt32.le_refl _
      · rw [List.pairwise_append, List.pairwise_cons] at hord
        exact hord.2.1.1 r' hr'
  · simp at hc

/-! ## The segmentation tool -/

/-- C16, C17, C18 apply to the segmentation tool: every search succeeds; an event overlaps exactly
itself. -/
theorem C17_plain_search {Q L : Type} [DecidableEq Q] [DecidableEq L] [Cmp Q] [LawfulCmp Q] [Cmp L]
    [LawfulCmp L] (s : EventSet (Event Q L)) (refs : List (Event Q L)) (h : ScoredEvent Q L) :
    (plainIndex Q L).findOverlapping
      (refs.foldl (plainIndex Q L).insert ((plainIndex Q L).clear s)) h =
      .ok (if h.base ∈ refs then [h.base] else []) :=
  plain_find refs s h

/-! ## C19 -/

/-- C19 for the box tool: with reference lists having the same elements, any two histories, and
even different sorting algorithms, result and repeated matches are the same (also when the call
goes wrong). -/
theorem C19_refs_as_set_box {Q D T : Type} [DecidableEq Q] [DecidableEq D] [Cmp Q] [LawfulCmp Q]
    [Cmp D] [LawfulCmp D] [Coord T] [LawfulCmp T] (S S' : StdSort) (s s' : DocEventSet Q D T)
    (scorer : Event Q (DocBox D T) → ScoredEvent Q (DocBox D T) → Cpp MatchError)
    (refs refs' : List (Event Q (DocBox D T))) (hyps : List (ScoredEvent Q (DocBox D T)))
    (h : ∀ r, r ∈ refs ↔ r ∈ refs') :
    (SimpleMatcher.run (docIndex S Q D T) scorer s refs hyps).map (·.2) =
    (SimpleMatcher.run (docIndex S' Q D T) scorer s' refs' hyps).map (·.2) := by
  have hl := loop_congr (docIndex S Q D T) (docIndex S' Q D T) scorer
    (refs.foldl (docIndex S Q D T).insert ((docIndex S Q D T).clear s))
    (refs'.foldl (docIndex S' Q D T).insert ((docIndex S' Q D T).clear s'))
    (StdSet.ofList Cmp.lt refs) hyps
    (fun x _ => DocEventSet.find_congr S S' _ _ _ (doc_foldl_holds S refs s)
      (DocEventSet.holds_congr (doc_foldl_holds S' refs' s') (fun e => (h e).symm)) x.base)
  unfold SimpleMatcher.run
  rw [ofList_congr h] at hl
  simp only [bind, Except.bind, ofList_congr h, hl]
  cases SimpleMatcher.loop (docIndex S' Q D T) scorer
    (refs'.foldl (docIndex S' Q D T).insert ((docIndex S' Q D T).clear s'))
    (StdSet.ofList Cmp.lt refs') hyps <;> rfl

/-- C19 for the segmentation tool. -/
theorem C19_refs_as_set_plain {Q L : Type} [DecidableEq Q] [DecidableEq L] [Cmp Q] [LawfulCmp Q]
    [Cmp L] [LawfulCmp L] (s s' : EventSet (Event Q L))
    (scorer : Event Q L → ScoredEvent Q L → Cpp MatchError)
    (refs refs' : List (Event Q L)) (hyps : List (ScoredEvent Q L))
    (h : ∀ r, r ∈ refs ↔ r ∈ refs') :
    (SimpleMatcher.run (plainIndex Q L) scorer s refs hyps).map (·.2) =
    (SimpleMatcher.run (plainIndex Q L) scorer s' refs' hyps).map (·.2) := by
  have hl := loop_congr (plainIndex Q L) (plainIndex Q L) scorer
    (refs.foldl (plainIndex Q L).insert ((plainIndex Q L).clear s))
    (refs'.foldl (plainIndex Q L).insert ((plainIndex Q L).clear s'))
    (StdSet.ofList Cmp.lt refs) hyps
    (fun x _ => by rw [plain_find, plain_find]; simp only [h])
  unfold SimpleMatcher.run
  rw [ofList_congr h] at hl
  simp only [bind, Except.bind, ofList_congr h, hl]
  cases SimpleMatcher.loop (plainIndex Q L) scorer
    (refs'.foldl (plainIndex Q L).insert ((plainIndex Q L).clear s'))
    (StdSet.ofList Cmp.lt refs') hyps <;> rfl

/-- A run with a hit, a repetition, a false positive and a false negative. -/
example :
    (SimpleMatcher.run (plainIndex Nat Nat) trivialScorer EventSet.new
      [⟨2, 2⟩, ⟨1, 1⟩, ⟨1, 1⟩]
      [⟨⟨1, 1⟩, .fin 3⟩, ⟨⟨1, 1⟩, .fin 2⟩, ⟨⟨5, 5⟩, .fin 1⟩]).map (·.2) =
    .ok ([⟨some ⟨1, 1⟩, some ⟨⟨1, 1⟩, .fin 3⟩, ⟨0, 0⟩⟩, ⟨none, some ⟨⟨5, 5⟩, .fin 1⟩, ⟨1, 0⟩⟩,
      ⟨some ⟨2, 2⟩, none, ⟨0, 1⟩⟩], [⟨some ⟨1, 1⟩, some ⟨⟨1, 1⟩, .fin 2⟩, ⟨0, 0⟩⟩]) := by
  rfl

end Kws
