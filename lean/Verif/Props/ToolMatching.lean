import Verif.Props.Matcher
import Verif.Props.Sets
import Verif.Props.Scorers
import Verif.Lemmas.Total
import Verif.Lemmas.SegTally
import Verif.Spec.Evaluation

/-!
# C09, C14-C18, C20: sets and matching as the two tools use them

The theorems of `Props/Sets.lean` and `Props/Matcher.lean` hold for any lawfully ordered events, any
search and any scorer. Here they are stated for the events, searches and scorers of the two tools.
-/

namespace Kws
open Spec

/-! ## The set of the segmentation-based tool -/

/-- C09 for events. -/
theorem C09_events {Q L : Type} [Cmp Q] [LawfulCmp Q] [Cmp L] [LawfulCmp L]
    (ops : List (SetOp (Event Q L))) :
    HasCount (Present ops) (ops.foldl EventSet.step EventSet.new).size ∧
    ∀ e, (Present ops e → (ops.foldl EventSet.step EventSet.new).findOverlapping e = [e]) ∧
      (¬ Present ops e → (ops.foldl EventSet.step EventSet.new).findOverlapping e = []) :=
  C09_plain_set ops

/-- Two events of the same query, two of the same location. -/
example :
    (([.insert ⟨1, 1⟩, .insert ⟨1, 2⟩, .insert ⟨2, 1⟩, .insert ⟨1, 1⟩] : List (SetOp (Event Nat Nat))).foldl
      EventSet.step EventSet.new).size = 3 := by decide

/-! ## The segmentation-based tool -/

section
variable {Q L : Type} [DecidableEq Q] [DecidableEq L] [Cmp Q] [LawfulCmp Q] [Cmp L] [LawfulCmp L]

theorem seg_run_ok (s : EventSet (Event Q L)) (refs : List (Event Q L)) (hyps : List (ScoredEvent Q L)) :
    ∃ t, SimpleMatcher.run (plainIndex Q L) trivialScorer s refs hyps = .ok t :=
  run_total _ _ s refs hyps (fun r h => by unfold trivialScorer; split <;> exact ⟨_, rfl⟩)
    (fun h _ => ⟨_, plain_find refs s h⟩)

/-- C14 for the segmentation-based tool: matching never fails; every reference, however often it is
listed, occurs exactly once. -/
theorem C14_segmentation (s : EventSet (Event Q L)) (refs : List (Event Q L))
    (hyps : List (ScoredEvent Q L)) : ∃ s' result rep,
    SimpleMatcher.run (plainIndex Q L) trivialScorer s refs hyps = .ok (s', result, rep) ∧
    (result.filterMap (·.ref)).Nodup ∧ (∀ r, r ∈ result.filterMap (·.ref) ↔ r ∈ refs) ∧
    (∀ m ∈ result, m.hyp = none → ∃ r, m = ⟨some r, none, ⟨0, 1⟩⟩) := by
  obtain ⟨⟨s', result, rep⟩, h⟩ := seg_run_ok s refs hyps
  exact ⟨s', result, rep, h, C14_every_ref_once _ _ _ _ _ _ _ _ h⟩

theorem trivial_same (h : ScoredEvent Q L) : trivialScorer h.base h = .ok ⟨0, 0⟩ := by
  rw [C24_trivial_scorer]
  unfold verdict
  rw [if_pos rfl]

/-- C16 for the segmentation-based tool: the false positives are the hypotheses that are no
references. -/
theorem C16_segmentation (s : EventSet (Event Q L)) (refs : List (Event Q L))
    (hyps : List (ScoredEvent Q L)) : ∃ s' result rep,
    SimpleMatcher.run (plainIndex Q L) trivialScorer s refs hyps = .ok (s', result, rep) ∧
    result.filter (fun m => m.ref.isNone) =
      (hyps.filter (fun h => h.base ∉ refs)).map (fun h => ⟨none, some h, ⟨1, 0⟩⟩) := by
  classical
  obtain ⟨s', result, rep, h1, h2⟩ := C16_false_positives (plainIndex Q L) trivialScorer s
    (fun h => if h.base ∈ refs then [h.base] else []) (fun _ _ => ⟨0, 0⟩) refs hyps
    (fun h _ => plain_find refs s h) (by intro h _ r hr; split at hr <;> simp_all)
    (by
      intro h _ r hr
      split at hr
      · rw [List.mem_singleton] at hr
        subst hr
        exact trivial_same h
      · cases hr)
  refine ⟨s', result, rep, h1, ?_⟩
  rw [show (fun m : KwsMatch Q L => m.ref.isNone) = (fun m => decide (m.ref = none)) by
    funext m; cases m.ref <;> simp]
  rw [h2]
  congr 1
  refine List.filter_congr fun h _ => ?_
  rw [decide_eq_decide]
  by_cases hh : h.base ∈ refs <;> simp [hh]

/-- C18 for the segmentation-based tool: the repeated matches are, in order, those of the hypotheses
that are references and equal an earlier hypothesis. -/
theorem C18_segmentation (s : EventSet (Event Q L)) (refs : List (Event Q L))
    (hyps : List (ScoredEvent Q L)) (h : ScoredEvent Q L) : ∃ s' result rep result' rep',
    SimpleMatcher.run (plainIndex Q L) trivialScorer s refs hyps = .ok (s', result, rep) ∧
    SimpleMatcher.run (plainIndex Q L) trivialScorer s refs (hyps ++ [h]) = .ok (s', result', rep') ∧
    rep' = rep ++ (if h.base ∈ refs ∧ h.base ∈ hyps.map (·.base) then
      [⟨some h.base, some h, ⟨0, 0⟩⟩] else []) ∧ (hyps = [] → rep = []) := by
  have hsc : ∀ x : ScoredEvent Q L, ∀ r ∈ (if x.base ∈ refs then [x.base] else []),
      trivialScorer r x = .ok ⟨0, 0⟩ := by
    intro x r hr
    split at hr
    · rw [List.mem_singleton] at hr
      subst hr
      exact trivial_same x
    · cases hr
  have hsub : ∀ x : ScoredEvent Q L, ∀ r ∈ (if x.base ∈ refs then [x.base] else []), r ∈ refs := by
    intro x r hr
    split at hr <;> simp_all
  obtain ⟨s', result', rep', a1, _, a3⟩ := C18_repeated (plainIndex Q L) trivialScorer s
    (fun h => if h.base ∈ refs then [h.base] else []) (fun _ _ => ⟨0, 0⟩) refs (hyps ++ [h])
    (fun h _ => plain_find refs s h) (fun x _ => hsub x) (fun x _ => hsc x)
  obtain ⟨earlier, missedPre, repPre, repHere, repLater, b1, b2, b3, b4, b5⟩ := a3 hyps h [] rfl
  obtain ⟨s2, result, rep, c1, c2, _⟩ := C18_repeated (plainIndex Q L) trivialScorer s
    (fun h => if h.base ∈ refs then [h.base] else []) (fun _ _ => ⟨0, 0⟩) refs hyps
    (fun h _ => plain_find refs s h) (fun x _ => hsub x) (fun x _ => hsc x)
  rw [b1, Except.ok.injEq, Prod.mk.injEq, Prod.mk.injEq] at c1
  obtain ⟨rfl, rfl, rfl⟩ := c1
  refine ⟨s', _, repPre, result', rep', b1, a1, ?_, c2⟩
  rw [b3, b4 rfl, List.append_nil]
  congr 1
  -- which references the earlier hypotheses took
  obtain ⟨s3, missed, rep3, d1, _, _⟩ := C24_segmentation_result s refs hyps
  rw [b1, Except.ok.injEq, Prod.mk.injEq, Prod.mk.injEq] at d1
  obtain ⟨_, d1, _⟩ := d1
  have hfil : earlier = segEntries refs [] hyps := by
    have := congrArg (List.filter (fun m : KwsMatch Q L => m.hyp.isSome)) d1
    have hnone : ∀ l : List (Event Q L), (l.map (fun r => (⟨some r, none, ⟨0, 1⟩⟩ : KwsMatch Q L))).filter
        (fun m => m.hyp.isSome) = [] := by
      intro l
      rw [List.filter_eq_nil_iff]
      intro m hm
      obtain ⟨r, _, rfl⟩ := List.mem_map.1 hm
      simp
    rw [List.filter_append, List.filter_append, hnone, hnone, List.append_nil, List.append_nil,
      List.filter_eq_self.2, List.filter_eq_self.2] at this
    · exact this
    · intro m hm
      obtain ⟨x, _, e⟩ := segEntries_scores refs hyps [] m hm
      rw [e]; rfl
    · intro m hm
      rw [Option.isSome_iff_ne_none]
      exact b2 m hm
  have htaken : h.base ∈ refs → (Taken earlier h.base ↔ h.base ∈ hyps.map (·.base)) := by
    intro hr
    rw [hfil]
    constructor
    · rintro ⟨m, hm, e⟩
      obtain ⟨x, rfl, hx⟩ := (segEntries_hits refs hyps [] m).1 ⟨hm, by rw [e]; rfl⟩
      obtain ⟨_, _, pre, post, rfl, _⟩ := hx
      injection e with e
      exact List.mem_map.2 ⟨x, by simp, e⟩
    · intro hm
      cases hf : hyps.find? (fun x => x.base = h.base) with
      | none =>
        obtain ⟨x, hx, e⟩ := List.mem_map.1 hm
        exact absurd e (by simpa using List.find?_eq_none.1 hf x hx)
      | some x =>
        obtain ⟨p1, pre, post, p2, p3⟩ := List.find?_eq_some_iff_append.1 hf
        have p1 : x.base = h.base := by simpa using p1
        refine ⟨⟨some x.base, some x, ⟨0, 0⟩⟩, ((segEntries_hits refs hyps [] _).2
          ⟨x, rfl, by rw [p1]; exact hr, by simp, pre, post, p2, fun y hy => ?_⟩).1, by rw [p1]⟩
        rw [p1]
        simpa using p3 y hy
  obtain ⟨l1, l2, e1, e2, e3, e4⟩ := b5
  rw [e4]
  by_cases hr : h.base ∈ refs
  · rw [if_pos hr] at e1
    by_cases ht : Taken earlier h.base
    · rw [if_pos ⟨hr, (htaken hr).1 ht⟩]
      cases l1 with
      | nil =>
        rw [List.nil_append] at e1
        subst e1
        exact absurd ht (e3 h.base rfl).2
      | cons a l1 =>
        simp only [List.cons_append, List.cons.injEq, List.nil_eq, List.append_eq_nil_iff] at e1
        obtain ⟨rfl, rfl, rfl⟩ := e1
        simp
    · rw [if_neg (fun h => ht ((htaken hr).2 h.2))]
      cases l1 with
      | nil => rfl
      | cons a l1 =>
        simp only [List.cons_append, List.cons.injEq, List.nil_eq, List.append_eq_nil_iff] at e1
        obtain ⟨rfl, rfl, rfl⟩ := e1
        exact absurd (e2 h.base (by simp) (by norm_num)) ht
  · rw [if_neg hr] at e1
    rw [if_neg (fun h => hr h.1)]
    cases l1 with
    | nil => rfl
    | cons a l1 => simp at e1

/-- C20 for the segmentation-based tool. -/
theorem C20_segmentation (s : EventSet (Event Q L)) (refs : List (Event Q L))
    (hyps : List (ScoredEvent Q L)) : ∃ s' result rep,
    SimpleMatcher.run (plainIndex Q L) trivialScorer s refs hyps = .ok (s', result, rep) ∧
    (result.map (fun m => m.error.nh)).sum ≤ hyps.length := by
  obtain ⟨⟨s', result, rep⟩, h⟩ := seg_run_ok s refs hyps
  exact ⟨s', result, rep, h, C20_effective_hyps _ _ _ _ _ _ _ _ h⟩

end

/-- Two hypotheses of one reference, one of no reference, a reference listed twice. -/
example : (SimpleMatcher.run (plainIndex Nat Nat) trivialScorer EventSet.new [⟨1, 1⟩, ⟨1, 1⟩, ⟨1, 2⟩]
      [⟨⟨1, 1⟩, .fin 3⟩, ⟨⟨1, 1⟩, .fin 2⟩, ⟨⟨2, 2⟩, .fin 1⟩]).map (·.2) =
    .ok ([⟨some ⟨1, 1⟩, some ⟨⟨1, 1⟩, .fin 3⟩, ⟨0, 0⟩⟩, ⟨none, some ⟨⟨2, 2⟩, .fin 1⟩, ⟨1, 0⟩⟩,
      ⟨some ⟨1, 2⟩, none, ⟨0, 1⟩⟩], [⟨some ⟨1, 1⟩, some ⟨⟨1, 1⟩, .fin 2⟩, ⟨0, 0⟩⟩]) := by
  decide +kernel

/-! ## The box tool -/

section
variable {Q D : Type} [DecidableEq Q] [DecidableEq D] [Cmp Q] [LawfulCmp Q] [Cmp D] [LawfulCmp D]

theorem box_run_ok (R : Rnd) (S : StdSort) (s : DocEventSet Q D UInt32)
    (refs : List (Event Q (DocBox D UInt32))) (hyps : List (ScoredEvent Q (DocBox D UInt32))) :
    ∃ t, SimpleMatcher.run (docIndex S Q D UInt32) (iohScorer R (1 / 2)) s refs hyps = .ok t :=
  run_total _ _ s refs hyps
    (fun r h => by obtain ⟨i, hi⟩ := inter_ok r h.base; exact ⟨_, ioh_eq R (1 / 2) r h i hi⟩)
    (fun h _ => by obtain ⟨ov, h, _⟩ := C17_box_search S s refs h; exact ⟨ov, h⟩)

/-- C14 for the box tool: matching never fails; every reference, however often it is listed, occurs
exactly once. -/
theorem C14_box (R : Rnd) (S : StdSort) (s : DocEventSet Q D UInt32)
    (refs : List (Event Q (DocBox D UInt32))) (hyps : List (ScoredEvent Q (DocBox D UInt32))) :
    ∃ s' result rep,
    SimpleMatcher.run (docIndex S Q D UInt32) (iohScorer R (1 / 2)) s refs hyps = .ok (s', result, rep) ∧
    (result.filterMap (·.ref)).Nodup ∧ (∀ r, r ∈ result.filterMap (·.ref) ↔ r ∈ refs) ∧
    (∀ m ∈ result, m.hyp = none → ∃ r, m = ⟨some r, none, ⟨0, 1⟩⟩) := by
  obtain ⟨⟨s', result, rep⟩, h⟩ := box_run_ok R S s refs hyps
  exact ⟨s', result, rep, h, C14_every_ref_once _ _ _ _ _ _ _ _ h⟩

/-- C20 for the box tool. -/
theorem C20_box (R : Rnd) (S : StdSort) (s : DocEventSet Q D UInt32)
    (refs : List (Event Q (DocBox D UInt32))) (hyps : List (ScoredEvent Q (DocBox D UInt32))) :
    ∃ s' result rep,
    SimpleMatcher.run (docIndex S Q D UInt32) (iohScorer R (1 / 2)) s refs hyps = .ok (s', result, rep) ∧
    (result.map (fun m => m.error.nh)).sum ≤ hyps.length := by
  obtain ⟨⟨s', result, rep⟩, h⟩ := box_run_ok R S s refs hyps
  exact ⟨s', result, rep, h, C20_effective_hyps _ _ _ _ _ _ _ _ h⟩

end

theorem box_search {Q D : Type} [DecidableEq Q] [DecidableEq D] [Cmp Q] [LawfulCmp Q] [Cmp D]
    [LawfulCmp D] (S : StdSort) (s : DocEventSet Q D UInt32)
    (refs : List (Event Q (DocBox D UInt32))) (h : ScoredEvent Q (DocBox D UInt32))
    (hr : ∀ r ∈ refs, EdgesOkU r.location.toBBox) (hh : InRangeU h.base) :
    ∃ overl, (docIndex S Q D UInt32).findOverlapping
        (refs.foldl (docIndex S Q D UInt32).insert ((docIndex S Q D UInt32).clear s)) h =
        .ok overl ∧ overl.Nodup ∧
      (∀ r, r ∈ overl ↔ r ∈ refs ∧ r.query = h.base.query ∧ 0 < commonU r h.base) ∧
      overl.Pairwise (fun x y => commonU y h.base ≤ commonU x h.base) := by
  obtain ⟨ov, h1, h2, h3, h4⟩ := C17_box_search S s refs h
  have hval : ∀ r ∈ refs, r.location.document = h.base.location.document →
      ∀ a, r.location.toBBox.intersectionArea h.base.location.toBBox = .ok a →
        a.toNat = commonU r h.base := by
    intro r hr' hd a ha
    refine inter_val r h.base (hr r hr') hh.1 ((common_le_right _ _).trans_lt hh.2) a ?_
    unfold Event.intersectionArea DocBox.intersectionArea
    rw [if_pos ((LawfulCmp.eq_iff _ _).2 hd), ha]
  refine ⟨ov, h1, h2, ?_, ?_⟩
  · intro r
    rw [h3]
    constructor
    · rintro ⟨a1, a2, a3, a, ha, hp⟩
      refine ⟨a1, a2, ?_⟩
      rw [← hval r a1 a3 a ha]
      exact UInt32.lt_iff_toNat_lt.1 hp
    · rintro ⟨a1, a2, a3⟩
      have hd : r.location.document = h.base.location.document := by
        by_contra hd
        unfold commonU at a3
        rw [if_neg hd] at a3
        omega
      obtain ⟨a, ha⟩ := u32_inter_ok r.location.toBBox h.base.location.toBBox
      refine ⟨a1, a2, hd, a, ha, ?_⟩
      rw [← hval r a1 hd a ha] at a3
      exact UInt32.lt_iff_toNat_lt.2 a3
  · refine h4.imp_of_mem ?_
    rintro x y hx hy ⟨a, b, ha, hb, hab⟩
    obtain ⟨x1, _, x3, _⟩ := (h3 x).1 hx
    obtain ⟨y1, _, y3, _⟩ := (h3 y).1 hy
    rw [← hval x x1 x3 a ha, ← hval y y1 y3 b hb]
    exact UInt32.le_iff_toNat_le.1 hab

/-- The scorer of the box tool, on references of the same query that have something in common with
the hypothesis. -/
theorem box_scorer {R : Rnd} {Q D : Type} [DecidableEq Q]
    [DecidableEq D] [Cmp Q] [LawfulCmp Q] [Cmp D] [LawfulCmp D] (r : Event Q (DocBox D UInt32))
    (h : ScoredEvent Q (DocBox D UInt32)) (hr : EdgesOkU r.location.toBBox) (hh : InRangeU h.base)
    (hR : R = Rnd.exact ∨ R.Faithful ∧ areaU h.base ≤ 2 ^ 24) (hq : r.query = h.base.query)
    (hc : 0 < commonU r h.base) :
    iohScorer R (1 / 2) r h = .ok (verdict (areaU h.base ≤ 2 * commonU r h.base)) := by
  have e : iohScorer R (1 / 2) r h = iohScorer Rnd.exact (1 / 2) r h := by
    rcases hR with rfl | ⟨hR, ha⟩
    · rfl
    · exact C21_ioh_half_rounded R hR r h hr hh.1 ha
  rw [e, C21_ioh_half r h hr hh]
  congr 1
  unfold verdict
  refine if_congr ?_ rfl rfl
  have := common_le_right r h.base
  exact ⟨fun h => h.2.2, fun h => ⟨hq, by omega, h⟩⟩

section
variable {Q D : Type} [DecidableEq Q] [DecidableEq D] [Cmp Q] [LawfulCmp Q] [Cmp D] [LawfulCmp D]

/-- The search and the scorer of the box tool, on boxes in range. -/
theorem box_inputs (R : Rnd) (S : StdSort) (s : DocEventSet Q D UInt32)
    (refs : List (Event Q (DocBox D UInt32))) (hyps : List (ScoredEvent Q (DocBox D UInt32)))
    (hr : ∀ r ∈ refs, EdgesOkU r.location.toBBox) (hh : ∀ h ∈ hyps, InRangeU h.base)
    (hR : R = Rnd.exact ∨ R.Faithful ∧ ∀ h ∈ hyps, areaU h.base ≤ 2 ^ 24) :
    ∃ overl : ScoredEvent Q (DocBox D UInt32) → List (Event Q (DocBox D UInt32)), ∀ h ∈ hyps,
      (docIndex S Q D UInt32).findOverlapping
        (refs.foldl (docIndex S Q D UInt32).insert ((docIndex S Q D UInt32).clear s)) h =
        .ok (overl h) ∧ (overl h).Nodup ∧
      (∀ r, r ∈ overl h ↔ r ∈ refs ∧ r.query = h.base.query ∧ 0 < commonU r h.base) ∧
      (overl h).Pairwise (fun x y => commonU y h.base ≤ commonU x h.base) ∧
      ∀ r ∈ overl h, iohScorer R (1 / 2) r h =
        .ok (verdict (areaU h.base ≤ 2 * commonU r h.base)) := by
  classical
  have hex : ∀ x : ScoredEvent Q (DocBox D UInt32), ∃ ov, InRangeU x.base →
      ((docIndex S Q D UInt32).findOverlapping
        (refs.foldl (docIndex S Q D UInt32).insert ((docIndex S Q D UInt32).clear s)) x = .ok ov ∧
        ov.Nodup ∧ (∀ r, r ∈ ov ↔ r ∈ refs ∧ r.query = x.base.query ∧ 0 < commonU r x.base) ∧
        ov.Pairwise (fun a b => commonU b x.base ≤ commonU a x.base)) := by
    intro x
    by_cases hx : InRangeU x.base
    · obtain ⟨ov, h⟩ := box_search S s refs x hr hx
      exact ⟨ov, fun _ => h⟩
    · exact ⟨[], fun h => absurd h hx⟩
  choose overl hov using hex
  refine ⟨overl, fun x hx => ?_⟩
  obtain ⟨a1, a2, a3, a4⟩ := hov x (hh x hx)
  refine ⟨a1, a2, a3, a4, fun r hr' => ?_⟩
  obtain ⟨b1, b2, b3⟩ := (a3 r).1 hr'
  refine box_scorer r x (hr r b1) (hh x hx) ?_ b2 b3
  rcases hR with hR | ⟨hR, ha⟩
  · exact Or.inl hR
  · exact Or.inr ⟨hR, ha x hx⟩

/-- C17, C18 for the box tool: the hypotheses get the references that `BoxMatching` says. -/
theorem C17_box_matching (R : Rnd) (S : StdSort) (s : DocEventSet Q D UInt32)
    (refs : List (Event Q (DocBox D UInt32))) (hyps : List (ScoredEvent Q (DocBox D UInt32)))
    (hr : ∀ r ∈ refs, EdgesOkU r.location.toBBox) (hh : ∀ h ∈ hyps, InRangeU h.base)
    (hR : R = Rnd.exact ∨ R.Faithful ∧ ∀ h ∈ hyps, areaU h.base ≤ 2 ^ 24) : ∃ s' result rep,
    SimpleMatcher.run (docIndex S Q D UInt32) (iohScorer R (1 / 2)) s refs hyps = .ok (s', result, rep) ∧
    BoxMatching refs hyps result rep := by
  obtain ⟨overl, hov⟩ := box_inputs R S s refs hyps hr hh hR
  obtain ⟨entries, missed, rep, f1, f2, f3, f4⟩ := run_spec (docIndex S Q D UInt32)
    (iohScorer R (1 / 2)) s overl (fun r h => verdict (areaU h.base ≤ 2 * commonU r h.base)) refs hyps
    (fun x hx => (hov x hx).1) (fun x hx r hr' => (((hov x hx).2.2.1 r).1 hr').1)
    (fun x hx => (hov x hx).2.2.2.2)
  refine ⟨_, _, _, f1, overl, entries, missed, fun x hx => ⟨(hov x hx).2.1, (hov x hx).2.2.1,
    (hov x hx).2.2.2.1⟩, f2, f3.imp (fun {a b} hab => by
      rintro rfl
      rw [LawfulCmp.irrefl] at hab
      exact absurd hab (by decide)), f4, rfl⟩

/-- C16 for the box tool: the false positives are the hypotheses less than half of which is covered
by any single reference of the same query and document (empty hypotheses are false positives). -/
theorem C16_box (R : Rnd) (S : StdSort) (s : DocEventSet Q D UInt32)
    (refs : List (Event Q (DocBox D UInt32))) (hyps : List (ScoredEvent Q (DocBox D UInt32)))
    (hr : ∀ r ∈ refs, EdgesOkU r.location.toBBox) (hh : ∀ h ∈ hyps, InRangeU h.base)
    (hR : R = Rnd.exact ∨ R.Faithful ∧ ∀ h ∈ hyps, areaU h.base ≤ 2 ^ 24) : ∃ s' result rep,
    SimpleMatcher.run (docIndex S Q D UInt32) (iohScorer R (1 / 2)) s refs hyps = .ok (s', result, rep) ∧
    result.filter (fun m => m.ref.isNone) =
      (hyps.filter (fun h => areaU h.base = 0 ∨ ∀ r ∈ refs, r.query = h.base.query →
        2 * commonU r h.base < areaU h.base)).map (fun h => ⟨none, some h, ⟨1, 0⟩⟩) := by
  classical
  obtain ⟨overl, hov⟩ := box_inputs R S s refs hyps hr hh hR
  obtain ⟨s', result, rep, h1, h2⟩ := C16_false_positives (docIndex S Q D UInt32) (iohScorer R (1 / 2)) s
    overl (fun r h => verdict (areaU h.base ≤ 2 * commonU r h.base)) refs hyps
    (fun x hx => (hov x hx).1) (fun x hx r hr' => (((hov x hx).2.2.1 r).1 hr').1)
    (fun x hx => (hov x hx).2.2.2.2)
  refine ⟨s', result, rep, h1, ?_⟩
  rw [show (fun m : KwsMatch Q (DocBox D UInt32) => m.ref.isNone) =
    (fun m => decide (m.ref = none)) by funext m; cases m.ref <;> simp]
  rw [h2]
  congr 1
  refine List.filter_congr fun h hx => ?_
  rw [decide_eq_decide]
  have hm := (hov h hx).2.2.1
  have hv : ∀ p : Prop, [Decidable p] → (1 ≤ (verdict p).fp ↔ ¬ p) := by
    intro p _
    unfold verdict
    split <;> rename_i hp <;> simp [hp]
  simp only [hv, not_le]
  constructor
  · intro ha
    by_cases h0 : areaU h.base = 0
    · exact Or.inl h0
    · refine Or.inr fun r hr' hq => ?_
      by_cases hc : 0 < commonU r h.base
      · exact ha r ((hm r).2 ⟨hr', hq, hc⟩)
      · omega
  · rintro (h0 | ha) r hr'
    · obtain ⟨_, _, c⟩ := (hm r).1 hr'
      have := common_le_right r h.base
      omega
    · obtain ⟨a, b, _⟩ := (hm r).1 hr'
      exact ha r a b

end

/-- Boxes in range: a hypothesis half covered by a reference, and one covered less than half. -/
example :
    (∀ r ∈ [(⟨1, ⟨⟨0, 0, 2, 2⟩, 7⟩⟩ : Event Nat (DocBox Nat UInt32))], EdgesOkU r.location.toBBox) ∧
    (∀ h ∈ [(⟨⟨1, ⟨⟨0, 0, 4, 2⟩, 7⟩⟩, .fin 1⟩ : ScoredEvent Nat (DocBox Nat UInt32)),
      ⟨⟨1, ⟨⟨0, 0, 5, 2⟩, 7⟩⟩, .fin 0⟩], InRangeU h.base) ∧
    areaU (⟨1, ⟨⟨0, 0, 4, 2⟩, 7⟩⟩ : Event Nat (DocBox Nat UInt32)) = 8 ∧
    commonU (⟨1, ⟨⟨0, 0, 2, 2⟩, 7⟩⟩ : Event Nat (DocBox Nat UInt32)) ⟨1, ⟨⟨0, 0, 4, 2⟩, 7⟩⟩ = 4 ∧
    areaU (⟨1, ⟨⟨0, 0, 5, 2⟩, 7⟩⟩ : Event Nat (DocBox Nat UInt32)) = 10 ∧
    commonU (⟨1, ⟨⟨0, 0, 2, 2⟩, 7⟩⟩ : Event Nat (DocBox Nat UInt32)) ⟨1, ⟨⟨0, 0, 5, 2⟩, 7⟩⟩ = 4 := by
  refine ⟨?_, ?_, by decide +kernel, by decide +kernel, by decide +kernel, by decide +kernel⟩
  · intro r hr
    rw [List.mem_singleton] at hr
    subst hr
    exact ⟨by decide, by decide⟩
  · intro h hh
    simp only [List.mem_cons, List.not_mem_nil, or_false] at hh
    rcases hh with rfl | rfl
    · exact ⟨⟨by decide, by decide⟩, by decide +kernel⟩
    · exact ⟨⟨by decide, by decide⟩, by decide +kernel⟩

end Kws
