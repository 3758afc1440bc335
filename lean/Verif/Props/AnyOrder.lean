import Verif.Lemmas.Cuts
import Verif.Props.Evaluation

/-!
# C104: the numbers for every sorting, with or without collapsing and confidence intervals

`Spec/Cuts.lean` defines the numbers of a list of matches in any order from the counts of hits and false
positives among its first matches.
-/

namespace Kws
open Spec

/-! ## Measures -/

section
variable {Q L : Type}

/-- C104: average precision and NDCG of a list of hits, false positives and missed references in any
order. Scores only matter for collapsing. -/
theorem C104_measures (ms : List (KwsMatch Q L)) (collapse interp trapezoid : Bool)
    (h : ∀ m ∈ ms, HardMatch m) (hn : collapse = true → ∀ m ∈ ms, rank m ≠ .nan) :
    globalAP Rnd.exact ms collapse interp trapezoid = .ok (listAP collapse interp trapezoid ms) ∧
    globalNDCG Rnd.exact ms collapse = listNDCG collapse ms :=
  ⟨(measures_list ms collapse h hn).1 interp trapezoid, (measures_list ms collapse h hn).2⟩

/-- C104 in IEEE arithmetic: the average precision of up to `2^24` matches is off by at most
`(n + 3)^2 / 2^52`; the NDCG is not affected by rounding of counts. -/
theorem C104_measures_rounded (ms : List (KwsMatch Q L)) (collapse interp trapezoid : Bool)
    (h : ∀ m ∈ ms, HardMatch m) (hn : ∀ m ∈ ms, rank m ≠ .nan) (hl : ms.length ≤ 2 ^ 24) :
    (∃ v, globalAP Rnd.ieee ms collapse interp trapezoid = .ok v ∧
      |v - listAP collapse interp trapezoid ms| ≤ (ms.length + 3) ^ 2 / 2 ^ 52) ∧
    globalNDCG Rnd.ieee ms collapse = listNDCG collapse ms := by
  have hT : Tolerance Rnd.ieee ms.length ((ms.length + 3) ^ 2 / 2 ^ 52) := Or.inr ⟨rfl, hl, rfl⟩
  obtain ⟨v, hv⟩ := globalAP_total Rnd.ieee ms collapse interp trapezoid
  exact ⟨⟨v, hv, listAP_rounded hT _ _ _ ms h hn le_rfl v hv⟩, listNDCG_rounded hT _ ms h hn le_rfl⟩

end

/-- A false positive, a hit of the same score and a hit of a higher score, and a missed reference. One by
one the precisions are 0, 1/2, 2/3, 2/3 at recalls 0, 1/3, 2/3, 2/3; taken together they are 1/2, 2/3,
2/3 at recalls 1/3, 2/3, 2/3. -/
example :
    let e (q : Nat) : Event Nat Nat := ⟨q, 0⟩
    let ms : List (KwsMatch Nat Nat) := [⟨none, some ⟨e 1, .fin 1⟩, ⟨1, 0⟩⟩,
      ⟨some (e 2), some ⟨e 2, .fin 1⟩, ⟨0, 0⟩⟩, ⟨some (e 3), some ⟨e 3, .fin 2⟩, ⟨0, 0⟩⟩,
      ⟨some (e 4), none, ⟨0, 1⟩⟩]
    cuts false ms = [(0, 1), (1, 1), (2, 1), (2, 1)] ∧ cuts true ms = [(1, 1), (2, 1), (2, 1)] ∧
    listAP false false false ms = 7 / 18 ∧ listAP true false false ms = 7 / 18 ∧
    listAP false false true ms = 5 / 18 ∧ listAP true false true ms = 13 / 36 ∧
    (∀ m ∈ ms, HardMatch m) := by
  intro e ms
  refine ⟨by decide +kernel, by decide +kernel, by decide +kernel, by decide +kernel, by decide +kernel,
    by decide +kernel, ?_⟩
  intro m hm
  simp only [ms, List.mem_cons, List.not_mem_nil, or_false] at hm
  rcases hm with rfl | rfl | rfl | rfl <;> simp [HardMatch, Outcome.error]

/-! ## The tools -/

section
variable {G : Type}

theorem exact_ne_ieee : Rnd.exact ≠ Rnd.ieee := fun h =>
  absurd (congrArg (fun R : Rnd => R.f64 (1 / 3)) h) (by decide +kernel)

/-- The numbers of the box tool; the tolerance is 0 in exact arithmetic. -/
theorem box_list (R : Rnd) (S : StdSort) (rng : Rng G) (w : World) (o : ToolOptions) (t u : Str)
    (refs : List (Event Str (DocBox Str UInt32))) (hyps : List (ScoredEvent Str (DocBox Str UInt32)))
    (ht : w.file o.refFilename = some t) (hu : hypText w o = some u)
    (hrefs : Yields BoxEventText (lines t) refs)
    (hhyps : Yields (ScoredText R BoxEventText) (lines u) hyps)
    (hr : ∀ r ∈ refs, EdgesOkU r.location.toBBox) (hh : ∀ h ∈ hyps, InRangeU h.base)
    (h24 : R = Rnd.ieee → ∀ h ∈ hyps, areaU h.base ≤ 2 ^ 24)
    (r : Report Str (DocBox Str UInt32)) (ε : ℚ)
    (hT : Tolerance R (refs.length + hyps.length) ε)
    (h : mainWith R S rng (icdarKit R S) w o = .ok (.done r)) :
    ∃ l ms rep, InOrder o.sort (keep (·.base.query) (listedQueries w o) hyps) l ∧
      BoxMatching (keep (·.query) (listedQueries w o) refs) l ms rep ∧
      (o.dumpMatches ≠ [] → r.dump = some (ms, rep)) ∧ ShowsList (groupFor w o) o r ms ε ∧
      ShowsCurves R o r (refs.length + hyps.length)
        (listCurves (groupFor w o) o.curveSamples o.collapse o.interp o.trapezoid ms) := by
  have hr0 : o.refFilename ≠ [] := by
    intro hr
    unfold mainWith at h
    rw [if_pos hr] at h
    cases h
  have v1 := yields_valid hrefs
  have v2 := yields_valid hhyps
  rw [(icdar_plain R S).main_good S rng w o hr0 t u ht hu v1 v2,
    yields_events (Format.boxRefs (R := R)) hrefs, yields_events Format.boxHyps hhyps,
    (icdar_plain R S).mapQuery] at h
  cases hq : readQueryMap (fun (m : Unit) q => (m, (.ok q : Cpp Str))) w o () with
  | error x => rw [hq] at h; cases h
  | ok x =>
    rw [hq] at h
    cases x with
    | none => cases h
    | some q2g =>
      obtain ⟨q1, q2⟩ := readQueryMap_spec w o q2g hq
      have hfin := (icdar_plain R S).finite u v2
      rw [yields_events Format.boxHyps hhyps] at hfin
      obtain ⟨l, s', ms, rep, e1, e2, e4, e6, e7, e8⟩ := evaluate_list R S rng (icdarKit R S) (by
          intro a b e he hf
          obtain ⟨i, hi⟩ := inter_ok a b.base
          have := ioh_eq R (1 / 2) a b i hi
          rw [show (icdarKit R S).scorer a b = iohScorer R (1 / 2) a b from rfl, this] at he
          injection he with he
          subst he
          unfold verdict at hf ⊢
          split
          · rfl
          · rename_i hne; rw [if_neg hne] at hf; norm_num at hf) w o q2g refs hyps r _ ε hT le_rfl
        hfin h
      have k1 : usedRefs q2g refs = keep (·.query) (listedQueries w o) refs := by
        unfold usedRefs
        rw [filter_keep _ _ q1]
      have k2 : usedHyps q2g hyps = keep (·.base.query) (listedQueries w o) hyps := by
        unfold usedHyps
        rw [filter_keep _ _ q1]
      have hsub : ∀ x ∈ l, x ∈ hyps := fun x hx => usedHyps_mem q2g hyps x (e2.mem_iff.1 hx)
      have hsubr : ∀ x ∈ usedRefs q2g refs, x ∈ refs := by
        intro x hx
        rw [k1] at hx
        unfold keep at hx
        split at hx
        · exact hx
        · exact (List.mem_filter.1 hx).1
      rw [k2] at e1
      have hg : groupOf q2g = groupFor w o := funext q2
      rw [hg] at e7 e8
      refine ⟨l, ms, rep, e1, ?_, fun hne => by rw [e6, if_neg hne], e7, e8⟩
      obtain ⟨s1, ms1, rep1, f1, f2⟩ := C17_box_matching R S DocEventSet.new (usedRefs q2g refs) l
        (fun x hx => hr x (hsubr x hx)) (fun x hx => hh x (hsub x hx)) (by
          rcases hT with ⟨rfl, _⟩ | ⟨rfl, _⟩
          · exact Or.inl rfl
          · exact Or.inr ⟨ieee_faithful, fun x hx => h24 rfl x (hsub x hx)⟩)
      rw [show SimpleMatcher.run (icdarKit R S).index (icdarKit R S).scorer (icdarKit R S).refsSet
        (usedRefs q2g refs) l = _ from f1, Except.ok.injEq, Prod.mk.injEq, Prod.mk.injEq] at e4
      obtain ⟨_, rfl, rfl⟩ := e4
      rw [← k1]
      exact f2

/-- C104: whatever the sorting, collapsing and confidence intervals, the box tool processes the hypotheses
in the order asked for, gives each one a reference as `BoxMatching` says, and reports the numbers of the
list of these matches. -/
theorem C104_box (S : StdSort) (rng : Rng G) (w : World) (o : ToolOptions) (t u : Str)
    (refs : List (Event Str (DocBox Str UInt32))) (hyps : List (ScoredEvent Str (DocBox Str UInt32)))
    (ht : w.file o.refFilename = some t) (hu : hypText w o = some u)
    (hrefs : Yields BoxEventText (lines t) refs)
    (hhyps : Yields (ScoredText Rnd.exact BoxEventText) (lines u) hyps)
    (hr : ∀ r ∈ refs, EdgesOkU r.location.toBBox) (hh : ∀ h ∈ hyps, InRangeU h.base)
    (r : Report Str (DocBox Str UInt32))
    (h : mainWith Rnd.exact S rng (icdarKit Rnd.exact S) w o = .ok (.done r)) :
    ∃ l ms rep, InOrder o.sort (keep (·.base.query) (listedQueries w o) hyps) l ∧
      BoxMatching (keep (·.query) (listedQueries w o) refs) l ms rep ∧
      (o.dumpMatches ≠ [] → r.dump = some (ms, rep)) ∧ ShowsList (groupFor w o) o r ms 0 := by
  obtain ⟨l, ms, rep, a, b, c, d, _⟩ := box_list Rnd.exact S rng w o t u refs hyps ht hu hrefs hhyps hr hh
    (fun h => absurd h exact_ne_ieee) r 0 (Or.inl ⟨rfl, rfl⟩) h
  exact ⟨l, ms, rep, a, b, c, d⟩

/-- C104 in IEEE arithmetic: for areas of at most `2^24` the matching is the same, and up to `2^24` lines
the average precisions are off by at most `(n + 3)^2 / 2^52`. -/
theorem C104_box_rounded (S : StdSort) (rng : Rng G) (w : World) (o : ToolOptions) (t u : Str)
    (refs : List (Event Str (DocBox Str UInt32))) (hyps : List (ScoredEvent Str (DocBox Str UInt32)))
    (ht : w.file o.refFilename = some t) (hu : hypText w o = some u)
    (hrefs : Yields BoxEventText (lines t) refs)
    (hhyps : Yields (ScoredText Rnd.ieee BoxEventText) (lines u) hyps)
    (hr : ∀ r ∈ refs, EdgesOkU r.location.toBBox)
    (hh : ∀ h ∈ hyps, EdgesOkU h.base.location.toBBox ∧ areaU h.base ≤ 2 ^ 24)
    (hl : refs.length + hyps.length ≤ 2 ^ 24) (r : Report Str (DocBox Str UInt32))
    (h : mainWith Rnd.ieee S rng (icdarKit Rnd.ieee S) w o = .ok (.done r)) :
    ∃ l ms rep, InOrder o.sort (keep (·.base.query) (listedQueries w o) hyps) l ∧
      BoxMatching (keep (·.query) (listedQueries w o) refs) l ms rep ∧
      (o.dumpMatches ≠ [] → r.dump = some (ms, rep)) ∧
      ShowsList (groupFor w o) o r ms ((refs.length + hyps.length + 3) ^ 2 / 2 ^ 52) := by
  obtain ⟨l, ms, rep, a, b, c, d, _⟩ := box_list Rnd.ieee S rng w o t u refs hyps ht hu hrefs hhyps hr
    (fun x hx => ⟨(hh x hx).1, by have := (hh x hx).2; omega⟩) (fun _ x hx => (hh x hx).2) r
    ((refs.length + hyps.length + 3) ^ 2 / 2 ^ 52) (Or.inr ⟨rfl, hl, by push_cast; rfl⟩) h
  exact ⟨l, ms, rep, a, b, c, d⟩

/-- The numbers of the segmentation-based tool; the tolerance is 0 in exact arithmetic. -/
theorem segmentation_list (R : Rnd) (S : StdSort) (rng : Rng G) (qf : Bool) (w : World)
    (o : ToolOptions) (hV : (vocabulary w o).dedup.length ≤ 2 ^ 31) (t u : Str)
    (refs : List (Event Str Str)) (hyps : List (ScoredEvent Str Str))
    (ht : w.file o.refFilename = some t) (hu : hypText w o = some u)
    (hrefs : Yields StrEventText (lines t) refs)
    (hhyps : Yields (ScoredText R StrEventText) (lines u) hyps) (r : Report Nat Nat) (ε : ℚ)
    (hT : Tolerance R (refs.length + hyps.length) ε)
    (h : mainWith R S rng (simpleKit R qf) w o = .ok (.done r)) :
    ∃ l ms, InOrder o.sort (keep (·.base.query) (listedQueries w o) hyps) l ∧
      SegMatching (keep (·.query) (listedQueries w o) refs) l ms ∧
      ShowsList (groupFor w o) o r ms ε ∧
      ShowsCurves R o r (refs.length + hyps.length)
        (listCurves (groupFor w o) o.curveSamples o.collapse o.interp o.trapezoid ms) := by
  have hr : o.refFilename ≠ [] := by
    intro hr
    unfold mainWith at h
    rw [if_pos hr] at h
    cases h
  have v1 := yields_valid hrefs
  have v2 := yields_valid hhyps
  obtain ⟨f, N, hf, _, e⟩ := simple_good R S rng qf w o hV hr t u ht hu v1 v2
  rw [yields_events (Format.strRefs (R := R)) hrefs, yields_events Format.strHyps hhyps] at e
  rw [e] at h
  cases hq : readQueryMap (fun (m : Unit) q => (m, (.ok q : Cpp Str))) w o () with
  | error x => rw [hq] at h; cases h
  | ok x =>
    rw [hq] at h
    cases x with
    | none => cases h
    | some q2g =>
      obtain ⟨q1, q2⟩ := readQueryMap_spec w o q2g hq
      have hfin := (str_plain R).finite u v2
      rw [yields_events Format.strHyps hhyps] at hfin
      have hk := simple_seg R qf
      obtain ⟨l, s', ms, rep, e1, e2, e4, _, e7, e8⟩ := evaluate_list R S rng (simpleKit R qf) (by
        intro r x e he hf
        rw [hk.scorer, C24_trivial_scorer] at he
        injection he with he
        subst he
        unfold verdict at hf ⊢
        split
        · rfl
        · rename_i hne; rw [if_neg hne] at hf; norm_num at hf) w o (q2g.map (Prod.map f f)) _ _ r
        _ ε hT (by rw [List.length_map, List.length_map]) (fun x hx => by
          obtain ⟨y, hy, rfl⟩ := List.mem_map.1 hx
          exact hfin y hy) h
      rw [usedHyps_rename f hf] at e1
      obtain ⟨l, o1, rfl⟩ := inOrder_rename hf hf _ _ _ e1
      rw [hk.index, hk.scorer, usedRefs_rename f hf] at e4
      obtain ⟨s2, missed, rep2, c1, c2, c3⟩ := C24_segmentation_result (simpleKit R qf).refsSet
        ((usedRefs q2g refs).map (Event.rename f f)) (l.map (ScoredEvent.rename f f))
      rw [c1, Except.ok.injEq, Prod.mk.injEq, Prod.mk.injEq] at e4
      obtain ⟨_, hms, _⟩ := e4
      obtain ⟨ms0, m1, m2⟩ := segMatching_rename hf hf (usedRefs q2g refs) l ms ⟨missed,
        c2.imp (fun {a b} hab => by
          rintro rfl
          rw [LawfulCmp.irrefl] at hab
          exact absurd hab (by decide)), c3, hms.symm⟩
      subst m2
      have := showsList_rename hf hf (groupFor w o) _ (fun q => by rw [groupOf_rename hf, q2]) o r ms0 ε e7
      rw [listCurves_rename _ hf (groupFor w o) _ (fun q => by rw [groupOf_rename hf, q2])] at e8
      unfold usedRefs at m1
      unfold usedHyps at o1
      rw [filter_keep _ _ q1] at m1 o1
      exact ⟨l, ms0, o1, m1, this, e8⟩

/-- C104 for the segmentation-based tool. -/
theorem C104_segmentation (S : StdSort) (rng : Rng G) (qf : Bool) (w : World) (o : ToolOptions)
    (hV : (vocabulary w o).dedup.length ≤ 2 ^ 31) (t u : Str)
    (refs : List (Event Str Str)) (hyps : List (ScoredEvent Str Str))
    (ht : w.file o.refFilename = some t) (hu : hypText w o = some u)
    (hrefs : Yields StrEventText (lines t) refs)
    (hhyps : Yields (ScoredText Rnd.exact StrEventText) (lines u) hyps) (r : Report Nat Nat)
    (h : mainWith Rnd.exact S rng (simpleKit Rnd.exact qf) w o = .ok (.done r)) :
    ∃ l ms, InOrder o.sort (keep (·.base.query) (listedQueries w o) hyps) l ∧
      SegMatching (keep (·.query) (listedQueries w o) refs) l ms ∧
      ShowsList (groupFor w o) o r ms 0 := by
  obtain ⟨l, ms, a, b, c, _⟩ := segmentation_list Rnd.exact S rng qf w o hV t u refs hyps ht hu hrefs hhyps r 0
    (Or.inl ⟨rfl, rfl⟩) h
  exact ⟨l, ms, a, b, c⟩

/-- C104 for the segmentation-based tool in IEEE arithmetic. -/
theorem C104_segmentation_rounded (S : StdSort) (rng : Rng G) (qf : Bool) (w : World) (o : ToolOptions)
    (hV : (vocabulary w o).dedup.length ≤ 2 ^ 31) (t u : Str)
    (refs : List (Event Str Str)) (hyps : List (ScoredEvent Str Str))
    (ht : w.file o.refFilename = some t) (hu : hypText w o = some u)
    (hrefs : Yields StrEventText (lines t) refs)
    (hhyps : Yields (ScoredText Rnd.ieee StrEventText) (lines u) hyps)
    (hl : refs.length + hyps.length ≤ 2 ^ 24) (r : Report Nat Nat)
    (h : mainWith Rnd.ieee S rng (simpleKit Rnd.ieee qf) w o = .ok (.done r)) :
    ∃ l ms, InOrder o.sort (keep (·.base.query) (listedQueries w o) hyps) l ∧
      SegMatching (keep (·.query) (listedQueries w o) refs) l ms ∧
      ShowsList (groupFor w o) o r ms ((refs.length + hyps.length + 3) ^ 2 / 2 ^ 52) := by
  obtain ⟨l, ms, a, b, c, _⟩ := segmentation_list Rnd.ieee S rng qf w o hV t u refs hyps ht hu hrefs hhyps r
    ((refs.length + hyps.length + 3) ^ 2 / 2 ^ 52) (Or.inr ⟨rfl, hl, by push_cast; rfl⟩) h
  exact ⟨l, ms, a, b, c⟩

end

/-- The run of C66's example with the hypotheses in the order of the file and without collapsing: hits come
first, second and fifth. -/
example {G : Type} (S : StdSort) (rng : Rng G) : ∃ r : Report Nat Nat,
    mainWith Rnd.exact S rng (simpleKit Rnd.exact true) (idsExample "a l\nb l\nc l\n".toList)
      { idsOptions with
        sort := "none".toList
        collapse := false
        interp := false
        trapezoid := false } = .ok (.done r) ∧ r.gAP.value = 13 / 15 := by
  obtain ⟨y1, y2⟩ := idsExample_yields
  set o : ToolOptions := { idsOptions with
    sort := "none".toList
    collapse := false
    interp := false
    trapezoid := false } with ho
  have hV : (vocabulary (idsExample "a l\nb l\nc l\n".toList) o).dedup.length ≤ 2 ^ 31 :=
    idsExample_vocabulary1
  obtain ⟨r, hr, _⟩ := (C62_segmentation_partial Rnd.exact S rng true
    (idsExample "a l\nb l\nc l\n".toList) o hV
    (fun t t' h1 h2 => by
      refine ⟨fun h => by simp [ho, idsOptions] at h, fun h => absurd rfl h, fun h => absurd rfl h,
        fun h => by simp [ho, idsOptions] at h⟩)).1
    ⟨⟨by decide, ⟨_, idsExample_file _, yields_valid y1⟩, ⟨_, if_pos rfl, yields_valid y2⟩,
      fun h => absurd rfl h, fun h => absurd rfl h⟩, Or.inl rfl⟩
  obtain ⟨l, ms, h1, ⟨missed, _, h2, h3⟩, h4⟩ := C104_segmentation S rng true
    (idsExample "a l\nb l\nc l\n".toList) o hV _ _ _ _ (idsExample_file _) (if_pos rfl) y1 y2 r hr
  refine ⟨r, hr, ?_⟩
  have hl : listedQueries (idsExample "a l\nb l\nc l\n".toList) o = [] := rfl
  rw [hl] at h1 h2 h3
  unfold InOrder at h1
  rw [if_neg (by decide), if_neg (by decide)] at h1
  subst h1
  have hm : missed = [] := by
    rw [List.eq_nil_iff_forall_not_mem]
    intro x hx
    obtain ⟨a, b⟩ := (h2 x).1 hx
    revert b
    clear hx
    revert x
    decide +kernel
  subst hm h3
  obtain ⟨l, l1, l2⟩ := h4.gAP
  unfold Arranged at l1
  rw [if_neg (by decide)] at l1
  subst l1
  refine (sub_eq_zero.1 (abs_nonpos_iff.1 l2)).trans ?_
  decide +kernel

end Kws
