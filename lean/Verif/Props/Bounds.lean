import Verif.Lemmas.Bounds
import Verif.Props.AnyOrder

/-!
# C124: what the numbers of hits and false positives say about the measures

`Spec/Bounds.lean` defines recall, precision and the largest NDCG for a number of hits. The order of the
matches, the scores, and the options are arbitrary.
-/

namespace Kws
open Spec

/-! ## Measures -/

section
variable {Q L : Type} (ms : List (KwsMatch Q L)) (collapse interp trapezoid : Bool)
  (h : ∀ m ∈ ms, HardMatch m) (hn : collapse = true → ∀ m ∈ ms, rank m ≠ .nan)
include h hn

/-- C124: average precision is at most the recall, and equal to it exactly if the curve has a point after all
hits and before all false positives. -/
theorem C124_recall : ∃ v, globalAP Rnd.exact ms collapse interp trapezoid = .ok v ∧ v ≤ recallOf ms ∧
    (0 < hitCount ms → (v = recallOf ms ↔ (hitCount ms, 0) ∈ cuts collapse ms)) :=
  ⟨_, (C104_measures ms collapse interp trapezoid h hn).1, listAP_le_recall _ _ _ _,
    listAP_eq_recall _ _ _ _⟩

/-- C124: average precision is 1 exactly if the curve has a point after all references and before all false
positives. -/
theorem C124_perfect (hr : references ms ≠ 0) : globalAP Rnd.exact ms collapse interp trapezoid = .ok 1 ↔
    (references ms, 0) ∈ cuts collapse ms := by
  rw [(C104_measures ms collapse interp trapezoid h hn).1, Except.ok.injEq]
  exact listAP_eq_one _ _ _ _ hr

/-- C124: with interpolation, average precision is at least the product of the precision and the recall of
the whole list. -/
theorem C124_product (hne : ms ≠ []) : ∃ v, globalAP Rnd.exact ms collapse true trapezoid = .ok v ∧
    precisionOf ms * recallOf ms ≤ v :=
  ⟨_, (C104_measures ms collapse true trapezoid h hn).1, listAP_ge_product _ _ _ hne⟩

/-- C124: average precision and NDCG are 0 exactly if there is no hit. -/
theorem C124_zero : (globalAP Rnd.exact ms collapse interp trapezoid = .ok 0 ↔ hitCount ms = 0) ∧
    (globalNDCG Rnd.exact ms collapse = 0 ↔ hitCount ms = 0) := by
  rw [(C104_measures ms collapse interp trapezoid h hn).1, (C104_measures ms collapse interp trapezoid h hn).2,
    Except.ok.injEq]
  refine ⟨listAP_eq_zero _ _ _ _ fun m hm => ?_, listNDCG_eq_zero _ _⟩
  rcases m with ⟨_ | _, _ | _, e⟩
  · exact absurd (h _ hm) (by simp [HardMatch])
  all_goals simp

/-- C124: NDCG is at most that of as many hits without false positive. -/
theorem C124_ndcg : globalNDCG Rnd.exact ms collapse ≤ gainShare (hitCount ms) (references ms) := by
  rw [(C104_measures ms collapse false false h hn).2]
  exact listNDCG_le _ _

end

/-- A false positive, a hit and a missed reference. The recall is 1/2 and the precision 1/2; the average
precision is 1/4, or 1/8 with trapezoids and without interpolation: the product of recall and precision is
no bound then. -/
example :
    let e (q : Nat) : Event Nat Nat := ⟨q, 0⟩
    let ms : List (KwsMatch Nat Nat) := [⟨none, some ⟨e 1, .fin 3⟩, ⟨1, 0⟩⟩,
      ⟨some (e 2), some ⟨e 2, .fin 2⟩, ⟨0, 0⟩⟩, ⟨some (e 4), none, ⟨0, 1⟩⟩]
    (∀ m ∈ ms, HardMatch m) ∧ recallOf ms = 1 / 2 ∧ precisionOf ms = 1 / 2 ∧
    globalAP Rnd.exact ms true true true = .ok (1 / 4) ∧
    globalAP Rnd.exact ms true false true = .ok (1 / 8) := by
  intro e ms
  refine ⟨?_, by decide +kernel, by decide +kernel, by decide +kernel, by decide +kernel⟩
  intro m hm
  simp only [ms, List.mem_cons, List.not_mem_nil, or_false] at hm
  rcases hm with rfl | rfl | rfl <;> simp [HardMatch, Outcome.error]

/-- Two hits, a missed reference and a false positive of the least score: the average precision is the recall. If
the false positive has the score of the second hit and these are taken together, it is less. -/
example :
    let e (q : Nat) : Event Nat Nat := ⟨q, 0⟩
    let ms (s : Flt) : List (KwsMatch Nat Nat) := [⟨some (e 1), some ⟨e 1, .fin 3⟩, ⟨0, 0⟩⟩,
      ⟨some (e 2), some ⟨e 2, .fin 2⟩, ⟨0, 0⟩⟩, ⟨none, some ⟨e 3, s⟩, ⟨1, 0⟩⟩, ⟨some (e 4), none, ⟨0, 1⟩⟩]
    (2, 0) ∈ cuts true (ms (.fin 1)) ∧ globalAP Rnd.exact (ms (.fin 1)) true true false = .ok (2 / 3) ∧
    (2, 0) ∉ cuts true (ms (.fin 2)) ∧ globalAP Rnd.exact (ms (.fin 2)) true true false = .ok (5 / 9) := by
  intro e ms
  refine ⟨by decide +kernel, by decide +kernel, by decide +kernel, by decide +kernel⟩

/-! ## The tools -/

section
variable {G : Type}

/-- C124: the numbers of the box tool are between those that the hits and false positives of its matching
allow. -/
theorem C124_box (S : StdSort) (rng : Rng G) (w : World) (o : ToolOptions) (t u : Str)
    (refs : List (Event Str (DocBox Str UInt32))) (hyps : List (ScoredEvent Str (DocBox Str UInt32)))
    (ht : w.file o.refFilename = some t) (hu : hypText w o = some u)
    (hrefs : Yields BoxEventText (lines t) refs)
    (hhyps : Yields (ScoredText Rnd.exact BoxEventText) (lines u) hyps)
    (hr : ∀ r ∈ refs, EdgesOkU r.location.toBBox) (hh : ∀ h ∈ hyps, InRangeU h.base)
    (r : Report Str (DocBox Str UInt32))
    (h : mainWith Rnd.exact S rng (icdarKit Rnd.exact S) w o = .ok (.done r)) :
    ∃ l ms rep, InOrder o.sort (keep (·.base.query) (listedQueries w o) hyps) l ∧
      BoxMatching (keep (·.query) (listedQueries w o) refs) l ms rep ∧
      (o.dumpMatches ≠ [] → r.dump = some (ms, rep)) ∧ CountBounds (groupFor w o) o r ms 0 := by
  obtain ⟨l, ms, rep, a, b, c, d⟩ := C104_box S rng w o t u refs hyps ht hu hrefs hhyps hr hh r h
  exact ⟨l, ms, rep, a, b, c, countBounds_of_shows _ _ _ _ _ (boxMatching_sides b) d⟩

/-- C124 in IEEE arithmetic. -/
theorem C124_box_rounded (S : StdSort) (rng : Rng G) (w : World) (o : ToolOptions) (t u : Str)
    (refs : List (Event Str (DocBox Str UInt32))) (hyps : List (ScoredEvent Str (DocBox Str UInt32)))
    (ht : w.file o.refFilename = some t) (hu : hypText w o = some u)
    (hrefs : Yields BoxEventText (lines t) refs)
    (hhyps : Yields (ScoredText Rnd.ieee BoxEventText) (lines u) hyps)
    (hr : ∀ r ∈ refs, EdgesOkU r.location.toBBox)
    (hh : ∀ h ∈ hyps, EdgesOkU h.base.location.toBBox ∧ areaU h.base ≤ 2 ^ 24)
    (hl : refs.length + hyps.length ≤ 2 ^ 24) (r : Report Str (DocBox Str UInt32))
    (h : mainWith Rnd.ieee S rng (icdarKit Rnd.ieee S) w o = .ok (.done r)) :
    ∃ l ms rep, InOrder o.sort (keep (·.base.query) (listedQueries w o) hyps) l ∧
      BoxMatching (keep (·.query) (listedQueries w o) refs) l ms rep ∧
      (o.dumpMatches ≠ [] → r.dump = some (ms, rep)) ∧
      CountBounds (groupFor w o) o r ms ((refs.length + hyps.length + 3) ^ 2 / 2 ^ 52) := by
  obtain ⟨l, ms, rep, a, b, c, d⟩ := C104_box_rounded S rng w o t u refs hyps ht hu hrefs hhyps hr hh hl r h
  exact ⟨l, ms, rep, a, b, c, countBounds_of_shows _ _ _ _ _ (boxMatching_sides b) d⟩

/-- C124 for the segmentation-based tool. -/
theorem C124_segmentation (S : StdSort) (rng : Rng G) (qf : Bool) (w : World) (o : ToolOptions)
    (hV : (vocabulary w o).dedup.length ≤ 2 ^ 31) (t u : Str)
    (refs : List (Event Str Str)) (hyps : List (ScoredEvent Str Str))
    (ht : w.file o.refFilename = some t) (hu : hypText w o = some u)
    (hrefs : Yields StrEventText (lines t) refs)
    (hhyps : Yields (ScoredText Rnd.exact StrEventText) (lines u) hyps) (r : Report Nat Nat)
    (h : mainWith Rnd.exact S rng (simpleKit Rnd.exact qf) w o = .ok (.done r)) :
    ∃ l ms, InOrder o.sort (keep (·.base.query) (listedQueries w o) hyps) l ∧
      SegMatching (keep (·.query) (listedQueries w o) refs) l ms ∧ CountBounds (groupFor w o) o r ms 0 := by
  obtain ⟨l, ms, a, b, d⟩ := C104_segmentation S rng qf w o hV t u refs hyps ht hu hrefs hhyps r h
  exact ⟨l, ms, a, b, countBounds_of_shows _ _ _ _ _ (segMatching_sides b) d⟩

/-- C124 for the segmentation-based tool in IEEE arithmetic. -/
theorem C124_segmentation_rounded (S : StdSort) (rng : Rng G) (qf : Bool) (w : World) (o : ToolOptions)
    (hV : (vocabulary w o).dedup.length ≤ 2 ^ 31) (t u : Str)
    (refs : List (Event Str Str)) (hyps : List (ScoredEvent Str Str))
    (ht : w.file o.refFilename = some t) (hu : hypText w o = some u)
    (hrefs : Yields StrEventText (lines t) refs)
    (hhyps : Yields (ScoredText Rnd.ieee StrEventText) (lines u) hyps)
    (hl : refs.length + hyps.length ≤ 2 ^ 24) (r : Report Nat Nat)
    (h : mainWith Rnd.ieee S rng (simpleKit Rnd.ieee qf) w o = .ok (.done r)) :
    ∃ l ms, InOrder o.sort (keep (·.base.query) (listedQueries w o) hyps) l ∧
      SegMatching (keep (·.query) (listedQueries w o) refs) l ms ∧
      CountBounds (groupFor w o) o r ms ((refs.length + hyps.length + 3) ^ 2 / 2 ^ 52) := by
  obtain ⟨l, ms, a, b, d⟩ := C104_segmentation_rounded S rng qf w o hV t u refs hyps ht hu hrefs hhyps hl r h
  exact ⟨l, ms, a, b, countBounds_of_shows _ _ _ _ _ (segMatching_sides b) d⟩

end

/-- The run of C66's example with the hypotheses in the order of the file: the three references are found by seven
hypotheses, so the average precision is at least 3/7 and not 1, and no number is 0. -/
example {G : Type} (S : StdSort) (rng : Rng G) : ∃ r : Report Nat Nat,
    mainWith Rnd.exact S rng (simpleKit Rnd.exact true) (idsExample "a l\nb l\nc l\n".toList)
      { idsOptions with
        sort := "none".toList
        collapse := false
        interp := true
        trapezoid := true } = .ok (.done r) ∧
    3 / 7 ≤ r.gAP.value ∧ r.gAP.value ≤ 1 ∧ r.gAP.value ≠ 1 ∧ r.gNDCG.value ≠ 0 ∧ r.mAP.value ≠ 0 := by
  obtain ⟨y1, y2⟩ := idsExample_yields
  set o : ToolOptions := { idsOptions with
    sort := "none".toList
    collapse := false
    interp := true
    trapezoid := true } with ho
  have hV : (vocabulary (idsExample "a l\nb l\nc l\n".toList) o).dedup.length ≤ 2 ^ 31 :=
    idsExample_vocabulary1
  obtain ⟨r, hr, _⟩ := (C62_segmentation_partial Rnd.exact S rng true
    (idsExample "a l\nb l\nc l\n".toList) o hV
    (fun t t' h1 h2 => by
      refine ⟨fun h => by simp [ho, idsOptions] at h, fun h => absurd rfl h, fun h => absurd rfl h,
        fun h => by simp [ho, idsOptions] at h⟩)).1
    ⟨⟨by decide, ⟨_, idsExample_file _, yields_valid y1⟩, ⟨_, if_pos rfl, yields_valid y2⟩,
      fun h => absurd rfl h, fun h => absurd rfl h⟩, Or.inl rfl⟩
  obtain ⟨l, ms, h1, ⟨missed, _, h2, h3⟩, h4⟩ := C124_segmentation S rng true
    (idsExample "a l\nb l\nc l\n".toList) o hV _ _ _ _ (idsExample_file _) (if_pos rfl) y1 y2 r hr
  refine ⟨r, hr, ?_⟩
  have hl : listedQueries (idsExample "a l\nb l\nc l\n".toList) o = [] := rfl
  rw [hl] at h1 h2 h3
  unfold InOrder at h1
  rw [if_neg (by decide), if_neg (by decide)] at h1
  subst h1
  have hm : missed = [] := by
    rw [List.eq_nil_iff_forall_not_mem]
    intro x hx
    obtain ⟨a, b⟩ := (h2 x).1 hx
    revert b
    clear hx
    revert x
    decide +kernel
  subst hm h3
  have z := h4.AP_zero rfl
  refine ⟨?_, ?_, ?_, ?_, ?_⟩
  · refine le_trans ?_ (h4.gAP_ge rfl ?_)
    · decide +kernel
    · decide +kernel
  · refine h4.gAP_le.trans ?_
    decide +kernel
  · rw [ne_eq, h4.gAP_one rfl rfl (by decide +kernel)]
    decide +kernel
  · rw [ne_eq, h4.gNDCG_zero]
    decide +kernel
  · rw [ne_eq, z.2]
    decide +kernel

end Kws
