import Verif.Lemmas.Again
import Verif.Props.Instances
import Verif.Props.Pooling
import Verif.Props.HandedIn

/-!
# C118: one more hypothesis for what has been found already changes nothing
-/

namespace Kws
open Spec

/-! ## Matching -/

section
variable {σ RE HE : Type} [Cmp RE] [LawfulCmp RE]

/-- C118 for the matcher, whatever search and scorer: if `x` is right, and every reference it may be given
has been given to one of the hypotheses `l1` before it, then the matches with and without `x` are the same;
the only difference is the list of repeated matches, which gets those of `x`. -/
theorem C118_matcher (ix : RefIndex σ RE HE) (scorer : RE → HE → Cpp MatchError) (s : σ)
    (overl : HE → List RE) (score : RE → HE → MatchError) (refs : List RE) (l1 l2 : List HE) (x : HE)
    (hov : ∀ h ∈ l1 ++ x :: l2,
      ix.findOverlapping (refs.foldl ix.insert (ix.clear s)) h = .ok (overl h))
    (hsub : ∀ h ∈ l1 ++ x :: l2, ∀ r ∈ overl h, r ∈ refs)
    (hsc : ∀ h ∈ l1 ++ x :: l2, ∀ r ∈ overl h, scorer r h = .ok (score r h))
    (hright : ∃ r ∈ overl x, (score r x).fp < 1)
    (hfound : ∀ s1 ms1 rep1, SimpleMatcher.run ix scorer s refs l1 = .ok (s1, ms1, rep1) →
      ∀ r ∈ overl x, (score r x).fp < 1 → ∃ m ∈ ms1, m.ref = some r ∧ m.hyp ≠ none) :
    ∃ s' ms c d, SimpleMatcher.run ix scorer s refs (l1 ++ l2) = .ok (s', ms, c ++ d) ∧
      SimpleMatcher.run ix scorer s refs (l1 ++ x :: l2) =
        .ok (s', ms, c ++ ((overl x).filter fun r => (score r x).fp < 1).map
          (fun r => ⟨some r, some x, score r x⟩) ++ d) := by
  refine run_without ix scorer s overl score refs l1 l2 x hov hsub hsc hright fun e1 r1 g r hr hfp => ?_
  have hm : ∀ h ∈ l1, h ∈ l1 ++ x :: l2 := fun h hh => List.mem_append_left _ hh
  obtain ⟨e, mi, rep, b1, b2, b3, b4⟩ := run_spec ix scorer s overl score refs l1
    (fun h hh => hov h (hm h hh)) (fun h hh => hsub h (hm h hh)) (fun h hh => hsc h (hm h hh))
  obtain ⟨rfl, rfl⟩ := g.unique b2
  obtain ⟨m, hm, e, hne⟩ := hfound _ _ _ b1 r hr hfp
  rcases List.mem_append.1 hm with hm | hm
  · exact ⟨m, hm, e⟩
  · obtain ⟨r', -, rfl⟩ := List.mem_map.1 hm
    exact absurd rfl hne

end

/-! ## The box tool -/

theorem box_accepts (R : Rnd) (S : StdSort) (refs : List (Event Str (DocBox Str UInt32)))
    (hyps : List (ScoredEvent Str (DocBox Str UInt32)))
    (hr : ∀ r ∈ refs, EdgesOkU r.location.toBBox) (hh : ∀ h ∈ hyps, InRangeU h.base)
    (hR : R = Rnd.exact ∨ R.Faithful ∧ ∀ h ∈ hyps, areaU h.base ≤ 2 ^ 24) :
    Accepts (icdarKit R S) BoxPair refs hyps := by
  obtain ⟨overl, hov⟩ := box_inputs R S DocEventSet.new refs hyps hr hh hR
  refine ⟨overl, fun r h => verdict (areaU h.base ≤ 2 * commonU r h.base), fun h hh => ?_⟩
  obtain ⟨h1, -, h3, -, h5⟩ := hov h hh
  refine ⟨h1, fun r hr => ⟨((h3 r).1 hr).1, h5 r hr⟩, fun r hr => ?_⟩
  rw [h3]
  unfold BoxPair verdict
  dsimp only
  split <;> simp_all

section
variable {G : Type}

/-- C118 for the box tool, exact and rounded: the file of hypotheses gets one more line, anywhere, with a
hypothesis for what hypotheses ahead of it have found already. Then the run ends in the same way, with the
same values, confidence intervals, curves and dumped matches. -/
theorem C118_box (R : Rnd) (S : StdSort) (rng : Rng G) (w w' : World) (o : ToolOptions)
    (hw : SameButHyps o w w') (hr0 : o.refFilename ≠ []) (t u u' : Str)
    (refs : List (Event Str (DocBox Str UInt32)))
    (a b : List (ScoredEvent Str (DocBox Str UInt32))) (x : ScoredEvent Str (DocBox Str UInt32))
    (ht : w.file o.refFilename = some t) (hu : hypText w o = some u) (hu' : hypText w' o = some u')
    (hrefs : Yields BoxEventText (lines t) refs)
    (hhyps : Yields (ScoredText R BoxEventText) (lines u) (a ++ b))
    (hhyps' : Yields (ScoredText R BoxEventText) (lines u') (a ++ x :: b))
    (hr : ∀ r ∈ refs, EdgesOkU r.location.toBBox) (hh : ∀ h ∈ a ++ x :: b, InRangeU h.base)
    (hR : R = Rnd.exact ∨ R.Faithful ∧ ∀ h ∈ a ++ x :: b, areaU h.base ≤ 2 ^ 24)
    (hx : FoundAlready BoxPair o.sort refs a b x) :
    SameButRepeats o (mainWith R S rng (icdarKit R S) w o) (mainWith R S rng (icdarKit R S) w' o) := by
  have hfin : ∀ h ∈ a ++ x :: b, h.score ≠ .nan := by
    have := (icdar_plain R S).finite u' (yields_valid hhyps')
    rwa [yields_events Format.boxHyps hhyps'] at this
  rw [(icdar_plain R S).main_good S rng w o hr0 t u ht hu (yields_valid hrefs) (yields_valid hhyps),
    (icdar_plain R S).main_good S rng w' o hr0 t u' (by rw [hw.refs, ht]) hu' (yields_valid hrefs)
      (yields_valid hhyps'),
    yields_events (Format.boxRefs (R := R)) hrefs, yields_events Format.boxHyps hhyps,
    yields_events Format.boxHyps hhyps']
  have hq : readQueryMap (icdarKit R S).mapQuery w' o () = readQueryMap (icdarKit R S).mapQuery w o () := by
    unfold readQueryMap
    rw [hw.querySet, hw.queryGroups]
  rw [hq]
  cases readQueryMap (icdarKit R S).mapQuery w o () with
  | error e => exact Or.inl rfl
  | ok q =>
    cases q with
    | none => exact Or.inl rfl
    | some q2g =>
      simp only [Except.bind]
      rw [evaluate_writable R S rng (icdarKit R S) hw.writable]
      refine evaluate_again R S rng (icdarKit R S) w o q2g refs a b x BoxPair (fun _ _ h => h.1) hfin ?_ hx
      intro refs' hyps' h1 h2
      exact box_accepts R S refs' hyps' (fun r hr' => hr r (h1 hr')) (fun h hh' => hh h (h2 hh'))
        (hR.imp_right fun ⟨p, q⟩ => ⟨p, fun h hh' => q h (h2 hh')⟩)

end

/-! ## The segmentation-based tool -/

theorem seg_accepts {μ Q : Type} [DecidableEq Q] [Cmp Q] [LawfulCmp Q]
    {kit : ToolKit μ (EventSet (Event Q Q)) Q Q} (hk : SegKit kit) (refs : List (Event Q Q))
    (hyps : List (ScoredEvent Q Q)) : Accepts kit (fun r h => r = h.base) refs hyps := by
  classical
  refine ⟨fun h => if h.base ∈ refs then [h.base] else [], fun _ _ => ⟨0, 0⟩, fun h _ => ?_⟩
  rw [hk.index, hk.scorer]
  refine ⟨plain_find refs _ h, fun r hr => ?_, fun r hr => ?_⟩
  · simp only at hr
    split at hr
    · rw [List.mem_singleton] at hr
      subst hr
      exact ⟨‹_›, trivial_same h⟩
    · simp at hr
  · constructor
    · rintro ⟨h1, -⟩
      dsimp only at h1
      split at h1
      · simpa using h1
      · simp at h1
    · rintro rfl
      simp [hr]

section
variable {G : Type}

/-- C118 for the segmentation-based tool, with any rounding: the file of hypotheses gets one more line,
anywhere, with a hypothesis that is right and repeats one ahead of it. Then the run ends in the same way,
with the same values, confidence intervals, curves and dumped matches. -/
theorem C118_segmentation (R : Rnd) (S : StdSort) (rng : Rng G) (qf : Bool) (w w' : World) (o : ToolOptions)
    (hV : (vocabulary w o).dedup.length ≤ 2 ^ 31)
    (hw : SameButHyps o w w') (hr0 : o.refFilename ≠ []) (t u u' : Str) (refs : List (Event Str Str))
    (a b : List (ScoredEvent Str Str)) (x y : ScoredEvent Str Str)
    (ht : w.file o.refFilename = some t) (hu : hypText w o = some u) (hu' : hypText w' o = some u')
    (hrefs : Yields StrEventText (lines t) refs)
    (hhyps : Yields (ScoredText R StrEventText) (lines u) (a ++ b))
    (hhyps' : Yields (ScoredText R StrEventText) (lines u') (a ++ x :: b))
    (hx : x.base ∈ refs) (hy : y ∈ a ++ b) (hyx : y.base = x.base) (ha : Ahead o.sort a y x) :
    SameButRepeats o (mainWith R S rng (simpleKit R qf) w o) (mainWith R S rng (simpleKit R qf) w' o) := by
  have v1 := yields_valid hrefs
  have v2 := yields_valid hhyps
  have v2' := yields_valid hhyps'
  have e1 := yields_events (Format.strRefs (R := R)) hrefs
  have e2 := yields_events Format.strHyps hhyps
  have e2' := yields_events Format.strHyps hhyps'
  have hfin : ∀ h ∈ a ++ x :: b, h.score ≠ .nan := by
    have := (str_plain R).finite u' v2'
    rwa [e2'] at this
  have hqw : queryWords w' o = queryWords w o := by
    unfold queryWords
    rw [hw.querySet, hw.queryGroups]
  have hq : readQueryMap (fun (m : Unit) q => (m, (.ok q : Cpp Str))) w' o () =
      readQueryMap (fun (m : Unit) q => (m, .ok q)) w o () := by
    unfold readQueryMap
    rw [hw.querySet, hw.queryGroups]
  set A := refs.flatMap (strings qf) with hA
  obtain ⟨T, hT⟩ : ∃ T, T = A ++ (a ++ b).flatMap (fun e => strings qf e.base) ++ queryWords w o := ⟨_, rfl⟩
  obtain ⟨T', hT'⟩ : ∃ T', T' = A ++ (a ++ x :: b).flatMap (fun e => strings qf e.base) ++ queryWords w' o :=
    ⟨_, rfl⟩
  have hX : strings qf x.base ⊆ A := fun s hs => List.mem_flatMap.2 ⟨x.base, hx, hs⟩
  have hfirsts : firsts T' = firsts T := by
    have := firsts_known (P := A ++ a.flatMap (fun e => strings qf e.base)) (X := strings qf x.base)
      (fun s hs => List.mem_append_left _ (hX hs))
      (b.flatMap (fun e => strings qf e.base) ++ queryWords w o)
    rw [hT, hT', hqw]
    simpa [List.flatMap_append, List.flatMap_cons] using this
  have hsub : T ⊆ vocabulary w o := by
    rw [hT]
    intro s hs
    rcases List.mem_append.1 hs with hs | hs
    · rcases List.mem_append.1 hs with hs | hs
      · obtain ⟨e, he, hs⟩ := List.mem_flatMap.1 hs
        have := ref_strings t e (by rw [(Format.strRefs (R := R)).readPlain_ok t v1]; rw [← e1] at he; exact he)
        rcases (strings_mem qf e s).1 hs with rfl | rfl
        · exact vocabulary_ref ht this.1
        · exact vocabulary_ref ht this.2
      · obtain ⟨e, he, hs⟩ := List.mem_flatMap.1 hs
        have := hyp_strings R u e (by rw [(Format.strHyps (R := R)).readPlain_ok u v2]; rw [← e2] at he; exact he)
        rcases (strings_mem qf e.base s).1 hs with rfl | rfl
        · exact vocabulary_hyp hu this.1
        · exact vocabulary_hyp hu this.2
    · exact vocabulary_query w o hs
  have hcap := (firsts_length_subset _ _ hsub).trans hV
  obtain ⟨f, N, hf, hfT, -⟩ := extend_ids T
  have hfT' : ∀ s ∈ T', f s = idOf T' s := by
    intro s hs
    have h1 : s ∈ T := (mem_firsts T s).1 (hfirsts ▸ (mem_firsts T' s).2 hs)
    rw [hfT s h1]
    unfold idOf
    rw [hfirsts]
  rw [simple_named R S rng qf w o hr0 t u ht hu v1 v2 refs _ e1 e2 T hT hcap f hf hfT,
    simple_named R S rng qf w' o hr0 t u' (by rw [hw.refs, ht]) hu' v1 v2' refs _ e1 e2' T' hT'
      (by rw [hfirsts]; exact hcap) f hf hfT', hq]
  cases readQueryMap (fun (m : Unit) q => (m, (.ok q : Cpp Str))) w o () with
  | error e => exact Or.inl rfl
  | ok q =>
    cases q with
    | none => exact Or.inl rfl
    | some q2g =>
      simp only [Except.bind]
      rw [evaluate_writable R S rng (simpleKit R qf) hw.writable, List.map_append, List.map_append,
        List.map_cons]
      refine evaluate_again R S rng (simpleKit R qf) w o _ _ _ _ _ (fun r h => r = h.base)
        (fun r h e => by rw [e]) ?_ (fun refs' hyps' _ _ => seg_accepts (simple_seg R qf) refs' hyps') ⟨?_, ?_⟩
      · intro h hh
        rw [← List.map_cons, ← List.map_append] at hh
        obtain ⟨h, hh', rfl⟩ := List.mem_map.1 hh
        exact hfin h hh'
      · exact ⟨_, List.mem_map_of_mem hx, rfl⟩
      · rintro r - rfl
        refine ⟨y.rename f f, ?_, ?_, ?_, ?_⟩
        · rw [← List.map_append]
          exact List.mem_map_of_mem hy
        · unfold Ahead at ha ⊢
          split
          · rw [if_pos ‹_›] at ha
            exact ha.imp id fun e => by rw [e]
          · rw [if_neg ‹_›] at ha
            split
            · rw [if_pos ‹_›] at ha
              exact ha.imp id fun e => by rw [e]
            · rw [if_neg ‹_›] at ha
              exact List.mem_map_of_mem ha
        · unfold ScoredEvent.rename
          rw [hyx]
        · rintro r' - rfl
          unfold ScoredEvent.rename
          rw [hyx]

end

/-! ## The same box again may find something else -/

/-- Two references, the halves of a box, which is handed in twice. -/
def halfL : Event Str (DocBox Str UInt32) := ⟨['q'], ⟨⟨0, 0, 1, 1⟩, ['d']⟩⟩
def halfR : Event Str (DocBox Str UInt32) := ⟨['q'], ⟨⟨1, 0, 1, 1⟩, ['d']⟩⟩
def bothHalves (s : ℚ) : ScoredEvent Str (DocBox Str UInt32) := ⟨⟨['q'], ⟨⟨0, 0, 2, 1⟩, ['d']⟩⟩, .fin s⟩

theorem halves_search (s : ℚ) :
    (∀ r, r ∈ [halfR, halfL] ↔ r ∈ [halfL, halfR] ∧ r.query = (bothHalves s).base.query ∧
      0 < commonU r (bothHalves s).base) ∧
    [halfR, halfL].Pairwise (OverlapBefore (· < ·) BoxEventLt (commonU · (bothHalves s).base)) := by
  have hall : ∀ r ∈ [halfL, halfR], r.query = (bothHalves 0).base.query ∧
      0 < commonU r (bothHalves 0).base := by decide +kernel
  refine ⟨fun r => ⟨fun h => ?_, fun h => ?_⟩, ?_⟩
  · have : r ∈ [halfL, halfR] := by simpa [or_comm] using h
    exact ⟨this, hall r this⟩
  · simpa [or_comm] using h.1
  · simp only [List.pairwise_cons, List.mem_singleton, forall_eq, List.not_mem_nil, false_implies,
      implies_true, List.Pairwise.nil, and_true]
    refine Or.inr ⟨?_, Or.inr ⟨rfl, Or.inr ⟨rfl, Or.inl (by decide)⟩⟩⟩
    show commonU halfR (bothHalves 0).base = commonU halfL (bothHalves 0).base
    decide +kernel

theorem halves_first (s : ℚ) : (verdict (areaU (bothHalves s).base ≤ 2 * commonU halfL (bothHalves s).base)) =
    ⟨0, 0⟩ ∧ (verdict (areaU (bothHalves s).base ≤ 2 * commonU halfR (bothHalves s).base)) = ⟨0, 0⟩ := by
  show (verdict (areaU (bothHalves 0).base ≤ 2 * commonU halfL (bothHalves 0).base)) =
    ⟨0, 0⟩ ∧ (verdict (areaU (bothHalves 0).base ≤ 2 * commonU halfR (bothHalves 0).base)) = ⟨0, 0⟩
  decide +kernel

theorem halves_once : ExactBoxMatching [halfL, halfR] [bothHalves 2]
    [⟨some halfR, some (bothHalves 2), ⟨0, 0⟩⟩, ⟨some halfL, none, ⟨0, 1⟩⟩] [] := by
  refine ⟨[bothHalves 2], fun _ => [halfR, halfL], [⟨some halfR, some (bothHalves 2), ⟨0, 0⟩⟩], [halfL],
    List.Perm.refl _, by simp, ?_, ?_, by simp, ?_, rfl⟩
  · intro h hh
    obtain rfl := List.mem_singleton.1 hh
    exact halves_search 2
  · refine .cons _ _ _ [_] [] [] [] (Or.inr (Or.inl ⟨[], halfR, [halfL], rfl,
      by simp only [(halves_first 2).2]; decide, by simp [Taken], by simp, by simp only [(halves_first 2).2]⟩))
      ⟨[], [halfR, halfL], rfl, by simp, ?_, by simp⟩ (.nil _)
    intro r hr
    simp only [List.head?_cons, Option.some.injEq] at hr
    subst hr
    exact ⟨by simp only [(halves_first 2).2]; decide, by simp [Taken]⟩
  · intro r
    simp only [Taken, List.mem_cons, List.not_mem_nil, or_false, exists_eq_left, Option.some.injEq]
    constructor
    · rintro rfl
      exact ⟨Or.inl rfl, by decide +kernel⟩
    · rintro ⟨rfl | rfl, h⟩
      · rfl
      · exact absurd rfl h

theorem halves_twice : ExactBoxMatching [halfL, halfR] [bothHalves 2, bothHalves 1]
    [⟨some halfR, some (bothHalves 2), ⟨0, 0⟩⟩, ⟨some halfL, some (bothHalves 1), ⟨0, 0⟩⟩]
    [⟨some halfR, some (bothHalves 1), ⟨0, 0⟩⟩] := by
  refine ⟨[bothHalves 2, bothHalves 1], fun _ => [halfR, halfL],
    [⟨some halfR, some (bothHalves 2), ⟨0, 0⟩⟩, ⟨some halfL, some (bothHalves 1), ⟨0, 0⟩⟩], [],
    List.Perm.refl _, ?_, ?_, ?_, by simp, ?_, by simp⟩
  · simp only [List.pairwise_cons, List.mem_singleton, forall_eq, List.not_mem_nil, false_implies,
      implies_true, List.Pairwise.nil, and_true]
    exact Or.inl ((turnBefore_iff _ _ (by decide)).1 (by decide +kernel))
  · intro h hh
    simp only [List.mem_cons, List.not_mem_nil, or_false] at hh
    rcases hh with rfl | rfl <;> exact halves_search _
  · refine .cons _ _ _ [_] [] [_] [_] (Or.inr (Or.inl ⟨[], halfR, [halfL], rfl,
      by simp only [(halves_first 2).2]; decide, by simp [Taken], by simp, by simp only [(halves_first 2).2]⟩))
      ⟨[], [halfR, halfL], rfl, by simp, ?_, by simp⟩ ?_
    · intro r hr
      simp only [List.head?_cons, Option.some.injEq] at hr
      subst hr
      exact ⟨by simp only [(halves_first 2).2]; decide, by simp [Taken]⟩
    refine .cons _ _ _ [_] [_] [] [] (Or.inr (Or.inl ⟨[halfR], halfL, [], rfl,
      by simp only [(halves_first 1).1]; decide, by unfold Taken; decide +kernel, by unfold Taken; decide +kernel,
      by simp only [(halves_first 1).1]⟩))
      ⟨[halfR], [halfL], rfl, by unfold Taken; decide +kernel, ?_, ?_⟩ (.nil _)
    · intro r hr
      simp only [List.head?_cons, Option.some.injEq] at hr
      subst hr
      exact ⟨by simp only [(halves_first 1).1]; decide, by unfold Taken; decide +kernel⟩
    · decide +kernel
  · unfold Taken
    simp

/-- C118 needs that each hypothesis may be given one reference only: in the box tool the very same box,
handed in once more with a lower score, can be given another reference, and the average precision
doubles. -/
theorem C118_box_twice {G : Type} (S : StdSort) (rng : Rng G) : ∃ r r' : Report Str (DocBox Str UInt32),
    mainWith Rnd.exact S rng (icdarKit Rnd.exact S) (dumpExample "q d 0 0 1 1\nq d 1 0 1 1\n".toList
      "q d 0 0 2 1 2\n".toList) dumpOptions = .ok (.done r) ∧
    mainWith Rnd.exact S rng (icdarKit Rnd.exact S) (dumpExample "q d 0 0 1 1\nq d 1 0 1 1\n".toList
      "q d 0 0 2 1 2\nq d 0 0 2 1 1\n".toList) dumpOptions = .ok (.done r') ∧
    r.gAP.value = 1 / 2 ∧ r'.gAP.value = 1 ∧ ¬ SameButRepeats dumpOptions (.ok (.done r)) (.ok (.done r')) := by
  have y1 : Yields BoxEventText (lines "q d 0 0 1 1\nq d 1 0 1 1\n".toList) [halfL, halfR] :=
    (C48_accepts (Format.boxRefs (R := Rnd.exact)) _ _).1 (by decide +kernel)
  have y2 : Yields (ScoredText Rnd.exact BoxEventText) (lines "q d 0 0 2 1 2\n".toList) [bothHalves 2] :=
    (C48_accepts (Format.boxHyps (R := Rnd.exact)) _ _).1 (by decide +kernel)
  have y3 : Yields (ScoredText Rnd.exact BoxEventText) (lines "q d 0 0 2 1 2\nq d 0 0 2 1 1\n".toList)
      [bothHalves 2, bothHalves 1] :=
    (C48_accepts (Format.boxHyps (R := Rnd.exact)) _ _).1 (by decide +kernel)
  have hr1 : ∀ r ∈ [halfL, halfR], EdgesOkU r.location.toBBox := by
    unfold EdgesOkU
    decide +kernel
  have hh1 : ∀ s, InRangeU (bothHalves s).base := fun s => by
    show InRangeU (bothHalves 0).base
    unfold InRangeU EdgesOkU
    decide +kernel
  obtain ⟨r, hr⟩ := dump_run S rng _ _ _ _ y1 y2
  obtain ⟨r', hr'⟩ := dump_run S rng _ _ _ _ y1 y3
  obtain ⟨ms, rep, h1, _, h2, _⟩ := C88_box S rng _ dumpOptions _ _ _ _ (dumpExample_file _ _)
    (if_pos rfl) y1 y2 hr1 (by simpa using hh1 2) rfl rfl r hr
  obtain ⟨ms', rep', h1', _, h2', _⟩ := C88_box S rng _ dumpOptions _ _ _ _ (dumpExample_file _ _)
    (if_pos rfl) y1 y3 hr1 (by simpa using ⟨hh1 2, hh1 1⟩) rfl rfl r' hr'
  have hl : ∀ a b, listedQueries (dumpExample a b) dumpOptions = [] := fun _ _ => rfl
  rw [hl] at h1 h1'
  obtain ⟨rfl, rfl⟩ := C88_determined _ _ _ _ _ _ _ _ (fun _ => Iff.rfl) (.refl _)
    (by simp [keep, bothHalves]) h1 halves_once
  obtain ⟨rfl, rfl⟩ := C88_determined _ _ _ _ _ _ _ _ (fun _ => Iff.rfl) (.refl _)
    (by simp [keep, bothHalves]) h1' halves_twice
  have v : r.gAP.value = 1 / 2 := h2.trans (by unfold matchNumbers Numbers.of; decide +kernel)
  have v' : r'.gAP.value = 1 := h2'.trans (by unfold matchNumbers Numbers.of; decide +kernel)
  refine ⟨r, r', hr, hr', v, v', ?_⟩
  rintro (e | ⟨-, r0, ms, rep, rep', -, -, e1, e2⟩)
  · injection e with e
    injection e with e
    rw [e, v'] at v
    norm_num at v
  · injection e1 with e1
    injection e1 with e1
    injection e2 with e2
    injection e2 with e2
    rw [e2, ← e1] at v'
    rw [show ({ r with dump := some (ms, rep') } : Report Str (DocBox Str UInt32)).gAP.value = r.gAP.value
      from rfl, v] at v'
    norm_num at v'

/-! ## Examples -/

/-- A case of C118 for the segmentation-based tool: `a l` is handed in a second time, between the others, and
all four metrics are the same. -/
example {G : Type} (S : StdSort) (rng : Rng G) :
    mainWith Rnd.exact S rng (simpleKit Rnd.exact true)
      (poolWorld "a l\nb m\n".toList "b m 1\na l 3\n".toList) poolOptions =
    mainWith Rnd.exact S rng (simpleKit Rnd.exact true)
      (poolWorld "a l\nb m\n".toList "b m 1\na l 2\na l 3\n".toList) poolOptions := by
  have y1 := (C48_accepts (Format.strRefs (R := Rnd.exact)) "a l\nb m\n".toList
    [⟨['a'], ['l']⟩, ⟨['b'], ['m']⟩]).1 (by decide +kernel)
  have y2 := (C48_accepts (Format.strHyps (R := Rnd.exact)) "b m 1\na l 3\n".toList
    ([⟨⟨['b'], ['m']⟩, .fin 1⟩] ++ [⟨⟨['a'], ['l']⟩, .fin 3⟩])).1 (by decide +kernel)
  have y3 := (C48_accepts (Format.strHyps (R := Rnd.exact)) "b m 1\na l 2\na l 3\n".toList
    ([⟨⟨['b'], ['m']⟩, .fin 1⟩] ++ ⟨⟨['a'], ['l']⟩, .fin 2⟩ :: [⟨⟨['a'], ['l']⟩, .fin 3⟩])).1 (by decide +kernel)
  have h := C118_segmentation Rnd.exact S rng true
    (poolWorld "a l\nb m\n".toList "b m 1\na l 3\n".toList)
    (poolWorld "a l\nb m\n".toList "b m 1\na l 2\na l 3\n".toList) poolOptions (by decide +kernel)
    ⟨rfl, rfl, rfl, rfl⟩ (by decide) _ _ _ _ _ _ _ ⟨⟨['a'], ['l']⟩, .fin 3⟩ (poolWorld_file _ _)
    (if_pos rfl) (if_pos rfl) y1 y2 y3 (by decide) (by decide +kernel) rfl
    (by unfold Ahead; rw [if_pos (by rfl)]; exact Or.inl (by decide +kernel))
  exact h.resolve_right fun h => h.1 rfl

/-- A case of C118 for the box tool: a second, smaller box for the word that the first one has found, read
before it, and a wrong hypothesis after it. -/
example {G : Type} (S : StdSort) (rng : Rng G) : SameButRepeats dumpOptions
    (mainWith Rnd.exact S rng (icdarKit Rnd.exact S) (dumpExample "q d 0 0 4 1\nq d 9 0 4 1\n".toList
      "q d 0 0 4 1 2\nq e 0 0 4 1 2\n".toList) dumpOptions)
    (mainWith Rnd.exact S rng (icdarKit Rnd.exact S) (dumpExample "q d 0 0 4 1\nq d 9 0 4 1\n".toList
      "q d 1 0 3 1 1.5\nq d 0 0 4 1 2\nq e 0 0 4 1 2\n".toList) dumpOptions) := by
  have y1 := (C48_accepts (Format.boxRefs (R := Rnd.exact)) "q d 0 0 4 1\nq d 9 0 4 1\n".toList
    [⟨['q'], ⟨⟨0, 0, 4, 1⟩, ['d']⟩⟩, ⟨['q'], ⟨⟨9, 0, 4, 1⟩, ['d']⟩⟩]).1 (by decide +kernel)
  have y2 := (C48_accepts (Format.boxHyps (R := Rnd.exact)) "q d 0 0 4 1 2\nq e 0 0 4 1 2\n".toList
    ([] ++ [⟨⟨['q'], ⟨⟨0, 0, 4, 1⟩, ['d']⟩⟩, .fin 2⟩, ⟨⟨['q'], ⟨⟨0, 0, 4, 1⟩, ['e']⟩⟩, .fin 2⟩])).1
    (by decide +kernel)
  have y3 := (C48_accepts (Format.boxHyps (R := Rnd.exact))
    "q d 1 0 3 1 1.5\nq d 0 0 4 1 2\nq e 0 0 4 1 2\n".toList
    ([] ++ ⟨⟨['q'], ⟨⟨1, 0, 3, 1⟩, ['d']⟩⟩, .fin (3 / 2)⟩ ::
      [⟨⟨['q'], ⟨⟨0, 0, 4, 1⟩, ['d']⟩⟩, .fin 2⟩, ⟨⟨['q'], ⟨⟨0, 0, 4, 1⟩, ['e']⟩⟩, .fin 2⟩])).1
    (by decide +kernel)
  refine C118_box Rnd.exact S rng _ _ dumpOptions ⟨rfl, rfl, rfl, rfl⟩ (by decide) _ _ _ _ _ _ _
    (dumpExample_file _ _) (if_pos rfl) (if_pos rfl) y1 y2 y3 (by unfold EdgesOkU; decide +kernel)
    (by unfold InRangeU EdgesOkU; decide +kernel) (.inl rfl) ⟨?_, ?_⟩
  · unfold BoxPair
    decide +kernel
  · intro r hr hx
    refine ⟨⟨⟨['q'], ⟨⟨0, 0, 4, 1⟩, ['d']⟩⟩, .fin 2⟩, by simp, ?_, ?_⟩
    · unfold Ahead
      rw [if_pos (by rfl)]
      exact Or.inl (by decide +kernel)
    · revert r
      unfold BoxPair
      decide +kernel

end Kws
