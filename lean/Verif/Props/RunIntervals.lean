import Verif.Lemmas.RunIntervals
import Verif.Props.HandedIn

/-!
# C125: the confidence intervals of a run

`Spec/RunIntervals.lean` says which intervals the tools should report, from the numbers of samples that are
drawn from the groups of the matches.
-/

namespace Kws
open Spec

/-- Four samples with the numbers 3, 0, 2 and 1 around the value 1. -/
example : OfSamples (1 / 2) [3, 0, 2, 1] (fun x : ℚ => x) 1 (-1, 1) := by
  refine ⟨[-1, 0, 1, 2], by decide +kernel, by decide +kernel, 2, 0, by decide +kernel, by decide +kernel, by norm_num⟩

section
variable {G : Type}

/-- C125: the box tool reports the intervals that the numbers of the samples give. All of them come from the
same samples. -/
theorem C125_box (S : StdSort) (rng : Rng G) (w : World) (o : ToolOptions) (t u : Str)
    (refs : List (Event Str (DocBox Str UInt32))) (hyps : List (ScoredEvent Str (DocBox Str UInt32)))
    (ht : w.file o.refFilename = some t) (hu : hypText w o = some u)
    (hrefs : Yields BoxEventText (lines t) refs)
    (hhyps : Yields (ScoredText Rnd.exact BoxEventText) (lines u) hyps)
    (hr : ∀ r ∈ refs, EdgesOkU r.location.toBBox) (hh : ∀ h ∈ hyps, InRangeU h.base)
    (r : Report Str (DocBox Str UInt32))
    (h : mainWith Rnd.exact S rng (icdarKit Rnd.exact S) w o = .ok (.done r)) :
    ∃ l ms rep, InOrder o.sort (keep (·.base.query) (listedQueries w o) hyps) l ∧
      BoxMatching (keep (·.query) (listedQueries w o) refs) l ms rep ∧
      (o.dumpMatches ≠ [] → r.dump = some (ms, rep)) ∧ ShowsList (groupFor w o) o r ms 0 ∧
      ∃ keys samples arr, ShowsIntervals rng (groupFor w o) o r ms keys samples arr := by
  have hr0 : o.refFilename ≠ [] := by
    intro hr
    unfold mainWith at h
    rw [if_pos hr] at h
    cases h
  have v1 := yields_valid hrefs
  have v2 := yields_valid hhyps
  rw [(icdar_plain Rnd.exact S).main_good S rng w o hr0 t u ht hu v1 v2,
    yields_events (Format.boxRefs (R := Rnd.exact)) hrefs, yields_events Format.boxHyps hhyps,
    (icdar_plain Rnd.exact S).mapQuery] at h
  cases hq : readQueryMap (fun (m : Unit) q => (m, (.ok q : Cpp Str))) w o () with
  | error x => rw [hq] at h; cases h
  | ok x =>
    rw [hq] at h
    cases x with
    | none => cases h
    | some q2g =>
      obtain ⟨q1, q2⟩ := readQueryMap_spec w o q2g hq
      have hfin := (icdar_plain Rnd.exact S).finite u v2
      rw [yields_events Format.boxHyps hhyps] at hfin
      obtain ⟨l, s', ms, rep, e1, e2, e4, e6, e7, e8⟩ := evaluate_intervals S rng (icdarKit Rnd.exact S) (by
          intro a b e he hf
          obtain ⟨i, hi⟩ := inter_ok a b.base
          have := ioh_eq Rnd.exact (1 / 2) a b i hi
          rw [show (icdarKit Rnd.exact S).scorer a b = iohScorer Rnd.exact (1 / 2) a b from rfl, this] at he
          injection he with he
          subst he
          unfold verdict at hf ⊢
          split
          · rfl
          · rename_i hne; rw [if_neg hne] at hf; norm_num at hf) w o q2g refs hyps r
        hfin h
      have k1 : usedRefs q2g refs = keep (·.query) (listedQueries w o) refs := by
        unfold usedRefs
        rw [filter_keep _ _ q1]
      have k2 : usedHyps q2g hyps = keep (·.base.query) (listedQueries w o) hyps := by
        unfold usedHyps
        rw [filter_keep _ _ q1]
      have hsub : ∀ x ∈ l, x ∈ hyps := fun x hx => usedHyps_mem q2g hyps x (e2.mem_iff.1 hx)
      have hsubr : ∀ x ∈ usedRefs q2g refs, x ∈ refs := by
        intro x hx
        rw [k1] at hx
        unfold keep at hx
        split at hx
        · exact hx
        · exact (List.mem_filter.1 hx).1
      rw [k2] at e1
      have hg : groupOf q2g = groupFor w o := funext q2
      rw [hg] at e7 e8
      refine ⟨l, ms, rep, e1, ?_, fun hne => by rw [e6, if_neg hne], e7, e8⟩
      obtain ⟨s1, ms1, rep1, f1, f2⟩ := C17_box_matching Rnd.exact S DocEventSet.new (usedRefs q2g refs) l
        (fun x hx => hr x (hsubr x hx)) (fun x hx => hh x (hsub x hx)) (by
          exact Or.inl rfl)
      rw [show SimpleMatcher.run (icdarKit Rnd.exact S).index (icdarKit Rnd.exact S).scorer (icdarKit Rnd.exact S).refsSet
        (usedRefs q2g refs) l = _ from f1, Except.ok.injEq, Prod.mk.injEq, Prod.mk.injEq] at e4
      obtain ⟨_, rfl, rfl⟩ := e4
      rw [← k1]
      exact f2

/-- C125 for the segmentation-based tool. -/
theorem C125_segmentation (S : StdSort) (rng : Rng G) (qf : Bool) (w : World) (o : ToolOptions)
    (hV : (vocabulary w o).dedup.length ≤ 2 ^ 31) (t u : Str)
    (refs : List (Event Str Str)) (hyps : List (ScoredEvent Str Str))
    (ht : w.file o.refFilename = some t) (hu : hypText w o = some u)
    (hrefs : Yields StrEventText (lines t) refs)
    (hhyps : Yields (ScoredText Rnd.exact StrEventText) (lines u) hyps) (r : Report Nat Nat)
    (h : mainWith Rnd.exact S rng (simpleKit Rnd.exact qf) w o = .ok (.done r)) :
    ∃ l ms, InOrder o.sort (keep (·.base.query) (listedQueries w o) hyps) l ∧
      SegMatching (keep (·.query) (listedQueries w o) refs) l ms ∧ ShowsList (groupFor w o) o r ms 0 ∧
      ∃ keys samples arr, ShowsIntervals rng (groupFor w o) o r ms keys samples arr := by
  have hr : o.refFilename ≠ [] := by
    intro hr
    unfold mainWith at h
    rw [if_pos hr] at h
    cases h
  have v1 := yields_valid hrefs
  have v2 := yields_valid hhyps
  obtain ⟨f, N, hf, _, e⟩ := simple_good Rnd.exact S rng qf w o hV hr t u ht hu v1 v2
  rw [yields_events (Format.strRefs (R := Rnd.exact)) hrefs, yields_events Format.strHyps hhyps] at e
  rw [e] at h
  cases hq : readQueryMap (fun (m : Unit) q => (m, (.ok q : Cpp Str))) w o () with
  | error x => rw [hq] at h; cases h
  | ok x =>
    rw [hq] at h
    cases x with
    | none => cases h
    | some q2g =>
      obtain ⟨q1, q2⟩ := readQueryMap_spec w o q2g hq
      have hfin := (str_plain Rnd.exact).finite u v2
      rw [yields_events Format.strHyps hhyps] at hfin
      have hk := simple_seg Rnd.exact qf
      obtain ⟨l, s', ms, rep, e1, e2, e4, _, e7, e8⟩ := evaluate_intervals S rng (simpleKit Rnd.exact qf) (by
        intro r x e he hf
        rw [hk.scorer, C24_trivial_scorer] at he
        injection he with he
        subst he
        unfold verdict at hf ⊢
        split
        · rfl
        · rename_i hne; rw [if_neg hne] at hf; norm_num at hf) w o (q2g.map (Prod.map f f)) _ _ r
        (fun x hx => by
          obtain ⟨y, hy, rfl⟩ := List.mem_map.1 hx
          exact hfin y hy) h
      rw [usedHyps_rename f hf] at e1
      obtain ⟨l, o1, rfl⟩ := inOrder_rename hf hf _ _ _ e1
      rw [hk.index, hk.scorer, usedRefs_rename f hf] at e4
      obtain ⟨s2, missed, rep2, c1, c2, c3⟩ := C24_segmentation_result (simpleKit Rnd.exact qf).refsSet
        ((usedRefs q2g refs).map (Event.rename f f)) (l.map (ScoredEvent.rename f f))
      rw [c1, Except.ok.injEq, Prod.mk.injEq, Prod.mk.injEq] at e4
      obtain ⟨_, hms, _⟩ := e4
      obtain ⟨ms0, m1, m2⟩ := segMatching_rename hf hf (usedRefs q2g refs) l ms ⟨missed,
        c2.imp (fun {a b} hab => by
          rintro rfl
          rw [LawfulCmp.irrefl] at hab
          exact absurd hab (by decide)), c3, hms.symm⟩
      subst m2
      have := showsList_rename hf hf (groupFor w o) _ (fun q => by rw [groupOf_rename hf, q2]) o r ms0 0 e7
      obtain ⟨keys', samples', arr', e8⟩ := e8
      have e8 := showsIntervals_rename hf hf rng (groupFor w o) _ (fun q => by rw [groupOf_rename hf, q2]) o r ms0
        _ _ _ e8
      unfold usedRefs at m1
      unfold usedHyps at o1
      rw [filter_keep _ _ q1] at m1 o1
      exact ⟨l, ms0, o1, m1, this, e8⟩

end

/-! ## Submissions that are all wrong or all right -/

section
variable {G : Type}

theorem boxMatching_nothing {Q D : Type} [DecidableEq D] {refs : List (Event Q (DocBox D UInt32))}
    {l : List (ScoredEvent Q (DocBox D UInt32))} {ms rep : List (KwsMatch Q (DocBox D UInt32))}
    (h : BoxMatching refs l ms rep) (hl : ∀ x ∈ l, ∀ r ∈ refs, r.query = x.base.query → 0 < commonU r x.base →
      2 * commonU r x.base < areaU x.base) : ∀ m ∈ ms, IsHit m = false := by
  obtain ⟨pref, h1, h2⟩ := boxMatching_picked h
  have key : ∀ (l : List (ScoredEvent Q (DocBox D UInt32))), (∀ x ∈ l, pref x = []) → picked pref ∅ l = 0 := by
    intro l
    induction l with
    | nil => intro _; rfl
    | cons x l ih =>
      intro hx
      rw [picked_none (by rw [hx x (by simp)]; rfl), ih fun y hy => hx y (by simp [hy])]
  rw [key l fun x hx => List.eq_nil_iff_forall_not_mem.2 fun r hr => by
    obtain ⟨a, b, c, d⟩ := ((h1 x hx).1 r).1 hr
    have := hl x hx r a b c
    omega] at h2
  intro m hm
  have := List.countP_eq_zero.1 h2 m hm
  simpa using this

theorem segMatching_nothing {Q L : Type} [DecidableEq Q] [DecidableEq L] {refs : List (Event Q L)}
    {l : List (ScoredEvent Q L)} {ms : List (KwsMatch Q L)} (h : SegMatching refs l ms)
    (hl : ∀ x ∈ l, x.base ∉ refs) : ∀ m ∈ ms, IsHit m = false := by
  obtain ⟨missed, _, _, rfl⟩ := h
  intro m hm
  rcases List.mem_append.1 hm with hm | hm
  · have : ∀ (l : List (ScoredEvent Q L)) seen, (∀ x ∈ l, x.base ∉ refs) → m ∈ segEntries refs seen l →
        IsHit m = false := by
      intro l
      induction l with
      | nil => intro seen _ h; simp [segEntries] at h
      | cons x l ih =>
        intro seen hx h
        rw [segEntries, if_pos (by simpa using hx x (by simp))] at h
        rcases List.mem_append.1 h with h | h
        · rw [List.mem_singleton] at h
          subst h
          rfl
        · exact ih _ (fun y hy => hx y (by simp [hy])) h
    exact this l [] hl hm
  · obtain ⟨r, _, rfl⟩ := List.mem_map.1 hm
    rfl

/-- C125: if no hypothesis is covered by half by a reference of its query, all numbers and all bounds of
their intervals are 0. -/
theorem C125_box_nothing (S : StdSort) (rng : Rng G) (w : World) (o : ToolOptions) (t u : Str)
    (refs : List (Event Str (DocBox Str UInt32))) (hyps : List (ScoredEvent Str (DocBox Str UInt32)))
    (ht : w.file o.refFilename = some t) (hu : hypText w o = some u)
    (hrefs : Yields BoxEventText (lines t) refs)
    (hhyps : Yields (ScoredText Rnd.exact BoxEventText) (lines u) hyps)
    (hr : ∀ r ∈ refs, EdgesOkU r.location.toBBox) (hh : ∀ h ∈ hyps, InRangeU h.base)
    (hn : ∀ h ∈ hyps, ∀ r ∈ refs, r.query = h.base.query → 0 < commonU r h.base →
      2 * commonU r h.base < areaU h.base)
    (r : Report Str (DocBox Str UInt32))
    (h : mainWith Rnd.exact S rng (icdarKit Rnd.exact S) w o = .ok (.done r)) : AllNumbers r 0 := by
  obtain ⟨l, ms, rep, h1, h2, _, h3, keys, samples, arr, h4⟩ :=
    C125_box S rng w o t u refs hyps ht hu hrefs hhyps hr hh r h
  exact allNumbers_zero rng _ o r ms keys samples arr h3 h4 (boxMatching_sides h2)
    (boxMatching_nothing h2 fun x hx y hy =>
      hn x (keep_subset _ _ _ _ ((inOrder_perm h1).mem_iff.1 hx)) y (keep_subset _ _ _ _ hy))

/-- C125: if the hypotheses are the references, each once, and none lies within another one of the same query,
all numbers and all bounds of their intervals are 1. -/
theorem C125_box_perfect (S : StdSort) (rng : Rng G) (w : World) (o : ToolOptions) (t u : Str)
    (refs : List (Event Str (DocBox Str UInt32))) (hyps : List (ScoredEvent Str (DocBox Str UInt32)))
    (ht : w.file o.refFilename = some t) (hu : hypText w o = some u)
    (hrefs : Yields BoxEventText (lines t) refs)
    (hhyps : Yields (ScoredText Rnd.exact BoxEventText) (lines u) hyps)
    (hr : ∀ r ∈ refs, InRangeU r ∧ 0 < areaU r) (hall : HandedIn refs hyps)
    (hne : keep (·.query) (listedQueries w o) refs ≠ [])
    (hn : Unnested (keep (·.query) (listedQueries w o) refs)) (r : Report Str (DocBox Str UInt32))
    (h : mainWith Rnd.exact S rng (icdarKit Rnd.exact S) w o = .ok (.done r)) : AllNumbers r 1 := by
  have hm : ∀ h ∈ hyps, h.base ∈ refs := fun x hx => (hall.all _).1 (List.mem_map_of_mem hx)
  obtain ⟨l, ms, rep, h1, h2, _, h3, keys, samples, arr, h4⟩ :=
    C125_box S rng w o t u refs hyps ht hu hrefs hhyps (fun x hx => (hr x hx).1.1)
      (fun x hx => (hr _ (hm x hx)).1) r h
  have hp := inOrder_perm h1
  have hk : HandedIn (keep (·.query) (listedQueries w o) refs)
      (keep (·.base.query) (listedQueries w o) hyps) :=
    ⟨keep_once _ _ hall.once, keep_handed _ _ _ hall.all⟩
  have hl := handedIn_perm hk hp
  have ha : ∀ x ∈ l, 0 < areaU x.base := fun x hx => (hr _ (hm x (keep_subset _ _ _ _ (hp.mem_iff.1 hx)))).2
  have h0 : ms ≠ [] := by
    intro h0
    have := boxMatching_length h2 hl ha
    rw [h0] at this
    have : l = [] := List.length_eq_zero_iff.1 this.symm
    obtain ⟨e, he⟩ := List.exists_mem_of_ne_nil _ hne
    have := (hl.all e).2 he
    simp_all
  have hmost := (boxMatching_unnested h2 hl ha hn).2
  rw [one_mul] at hmost
  exact allNumbers_one rng _ o r ms keys samples arr h3 h4 h0
    (List.countP_eq_length.1 (le_antisymm List.countP_le_length (by exact_mod_cast hmost)))

/-- C125 for the segmentation-based tool: if no hypothesis is a reference, all numbers and all bounds of their
intervals are 0. -/
theorem C125_segmentation_nothing (S : StdSort) (rng : Rng G) (qf : Bool) (w : World) (o : ToolOptions)
    (hV : (vocabulary w o).dedup.length ≤ 2 ^ 31) (t u : Str)
    (refs : List (Event Str Str)) (hyps : List (ScoredEvent Str Str))
    (ht : w.file o.refFilename = some t) (hu : hypText w o = some u)
    (hrefs : Yields StrEventText (lines t) refs)
    (hhyps : Yields (ScoredText Rnd.exact StrEventText) (lines u) hyps) (hn : ∀ h ∈ hyps, h.base ∉ refs)
    (r : Report Nat Nat)
    (h : mainWith Rnd.exact S rng (simpleKit Rnd.exact qf) w o = .ok (.done r)) : AllNumbers r 0 := by
  obtain ⟨l, ms, h1, h2, h3, keys, samples, arr, h4⟩ :=
    C125_segmentation S rng qf w o hV t u refs hyps ht hu hrefs hhyps r h
  exact allNumbers_zero rng _ o r ms keys samples arr h3 h4 (segMatching_sides h2)
    (segMatching_nothing h2 fun x hx hy =>
      hn x (keep_subset _ _ _ _ ((inOrder_perm h1).mem_iff.1 hx)) (keep_subset _ _ _ _ hy))

/-- C125 for the segmentation-based tool: if the hypotheses are the references, in any order and with any
scores, all numbers and all bounds of their intervals are 1. -/
theorem C125_segmentation_perfect (S : StdSort) (rng : Rng G) (qf : Bool) (w : World) (o : ToolOptions)
    (hV : (vocabulary w o).dedup.length ≤ 2 ^ 31) (t u : Str)
    (refs : List (Event Str Str)) (hyps : List (ScoredEvent Str Str))
    (ht : w.file o.refFilename = some t) (hu : hypText w o = some u)
    (hrefs : Yields StrEventText (lines t) refs)
    (hhyps : Yields (ScoredText Rnd.exact StrEventText) (lines u) hyps)
    (hall : ∀ e, e ∈ hyps.map (·.base) ↔ e ∈ refs)
    (hne : keep (·.query) (listedQueries w o) refs ≠ []) (r : Report Nat Nat)
    (h : mainWith Rnd.exact S rng (simpleKit Rnd.exact qf) w o = .ok (.done r)) : AllNumbers r 1 := by
  obtain ⟨l, ms, h1, ⟨missed, _, h2, h3⟩, h4, keys, samples, arr, h5⟩ :=
    C125_segmentation S rng qf w o hV t u refs hyps ht hu hrefs hhyps r h
  have hp := inOrder_perm h1
  have hk := keep_handed (listedQueries w o) refs hyps hall
  have hm : missed = [] := by
    rw [List.eq_nil_iff_forall_not_mem]
    intro x hx
    obtain ⟨a, b⟩ := (h2 x).1 hx
    obtain ⟨y, hy, rfl⟩ := List.mem_map.1 ((hk x).2 a)
    exact b y (hp.mem_iff.2 hy) rfl
  subst hm
  rw [List.map_nil, List.append_nil] at h3
  have hhit := segEntries_handedIn (keep (·.query) (listedQueries w o) refs) l [] (fun x hx =>
    (hk _).1 (List.mem_map_of_mem (hp.mem_iff.1 hx)))
  rw [← h3] at hhit
  refine allNumbers_one rng _ o r ms keys samples arr h4 h5 ?_ fun m hm => (hhit m hm).2
  rw [h3]
  refine segEntries_ne_nil _ _ ?_
  rintro rfl
  obtain ⟨e, he⟩ := List.exists_mem_of_ne_nil _ hne
  have := (hk e).2 he
  rw [List.nil_perm.1 hp] at this
  simp at this

end

/-- A run with intervals in which nothing is found. -/
example {G : Type} (S : StdSort) (rng : Rng G) (qf : Bool) :
    let w := dumpExample "a l\nb l\n".toList "a m 1\nc l 3\na m 2\n".toList
    let o : ToolOptions := { refFilename := "ref".toList, ciGap := true, ciMndcg := true, alpha := 1 / 20 }
    ∃ r, mainWith Rnd.exact S rng (simpleKit Rnd.exact qf) w o = .ok (.done r) ∧
      r.gAP.ci = some (0, 0) ∧ r.mNDCG.ci = some (0, 0) := by
  intro w o
  have y1 : Yields StrEventText (lines "a l\nb l\n".toList)
      [⟨"a".toList, "l".toList⟩, ⟨"b".toList, "l".toList⟩] :=
    (C48_accepts (Format.strRefs (R := Rnd.exact)) _ _).1 (by decide +kernel)
  have y2 : Yields (ScoredText Rnd.exact StrEventText) (lines "a m 1\nc l 3\na m 2\n".toList)
      [⟨⟨"a".toList, "m".toList⟩, .fin 1⟩, ⟨⟨"c".toList, "l".toList⟩, .fin 3⟩, ⟨⟨"a".toList, "m".toList⟩, .fin 2⟩] :=
    (C48_accepts (Format.strHyps (R := Rnd.exact)) _ _).1 (by decide +kernel)
  have hV : (vocabulary w o).dedup.length ≤ 2 ^ 31 := by decide +kernel
  obtain ⟨r, hr, _⟩ := (C62_segmentation_partial Rnd.exact S rng qf w o hV
    (fun t u _ _ => ⟨fun _ => ⟨by decide, Or.inl ⟨rfl, by norm_num [o], by norm_num [o], by decide +kernel⟩⟩,
      fun h => absurd rfl h, fun h => absurd rfl h, fun h => by simp [o] at h⟩)).1
    ⟨⟨by decide, ⟨_, dumpExample_file _ _, yields_valid y1⟩, ⟨_, if_pos rfl, yields_valid y2⟩,
      fun h => absurd rfl h, fun h => absurd rfl h⟩, Or.inl rfl⟩
  obtain ⟨_, _, _, _, _, _, _, _, hi⟩ := C125_segmentation S rng qf w o hV _ _ _ _ (dumpExample_file _ _)
    (if_pos rfl) y1 y2 r hr
  have ha : AllNumbers r 0 := C125_segmentation_nothing S rng qf w o hV _ _ _ _ (dumpExample_file _ _) (if_pos rfl) y1 y2
    (by decide +kernel) r hr
  obtain ⟨c, hc⟩ := Option.isSome_iff_exists.1 (hi.gAP.1.trans (rfl : o.ciGap = true))
  obtain ⟨d, hd⟩ := Option.isSome_iff_exists.1 (hi.mNDCG.1.trans (rfl : o.ciMndcg = true))
  have e1 := ha.gAP.2 c hc
  have e2 := ha.mNDCG.2 d hd
  subst e1 e2
  refine ⟨r, hr, hc, ?_⟩
  rw [hd]
  norm_num

/-- A run with intervals in which everything is found and nothing is wrong. -/
example {G : Type} (S : StdSort) (rng : Rng G) (qf : Bool) :
    let w := dumpExample "a l\nb l\n".toList "b l 1\na l 1\n".toList
    let o : ToolOptions := { refFilename := "ref".toList, ciGap := true, ciMndcg := true, alpha := 1 / 20 }
    ∃ r, mainWith Rnd.exact S rng (simpleKit Rnd.exact qf) w o = .ok (.done r) ∧
      r.gAP.ci = some (1, 1) ∧ r.mNDCG.ci = some (1, 1) := by
  intro w o
  have y1 : Yields StrEventText (lines "a l\nb l\n".toList)
      [⟨"a".toList, "l".toList⟩, ⟨"b".toList, "l".toList⟩] :=
    (C48_accepts (Format.strRefs (R := Rnd.exact)) _ _).1 (by decide +kernel)
  have y2 : Yields (ScoredText Rnd.exact StrEventText) (lines "b l 1\na l 1\n".toList)
      [⟨⟨"b".toList, "l".toList⟩, .fin 1⟩, ⟨⟨"a".toList, "l".toList⟩, .fin 1⟩] :=
    (C48_accepts (Format.strHyps (R := Rnd.exact)) _ _).1 (by decide +kernel)
  have hV : (vocabulary w o).dedup.length ≤ 2 ^ 31 := by decide +kernel
  obtain ⟨r, hr, _⟩ := (C62_segmentation_partial Rnd.exact S rng qf w o hV
    (fun t u _ _ => ⟨fun _ => ⟨by decide, Or.inl ⟨rfl, by norm_num [o], by norm_num [o], by decide +kernel⟩⟩,
      fun h => absurd rfl h, fun h => absurd rfl h, fun h => by simp [o] at h⟩)).1
    ⟨⟨by decide, ⟨_, dumpExample_file _ _, yields_valid y1⟩, ⟨_, if_pos rfl, yields_valid y2⟩,
      fun h => absurd rfl h, fun h => absurd rfl h⟩, Or.inl rfl⟩
  obtain ⟨_, _, _, _, _, _, _, _, hi⟩ := C125_segmentation S rng qf w o hV _ _ _ _ (dumpExample_file _ _)
    (if_pos rfl) y1 y2 r hr
  have ha : AllNumbers r 1 := C125_segmentation_perfect S rng qf w o hV _ _ _ _ (dumpExample_file _ _) (if_pos rfl) y1 y2
    (fun e => by simp [or_comm]) (by rw [show listedQueries w o = [] from rfl]; decide) r hr
  obtain ⟨c, hc⟩ := Option.isSome_iff_exists.1 (hi.gAP.1.trans (rfl : o.ciGap = true))
  obtain ⟨d, hd⟩ := Option.isSome_iff_exists.1 (hi.mNDCG.1.trans (rfl : o.ciMndcg = true))
  have e1 := ha.gAP.2 c hc
  have e2 := ha.mNDCG.2 d hd
  subst e1 e2
  refine ⟨r, hr, hc, ?_⟩
  rw [hd]
  norm_num

end Kws
