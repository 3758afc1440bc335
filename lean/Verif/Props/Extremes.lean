import Verif.Lemmas.Extremes
import Verif.Props.RunIntervals
import Verif.Props.ToolDouble

/-!
# C126: what is printed for submissions that are all wrong or all right

The text on standard output, with all numbers in double precision and with or without intervals.
-/

namespace Kws
open Spec Traced

variable {G : Type}

theorem extreme_rename {Q L Q' L' : Type} (f : Q → Q') (g : L → L') (x : String) (B : ℕ) (ms : List (KwsMatch Q L))
    (h : Extreme x B ms) : Extreme x B (ms.map (renameMatch f g)) := by
  have hi : ∀ m : KwsMatch Q L, IsHit (renameMatch f g m) = IsHit m := by
    intro m
    unfold IsHit renameMatch
    cases m.ref <;> cases m.hyp <;> rfl
  rcases h with ⟨h1, h2, h3⟩ | ⟨h1, h2, h3, h4⟩
  · refine Or.inl ⟨h1, h2, fun m hm => ?_⟩
    obtain ⟨m', hm', rfl⟩ := List.mem_map.1 hm
    rw [hi]
    exact h3 m' hm'
  · refine Or.inr ⟨h1, h2, by simpa using h3, fun m hm => ?_⟩
    obtain ⟨m', hm', rfl⟩ := List.mem_map.1 hm
    rw [hi]
    exact h4 m' hm'

/-- The box tool: the matching of the events of the files decides what is printed. -/
theorem box_extreme (lm : Libm) (hm : lm.Accurate) (S : StdSort) (rng : Rng G) (w : World) (argc : ℕ)
    (o : ToolOptions) (refs : List (Event Str (DocBox Str UInt32)))
    (hyps : List (ScoredEvent Str (DocBox Str UInt32)))
    (hi : Inputs BoxEventText (ScoredText Rnd.ieee BoxEventText) w o refs hyps)
    (hr : ∀ r ∈ refs, EdgesOkU r.location.toBBox) (hh : ∀ h ∈ hyps, InRangeU h.base ∧ areaU h.base ≤ 2 ^ 24)
    (x : String) (B : ℕ) (ha : AtMost B (refs.length + hyps.length) o)
    (he : ∀ l ms rep, l.Perm (keep (·.base.query) (listedQueries w o) hyps) →
      BoxMatching (keep (·.query) (listedQueries w o) refs) l ms rep → Extreme x B ms) :
    Outs (· = resultLines o x) (traceMainWithD Rnd.ieee lm S rng (icdarKit Rnd.ieee S) icdarTexts w argc o) := by
  refine traceMainWithD_extreme lm hm S rng _ (icdar_fine Rnd.ieee S) _ w argc o x B _ ha ?_
  intro t u m refs' m' hyps' q2g ht hu e1 e2 e3
  obtain ⟨t', ht', y1⟩ := hi.refs
  obtain ⟨u', hu', y2⟩ := hi.hyps
  rw [ht] at ht'
  rw [hu] at hu'
  injection ht' with ht'
  injection hu' with hu'
  subst ht' hu'
  have v1 := yields_valid y1
  have v2 := yields_valid y2
  rw [(icdar_plain Rnd.ieee S).readRef_ok t v1, yields_events (Format.boxRefs (R := Rnd.ieee)) y1,
    Prod.mk.injEq, Prod.mk.injEq] at e1
  obtain ⟨rfl, rfl, _⟩ := e1
  rw [(icdar_plain Rnd.ieee S).readHyp_ok () u v2, yields_events Format.boxHyps y2,
    Prod.mk.injEq, Prod.mk.injEq] at e2
  obtain ⟨rfl, rfl, _⟩ := e2
  refine ⟨le_rfl, fun l s' ms rep k1 k2 => ?_⟩
  obtain ⟨q1, _⟩ := readQueryMap_spec w o q2g e3
  have r1 : usedRefs q2g refs = keep (·.query) (listedQueries w o) refs := by
    unfold usedRefs
    rw [filter_keep _ _ q1]
  have r2 : usedHyps q2g hyps = keep (·.base.query) (listedQueries w o) hyps := by
    unfold usedHyps
    rw [filter_keep _ _ q1]
  rw [r2] at k1
  rw [r1] at k2
  have hp := sortHyps_mem S o.sort _ l k1
  have hsub : ∀ y ∈ l, y ∈ hyps := fun y hy => keep_subset _ _ _ _ (hp.mem_iff.1 hy)
  obtain ⟨s1, ms1, rep1, f1, f2⟩ := C17_box_matching Rnd.ieee S DocEventSet.new
    (keep (·.query) (listedQueries w o) refs) l
    (fun y hy => hr y (keep_subset _ _ _ _ hy)) (fun y hy => (hh y (hsub y hy)).1)
    (Or.inr ⟨ieee_faithful, fun y hy => (hh y (hsub y hy)).2⟩)
  rw [show SimpleMatcher.run (icdarKit Rnd.ieee S).index (icdarKit Rnd.ieee S).scorer (icdarKit Rnd.ieee S).refsSet
    (keep (·.query) (listedQueries w o) refs) l = _ from f1, Except.ok.injEq, Prod.mk.injEq, Prod.mk.injEq] at k2
  obtain ⟨_, rfl, rfl⟩ := k2
  exact he l _ _ hp f2

/-- The segmentation-based tool: the matching of the events of the files decides what is printed. -/
theorem segmentation_extreme (lm : Libm) (hm : lm.Accurate) (S : StdSort) (rng : Rng G) (qf : Bool) (w : World)
    (argc : ℕ) (o : ToolOptions) (hV : (vocabulary w o).dedup.length ≤ 2 ^ 31)
    (refs : List (Event Str Str)) (hyps : List (ScoredEvent Str Str))
    (hi : Inputs StrEventText (ScoredText Rnd.ieee StrEventText) w o refs hyps)
    (x : String) (B : ℕ) (ha : AtMost B (refs.length + hyps.length) o)
    (he : ∀ l ms, l.Perm (keep (·.base.query) (listedQueries w o) hyps) →
      SegMatching (keep (·.query) (listedQueries w o) refs) l ms → Extreme x B ms) :
    Outs (· = resultLines o x) (traceMainWithD Rnd.ieee lm S rng (simpleKit Rnd.ieee qf) simpleTexts w argc o) := by
  refine traceMainWithD_extreme lm hm S rng _ (simple_fine Rnd.ieee qf) _ w argc o x B _ ha ?_
  intro t u m refs' m' hyps' q2g' ht hu e1 e2 e3
  obtain ⟨t', ht', y1⟩ := hi.refs
  obtain ⟨u', hu', y2⟩ := hi.hyps
  rw [ht] at ht'
  rw [hu] at hu'
  injection ht' with ht'
  injection hu' with hu'
  subst ht' hu'
  have v1 := yields_valid y1
  have v2 := yields_valid y2
  obtain ⟨f, N, n, n', hf, _, i1, i2, i3⟩ := simple_ids Rnd.ieee qf w o hV t u ht hu v1 v2
  rw [yields_events (Format.strRefs (R := Rnd.ieee)) y1] at i1
  rw [yields_events Format.strHyps y2] at i2
  rw [i1, Prod.mk.injEq, Prod.mk.injEq] at e1
  obtain ⟨rfl, rfl, _⟩ := e1
  rw [i2, Prod.mk.injEq, Prod.mk.injEq] at e2
  obtain ⟨rfl, rfl, _⟩ := e2
  rcases i3 with ⟨q2g, i3, i4⟩ | ⟨_, i4⟩
  swap
  · rw [i4] at e3
    cases e3
  rw [i4, Except.ok.injEq, Option.some.injEq] at e3
  subst e3
  refine ⟨by simp, fun l s' ms rep k1 k2 => ?_⟩
  obtain ⟨q1, _⟩ := readQueryMap_spec w o q2g i3
  have hk := simple_seg Rnd.ieee qf
  have hfin := (str_plain Rnd.ieee).finite u v2
  rw [yields_events Format.strHyps y2] at hfin
  have o0 := (sortHyps_inOrder S o.sort _ l (fun y hy => by
    obtain ⟨z, hz, rfl⟩ := List.mem_map.1 (usedHyps_mem _ _ y hy)
    exact hfin z hz) k1).1
  rw [usedHyps_rename f hf] at o0
  obtain ⟨l, o1, rfl⟩ := inOrder_rename hf hf _ _ _ o0
  rw [hk.index, hk.scorer, usedRefs_rename f hf] at k2
  obtain ⟨s2, missed, rep2, c1, c2, c3⟩ := C24_segmentation_result (simpleKit Rnd.ieee qf).refsSet
    ((usedRefs q2g refs).map (Event.rename f f)) (l.map (ScoredEvent.rename f f))
  rw [c1, Except.ok.injEq, Prod.mk.injEq, Prod.mk.injEq] at k2
  obtain ⟨_, hms, _⟩ := k2
  obtain ⟨ms0, m1, m2⟩ := segMatching_rename hf hf (usedRefs q2g refs) l ms ⟨missed,
    c2.imp (fun {a b} hab => by
      rintro rfl
      rw [LawfulCmp.irrefl] at hab
      exact absurd hab (by decide)), c3, hms.symm⟩
  subst m2
  unfold usedRefs at m1
  unfold usedHyps at o1
  rw [filter_keep _ _ q1] at m1 o1
  exact extreme_rename f f x B ms0 (he l ms0 (inOrder_perm o1) m1)

/-- C126: if no hypothesis is covered by half by a reference of its query and the run of the box tool returns
0, it prints the number 0 for everything. -/
theorem C126_box_nothing (lm : Libm) (hm : lm.Accurate) (S : StdSort) (rng : Rng G) (w : World) (prog : Str)
    (argv : List Str) (p : Parser) (o : ToolOptions)
    (hp : (toolParser Rnd.ieee).parse Rnd.ieee argv = (.accepted, p)) (ho : o = ToolOptions.ofParser p)
    (refs : List (Event Str (DocBox Str UInt32))) (hyps : List (ScoredEvent Str (DocBox Str UInt32)))
    (hi : Inputs BoxEventText (ScoredText Rnd.ieee BoxEventText) w o refs hyps)
    (hr : ∀ r ∈ refs, EdgesOkU r.location.toBBox) (hh : ∀ h ∈ hyps, InRangeU h.base ∧ areaU h.base ≤ 2 ^ 24)
    (hl : AtMost (2 ^ 24) (refs.length + hyps.length) o)
    (hn : ∀ h ∈ hyps, ∀ r ∈ refs, r.query = h.base.query → 0 < commonU r h.base →
      2 * commonU r h.base < areaU h.base)
    (h0 : (traceMainD Rnd.ieee lm S rng (icdarKit Rnd.ieee S) icdarTexts w prog argv).result = .ok 0) :
    outsOf (traceMainD Rnd.ieee lm S rng (icdarKit Rnd.ieee S) icdarTexts w prog argv).effects =
      resultLines o "0" := by
  subst ho
  rw [traceMainD_accepted hp] at h0 ⊢
  refine box_extreme lm hm S rng w _ _ refs hyps hi hr hh "0" _ hl (fun l ms rep h1 h2 => ?_) h0
  exact Or.inl ⟨rfl, rfl, boxMatching_nothing h2 fun x hx y hy =>
    hn x (keep_subset _ _ _ _ (h1.mem_iff.1 hx)) y (keep_subset _ _ _ _ hy)⟩

/-- C126: if the hypotheses are the references, each once, none lies within another one of the same query, and
the run of the box tool returns 0, it prints the number 1 for everything. -/
theorem C126_box_perfect (lm : Libm) (hm : lm.Accurate) (S : StdSort) (rng : Rng G) (w : World) (prog : Str)
    (argv : List Str) (p : Parser) (o : ToolOptions)
    (hp : (toolParser Rnd.ieee).parse Rnd.ieee argv = (.accepted, p)) (ho : o = ToolOptions.ofParser p)
    (refs : List (Event Str (DocBox Str UInt32))) (hyps : List (ScoredEvent Str (DocBox Str UInt32)))
    (hi : Inputs BoxEventText (ScoredText Rnd.ieee BoxEventText) w o refs hyps)
    (hr : ∀ r ∈ refs, InRangeU r ∧ 0 < areaU r ∧ areaU r ≤ 2 ^ 24)
    (hl : AtMost (2 ^ 14) (refs.length + hyps.length) o) (hall : HandedIn refs hyps)
    (hne : keep (·.query) (listedQueries w o) refs ≠ [])
    (hn : Unnested (keep (·.query) (listedQueries w o) refs))
    (h0 : (traceMainD Rnd.ieee lm S rng (icdarKit Rnd.ieee S) icdarTexts w prog argv).result = .ok 0) :
    outsOf (traceMainD Rnd.ieee lm S rng (icdarKit Rnd.ieee S) icdarTexts w prog argv).effects =
      resultLines o "1" := by
  subst ho
  rw [traceMainD_accepted hp] at h0 ⊢
  have hb : ∀ h ∈ hyps, h.base ∈ refs := fun x hx => (hall.all _).1 (List.mem_map_of_mem hx)
  refine box_extreme lm hm S rng w _ _ refs hyps hi (fun x hx => (hr x hx).1.1)
    (fun x hx => ⟨(hr _ (hb x hx)).1, (hr _ (hb x hx)).2.2⟩) "1" _ hl (fun l ms rep hp h2 => ?_) h0
  have hk : HandedIn (keep (·.query) (listedQueries w (ToolOptions.ofParser p)) refs)
      (keep (·.base.query) (listedQueries w (ToolOptions.ofParser p)) hyps) :=
    ⟨keep_once _ _ hall.once, keep_handed _ _ _ hall.all⟩
  have hl := handedIn_perm hk hp
  have ha : ∀ x ∈ l, 0 < areaU x.base := fun x hx =>
    (hr _ (hb x (keep_subset _ _ _ _ (hp.mem_iff.1 hx)))).2.1
  have h0 : ms ≠ [] := by
    intro h0
    have := boxMatching_length h2 hl ha
    rw [h0] at this
    have : l = [] := List.length_eq_zero_iff.1 this.symm
    obtain ⟨e, he⟩ := List.exists_mem_of_ne_nil _ hne
    have := (hl.all e).2 he
    simp_all
  have hmost := (boxMatching_unnested h2 hl ha hn).2
  rw [one_mul] at hmost
  exact Or.inr ⟨rfl, rfl, h0,
    List.countP_eq_length.1 (le_antisymm List.countP_le_length (by exact_mod_cast hmost))⟩

/-- C126 for the segmentation-based tool: if no hypothesis is a reference and the run returns 0, it prints the
number 0 for everything. -/
theorem C126_segmentation_nothing (lm : Libm) (hm : lm.Accurate) (S : StdSort) (rng : Rng G) (qf : Bool)
    (w : World) (prog : Str) (argv : List Str) (p : Parser) (o : ToolOptions)
    (hp : (toolParser Rnd.ieee).parse Rnd.ieee argv = (.accepted, p)) (ho : o = ToolOptions.ofParser p)
    (hV : (vocabulary w o).dedup.length ≤ 2 ^ 31) (refs : List (Event Str Str)) (hyps : List (ScoredEvent Str Str))
    (hi : Inputs StrEventText (ScoredText Rnd.ieee StrEventText) w o refs hyps)
    (hl : AtMost (2 ^ 24) (refs.length + hyps.length) o) (hn : ∀ h ∈ hyps, h.base ∉ refs)
    (h0 : (traceMainD Rnd.ieee lm S rng (simpleKit Rnd.ieee qf) simpleTexts w prog argv).result = .ok 0) :
    outsOf (traceMainD Rnd.ieee lm S rng (simpleKit Rnd.ieee qf) simpleTexts w prog argv).effects =
      resultLines o "0" := by
  subst ho
  rw [traceMainD_accepted hp] at h0 ⊢
  refine segmentation_extreme lm hm S rng qf w _ _ hV refs hyps hi "0" _ hl (fun l ms h1 h2 => ?_) h0
  exact Or.inl ⟨rfl, rfl, segMatching_nothing h2 fun x hx hy =>
    hn x (keep_subset _ _ _ _ (h1.mem_iff.1 hx)) (keep_subset _ _ _ _ hy)⟩

/-- C126 for the segmentation-based tool: if the hypotheses are the references, in any order and with any
scores, and the run returns 0, it prints the number 1 for everything. -/
theorem C126_segmentation_perfect (lm : Libm) (hm : lm.Accurate) (S : StdSort) (rng : Rng G) (qf : Bool)
    (w : World) (prog : Str) (argv : List Str) (p : Parser) (o : ToolOptions)
    (hp : (toolParser Rnd.ieee).parse Rnd.ieee argv = (.accepted, p)) (ho : o = ToolOptions.ofParser p)
    (hV : (vocabulary w o).dedup.length ≤ 2 ^ 31) (refs : List (Event Str Str)) (hyps : List (ScoredEvent Str Str))
    (hi : Inputs StrEventText (ScoredText Rnd.ieee StrEventText) w o refs hyps)
    (hl : AtMost (2 ^ 14) (refs.length + hyps.length) o) (hall : ∀ e, e ∈ hyps.map (·.base) ↔ e ∈ refs)
    (hne : keep (·.query) (listedQueries w o) refs ≠ [])
    (h0 : (traceMainD Rnd.ieee lm S rng (simpleKit Rnd.ieee qf) simpleTexts w prog argv).result = .ok 0) :
    outsOf (traceMainD Rnd.ieee lm S rng (simpleKit Rnd.ieee qf) simpleTexts w prog argv).effects =
      resultLines o "1" := by
  subst ho
  rw [traceMainD_accepted hp] at h0 ⊢
  refine segmentation_extreme lm hm S rng qf w _ _ hV refs hyps hi "1" _ hl (fun l ms hp h2 => ?_) h0
  obtain ⟨missed, _, h2, h3⟩ := h2
  have hk := keep_handed (listedQueries w (ToolOptions.ofParser p)) refs hyps hall
  have hm : missed = [] := by
    rw [List.eq_nil_iff_forall_not_mem]
    intro x hx
    obtain ⟨a, b⟩ := (h2 x).1 hx
    obtain ⟨y, hy, rfl⟩ := List.mem_map.1 ((hk x).2 a)
    exact b y (hp.mem_iff.2 hy) rfl
  subst hm
  rw [List.map_nil, List.append_nil] at h3
  have hhit := segEntries_handedIn (keep (·.query) (listedQueries w (ToolOptions.ofParser p)) refs) l [] (fun x hx =>
    (hk _).1 (List.mem_map_of_mem (hp.mem_iff.1 hx)))
  rw [← h3] at hhit
  refine Or.inr ⟨rfl, rfl, ?_, fun m hm => (hhit m hm).2⟩
  rw [h3]
  refine segEntries_ne_nil _ _ ?_
  rintro rfl
  obtain ⟨e, he⟩ := List.exists_mem_of_ne_nil _ hne
  have := (hk e).2 he
  rw [List.nil_perm.1 hp] at this
  simp at this

/-! ## Examples -/

/-- A command line that asks for an interval of the first number. -/
def extremeArgs : List Str := ["--bootstrap_ci_gap".toList, "true".toList, "ref".toList]

def extremeParser : Parser :=
  ⟨AMap.set "bootstrap_ci_gap".toList (.bool true) (toolParser Rnd.ieee).opts, [.str "ref".toList],
    (toolParser Rnd.ieee).optArgs⟩

theorem extreme_parse : (toolParser Rnd.ieee).parse Rnd.ieee extremeArgs = (.accepted, extremeParser) := by
  have h : Parser.parseOptions Rnd.ieee (toolParser Rnd.ieee).opts false extremeArgs =
      .done (AMap.set "bootstrap_ci_gap".toList (.bool true) (toolParser Rnd.ieee).opts) false ["ref".toList] := by
    have hf : AMap.find? ("--bootstrap_ci_gap".toList.drop 2) (toolParser Rnd.ieee).opts = some (.bool false) := by
      decide +kernel
    generalize (toolParser Rnd.ieee).opts = opts at hf ⊢
    rw [extremeArgs, Parser.parseOptions, if_neg (by decide), if_neg (by decide), if_neg (by decide), hf]
    show Parser.parseOptions Rnd.ieee _ false ["ref".toList] = _
    rw [Parser.parseOptions, if_pos (by decide)]
    rfl
  unfold Parser.parse
  rw [h]
  decide +kernel

theorem extreme_options : ToolOptions.ofParser extremeParser =
    { refFilename := "ref".toList, ciGap := true, alpha := Rnd.ieee.f64 (5 / 100) } := by
  decide +kernel

/-- The segmentation-based tool with two references, and hypotheses none of which is right. -/
example (lm : Libm) (hm : lm.Accurate) (S : StdSort) (rng : Rng G) (qf : Bool) (prog : Str) :
    let w := dumpExample "a l\nb l\n".toList "a m 1\nc l 3\na m 2\n".toList
    let run := traceMainD Rnd.ieee lm S rng (simpleKit Rnd.ieee qf) simpleTexts w prog extremeArgs
    run.result = .ok 0 ∧
      outsOf run.effects = ["gAP = 0 [0, 0]\n", "mAP = 0\n", "gNDCG = 0\n", "mNDCG = 0\n"].map String.toList := by
  intro w run
  have y1 : Yields StrEventText (lines "a l\nb l\n".toList) [⟨"a".toList, "l".toList⟩,
      ⟨"b".toList, "l".toList⟩] :=
    (C48_accepts (Format.strRefs (R := Rnd.ieee)) _ _).1 (by decide +kernel)
  have y2 : Yields (ScoredText Rnd.ieee StrEventText) (lines "a m 1\nc l 3\na m 2\n".toList)
      [⟨⟨"a".toList, "m".toList⟩, .fin 1⟩, ⟨⟨"c".toList, "l".toList⟩, .fin 3⟩,
        ⟨⟨"a".toList, "m".toList⟩, .fin 2⟩] :=
    (C48_accepts (Format.strHyps (R := Rnd.ieee)) _ _).1 (by decide +kernel)
  set o : ToolOptions := { refFilename := "ref".toList, ciGap := true, alpha := Rnd.ieee.f64 (5 / 100) } with hoo
  have hV : (vocabulary w o).dedup.length ≤ 2 ^ 31 := by decide +kernel
  have hsmall : SmallRun w o 5 := by
    refine ⟨by norm_num, fun _ => by norm_num, ?_, fun h => by simp [hoo] at h⟩
    intro t u ht hu
    have e1 := Option.some.inj (ht.symm.trans (dumpExample_file _ _))
    have e2 := Option.some.inj (hu.symm.trans (if_pos rfl))
    rw [e1, e2]
    decide +kernel
  obtain ⟨r, hr, _⟩ := (C62_segmentation_partial Rnd.ieee S rng qf w o hV
    (fun t u _ _ => ⟨fun _ => ⟨by decide, Or.inr ⟨ieee_faithful, by decide +kernel, by decide +kernel, by decide +kernel⟩⟩,
      fun h => absurd rfl h, fun h => absurd rfl h, fun h => by simp [hoo] at h⟩)).1
    ⟨⟨by decide, ⟨_, dumpExample_file _ _, yields_valid y1⟩, ⟨_, if_pos rfl, yields_valid y2⟩,
      fun h => absurd rfl h, fun h => absurd rfl h⟩, Or.inl rfl⟩
  have h0 : run.result = .ok 0 := by
    rw [(C93_segmentation lm hm S rng qf w prog _ _ o 5 extreme_parse extreme_options.symm hsmall).result,
      traceMain_accepted extreme_parse, extreme_options, (traceMainWith_agrees ..).code, hr]
    rfl
  refine ⟨h0, ?_⟩
  rw [C126_segmentation_nothing lm hm S rng qf w prog _ _ o extreme_parse extreme_options.symm hV _ _
    ⟨by decide, ⟨_, dumpExample_file _ _, y1⟩, ⟨_, if_pos rfl, y2⟩⟩ ⟨by decide, fun _ => by decide⟩
    (by decide +kernel) h0]
  decide +kernel

/-- The same tool with hypotheses that are the references. -/
example (lm : Libm) (hm : lm.Accurate) (S : StdSort) (rng : Rng G) (qf : Bool) (prog : Str) :
    let w := dumpExample "a l\nb l\n".toList "b l 1\na l 1\n".toList
    let run := traceMainD Rnd.ieee lm S rng (simpleKit Rnd.ieee qf) simpleTexts w prog extremeArgs
    run.result = .ok 0 ∧
      outsOf run.effects = ["gAP = 1 [1, 1]\n", "mAP = 1\n", "gNDCG = 1\n", "mNDCG = 1\n"].map String.toList := by
  intro w run
  have y1 : Yields StrEventText (lines "a l\nb l\n".toList) [⟨"a".toList, "l".toList⟩,
      ⟨"b".toList, "l".toList⟩] :=
    (C48_accepts (Format.strRefs (R := Rnd.ieee)) _ _).1 (by decide +kernel)
  have y2 : Yields (ScoredText Rnd.ieee StrEventText) (lines "b l 1\na l 1\n".toList)
      [⟨⟨"b".toList, "l".toList⟩, .fin 1⟩, ⟨⟨"a".toList, "l".toList⟩, .fin 1⟩] :=
    (C48_accepts (Format.strHyps (R := Rnd.ieee)) _ _).1 (by decide +kernel)
  set o : ToolOptions := { refFilename := "ref".toList, ciGap := true, alpha := Rnd.ieee.f64 (5 / 100) } with hoo
  have hV : (vocabulary w o).dedup.length ≤ 2 ^ 31 := by decide +kernel
  have hsmall : SmallRun w o 5 := by
    refine ⟨by norm_num, fun _ => by norm_num, ?_, fun h => by simp [hoo] at h⟩
    intro t u ht hu
    have e1 := Option.some.inj (ht.symm.trans (dumpExample_file _ _))
    have e2 := Option.some.inj (hu.symm.trans (if_pos rfl))
    rw [e1, e2]
    decide +kernel
  obtain ⟨r, hr, _⟩ := (C62_segmentation_partial Rnd.ieee S rng qf w o hV
    (fun t u _ _ => ⟨fun _ => ⟨by decide, Or.inr ⟨ieee_faithful, by decide +kernel, by decide +kernel, by decide +kernel⟩⟩,
      fun h => absurd rfl h, fun h => absurd rfl h, fun h => by simp [hoo] at h⟩)).1
    ⟨⟨by decide, ⟨_, dumpExample_file _ _, yields_valid y1⟩, ⟨_, if_pos rfl, yields_valid y2⟩,
      fun h => absurd rfl h, fun h => absurd rfl h⟩, Or.inl rfl⟩
  have h0 : run.result = .ok 0 := by
    rw [(C93_segmentation lm hm S rng qf w prog _ _ o 5 extreme_parse extreme_options.symm hsmall).result,
      traceMain_accepted extreme_parse, extreme_options, (traceMainWith_agrees ..).code, hr]
    rfl
  refine ⟨h0, ?_⟩
  rw [C126_segmentation_perfect lm hm S rng qf w prog _ _ o extreme_parse extreme_options.symm hV _ _
    ⟨by decide, ⟨_, dumpExample_file _ _, y1⟩, ⟨_, if_pos rfl, y2⟩⟩ ⟨by decide, fun _ => by decide⟩
    (fun e => by simp [or_comm]) (by rw [show listedQueries w o = [] from rfl]; decide) h0]
  decide +kernel

/-- The box tool with two boxes side by side, handed in with equal scores. -/
example (lm : Libm) (hm : lm.Accurate) (S : StdSort) (rng : Rng G) (prog : Str) :
    let w := dumpExample "q d 0 0 3 1\nq d 3 0 5 1\n".toList "q d 3 0 5 1 2\nq d 0 0 3 1 2\n".toList
    let run := traceMainD Rnd.ieee lm S rng (icdarKit Rnd.ieee S) icdarTexts w prog extremeArgs
    run.result = .ok 0 ∧
      outsOf run.effects = ["gAP = 1 [1, 1]\n", "mAP = 1\n", "gNDCG = 1\n", "mNDCG = 1\n"].map String.toList := by
  intro w run
  have y1 : Yields BoxEventText (lines "q d 0 0 3 1\nq d 3 0 5 1\n".toList)
      [⟨['q'], ⟨⟨0, 0, 3, 1⟩, ['d']⟩⟩, ⟨['q'], ⟨⟨3, 0, 5, 1⟩, ['d']⟩⟩] :=
    (C48_accepts (Format.boxRefs (R := Rnd.ieee)) _ _).1 (by decide +kernel)
  have y2 : Yields (ScoredText Rnd.ieee BoxEventText) (lines "q d 3 0 5 1 2\nq d 0 0 3 1 2\n".toList)
      [⟨⟨['q'], ⟨⟨3, 0, 5, 1⟩, ['d']⟩⟩, .fin 2⟩, ⟨⟨['q'], ⟨⟨0, 0, 3, 1⟩, ['d']⟩⟩, .fin 2⟩] :=
    (C48_accepts (Format.boxHyps (R := Rnd.ieee)) _ _).1 (by decide +kernel)
  set o : ToolOptions := { refFilename := "ref".toList, ciGap := true, alpha := Rnd.ieee.f64 (5 / 100) } with hoo
  have hsmall : SmallRun w o 5 := by
    refine ⟨by norm_num, fun _ => by norm_num, ?_, fun h => by simp [hoo] at h⟩
    intro t u ht hu
    have e1 := Option.some.inj (ht.symm.trans (dumpExample_file _ _))
    have e2 := Option.some.inj (hu.symm.trans (if_pos rfl))
    rw [e1, e2]
    decide +kernel
  obtain ⟨r, hr, _⟩ := (C62_box_partial Rnd.ieee S rng w o
    (fun t u _ _ => ⟨fun _ => ⟨by decide, Or.inr ⟨ieee_faithful, by decide +kernel, by decide +kernel, by decide +kernel⟩⟩,
      fun h => absurd rfl h, fun h => absurd rfl h, fun h => by simp [hoo] at h⟩)).1
    ⟨⟨by decide, ⟨_, dumpExample_file _ _, yields_valid y1⟩, ⟨_, if_pos rfl, yields_valid y2⟩,
      fun h => absurd rfl h, fun h => absurd rfl h⟩, Or.inl rfl⟩
  have h0 : run.result = .ok 0 := by
    rw [(C93_box lm hm S rng w prog _ _ o 5 extreme_parse extreme_options.symm hsmall).result,
      traceMain_accepted extreme_parse, extreme_options, (traceMainWith_agrees ..).code, hr]
    rfl
  refine ⟨h0, ?_⟩
  rw [C126_box_perfect lm hm S rng w prog _ _ o extreme_parse extreme_options.symm _ _
    ⟨by decide, ⟨_, dumpExample_file _ _, y1⟩, ⟨_, if_pos rfl, y2⟩⟩ (by unfold InRangeU EdgesOkU; decide +kernel)
    ⟨by decide, fun _ => by decide⟩
    ⟨by decide +kernel, fun e => by simp [or_comm]⟩ (by rw [show listedQueries w o = [] from rfl]; decide)
    (by rw [show listedQueries w o = [] from rfl]; unfold Unnested keep; decide +kernel) h0]
  decide +kernel

end Kws
