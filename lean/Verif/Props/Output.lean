import Verif.Lemmas.OutputMain
import Verif.Props.Evaluation
import Verif.Props.Numbers

/-!
# C76: what the tools print on `std::cout`, and their exit codes
-/

namespace Kws
open Spec

/-- The line of a metric is as `MetricLine` says. -/
theorem showMetric_line {K : Type} [Field K] [LinearOrder K] [IsStrictOrderedRing K] [FloorRing K]
    (name : String) (m : Metric K) : MetricLine name m.value m.ci (showMetric name m) := by
  obtain ⟨v, ci⟩ := m
  refine ⟨showGeneral v, C74_general v, ?_⟩
  cases ci with
  | none => simp [showMetric, endl]
  | some lh =>
    exact ⟨_, _, C74_general lh.1, C74_general lh.2, by simp [showMetric, endl]⟩

section
variable {μ σ Q L G : Type} [DecidableEq Q] [Cmp Q] [Cmp L] [LawfulCmp Q] [LawfulCmp L]
variable (R : Rnd) (S : StdSort) (rng : Rng G) (kit : ToolKit μ σ Q L) (texts : ToolTexts Q L)
  (w : World) (prog : Str) (argv : List Str)

/-- C76: a run that ends with a report prints four lines with the four metrics, and its exit code is
0. -/
theorem C76_report (r : Report Q L) (h : toolMain R S rng kit w argv = .ok (.done r)) :
    (traceMain R S rng kit texts w prog argv).result = .ok 0 ∧
    ∃ a b c d, outsOf (traceMain R S rng kit texts w prog argv).effects = [a, b, c, d] ∧
      MetricLine "gAP" r.gAP.value r.gAP.ci a ∧ MetricLine "mAP" r.mAP.value r.mAP.ci b ∧
      MetricLine "gNDCG" r.gNDCG.value r.gNDCG.ci c ∧
      MetricLine "mNDCG" r.mNDCG.value r.mNDCG.ci d := by
  have hw := traceMain_writes R S rng kit texts w prog argv
  refine ⟨by rw [hw.code, h]; rfl, _, _, _, _, (hw.done r h).1, showMetric_line _ _,
    showMetric_line _ _, showMetric_line _ _, showMetric_line _ _⟩

/-- C76: a run that does not end with a report but ends normally prints nothing on `std::cout` and
writes no file. -/
theorem C76_nothing (h : toolMain R S rng kit w argv = .ok .failed ∨
      toolMain R S rng kit w argv = .ok .helped) :
    outsOf (traceMain R S rng kit texts w prog argv).effects = [] ∧
    filesOf (traceMain R S rng kit texts w prog argv).effects = [] := by
  have hw := traceMain_writes R S rng kit texts w prog argv
  rcases h with h | h
  · exact ⟨(hw.failed h).1, (hw.failed h).2.1⟩
  · exact ⟨(hw.helped h).1, (hw.helped h).2.1⟩

/-- C76: the exit code is 0 or 1, and 0 if and only if there is a report or the help was asked
for. -/
theorem C76_exit :
    (∀ n, (traceMain R S rng kit texts w prog argv).result = .ok n → n = 0 ∨ n = 1) ∧
    ((traceMain R S rng kit texts w prog argv).result = .ok 0 ↔
      (∃ r, toolMain R S rng kit w argv = .ok (.done r)) ∨
        toolMain R S rng kit w argv = .ok .helped) ∧
    ((traceMain R S rng kit texts w prog argv).result = .ok 1 ↔
      toolMain R S rng kit w argv = .ok .failed) ∧
    ∀ f, (traceMain R S rng kit texts w prog argv).result = .error f ↔
      toolMain R S rng kit w argv = .error f := by
  rw [(traceMain_writes R S rng kit texts w prog argv).code]
  cases toolMain R S rng kit w argv with
  | error f => simp [Except.map]
  | ok x =>
    cases x <;> simp [Except.map, exitCode]

/-- C76: a run that ends abnormally after the beginning of the evaluation has printed the first
metrics only. (If the end is undefined behaviour, this is what happened before it.) -/
theorem C76_aborted (f : Fault) (h : toolMain R S rng kit w argv = .error f) :
    FirstMetrics (outsOf (traceMain R S rng kit texts w prog argv).effects) :=
  ((traceMain_writes R S rng kit texts w prog argv).aborted f h).1

end

/-! ## The numbers -/

/-- The four lines of a report with the given numbers, and intervals if they were asked for. -/
def Spec.PrintsNumbers (o : ToolOptions) (n : Numbers) (lines : List Str) : Prop :=
  ∃ a b c d i j k l, lines = [a, b, c, d] ∧
    MetricLine "gAP" n.gAP i a ∧ i.isSome = o.ciGap ∧
    MetricLine "mAP" n.mAP j b ∧ j.isSome = o.ciMap ∧
    MetricLine "gNDCG" n.gNDCG k c ∧ k.isSome = o.ciGndcg ∧
    MetricLine "mNDCG" n.mNDCG l d ∧ l.isSome = o.ciMndcg

section
variable {G : Type}

theorem toolMain_accepted {μ σ Q L : Type} [DecidableEq Q] [Cmp Q] [Cmp L] {R : Rnd} {S : StdSort}
    {rng : Rng G} {kit : ToolKit μ σ Q L} {w : World} {argv : List Str} {p : Parser}
    (hp : (toolParser R).parse R argv = (.accepted, p)) :
    toolMain R S rng kit w argv = mainWith R S rng kit w (ToolOptions.ofParser p) := by
  unfold toolMain
  rw [hp]

/-- C76 for the segmentation tool: with valid input files, its default sorting and collapsing, the
tool prints the numbers that `Spec/Evaluation.lean` defines for the events in its files, each to six
digits. -/
theorem C76_segmentation (S : StdSort) (rng : Rng G) (qf : Bool) (w : World) (prog : Str)
    (argv : List Str) (p : Parser) (o : ToolOptions)
    (hp : (toolParser Rnd.exact).parse Rnd.exact argv = (.accepted, p))
    (ho : o = ToolOptions.ofParser p)
    (hV : (vocabulary w o).dedup.length ≤ 2 ^ 31) (t u : Str)
    (refs : List (Event Str Str)) (hyps : List (ScoredEvent Str Str))
    (hin : ValidInputs StrEventText (ScoredText Rnd.exact StrEventText) w o)
    (ht : w.file o.refFilename = some t) (hu : hypText w o = some u)
    (hrefs : Yields StrEventText (lines t) refs)
    (hhyps : Yields (ScoredText Rnd.exact StrEventText) (lines u) hyps)
    (hf : Feasible Rnd.exact w o ((lines t).length + (lines u).length))
    (hdump : o.dumpMatches = [] ∨ w.writable o.dumpMatches = true)
    (hd : o.sort = "desc".toList) (hc : o.collapse = true) :
    let run := traceMain Rnd.exact S rng (simpleKit Rnd.exact qf) simpleTexts w prog argv
    run.result = .ok 0 ∧ PrintsNumbers o (segNumbers (groupFor w o) o.interp o.trapezoid
      (keep (·.query) (listedQueries w o) refs) (keep (·.base.query) (listedQueries w o) hyps))
      (outsOf run.effects) := by
  intro run
  obtain ⟨r, hr, hcm⟩ := (C62_segmentation_partial Rnd.exact S rng qf w o hV
    (fun t' u' h1 h2 => by
      rw [ht] at h1; rw [hu] at h2
      injection h1 with h1; injection h2 with h2
      subst h1; subst h2
      exact hf)).1 ⟨hin, hdump⟩
  obtain ⟨e1, e2, e3, e4⟩ := C66_segmentation S rng qf w o hV t u refs hyps ht hu hrefs hhyps hd hc r hr
  subst ho
  rw [← toolMain_accepted hp] at hr
  obtain ⟨h0, a, b, c, d, hl, h1, h2, h3, h4⟩ := C76_report Rnd.exact S rng _ simpleTexts w prog argv r hr
  rw [e1] at h1
  rw [e2] at h2
  rw [e3] at h3
  rw [e4] at h4
  exact ⟨h0, a, b, c, d, _, _, _, _, hl, h1, hcm.gap, h2, hcm.map, h3, hcm.gndcg, h4, hcm.mndcg⟩

/-- Numbers that are close: equal NDCG, average precisions that differ by at most `ε`. -/
def Spec.CloseNumbers (n n' : Numbers) (ε : ℚ) : Prop :=
  |n'.gAP - n.gAP| ≤ ε ∧ |n'.mAP - n.mAP| ≤ ε ∧ n'.gNDCG = n.gNDCG ∧ n'.mNDCG = n.mNDCG

/-- C76 for the segmentation tool in IEEE arithmetic (where only the logarithms are not rounded): the
printed average precisions are those of numbers that differ from the exact ones by at most
`(n + 3)^2 / 2^52`. -/
theorem C76_segmentation_rounded (S : StdSort) (rng : Rng G) (qf : Bool) (w : World) (prog : Str)
    (argv : List Str) (p : Parser) (o : ToolOptions)
    (hp : (toolParser Rnd.ieee).parse Rnd.ieee argv = (.accepted, p))
    (ho : o = ToolOptions.ofParser p)
    (hV : (vocabulary w o).dedup.length ≤ 2 ^ 31) (t u : Str)
    (refs : List (Event Str Str)) (hyps : List (ScoredEvent Str Str))
    (hin : ValidInputs StrEventText (ScoredText Rnd.ieee StrEventText) w o)
    (ht : w.file o.refFilename = some t) (hu : hypText w o = some u)
    (hrefs : Yields StrEventText (lines t) refs)
    (hhyps : Yields (ScoredText Rnd.ieee StrEventText) (lines u) hyps)
    (hl : refs.length + hyps.length ≤ 2 ^ 24)
    (hf : Feasible Rnd.ieee w o ((lines t).length + (lines u).length))
    (hdump : o.dumpMatches = [] ∨ w.writable o.dumpMatches = true)
    (hd : o.sort = "desc".toList) (hc : o.collapse = true) :
    let run := traceMain Rnd.ieee S rng (simpleKit Rnd.ieee qf) simpleTexts w prog argv
    run.result = .ok 0 ∧ ∃ n, PrintsNumbers o n (outsOf run.effects) ∧
      CloseNumbers (segNumbers (groupFor w o) o.interp o.trapezoid
        (keep (·.query) (listedQueries w o) refs) (keep (·.base.query) (listedQueries w o) hyps)) n
        ((refs.length + hyps.length + 3) ^ 2 / 2 ^ 52) := by
  intro run
  obtain ⟨r, hr, hcm⟩ := (C62_segmentation_partial Rnd.ieee S rng qf w o hV
    (fun t' u' h1 h2 => by
      rw [ht] at h1; rw [hu] at h2
      injection h1 with h1; injection h2 with h2
      subst h1; subst h2
      exact hf)).1 ⟨hin, hdump⟩
  have e := C66_segmentation_rounded S rng qf w o hV t u refs hyps ht hu hrefs hhyps hl hd hc r hr
  subst ho
  rw [← toolMain_accepted hp] at hr
  obtain ⟨h0, a, b, c, d, hl, h1, h2, h3, h4⟩ := C76_report Rnd.ieee S rng _ simpleTexts w prog argv r hr
  exact ⟨h0, ⟨r.gAP.value, r.mAP.value, r.gNDCG.value, r.mNDCG.value⟩,
    ⟨a, b, c, d, _, _, _, _, hl, h1, hcm.gap, h2, hcm.map, h3, hcm.gndcg, h4, hcm.mndcg⟩,
    e.gAP, e.mAP, e.gNDCG, e.mNDCG⟩

/-- C76 for the box tool. -/
theorem C76_box (S : StdSort) (rng : Rng G) (w : World) (prog : Str)
    (argv : List Str) (p : Parser) (o : ToolOptions)
    (hp : (toolParser Rnd.exact).parse Rnd.exact argv = (.accepted, p))
    (ho : o = ToolOptions.ofParser p) (t u : Str)
    (refs : List (Event Str (DocBox Str UInt32))) (hyps : List (ScoredEvent Str (DocBox Str UInt32)))
    (hin : ValidInputs BoxEventText (ScoredText Rnd.exact BoxEventText) w o)
    (ht : w.file o.refFilename = some t) (hu : hypText w o = some u)
    (hrefs : Yields BoxEventText (lines t) refs)
    (hhyps : Yields (ScoredText Rnd.exact BoxEventText) (lines u) hyps)
    (hr : ∀ r ∈ refs, EdgesOkU r.location.toBBox) (hh : ∀ h ∈ hyps, InRangeU h.base)
    (hf : Feasible Rnd.exact w o ((lines t).length + (lines u).length))
    (hdump : o.dumpMatches = [] ∨ w.writable o.dumpMatches = true)
    (hd : o.sort = "desc".toList) (hc : o.collapse = true) :
    let run := traceMain Rnd.exact S rng (icdarKit Rnd.exact S) icdarTexts w prog argv
    run.result = .ok 0 ∧ ∃ l ms rep,
      l.Perm (keep (·.base.query) (listedQueries w o) hyps) ∧
      l.Pairwise (fun a b => Flt.lt a.score b.score = false) ∧
      BoxMatching (keep (·.query) (listedQueries w o) refs) l ms rep ∧
      PrintsNumbers o (matchNumbers (groupFor w o) o.interp o.trapezoid ms) (outsOf run.effects) := by
  intro run
  obtain ⟨r, hr', hcm⟩ := (C62_box_partial Rnd.exact S rng w o
    (fun t' u' h1 h2 => by
      rw [ht] at h1; rw [hu] at h2
      injection h1 with h1; injection h2 with h2
      subst h1; subst h2
      exact hf)).1 ⟨hin, hdump⟩
  obtain ⟨l, ms, rep, f1, f2, f3, _, e1, e2, e3, e4⟩ :=
    C67_box S rng w o t u refs hyps ht hu hrefs hhyps hr hh hd hc r hr'
  subst ho
  rw [← toolMain_accepted hp] at hr'
  obtain ⟨h0, a, b, c, d, hl, h1, h2, h3, h4⟩ := C76_report Rnd.exact S rng _ icdarTexts w prog argv r hr'
  rw [e1] at h1
  rw [e2] at h2
  rw [e3] at h3
  rw [e4] at h4
  exact ⟨h0, l, ms, rep, f1, f2, f3, a, b, c, d, _, _, _, _, hl, h1, hcm.gap, h2, hcm.map, h3,
    hcm.gndcg, h4, hcm.mndcg⟩

/-- C76 for the box tool in IEEE arithmetic, for areas of at most `2^24`. -/
theorem C76_box_rounded (S : StdSort) (rng : Rng G) (w : World) (prog : Str)
    (argv : List Str) (p : Parser) (o : ToolOptions)
    (hp : (toolParser Rnd.ieee).parse Rnd.ieee argv = (.accepted, p))
    (ho : o = ToolOptions.ofParser p) (t u : Str)
    (refs : List (Event Str (DocBox Str UInt32))) (hyps : List (ScoredEvent Str (DocBox Str UInt32)))
    (hin : ValidInputs BoxEventText (ScoredText Rnd.ieee BoxEventText) w o)
    (ht : w.file o.refFilename = some t) (hu : hypText w o = some u)
    (hrefs : Yields BoxEventText (lines t) refs)
    (hhyps : Yields (ScoredText Rnd.ieee BoxEventText) (lines u) hyps)
    (hr : ∀ r ∈ refs, EdgesOkU r.location.toBBox)
    (hh : ∀ h ∈ hyps, EdgesOkU h.base.location.toBBox ∧ areaU h.base ≤ 2 ^ 24)
    (hl : refs.length + hyps.length ≤ 2 ^ 24)
    (hf : Feasible Rnd.ieee w o ((lines t).length + (lines u).length))
    (hdump : o.dumpMatches = [] ∨ w.writable o.dumpMatches = true)
    (hd : o.sort = "desc".toList) (hc : o.collapse = true) :
    let run := traceMain Rnd.ieee S rng (icdarKit Rnd.ieee S) icdarTexts w prog argv
    run.result = .ok 0 ∧ ∃ l ms rep n,
      l.Perm (keep (·.base.query) (listedQueries w o) hyps) ∧
      l.Pairwise (fun a b => Flt.lt a.score b.score = false) ∧
      BoxMatching (keep (·.query) (listedQueries w o) refs) l ms rep ∧
      PrintsNumbers o n (outsOf run.effects) ∧
      CloseNumbers (matchNumbers (groupFor w o) o.interp o.trapezoid ms) n
        ((refs.length + hyps.length + 3) ^ 2 / 2 ^ 52) := by
  intro run
  obtain ⟨r, hr', hcm⟩ := (C62_box_partial Rnd.ieee S rng w o
    (fun t' u' h1 h2 => by
      rw [ht] at h1; rw [hu] at h2
      injection h1 with h1; injection h2 with h2
      subst h1; subst h2
      exact hf)).1 ⟨hin, hdump⟩
  obtain ⟨l, ms, rep, f1, f2, f3, _, e⟩ :=
    C67_box_rounded S rng w o t u refs hyps ht hu hrefs hhyps hr hh hl hd hc r hr'
  subst ho
  rw [← toolMain_accepted hp] at hr'
  obtain ⟨h0, a, b, c, d, hl, h1, h2, h3, h4⟩ := C76_report Rnd.ieee S rng _ icdarTexts w prog argv r hr'
  exact ⟨h0, l, ms, rep, ⟨r.gAP.value, r.mAP.value, r.gNDCG.value, r.mNDCG.value⟩, f1, f2, f3,
    ⟨a, b, c, d, _, _, _, _, hl, h1, hcm.gap, h2, hcm.map, h3, hcm.gndcg, h4, hcm.mndcg⟩,
    e.gAP, e.mAP, e.gNDCG, e.mNDCG⟩

end

deriving instance DecidableEq for ToolOptions

/-- The command line `simple-kws-eval ref` selects the default options. -/
theorem idsExample_parse : ∃ p,
    (toolParser Rnd.exact).parse Rnd.exact ["ref".toList] = (.accepted, p) ∧
      ToolOptions.ofParser p = idsOptions := by
  refine ⟨((toolParser Rnd.exact).parse Rnd.exact ["ref".toList]).2, ?_, ?_⟩
  · rw [Prod.ext_iff]
    exact ⟨by decide +kernel, rfl⟩
  · decide +kernel

/-- The run `simple-kws-eval ref` on the example prints gAP = 0.428571 and mAP = 0.555556. -/
example {G : Type} (S : StdSort) (rng : Rng G) (prog : Str) :
    let run := traceMain Rnd.exact S rng (simpleKit Rnd.exact true) simpleTexts
      (idsExample "a l\nb l\nc l\n".toList) prog ["ref".toList]
    run.result = .ok 0 ∧ ∃ c d,
      outsOf run.effects = ["gAP = 0.428571\n".toList, "mAP = 0.555556\n".toList, c, d] := by
  intro run
  obtain ⟨y1, y2⟩ := idsExample_yields
  obtain ⟨p, hp, ho⟩ := idsExample_parse
  obtain ⟨r, hr, hcm⟩ := (C62_segmentation_partial Rnd.exact S rng true
    (idsExample "a l\nb l\nc l\n".toList) idsOptions idsExample_vocabulary1
    (fun t t' h1 h2 => by
      refine ⟨fun h => by simp [idsOptions] at h, fun h => absurd rfl h, fun h => absurd rfl h,
        fun h => by simp [idsOptions] at h⟩)).1
    ⟨⟨by decide, ⟨_, idsExample_file _, yields_valid y1⟩, ⟨_, if_pos rfl, yields_valid y2⟩,
      fun h => absurd rfl h, fun h => absurd rfl h⟩, Or.inl rfl⟩
  obtain ⟨h1, h2, _, _⟩ := C66_segmentation S rng true (idsExample "a l\nb l\nc l\n".toList) idsOptions
    idsExample_vocabulary1 _ _ _ _ (idsExample_file _) (if_pos rfl) y1 y2 rfl rfl r hr
  have l1 : listedQueries (idsExample "a l\nb l\nc l\n".toList) idsOptions = [] := rfl
  have l2 : groupFor (idsExample "a l\nb l\nc l\n".toList) idsOptions = id := rfl
  have v1 : r.gAP.value = 3 / 7 := h1.trans (by
    rw [l1]
    unfold segNumbers Numbers.of
    decide +kernel)
  have v2 : r.mAP.value = 5 / 9 := h2.trans (by
    rw [l1, l2]
    unfold segNumbers Numbers.of
    decide +kernel)
  rw [← ho, ← toolMain_accepted hp] at hr
  have hw := traceMain_writes Rnd.exact S rng _ simpleTexts _ prog _ |>.done r hr
  refine ⟨(C76_report Rnd.exact S rng _ simpleTexts _ prog _ r hr).1,
    showMetric "gNDCG" r.gNDCG, showMetric "mNDCG" r.mNDCG, hw.1.trans ?_⟩
  unfold metricTexts
  have c1 : r.gAP.ci = none := by
    have := hcm.gap
    cases h : r.gAP.ci with
    | none => rfl
    | some x => rw [h] at this; cases this
  have c2 : r.mAP.ci = none := by
    have := hcm.map
    cases h : r.mAP.ci with
    | none => rfl
    | some x => rw [h] at this; cases this
  have m1 : showMetric "gAP" r.gAP = "gAP = 0.428571\n".toList := by
    rw [show r.gAP = ⟨3 / 7, none⟩ by rw [← v1, ← c1]]
    decide +kernel
  have m2 : showMetric "mAP" r.mAP = "mAP = 0.555556\n".toList := by
    rw [show r.mAP = ⟨5 / 9, none⟩ by rw [← v2, ← c2]]
    decide +kernel
  rw [m1, m2]

end Kws
