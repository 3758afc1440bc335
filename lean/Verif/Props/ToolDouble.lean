import Verif.Lemmas.ToolDouble
import Verif.Lemmas.OutputMain
import Verif.Props.Messages

/-!
# C93: the program with all numbers in double precision

The other theorems about the program take NDCG over the reals. These theorems are about `traceMainD`,
in which NDCG and its intervals are computed in `double` as well.
-/

namespace Kws
open Spec Traced

section
variable {μ σ Q L G : Type} [DecidableEq Q] [Cmp Q] [Cmp L]

theorem traceMainD_accepted {R : Rnd} {lm : Libm} {S : StdSort}
    {rng : Rng G} {kit : ToolKit μ σ Q L} {texts : ToolTexts Q L} {w : World} {prog : Str}
    {argv : List Str} {p : Parser} (hp : (toolParser R).parse R argv = (.accepted, p)) :
    traceMainD R lm S rng kit texts w prog argv =
      traceMainWithD R lm S rng kit texts w (argv.length + 1) (ToolOptions.ofParser p) := by
  unfold traceMainD
  rw [hp]

end

variable {G : Type}

/-- C93: intervals are stable. If a statistic in `double` is within `ε` of an exact one that is between
0 and 1, on all resamples of the groups, then the bounds of its interval are within `3 ε + 2^-48` of the
bounds of the exact one, or both intervals are undefined. -/
theorem C93_intervals {M : Type} (S : StdSort) (rng : Rng G) (o : ToolOptions) (groups : List (List M))
    (sD : List (List M) → Cpp ℚ) (s : List (List M) → Cpp ℝ) (ε : ℝ) (hε : ε ≤ 1)
    (h : ∀ sample, Resample groups sample → ∃ v v', sD sample = .ok v ∧ s sample = .ok v' ∧
      0 ≤ v' ∧ v' ≤ 1 ∧ |(v : ℝ) - v'| ≤ ε) :
    (∃ v lo hi v' lo' hi',
      percentileCIGrouped Rnd.ieee S Rnd.ieee.f64 rng groups o.samples o.alpha o.seed sD =
        .ok (v, lo, hi) ∧
      percentileCIGrouped Rnd.ieee S id rng groups o.samples o.alpha o.seed s = .ok (v', lo', hi') ∧
      |(v : ℝ) - v'| ≤ ε ∧ |(lo : ℝ) - lo'| ≤ 3 * ε + 1 / 2 ^ 48 ∧
      |(hi : ℝ) - hi'| ≤ 3 * ε + 1 / 2 ^ 48) ∨
    (percentileCIGrouped Rnd.ieee S Rnd.ieee.f64 rng groups o.samples o.alpha o.seed sD =
        .error .ub ∧
      percentileCIGrouped Rnd.ieee S id rng groups o.samples o.alpha o.seed s = .error .ub) :=
  percentile_near S rng o groups sD s ε hε h

/-- C93 for the box tool: for files of up to `N` lines, the program and the one with exact NDCG end in the
same way and have the same effects in the same order, up to the numbers of NDCG, which are near each
other. -/
theorem C93_box (lm : Libm) (hm : lm.Accurate) (S : StdSort) (rng : Rng G) (w : World) (prog : Str)
    (argv : List Str) (p : Parser) (o : ToolOptions) (N : ℕ)
    (hp : (toolParser Rnd.ieee).parse Rnd.ieee argv = (.accepted, p)) (ho : o = ToolOptions.ofParser p)
    (h : SmallRun w o N) :
    TraceNear (ndcgTolerance o.collapse N)
      (traceMainD Rnd.ieee lm S rng (icdarKit Rnd.ieee S) icdarTexts w prog argv)
      (traceMain Rnd.ieee S rng (icdarKit Rnd.ieee S) icdarTexts w prog argv) := by
  subst ho
  rw [traceMainD_accepted hp, traceMain_accepted hp]
  exact traceMainWith_near lm hm S rng _ (icdar_fine Rnd.ieee S) _ w _ _ N h

/-- C93 for the segmentation tool. -/
theorem C93_segmentation (lm : Libm) (hm : lm.Accurate) (S : StdSort) (rng : Rng G) (qf : Bool)
    (w : World) (prog : Str) (argv : List Str) (p : Parser) (o : ToolOptions) (N : ℕ)
    (hp : (toolParser Rnd.ieee).parse Rnd.ieee argv = (.accepted, p)) (ho : o = ToolOptions.ofParser p)
    (h : SmallRun w o N) :
    TraceNear (ndcgTolerance o.collapse N)
      (traceMainD Rnd.ieee lm S rng (simpleKit Rnd.ieee qf) simpleTexts w prog argv)
      (traceMain Rnd.ieee S rng (simpleKit Rnd.ieee qf) simpleTexts w prog argv) := by
  subst ho
  rw [traceMainD_accepted hp, traceMain_accepted hp]
  exact traceMainWith_near lm hm S rng _ (simple_fine Rnd.ieee qf) _ w _ _ N h

/-- C93: without a command line that is accepted, the two programs do the same. -/
theorem C93_no_run {μ σ Q L : Type} [DecidableEq Q] [Cmp Q] [Cmp L] (R : Rnd) (lm : Libm) (S : StdSort)
    (rng : Rng G) (kit : ToolKit μ σ Q L) (texts : ToolTexts Q L) (w : World) (prog : Str)
    (argv : List Str) (h : ((toolParser R).parse R argv).1 ≠ .accepted) :
    traceMainD R lm S rng kit texts w prog argv = traceMain R S rng kit texts w prog argv := by
  unfold traceMainD traceMain
  generalize (toolParser R).parse R argv = x at h ⊢
  obtain ⟨outcome, p⟩ := x
  cases outcome with
  | exitHelp => rfl
  | rejected => rfl
  | accepted => exact absurd rfl h

/-- A run that returns 0 has a report. -/
theorem done_of_zero {Q L : Type} {sh : Event Q L → Str} {o : ToolOptions} {t : Traced Nat}
    {x : Cpp (RunResult Q L)} (h : Agrees sh o t x) (h0 : t.result = .ok 0) : ∃ r, x = .ok (.done r) := by
  have hc := h.code
  rw [h0] at hc
  match x, hc, h.helped with
  | .ok (.done r), _, _ => exact ⟨r, rfl⟩
  | .ok .helped, _, hh => exact absurd rfl hh

/-- C93: what the segmentation tool prints, in terms of its input. If a run with the default sorting and
collapsing returns 0, it prints four metrics; the average precisions are within `(n + 3)^2 / 2^52` of
their definitions and the NDCG within `ndcgTolerance`. Every number is a `double`. -/
theorem C93_segmentation_prints (lm : Libm) (hm : lm.Accurate) (S : StdSort) (rng : Rng G) (qf : Bool)
    (w : World) (prog : Str) (argv : List Str) (p : Parser) (o : ToolOptions) (N : ℕ)
    (hp : (toolParser Rnd.ieee).parse Rnd.ieee argv = (.accepted, p)) (ho : o = ToolOptions.ofParser p)
    (hs : SmallRun w o N) (hV : (vocabulary w o).dedup.length ≤ 2 ^ 31)
    (refs : List (Event Str Str)) (hyps : List (ScoredEvent Str Str))
    (hi : Inputs StrEventText (ScoredText Rnd.ieee StrEventText) w o refs hyps)
    (hl : refs.length + hyps.length ≤ 2 ^ 24)
    (hd : o.sort = "desc".toList) (hc : o.collapse = true)
    (h0 : (traceMainD Rnd.ieee lm S rng (simpleKit Rnd.ieee qf) simpleTexts w prog argv).result = .ok 0) :
    let n := segNumbers (groupFor w o) o.interp o.trapezoid
      (keep (·.query) (listedQueries w o) refs) (keep (·.base.query) (listedQueries w o) hyps)
    ∃ gAP mAP gNDCG mNDCG : Metric ℚ,
      outsOf (traceMainD Rnd.ieee lm S rng (simpleKit Rnd.ieee qf) simpleTexts w prog argv).effects =
        [showMetric "gAP" gAP, showMetric "mAP" mAP, showMetric "gNDCG" gNDCG,
          showMetric "mNDCG" mNDCG] ∧
      |gAP.value - n.gAP| ≤ (refs.length + hyps.length + 3) ^ 2 / 2 ^ 52 ∧
      |mAP.value - n.mAP| ≤ (refs.length + hyps.length + 3) ^ 2 / 2 ^ 52 ∧
      |(gNDCG.value : ℝ) - n.gNDCG| ≤ ndcgTolerance true N ∧
      |(mNDCG.value : ℝ) - n.mNDCG| ≤ ndcgTolerance true N := by
  intro n
  have hn := C93_segmentation lm hm S rng qf w prog argv p o N hp ho hs
  subst ho
  have h0' := hn.result.symm.trans h0
  rw [traceMain_accepted hp] at h0'
  obtain ⟨r, hr⟩ := done_of_zero (traceMainWith_agrees ..) h0'
  obtain ⟨g, m, k1, k2, k3⟩ := traceMainWith_prints lm hm S rng _ (simple_fine Rnd.ieee qf) simpleTexts w
    (argv.length + 1) _ N hs r hr
  obtain ⟨t, ht, y1⟩ := hi.refs
  obtain ⟨u, hu, y2⟩ := hi.hyps
  have hS := C66_segmentation_rounded S rng qf w _ hV t u refs hyps ht hu y1 y2 hl hd hc r hr
  refine ⟨r.gAP, r.mAP, g, m, ?_, hS.gAP, hS.mAP, ?_, ?_⟩
  · rw [traceMainD_accepted hp]
    exact k3
  · have := k1.value
    rw [hS.gNDCG, hc] at this
    exact this
  · have := k2.value
    rw [hS.mNDCG, hc] at this
    exact this

/-- C93: what the box tool prints, in terms of its input; `BoxMatching` says which hypothesis is given
which reference. -/
theorem C93_box_prints (lm : Libm) (hm : lm.Accurate) (S : StdSort) (rng : Rng G)
    (w : World) (prog : Str) (argv : List Str) (p : Parser) (o : ToolOptions) (N : ℕ)
    (hp : (toolParser Rnd.ieee).parse Rnd.ieee argv = (.accepted, p)) (ho : o = ToolOptions.ofParser p)
    (hs : SmallRun w o N)
    (refs : List (Event Str (DocBox Str UInt32))) (hyps : List (ScoredEvent Str (DocBox Str UInt32)))
    (hi : Inputs BoxEventText (ScoredText Rnd.ieee BoxEventText) w o refs hyps)
    (hr : ∀ r ∈ refs, EdgesOkU r.location.toBBox)
    (hh : ∀ h ∈ hyps, EdgesOkU h.base.location.toBBox ∧ areaU h.base ≤ 2 ^ 24)
    (hl : refs.length + hyps.length ≤ 2 ^ 24)
    (hd : o.sort = "desc".toList) (hc : o.collapse = true)
    (h0 : (traceMainD Rnd.ieee lm S rng (icdarKit Rnd.ieee S) icdarTexts w prog argv).result = .ok 0) :
    ∃ l ms rep,
      l.Perm (keep (·.base.query) (listedQueries w o) hyps) ∧
      l.Pairwise (fun a b => Flt.lt a.score b.score = false) ∧
      BoxMatching (keep (·.query) (listedQueries w o) refs) l ms rep ∧
    let n := matchNumbers (groupFor w o) o.interp o.trapezoid ms
    ∃ gAP mAP gNDCG mNDCG : Metric ℚ,
      outsOf (traceMainD Rnd.ieee lm S rng (icdarKit Rnd.ieee S) icdarTexts w prog argv).effects =
        [showMetric "gAP" gAP, showMetric "mAP" mAP, showMetric "gNDCG" gNDCG,
          showMetric "mNDCG" mNDCG] ∧
      |gAP.value - n.gAP| ≤ (refs.length + hyps.length + 3) ^ 2 / 2 ^ 52 ∧
      |mAP.value - n.mAP| ≤ (refs.length + hyps.length + 3) ^ 2 / 2 ^ 52 ∧
      |(gNDCG.value : ℝ) - n.gNDCG| ≤ ndcgTolerance true N ∧
      |(mNDCG.value : ℝ) - n.mNDCG| ≤ ndcgTolerance true N := by
  have hn := C93_box lm hm S rng w prog argv p o N hp ho hs
  subst ho
  have h0' := hn.result.symm.trans h0
  rw [traceMain_accepted hp] at h0'
  obtain ⟨r, hr'⟩ := done_of_zero (traceMainWith_agrees ..) h0'
  obtain ⟨g, m, k1, k2, k3⟩ := traceMainWith_prints lm hm S rng _ (icdar_fine Rnd.ieee S) icdarTexts w
    (argv.length + 1) _ N hs r hr'
  obtain ⟨t, ht, y1⟩ := hi.refs
  obtain ⟨u, hu, y2⟩ := hi.hyps
  obtain ⟨l, ms, rep, e1, e2, e3, _, hS⟩ := C67_box_rounded S rng w _ t u refs hyps ht hu y1 y2 hr hh hl
    hd hc r hr'
  refine ⟨l, ms, rep, e1, e2, e3, r.gAP, r.mAP, g, m, ?_, hS.gAP, hS.mAP, ?_, ?_⟩
  · rw [traceMainD_accepted hp]
    exact k3
  · have := k1.value
    rw [hS.gNDCG, hc] at this
    exact this
  · have := k2.value
    rw [hS.mNDCG, hc] at this
    exact this

/-! ## Example -/

/-- The command line with the name of the references only. -/
def doubleParser : Parser :=
  ⟨(toolParser Rnd.ieee).opts, [.str "ref".toList], (toolParser Rnd.ieee).optArgs⟩

theorem doubleExample_parse :
    (toolParser Rnd.ieee).parse Rnd.ieee ["ref".toList] = (.accepted, doubleParser) := by
  have h : Parser.parseOptions Rnd.ieee (toolParser Rnd.ieee).opts false ["ref".toList] =
      .done (toolParser Rnd.ieee).opts false ["ref".toList] := by
    rw [Parser.parseOptions, if_pos (by decide)]
  unfold Parser.parse
  rw [h]
  decide +kernel

/-- The segmentation tool with a hit, a wrong hypothesis before it and a missed reference: the run ends
with 0 and prints numbers as described by C93. -/
example (lm : Libm) (hm : lm.Accurate) (S : StdSort) (rng : Rng G) (qf : Bool) (prog : Str) :
    let w := dumpExample "a l\nb l\n".toList "a l 1\nc l 3\na l 2\n".toList
    let run := traceMainD Rnd.ieee lm S rng (simpleKit Rnd.ieee qf) simpleTexts w prog ["ref".toList]
    run.result = .ok 0 ∧ ∃ gAP mAP gNDCG mNDCG : Metric ℚ,
      outsOf run.effects = [showMetric "gAP" gAP, showMetric "mAP" mAP, showMetric "gNDCG" gNDCG,
        showMetric "mNDCG" mNDCG] ∧ |gAP.value - 1 / 4| ≤ 1 / 2 ^ 46 := by
  intro w run
  have ho : ToolOptions.ofParser doubleParser = { refFilename := "ref".toList, alpha := Rnd.ieee.f64 (5 / 100) } := by
    decide +kernel
  have y1 : Yields StrEventText (lines "a l\nb l\n".toList) [⟨"a".toList, "l".toList⟩,
      ⟨"b".toList, "l".toList⟩] :=
    (C48_accepts (Format.strRefs (R := Rnd.ieee)) _ _).1 (by decide +kernel)
  have y2 : Yields (ScoredText Rnd.ieee StrEventText) (lines "a l 1\nc l 3\na l 2\n".toList)
      [⟨⟨"a".toList, "l".toList⟩, .fin 1⟩, ⟨⟨"c".toList, "l".toList⟩, .fin 3⟩,
        ⟨⟨"a".toList, "l".toList⟩, .fin 2⟩] :=
    (C48_accepts (Format.strHyps (R := Rnd.ieee)) _ _).1 (by decide +kernel)
  set o : ToolOptions := { refFilename := "ref".toList, alpha := Rnd.ieee.f64 (5 / 100) } with hoo
  have hV : (vocabulary w o).dedup.length ≤ 2 ^ 31 := by decide +kernel
  have hsmall : SmallRun w o 5 := by
    refine ⟨by norm_num, fun _ => by norm_num, ?_, fun h => by simp [hoo] at h⟩
    intro t u ht hu
    have e1 := Option.some.inj (ht.symm.trans (dumpExample_file _ _))
    have e2 := Option.some.inj (hu.symm.trans (if_pos rfl))
    rw [e1, e2]
    decide +kernel
  obtain ⟨r, hr, _⟩ := (C62_segmentation_partial Rnd.ieee S rng qf w o hV
    (fun t u _ _ => ⟨fun h => by simp [hoo] at h, fun h => absurd rfl h,
      fun h => absurd rfl h, fun h => by simp [hoo] at h⟩)).1
    ⟨⟨by decide, ⟨_, dumpExample_file _ _, yields_valid y1⟩, ⟨_, if_pos rfl, yields_valid y2⟩,
      fun h => absurd rfl h, fun h => absurd rfl h⟩, Or.inl rfl⟩
  have h0 : run.result = .ok 0 := by
    rw [(C93_segmentation lm hm S rng qf w prog _ _ o 5 doubleExample_parse ho.symm hsmall).result,
      traceMain_accepted doubleExample_parse, ho, (traceMainWith_agrees ..).code, hr]
    rfl
  obtain ⟨a, b, c, d, h1, h2, _⟩ := C93_segmentation_prints lm hm S rng qf w prog _ _ o 5
    doubleExample_parse ho.symm hsmall hV _ _
    ⟨by decide, ⟨_, dumpExample_file _ _, y1⟩, ⟨_, if_pos rfl, y2⟩⟩ (by simp) rfl rfl h0
  refine ⟨h0, a, b, c, d, h1, ?_⟩
  have e : (segNumbers (groupFor w o) o.interp o.trapezoid
      (keep (·.query) (listedQueries w o) [⟨"a".toList, "l".toList⟩, ⟨"b".toList, "l".toList⟩])
      (keep (·.base.query) (listedQueries w o) [⟨⟨"a".toList, "l".toList⟩, .fin 1⟩,
        ⟨⟨"c".toList, "l".toList⟩, .fin 3⟩, ⟨⟨"a".toList, "l".toList⟩, .fin 2⟩])).gAP = 1 / 4 := by
    have : listedQueries w o = [] := rfl
    rw [this]
    unfold segNumbers Numbers.of
    decide +kernel
  rw [e] at h2
  refine h2.trans ?_
  norm_num

end Kws
