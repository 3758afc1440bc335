import Verif.Lemmas.CurvesLast
import Verif.Props.CurveFiles
import Verif.Props.HandedIn
import Verif.Props.ToolDouble

/-!
# C113: output to devices that take only so much
-/

namespace Kws
open Spec

/-- C113: writing line after line, as the loops of the program do, is like writing the whole text at once. -/
theorem C113_lines (f : OStream) (h : f.bad = false) (ls : List Str) :
    f.insertAll ls = f.insert ls.flatten :=
  f.insertAll_flatten h ls

/-- C113: if there is room for the files of the curves, the run ends as it would anyway; of everything else as
much arrives as there is room for. -/
theorem C113_fits (d : Devices) (t : Traced Nat) (h : CurvesFit d t) :
    (t.perform d).result = t.result ∧ (t.perform d).out = cut d.out (outsOf t.effects).flatten ∧
    (t.perform d).err = cut d.err (errsOf t.effects).flatten ∧
    (t.perform d).files = cutFiles d (filesOf t.effects) := by
  unfold Traced.perform
  rw [perform_fits d _ _ h _ (OStream.new_spent _ _) (OStream.new_spent _ _)]
  exact ⟨rfl, rfl, rfl, rfl⟩

/-- C113: if there is no room for a file with a curve, the program ends with an exception, and nothing has been
written that is not part of the output. -/
theorem C113_stops (d : Devices) (t : Traced Nat) (h : ¬ CurvesFit d t) :
    (t.perform d).result = .error .ioFailure ∧ (t.perform d).out <+: cut d.out (outsOf t.effects).flatten ∧
    (t.perform d).err <+: cut d.err (errsOf t.effects).flatten ∧
    (t.perform d).files <+: cutFiles d (filesOf t.effects) := by
  obtain ⟨a, b, c, e⟩ := perform_stops d t.result t.effects h
    ⟨OStream.new d.out false, OStream.new d.err false, []⟩ (OStream.new_spent _ _) (OStream.new_spent _ _)
  exact ⟨a, b, c, e⟩

/-- Files for which there is room are not cut. -/
theorem cutFiles_fits {d : Devices} {fs : List (Str × Str)} (h : ∀ f ∈ fs, f.2.length ≤ d.file f.1) :
    cutFiles d fs = fs := by
  unfold cutFiles
  refine (List.map_congr_left fun f hf => ?_).trans (List.map_id _)
  exact Prod.ext rfl (List.take_of_length_le (h f hf))

/-- C113: if there is room for everything, everything is written. -/
theorem C113_room (d : Devices) (t : Traced Nat) (h : EnoughRoom d t) : AllWritten t (t.perform d) := by
  have hc : CurvesFit d t := fun f hf => h.files f ((curvesOf_sublist _).subset hf)
  obtain ⟨a, b, c, e⟩ := C113_fits d t hc
  refine ⟨b.trans (List.take_of_length_le h.out), c.trans (List.take_of_length_le h.err), ?_, a⟩
  rw [e, cutFiles_fits h.files]

section
variable {μ σ Q L G : Type} [DecidableEq Q] [Cmp Q] [Cmp L] [LawfulCmp Q] [LawfulCmp L]

/-- C113 for the files with the curves, for both tools: a run that ends with status 0 although there are few
characters to write has either shown the help or has written the files of the curves of its report
completely. What is missing: the same of the standard output and of the file with the matches. -/
theorem C113_curves_partial (R : Rnd) (S : StdSort) (rng : Rng G) (kit : ToolKit μ σ Q L)
    (texts : ToolTexts Q L) (w : World) (prog : Str) (argv : List Str) (d : Devices)
    (h : ((traceMain R S rng kit texts w prog argv).perform d).result = .ok 0) :
    toolMain R S rng kit w argv = .ok .helped ∨
    ∃ r, toolMain R S rng kit w argv = .ok (.done r) ∧ ∃ dump files,
      ((traceMain R S rng kit texts w prog argv).perform d).files = dump ++ files ∧
      (∀ f ∈ dump, f.1 = (optionsOf R argv).dumpMatches) ∧
      ∀ c, HasCurves (optionsOf R argv) r c → CurveFiles (optionsOf R argv) c files := by
  have hw := traceMain_writes R S rng kit texts w prog argv
  generalize ht : traceMain R S rng kit texts w prog argv = t at h hw
  by_cases hc : CurvesFit d t
  · obtain ⟨a, -, -, b⟩ := C113_fits d t hc
    rw [a, hw.code] at h
    rw [b]
    cases hx : toolMain R S rng kit w argv with
    | error f => rw [hx] at h; cases h
    | ok x =>
      cases x with
      | failed => rw [hx] at h; cases h
      | helped => exact .inl rfl
      | done r =>
        refine .inr ⟨r, rfl, cutFiles d (dumpFiles texts.showEvent (optionsOf R argv) r),
          curveFiles (optionsOf R argv) r, ?_, ?_, fun c hcc => curveFiles_spec hcc⟩
        · rw [(hw.done r hx).2.1]
          unfold CurvesFit at hc
          rw [hw.curves r hx] at hc
          rw [show ∀ a b, cutFiles d (a ++ b) = cutFiles d a ++ cutFiles d b from fun a b => List.map_append,
            cutFiles_fits hc]
        · intro f hf
          obtain ⟨g, hg, rfl⟩ := List.mem_map.1 hf
          obtain ⟨y, _, rfl⟩ := List.mem_map.1 hg
          rfl
  · rw [(C113_stops d t hc).1] at h
    cases h

/-- C113: the status with full devices is 0 exactly if it would be 0 anyway and there is room for the files of
the curves that the report has. -/
theorem C113_status (R : Rnd) (S : StdSort) (rng : Rng G) (kit : ToolKit μ σ Q L)
    (texts : ToolTexts Q L) (w : World) (prog : Str) (argv : List Str) (d : Devices) (r : Report Q L)
    (hr : toolMain R S rng kit w argv = .ok (.done r)) (c : Curves) (hc : HasCurves (optionsOf R argv) r c) :
    ∃ files, CurveFiles (optionsOf R argv) c files ∧
      (((traceMain R S rng kit texts w prog argv).perform d).result = .ok 0 ↔
        ∀ f ∈ files, f.2.length ≤ d.file f.1) ∧
      ((¬ ∀ f ∈ files, f.2.length ≤ d.file f.1) →
        ((traceMain R S rng kit texts w prog argv).perform d).result = .error .ioFailure) := by
  have hw := traceMain_writes R S rng kit texts w prog argv
  generalize traceMain R S rng kit texts w prog argv = t at hw ⊢
  refine ⟨_, curveFiles_spec hc, ?_, ?_⟩
  · rw [← hw.curves r hr]
    constructor
    · intro h
      by_contra hn
      rw [(C113_stops d t hn).1] at h
      cases h
    · intro h
      rw [(C113_fits d t h).1, hw.code, hr]
      rfl
  · rw [← hw.curves r hr]
    exact fun hn => (C113_stops d t hn).1

omit [LawfulCmp Q] [LawfulCmp L] in
/-- C113, for both tools: whether or not there is room for the files with the curves, the standard output, the
standard error output and the files that are not curves are written as far as there is room for them, because
the curves come last. A run that ends with an exception has still printed its four metrics. -/
theorem C113_anyway (R : Rnd) (S : StdSort) (rng : Rng G) (kit : ToolKit μ σ Q L)
    (texts : ToolTexts Q L) (w : World) (prog : Str) (argv : List Str) (d : Devices) :
    let t := traceMain R S rng kit texts w prog argv
    (t.perform d).out = cut d.out (outsOf t.effects).flatten ∧
    (t.perform d).err = cut d.err (errsOf t.effects).flatten ∧
    cutFiles d (plainOf t.effects) <+: (t.perform d).files :=
  perform_last d _ (traceMain_last R S rng kit texts w prog argv)

omit [LawfulCmp Q] [LawfulCmp L] in
/-- `C113_anyway` with NDCG in `double`. -/
theorem C113_anyway_double (R : Rnd) (lm : Libm) (S : StdSort) (rng : Rng G) (kit : ToolKit μ σ Q L)
    (texts : ToolTexts Q L) (w : World) (prog : Str) (argv : List Str) (d : Devices) :
    let t := traceMainD R lm S rng kit texts w prog argv
    (t.perform d).out = cut d.out (outsOf t.effects).flatten ∧
    (t.perform d).err = cut d.err (errsOf t.effects).flatten ∧
    cutFiles d (plainOf t.effects) <+: (t.perform d).files :=
  perform_last d _ (traceMainD_last R lm S rng kit texts w prog argv)

end

/-- The run of C78 with curves of 78 characters: it ends with status 0 if the disk takes 78 characters of each
file, and with an exception if it takes only 77 of the second one. -/
example {G : Type} (S : StdSort) (rng : Rng G) (prog : Str) (n : ℕ) :
    let t := traceMain Rnd.exact S rng (simpleKit Rnd.exact true) simpleTexts (dumpExample curveRefs curveHyps)
      prog curveArgv
    (t.perform ⟨n, n, fun _ => 78⟩).result = .ok 0 ∧
    (t.perform ⟨n, n, fun f => if f = "mrp".toList then 77 else 78⟩).result = .error .ioFailure := by
  intro t
  obtain ⟨r, hr, -, hf⟩ := curveExample_run S rng
  have hw := traceMain_writes Rnd.exact S rng (simpleKit Rnd.exact true) simpleTexts
    (dumpExample curveRefs curveHyps) prog curveArgv
  have hc := hw.curves r hr
  rw [curveExample_optionsOf, hf] at hc
  constructor
  · refine (C113_fits _ t fun f hf => ?_).1.trans ?_
    · rw [hc] at hf
      simp only [List.mem_cons, List.not_mem_nil, or_false] at hf
      rcases hf with rfl | rfl <;> (dsimp only; decide +kernel)
    · rw [hw.code, hr]
      rfl
  · refine (C113_stops _ t fun h => ?_).1
    have := h ("mrp".toList, ("0.000000e+00 1.000000e+00\n5.000000e-01 6.666667e-01\n" ++
          "1.000000e+00 6.666667e-01\n").toList) (by rw [hc]; exact List.mem_cons_of_mem _ (List.mem_singleton.2 rfl))
    dsimp only at this
    revert this
    decide +kernel

/-- The same run on a full disk, with a standard output that takes everything: although the run ends with an
exception, the lines of the four metrics arrive. -/
example {G : Type} (S : StdSort) (rng : Rng G) (prog : Str) : ∃ n,
    let t := traceMain Rnd.exact S rng (simpleKit Rnd.exact true) simpleTexts (dumpExample curveRefs curveHyps)
      prog curveArgv
    (t.perform ⟨n, 0, fun _ => 0⟩).result = .error .ioFailure ∧
    ∃ a b c e, a ≠ [] ∧ b ≠ [] ∧ c ≠ [] ∧ e ≠ [] ∧ (t.perform ⟨n, 0, fun _ => 0⟩).out = a ++ b ++ c ++ e := by
  obtain ⟨r, hr, -, hf⟩ := curveExample_run S rng
  have hw := traceMain_writes Rnd.exact S rng (simpleKit Rnd.exact true) simpleTexts
    (dumpExample curveRefs curveHyps) prog curveArgv
  have hc := hw.curves r hr
  have ho := (hw.done r hr).1
  rw [curveExample_optionsOf, hf] at hc
  refine ⟨(outsOf (traceMain Rnd.exact S rng (simpleKit Rnd.exact true) simpleTexts
    (dumpExample curveRefs curveHyps) prog curveArgv).effects).flatten.length, ?_⟩
  intro t
  have ht : t = traceMain Rnd.exact S rng (simpleKit Rnd.exact true) simpleTexts
    (dumpExample curveRefs curveHyps) prog curveArgv := rfl
  rw [← ht] at hc ho
  refine ⟨(C113_stops _ t fun h => ?_).1, showMetric "gAP" r.gAP, showMetric "mAP" r.mAP,
    showMetric "gNDCG" r.gNDCG, showMetric "mNDCG" r.mNDCG, by simp [showMetric, endl], by simp [showMetric, endl],
    by simp [showMetric, endl], by simp [showMetric, endl], ?_⟩
  · have := h ("mrp".toList, ("0.000000e+00 1.000000e+00\n5.000000e-01 6.666667e-01\n" ++
          "1.000000e+00 6.666667e-01\n").toList) (by rw [hc]; exact List.mem_cons_of_mem _ (List.mem_singleton.2 rfl))
    dsimp only at this
    revert this
    decide +kernel
  · rw [(C113_anyway Rnd.exact S rng (simpleKit Rnd.exact true) simpleTexts (dumpExample curveRefs curveHyps)
      prog curveArgv _).1, cut, List.take_length, ← ht, ho]
    simp [metricTexts]

/-- C113 with NDCG in `double`: the run ends in the same way as with NDCG over the reals, and its files are the
same. -/
theorem C113_double {ε : ℝ} {t t' : Traced Nat} (h : TraceNear ε t t') (d : Devices) :
    (t.perform d).result = (t'.perform d).result ∧
      (CurvesFit d t → (t.perform d).files = (t'.perform d).files) := by
  have hcf : ∀ es es' : List Effect, List.Forall₂ (EffectNear ε) es es' →
      curvesOf es = curvesOf es' ∧ filesOf es = filesOf es' := by
    intro es es' h
    induction h with
    | nil => exact ⟨rfl, rfl⟩
    | cons he _ ih =>
      cases he with
      | same => rename_i e _ _ _; cases e <;> simp [ih.1, ih.2]
      | ndcg => simpa using ih
  obtain ⟨e1, e2⟩ := hcf _ _ h.effects
  have e : CurvesFit d t ↔ CurvesFit d t' := by
    unfold CurvesFit
    rw [e1]
  by_cases hc : CurvesFit d t
  · obtain ⟨a, -, -, b⟩ := C113_fits d t hc
    obtain ⟨a', -, -, b'⟩ := C113_fits d t' (e.1 hc)
    exact ⟨by rw [a, a', h.result], fun _ => by rw [b, b', e2]⟩
  · refine ⟨?_, fun h => absurd h hc⟩
    rw [(C113_stops d t hc).1, (C113_stops d t' (fun h => hc (e.2 h))).1]

/-- C113 is false of the standard output and of the file with the matches: there is a run, with the options
`--dump_matches`, that ends with status 0 although not a single character of either has arrived. -/
theorem C113_refuted {G : Type} (S : StdSort) (rng : Rng G) (prog : Str) : ∃ (w : World) (d : Devices),
    let t := traceMain Rnd.exact S rng (icdarKit Rnd.exact S) icdarTexts w prog dumpArgv
    (∃ a b c e, outsOf t.effects = [a, b, c, e] ∧ a ≠ [] ∧ b ≠ [] ∧ c ≠ [] ∧ e ≠ []) ∧
    (∃ text, text ≠ [] ∧ filesOf t.effects = [("dump".toList, text)]) ∧
    (t.perform d).result = .ok 0 ∧ (t.perform d).out = [] ∧ (t.perform d).files = [("dump".toList, [])] := by
  have y1 : Yields BoxEventText (lines "a d 0 0 2 2\n".toList) [⟨['a'], ⟨⟨0, 0, 2, 2⟩, ['d']⟩⟩] :=
    (C48_accepts (Format.boxRefs (R := Rnd.exact)) _ _).1 (by decide +kernel)
  have y2 : Yields (ScoredText Rnd.exact BoxEventText) (lines "a d 0 0 2 2 1\n".toList)
      [⟨⟨['a'], ⟨⟨0, 0, 2, 2⟩, ['d']⟩⟩, .fin 1⟩] :=
    (C48_accepts (Format.boxHyps (R := Rnd.exact)) _ _).1 (by decide +kernel)
  obtain ⟨r, hr, hc⟩ := (C62_box_partial Rnd.exact S rng
    (dumpExample "a d 0 0 2 2\n".toList "a d 0 0 2 2 1\n".toList) dumpOptions
    (fun t u _ _ => ⟨fun h => by simp [dumpOptions] at h, fun h => absurd rfl h,
      fun h => absurd rfl h, fun h => by simp [dumpOptions] at h⟩)).1
    ⟨⟨by decide, ⟨_, dumpExample_file _ _, yields_valid y1⟩, ⟨_, if_pos rfl, yields_valid y2⟩,
      fun h => absurd rfl h, fun h => absurd rfl h⟩, Or.inr rfl⟩
  refine ⟨dumpExample "a d 0 0 2 2\n".toList "a d 0 0 2 2 1\n".toList, ⟨0, 0, fun _ => 0⟩, ?_⟩
  intro t
  have hw := traceMain_writes Rnd.exact S rng (icdarKit Rnd.exact S) icdarTexts
    (dumpExample "a d 0 0 2 2\n".toList "a d 0 0 2 2 1\n".toList) prog dumpArgv
  have hopt : optionsOf Rnd.exact dumpArgv = dumpOptions := by
    unfold optionsOf
    rw [dumpExample_parse, dumpExample_options]
  rw [← dumpExample_options, ← toolMain_accepted dumpExample_parse] at hr
  rw [hopt] at hw
  have ht : t = traceMain Rnd.exact S rng (icdarKit Rnd.exact S) icdarTexts
    (dumpExample "a d 0 0 2 2\n".toList "a d 0 0 2 2 1\n".toList) prog dumpArgv := rfl
  rw [← ht] at hw
  clear_value t
  have c1 : r.globalCurve = none := by
    cases h : r.globalCurve with
    | none => rfl
    | some x => exact absurd (hc.grp.1 (by rw [h]; rfl)) (by decide)
  have c2 : r.meanCurve = none := by
    cases h : r.meanCurve with
    | none => rfl
    | some x => exact absurd (hc.mrp.1 (by rw [h]; rfl)) (by decide)
  have e0 : curveFiles dumpOptions r = [] := by
    unfold curveFiles
    rw [c1, c2]
    rfl
  obtain ⟨x, hx⟩ := Option.isSome_iff_exists.1 (hc.dump.2 (by decide))
  have hfit : CurvesFit ⟨0, 0, fun _ => 0⟩ t := by
    unfold CurvesFit
    rw [hw.curves r hr, e0]
    simp
  have hne : ∀ {K : Type} [Field K] [LinearOrder K] [FloorRing K] (n : String) (m : Metric K),
      showMetric n m ≠ [] := fun n m => by simp [showMetric, endl]
  obtain ⟨a, b, -, c⟩ := C113_fits _ t hfit
  have hf : filesOf t.effects = [("dump".toList, showDump icdarTexts.showEvent x)] := by
    rw [(hw.done r hr).2.1, e0]
    unfold dumpFiles
    rw [hx]
    rfl
  refine ⟨⟨_, _, _, _, (hw.done r hr).1, hne _ _, hne _ _, hne _ _, hne _ _⟩, ⟨_, ?_, hf⟩, ?_, ?_, ?_⟩
  · simp [showDump, endl]
  · rw [a, hw.code, hr]
    rfl
  · rw [b]
    rfl
  · rw [c, hf]
    rfl

end Kws
