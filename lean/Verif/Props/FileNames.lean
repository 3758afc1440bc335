import Verif.Lemmas.FileNames
import Verif.Props.Instances
import Verif.Model.Engine

/-!
# C128: the names of files do not matter

Two runs whose input files have the same contents under other names (or on the standard input) and that write the same
output files under other names end in the same way, print the same, write the same texts to the corresponding files, in
the same order, and give the same messages, apart from the names that are mentioned in them.
-/

namespace Kws
open Traced Spec

variable {μ σ Q L G : Type} [DecidableEq Q] [Cmp Q] [Cmp L]

/-- All effects and the result of a run of either tool. The number of arguments may differ. -/
theorem C128_run (R : Rnd) (lm : Libm) (S : StdSort) (rng : Rng G) (kit : ToolKit μ σ Q L) (texts : ToolTexts Q L)
    (w w' : World) (argc argc' : Nat) (o o' : ToolOptions) (h : SameContents w w' o o') :
    SameRun o o' (traceMainWithD R lm S rng kit texts w argc o)
      (traceMainWithD R lm S rng kit texts w' argc' o') :=
  sameRun_main R lm S rng kit texts h argc argc'

omit [DecidableEq Q] [Cmp Q] [Cmp L] in
theorem sameEffects_outs {o o' : ToolOptions} {es es' : List Effect}
    (h : List.Forall₂ (SameEffect o o') es es') :
    outsOf es' = outsOf es ∧ (filesOf es').map (·.2) = (filesOf es).map (·.2) ∧
      (errsOf es').length = (errsOf es).length := by
  induction h with
  | nil => exact ⟨rfl, rfl, rfl⟩
  | cons h _ ih =>
    obtain ⟨h1, h2, h3⟩ := ih
    cases h <;> simp_all [outsOf, filesOf, errsOf]

/-- Two command lines: the same exit code or fault, the same standard output, the same texts in the files that are
written, and as many messages. -/
theorem C128_program (R : Rnd) (lm : Libm) (S : StdSort) (rng : Rng G) (kit : ToolKit μ σ Q L) (texts : ToolTexts Q L)
    (w w' : World) (prog prog' : Str) (argv argv' : List Str) (p p' : Parser)
    (hp : (toolParser R).parse R argv = (.accepted, p)) (hp' : (toolParser R).parse R argv' = (.accepted, p'))
    (h : SameContents w w' (ToolOptions.ofParser p) (ToolOptions.ofParser p')) :
    let x := traceMainD R lm S rng kit texts w prog argv
    let x' := traceMainD R lm S rng kit texts w' prog' argv'
    x'.result = x.result ∧ outsOf x'.effects = outsOf x.effects ∧
      (filesOf x'.effects).map (·.2) = (filesOf x.effects).map (·.2) ∧
      (errsOf x'.effects).length = (errsOf x.effects).length := by
  intro x x'
  have hx : x = traceMainWithD R lm S rng kit texts w (argv.length + 1) (ToolOptions.ofParser p) := by
    simp only [x, traceMainD, hp]
  have hx' : x' = traceMainWithD R lm S rng kit texts w' (argv'.length + 1) (ToolOptions.ofParser p') := by
    simp only [x', traceMainD, hp']
  have hr := C128_run R lm S rng kit texts w w' (argv.length + 1) (argv'.length + 1) _ _ h
  rw [hx, hx']
  exact ⟨hr.result, sameEffects_outs hr.effects⟩

/-- The hypotheses on the standard input instead of in a file: if they can be read from the file, everything is the
same, each message included. -/
theorem C128_standardInput (R : Rnd) (lm : Libm) (S : StdSort) (rng : Rng G) (kit : ToolKit μ σ Q L)
    (texts : ToolTexts Q L) (w : World) (argc argc' : Nat) (o : ToolOptions) (t : Str)
    (hf : o.hypFilename ≠ []) (ht : w.file o.hypFilename = some t)
    (hread : ∀ m, (kit.readHyp m t).2.2 = .ok) :
    traceMainWithD R lm S rng kit texts { w with stdin := t } argc' { o with hypFilename := [] } =
      traceMainWithD R lm S rng kit texts w argc o := by
  have hq : ∀ m, traceQueryMap kit.mapQuery { w with stdin := t } { o with hypFilename := [] } m =
      traceQueryMap kit.mapQuery w o m := fun _ => rfl
  have he : ∀ q2g refs hyps, traceEvaluateD R lm S rng kit texts { w with stdin := t } { o with hypFilename := [] }
      q2g refs hyps = traceEvaluateD R lm S rng kit texts w o q2g refs hyps := by
    intro q2g refs hyps
    simp only [traceEvaluateD, traceMatchAndAssessD, traceAssessD, globalStatistic, meanStatistic, globalRPCurve,
      meanRPCurve, writeCurveFile]
  have hr : ∀ m, ∃ x, traceRead (kit.readHyp m) (some t) = pure (some x) := by
    intro m
    have h := hread m
    generalize hx : kit.readHyp m t = x at h
    obtain ⟨m', hyps, st⟩ := x
    obtain rfl : st = .ok := h
    exact ⟨(m', hyps), by simp only [traceRead, hx]⟩
  unfold traceMainWithD
  simp only [hf, ht, if_true, if_false, hq, he]
  refine if_congr Iff.rfl rfl ?_
  refine congrArg _ (funext fun r => ?_)
  obtain _ | ⟨m, refs⟩ := r
  · rfl
  · obtain ⟨x, hx⟩ := hr m
    simp only [hx]
    refine congrArg _ (funext fun _ => ?_)
    obtain ⟨m', hyps⟩ := x
    rfl

/-- Case: the hypotheses of `caseWorld` can be read. -/
example (S : StdSort) : ∀ m, ((icdarKit Rnd.exact S).readHyp m ((caseFile "hyp".toList).getD [])).2.2 = .ok := by
  intro m
  cases m
  have : (readEvents (extractScored Rnd.exact extractBoxEvent) identityMap ()
      ((caseFile "hyp".toList).getD [])).2.2 = .ok := by decide +kernel
  exact this

/-- Without the condition that the hypotheses can be read the messages differ: a line that is not an event. -/
theorem C128_standardInput_message (R : Rnd) (lm : Libm) (S : StdSort) (rng : Rng G) (qf : Bool)
    (texts : ToolTexts Nat Nat) :
    let w : World := ⟨fun f => if f = "r".toList then some [] else if f = "h".toList then some "a\n".toList else none,
      "a\n".toList, fun _ => true⟩
    let o : ToolOptions := { refFilename := "r".toList, hypFilename := "h".toList, alpha := 0 }
    let x := traceMainWithD R lm S rng (simpleKit R qf) texts w 3 o
    let x' := traceMainWithD R lm S rng (simpleKit R qf) texts w 2 { o with hypFilename := [] }
    x.result = .ok 1 ∧ x'.result = .ok 1 ∧
    errsOf x.effects = ["INFO: Number of reference events read = 0\n".toList,
      "ERROR: Failed to read event from line 1\n".toList, "ERROR: Failed reading file \"h\"!\n".toList] ∧
    errsOf x'.effects = ["INFO: Number of reference events read = 0\n".toList,
      "ERROR: Failed to read event from line 1\n".toList, "ERROR: Failed reading from stdin!\n".toList] := by
  refine ⟨rfl, rfl, rfl, rfl⟩

/-- Case: references and submission under other names, the submission on the standard input, and the matches in
another file. -/
example :
    let w : World := ⟨fun f => if f = "r".toList then some "a l\nb m\n".toList
      else if f = "h".toList then some "a l 1\nb l 2\n".toList else none, [], fun _ => true⟩
    let w' : World := ⟨fun f => if f = "truth".toList then some "a l\nb m\n".toList else none,
      "a l 1\nb l 2\n".toList, fun f => f = "out".toList⟩
    SameContents w w'
      { refFilename := "r".toList, hypFilename := "h".toList, dumpMatches := "d".toList, alpha := 0 }
      { refFilename := "truth".toList, dumpMatches := "out".toList, alpha := 0 } := by
  constructor <;> first | rfl | decide

/-- The files of `caseWorld` under other names, the hypotheses on the standard input. -/
def movedWorld : World where
  file f := if f = "truth".toList then caseFile "ref".toList
    else if f = "topics".toList then caseFile "groups".toList else none
  stdin := (caseFile "hyp".toList).getD []
  writable f := f = "m".toList ∨ f = "global".toList ∨ f = "mean".toList

/-- The arguments for these files. -/
def movedArguments : List Str :=
  ["--query_groups", "topics", "--dump_matches", "m", "--output_grp", "global", "--output_mrp", "mean",
    "--rp_curve_samples", "5", "--bootstrap_ci_gap", "--bootstrap_ci_map", "--bootstrap_ci_gndcg",
    "--bootstrap_ci_mndcg", "--bootstrap_samples", "3", "truth"].map String.toList

/-- Case: two command lines of the box tool, the second with the hypotheses on the standard input. (`Instances.lean`
shows what the first one prints.) -/
example (lm : Libm) (S : StdSort) (prog : Str) :
    let x := traceMainD Rnd.ieee lm S MinStd.rng (icdarKit Rnd.ieee S) icdarTexts caseWorld prog
      (caseArguments "ref" "hyp")
    let x' := traceMainD Rnd.ieee lm S MinStd.rng (icdarKit Rnd.ieee S) icdarTexts movedWorld prog movedArguments
    x'.result = x.result ∧ outsOf x'.effects = outsOf x.effects ∧
      (filesOf x'.effects).map (·.2) = (filesOf x.effects).map (·.2) ∧
      (errsOf x'.effects).length = (errsOf x.effects).length := by
  obtain ⟨p, h1, h2⟩ := caseArguments_ieee
  have h3 : ((toolParser Rnd.ieee).parse Rnd.ieee movedArguments).1 = .accepted := by decide +kernel
  have h4 : ToolOptions.ofParser ((toolParser Rnd.ieee).parse Rnd.ieee movedArguments).2 =
      renamed (caseOptions Rnd.ieee "ref" "hyp") "truth".toList [] [] "topics".toList "m".toList "global".toList
        "mean".toList := by decide +kernel
  refine C128_program Rnd.ieee lm S MinStd.rng _ icdarTexts caseWorld movedWorld prog prog _ _ p _ h1
    (Prod.ext h3 rfl) ?_
  rw [h2, h4]
  constructor <;> first | rfl | decide

end Kws
