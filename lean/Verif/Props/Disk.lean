import Verif.Lemmas.Disk
import Verif.Props.FileNames

/-!
# C129: the files after a run, and running again
-/

namespace Kws
open Traced Spec

variable {μ σ Q L G : Type} [DecidableEq Q] [Cmp Q] [Cmp L]
variable (R : Rnd) (lm : Libm) (S : StdSort) (rng : Rng G) (kit : ToolKit μ σ Q L) (texts : ToolTexts Q L) (w : World)
  (prog : Str) (argv : List Str)

/-- A command line that is not accepted touches no file. With any other one, files other than those that are named for
output keep their contents, or stay missing. -/
theorem C129_untouched (stdin f : Str)
    (h : ∀ p, (toolParser R).parse R argv = (.accepted, p) → f ∉ outputNames (ToolOptions.ofParser p)) :
    (worldAfter w (traceMainD R lm S rng kit texts w prog argv).effects stdin).file f = w.file f := by
  refine textAfter_other ?_ _
  rcases hp : (toolParser R).parse R argv with ⟨out, p⟩
  cases out with
  | accepted =>
    have hx : traceMainD R lm S rng kit texts w prog argv =
        traceMainWithD R lm S rng kit texts w (argv.length + 1) (ToolOptions.ofParser p) := by
      simp only [traceMainD, hp]
    have hr := C128_run R lm S rng kit texts w w (argv.length + 1) (argv.length + 1) _ _
      (sameContents_refl w (ToolOptions.ofParser p))
    intro x hxm he
    rw [hx] at hxm
    exact h p hp (he ▸ filesOf_names hr.effects x hxm)
  | rejected => simp [traceMainD, hp, bind, emit, filesOf, pure]
  | exitHelp => simp [traceMainD, hp, bind, emit, filesOf, pure]

/-- A file that has been written holds the last text that was written to it; what it held before does not matter. -/
theorem C129_written (stdin f t : Str) (es : List Effect) (xs ys : List (Str × Str))
    (h : filesOf es = xs ++ (f, t) :: ys) (hys : ∀ y ∈ ys, y.1 ≠ f) :
    (worldAfter w es stdin).file f = some t := by
  show textAfter (w.file f) (filesOf es) f = some t
  rw [h, textAfter_append, textAfter, if_pos rfl, textAfter_other hys]

/-- Running again: if no file is both read and written, and the hypotheses come from a file or are given again on the
standard input, the second run does the same in every respect, faults included, and leaves the files as they are. -/
theorem C129_again (stdin : Str)
    (h : ∀ p, (toolParser R).parse R argv = (.accepted, p) → Separate (ToolOptions.ofParser p) ∧
      ((ToolOptions.ofParser p).hypFilename = [] → stdin = w.stdin)) :
    let x := traceMainD R lm S rng kit texts w prog argv
    let w' := worldAfter w x.effects stdin
    traceMainD R lm S rng kit texts w' prog argv = x ∧
      ∀ stdin', (worldAfter w' (traceMainD R lm S rng kit texts w' prog argv).effects stdin').file = w'.file := by
  intro x w'
  have main : traceMainD R lm S rng kit texts w' prog argv = x := by
    rcases hp : (toolParser R).parse R argv with ⟨out, p⟩
    cases out with
    | accepted =>
      obtain ⟨hs, hi⟩ := h p hp
      have hf : ∀ f, f ∉ outputNames (ToolOptions.ofParser p) → w'.file f = w.file f := by
        intro f hf
        refine C129_untouched R lm S rng kit texts w prog argv stdin f fun p' hp' => ?_
        rw [hp] at hp'
        rwa [← (Prod.mk.inj hp').2]
      have ha : ∀ w, traceMainD R lm S rng kit texts w prog argv =
          traceMainWithD R lm S rng kit texts w (argv.length + 1) (ToolOptions.ofParser p) := by
        intro w
        simp only [traceMainD, hp]
      show _ = traceMainD R lm S rng kit texts w prog argv
      rw [ha, ha]
      refine traceMainWithD_reads R lm S rng kit texts w w' _ _ (fun h => hf _ (hs.refs h)) ?_
        (fun h1 h2 => hf _ (hs.set h1 h2)) (fun h => hf _ (hs.groups h)) rfl
      unfold hypText
      by_cases hn : (ToolOptions.ofParser p).hypFilename = []
      · rw [if_pos hn, if_pos hn]
        exact congrArg some (hi hn)
      · rw [if_neg hn, if_neg hn, hf _ (hs.hyps hn)]
    | rejected => simp only [x, traceMainD, hp]
    | exitHelp => simp only [x, traceMainD, hp]
  refine ⟨main, fun stdin' => ?_⟩
  rw [main]
  funext f
  exact textAfter_twice _ _ f

/-- Writing over the input: a run that writes its matches and curves over its own input files ends in the same way,
prints the same numbers and writes the same texts as a run that writes to other files that can be written as well. -/
theorem C129_over (argc : Nat) (o : ToolOptions) (dump grp mrp : Str) (hd : dump = [] ↔ o.dumpMatches = [])
    (hg : grp = [] ↔ o.outputGrp = []) (hm : mrp = [] ↔ o.outputMrp = [])
    (hw : w.writable dump = w.writable o.dumpMatches ∧ w.writable grp = w.writable o.outputGrp ∧
      w.writable mrp = w.writable o.outputMrp) :
    let x := traceMainWithD R lm S rng kit texts w argc o
    let x' := traceMainWithD R lm S rng kit texts w argc { o with dumpMatches := dump, outputGrp := grp, outputMrp := mrp }
    x'.result = x.result ∧ outsOf x'.effects = outsOf x.effects ∧
      (filesOf x'.effects).map (·.2) = (filesOf x.effects).map (·.2) := by
  intro x x'
  have h : SameContents w w o { o with dumpMatches := dump, outputGrp := grp, outputMrp := mrp } :=
    { sameContents_refl w o with
      options := rfl
      dumpGiven := hd
      dump := fun _ => hw.1
      grpGiven := hg
      grp := fun _ => hw.2.1
      mrpGiven := hm
      mrp := fun _ => hw.2.2 }
  have hr := C128_run R lm S rng kit texts w w argc argc _ _ h
  obtain ⟨a, b, _⟩ := sameEffects_outs hr.effects
  exact ⟨hr.result, a, b⟩

/-- A set of queries (with empty references and hypotheses) that is also the file for the matches. -/
def overWorld (queries : String) : World where
  file f := if f = "q".toList then some queries.toList else some []
  stdin := []
  writable _ := true

/-- The options for it. -/
def overOptions : ToolOptions where
  refFilename := "r".toList
  querySet := "q".toList
  dumpMatches := "q".toList
  sort := "none".toList
  alpha := 0

theorem over_files (lm : Libm) (S : StdSort) :
    filesOf (traceMainWithD Rnd.exact lm S MinStd.rng (simpleKit Rnd.exact true) simpleTexts (overWorld "a\n") 2
      overOptions).effects = [("q".toList, "#### REPEATED MATCHES ####\n".toList)] := by
  with_unfolding_all rfl

/-- Without the condition on the names the second run may differ: the set of queries has been replaced by the matches,
which are read as three queries. -/
theorem C129_separate_needed (lm : Libm) (S : StdSort) :
    let run := fun w => traceMainWithD Rnd.exact lm S MinStd.rng (simpleKit Rnd.exact true) simpleTexts w 2 overOptions
    let w := overWorld "a\n"
    (errsOf (run w).effects)[2]? = some "INFO: 1 queries were read from \"q\"\n".toList ∧
      (errsOf (run (worldAfter w (run w).effects w.stdin)).effects)[2]? =
        some "INFO: 3 queries were read from \"q\"\n".toList := by
  intro run w
  have hw : worldAfter w (run w).effects w.stdin = overWorld "#### REPEATED MATCHES ####\n" := by
    have hf : (worldAfter w (run w).effects w.stdin).file = (overWorld "#### REPEATED MATCHES ####\n").file := by
      funext f
      show textAfter (w.file f) (filesOf (run w).effects) f = _
      rw [show filesOf (run w).effects = _ from over_files lm S]
      by_cases h : f = "q".toList
      · subst h
        rfl
      · have h' : "q".toList ≠ f := fun e => h e.symm
        simp only [textAfter, overWorld, w, if_neg h, if_neg h']
    show (⟨(worldAfter w (run w).effects w.stdin).file, w.stdin, w.writable⟩ : World) = _
    rw [hf]
    rfl
  rw [hw]
  exact ⟨by with_unfolding_all rfl, by with_unfolding_all rfl⟩

/-- Case: the command line of `Instances.lean` with four inputs and three outputs. -/
example (prog : Str) :
    let x := traceMainD Rnd.ieee lm S MinStd.rng (icdarKit Rnd.ieee S) icdarTexts caseWorld prog (caseArguments "ref" "hyp")
    traceMainD Rnd.ieee lm S MinStd.rng (icdarKit Rnd.ieee S) icdarTexts (worldAfter caseWorld x.effects []) prog
      (caseArguments "ref" "hyp") = x := by
  refine (C129_again Rnd.ieee lm S MinStd.rng _ icdarTexts caseWorld prog _ [] fun p hp => ?_).1
  obtain ⟨p', h1, h2⟩ := caseArguments_ieee
  rw [h1] at hp
  obtain rfl := (Prod.mk.inj hp).2
  rw [h2]
  exact ⟨⟨by decide, by decide, by decide, by decide⟩, by decide⟩

end Kws
