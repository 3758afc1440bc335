import Verif.Model.Output
import Verif.Model.NdcgDouble

/-!
# tools/GenericKwsEvalTool.h, with NDCG in `double`

`Verif.Model.Output` follows the program with NDCG over the reals. These are the same lines with the
NDCG of `Verif.Model.NdcgDouble`: as in the C++ code, every number is a `double`, and `lm` is the
mathematical library. Reading the files and the queries does not involve NDCG and is shared.
-/

namespace Kws
open Traced

section
variable {μ σ Q L G : Type}

/-- tools/GenericKwsEvalTool.h:435-475: metrics and curves -/
def traceAssessD (R : Rnd) (lm : Libm) (S : StdSort) (rng : Rng G) (w : World) (o : ToolOptions)
    (ms : List (KwsMatch Q L)) (groups : List (List (KwsMatch Q L))) : Traced Nat := do
  let gAP ← lift (globalStatistic R S R.f64 rng o.ciGap o ms groups
    (fun ms => globalAP R ms o.collapse o.interp o.trapezoid)
    (fun gs b => globalAPGrouped R S gs o.collapse o.interp o.trapezoid b))
  emit (.out (showMetric "gAP" gAP))
  let mAP ← lift (meanStatistic R S R.f64 rng o.ciMap o groups
    (fun gs b => meanAP R S gs o.collapse o.interp o.trapezoid b))
  emit (.out (showMetric "mAP" mAP))
  let gNDCG ← lift (globalStatistic R S R.f64 rng o.ciGndcg o ms groups
    (fun ms => globalNDCGD R lm ms o.collapse)
    (fun gs b => globalNDCGGroupedD R lm S gs o.collapse b))
  emit (.out (showMetric "gNDCG" gNDCG))
  let mNDCG ← lift (meanStatistic R S R.f64 rng o.ciMndcg o groups
    (fun gs b => meanNDCGD R lm S gs o.collapse b))
  emit (.out (showMetric "mNDCG" mNDCG))
  if o.outputGrp ≠ [] then do
    let c ← lift
      (globalRPCurve R w o.outputGrp ms o.curveSamples o.collapse o.interp o.trapezoid)
    emit (.curve o.outputGrp (showCurve showScientific showScientific c))
  if o.outputMrp ≠ [] then do
    let c ← lift
      (meanRPCurve R w o.outputMrp groups o.curveSamples o.collapse o.interp o.trapezoid)
    emit (.curve o.outputMrp (showCurve showScientific (showFlt showScientific) c))
  return 0

/-- tools/GenericKwsEvalTool.h:376-433: sorting, matching, the file with the matches, the check of
the number of hypotheses, grouping -/
def traceMatchAndAssessD [DecidableEq Q] [Cmp Q] [Cmp L] (R : Rnd) (lm : Libm) (S : StdSort)
    (rng : Rng G) (kit : ToolKit μ σ Q L) (texts : ToolTexts Q L) (w : World) (o : ToolOptions)
    (q2g : List (Q × Q)) (refs : List (Event Q L)) (hyps : List (ScoredEvent Q L)) :
    Traced Nat := do
  let hyps ← lift (sortHyps S o.sort hyps)
  sayIf (o.sort ≠ "desc".toList ∧ o.sort ≠ "asc".toList ∧ o.sort ≠ "none".toList)
    ("WARN: Ignoring sorting criterion ".toList ++ quoted o.sort ++
      ". Hypotheses won't be sorted.".toList)
  say "INFO: Computing matches...".toList
  let (_, ms, repeated) ← lift (SimpleMatcher.run kit.index kit.scorer kit.refsSet refs hyps)
  if o.dumpMatches ≠ [] ∧ w.writable o.dumpMatches = false then do
    say ("ERROR: Dump matches file ".toList ++ quoted o.dumpMatches ++
      " could not be opened for write!".toList)
    return 1
  else do
    emitIf (o.dumpMatches ≠ [])
      (.file o.dumpMatches (showDump texts.showEvent (ms, repeated)))
    let nh := ms.foldl (fun n m => n + m.error.nh) 0
    if nh > hyps.length then do
      say ("ERROR: Effective number of hypotheses IS GREATER than the original number! " ++
        "This should not happen ever, contact the author.").toList
      return 1
    else do
      sayIf (nh < hyps.length)
        ("INFO: Effective number of hypotheses is ".toList ++ showNat nh ++
          (". The rest of hypotheses were considered repetitions of some other match, " ++
            "and ignored.").toList)
      let groups ← lift (groupMatches q2g ms)
      traceAssessD R lm S rng w o ms groups

/-- tools/GenericKwsEvalTool.h:350-374: filtering, with its messages -/
def traceEvaluateD [DecidableEq Q] [Cmp Q] [Cmp L] (R : Rnd) (lm : Libm) (S : StdSort)
    (rng : Rng G) (kit : ToolKit μ σ Q L) (texts : ToolTexts Q L) (w : World) (o : ToolOptions)
    (q2g : List (Q × Q)) (refs : List (Event Q L)) (hyps : List (ScoredEvent Q L)) :
    Traced Nat := do
  if q2g = [] then traceMatchAndAssessD R lm S rng kit texts w o q2g refs hyps
  else do
    let refs' := filterEvents q2g (·.query) refs
    sayIf (refs.length ≠ refs'.length)
      ("INFO: Number of kept reference events = ".toList ++ showNat refs'.length)
    let hyps' := filterEvents q2g (·.base.query) hyps
    sayIf (hyps.length ≠ hyps'.length)
      ("INFO: Number of kept hypothesis events = ".toList ++ showNat hyps'.length)
    sayIf (o.queryGroups ≠ [])
      ("INFO: ".toList ++ showNat (q2g.map (·.2)).dedup.length ++
        " groups were read from ".toList ++ quoted o.queryGroups)
    traceMatchAndAssessD R lm S rng kit texts w o q2g refs' hyps'

/-- tools/GenericKwsEvalTool.h:270-475: `Main` after the command line has been parsed; `argc`
decides the text of one message (line 294) -/
def traceMainWithD [DecidableEq Q] [Cmp Q] [Cmp L] (R : Rnd) (lm : Libm) (S : StdSort)
    (rng : Rng G) (kit : ToolKit μ σ Q L) (texts : ToolTexts Q L) (w : World) (argc : Nat)
    (o : ToolOptions) : Traced Nat := do
  if o.refFilename = [] then do
    say "ERROR: Empty filename was given for the references!".toList
    return 1
  else do
    match ← traceRead (kit.readRef kit.mapper) (w.file o.refFilename) with
    | none => do
      say ("ERROR: Failed reading file ".toList ++ quoted o.refFilename ++ "!".toList)
      return 1
    | some (m, refs) => do
      say ("INFO: Number of reference events read = ".toList ++ showNat refs.length)
      match ← traceRead (kit.readHyp m)
          (if o.hypFilename = [] then some w.stdin else w.file o.hypFilename) with
      | none => do
        say (if argc = 2 then "ERROR: Failed reading from stdin!".toList
          else "ERROR: Failed reading file ".toList ++ quoted o.hypFilename ++ "!".toList)
        return 1
      | some (m, hyps) => do
        say ("INFO: Number of hypothesis events read = ".toList ++ showNat hyps.length)
        match ← traceQueryMap kit.mapQuery w o m with
        | none => return 1
        | some q2g => traceEvaluateD R lm S rng kit texts w o q2g refs hyps

/-- tools/GenericKwsEvalTool.h:155-476 `Main`; `argv` excludes the program name. The result is the
exit code. -/
def traceMainD [DecidableEq Q] [Cmp Q] [Cmp L] (R : Rnd) (lm : Libm) (S : StdSort) (rng : Rng G)
    (kit : ToolKit μ σ Q L) (texts : ToolTexts Q L) (w : World) (prog : Str) (argv : List Str) :
    Traced Nat := do
  let (outcome, p) := (toolParser R).parse R argv
  let help := (toolParserTexts prog texts.description).help p
  match outcome with
  | .exitHelp => do
    emit (.err (endl help))
    return 0
  | .rejected => do
    emit (.err (((toolParser R).message R argv).getD []))
    emit (.err (endl [] ++ endl help))
    return 1
  | .accepted => traceMainWithD R lm S rng kit texts w (argv.length + 1) (ToolOptions.ofParser p)

end

end Kws
