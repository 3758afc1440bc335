import Verif.Model.Help

/-!
# What the tools write: core/Match.h, core/MatchError.h, core/ScoredEvent.h (`operator<<`),
core/Assessment.h (`WriteCurveToFile`) and the output statements of tools/GenericKwsEvalTool.h

`Model/Tool.lean` models what `Main` computes. Here `Main` is modelled once more with everything
that it writes, in the order in which it writes it.
-/

namespace Kws

/-! ## Events and matches -/

/-- core/ScoredEvent.h:66-70, where `sh` prints query and location -/
def showScored {Q L : Type} (sh : Event Q L → Str) (e : ScoredEvent Q L) : Str :=
  sh e.base ++ ' ' :: showFlt showGeneral e.score

/-- core/Event.h:67-71 with integers as query and location -/
def showIdEvent (e : Event Nat Nat) : Str := showNat e.query ++ ' ' :: showNat e.location

/-- core/MatchError.h:37-41 -/
def showError (e : MatchError) : Str :=
  "MatchError[fp=".toList ++ showGeneral e.fp ++ ", fn=".toList ++ showGeneral e.fn ++
    ", nh=".toList ++ showNat e.nh ++ ", nr=".toList ++ showNat e.nr ++ "]".toList

/-- core/MatchErrorCounts.h:57-61 -/
def showCounts (e : MatchErrorCounts) : Str :=
  "MatchErrorCounts[fp=".toList ++ showGeneral e.fp ++ ", fn=".toList ++ showGeneral e.fn ++
    ", nh=".toList ++ showNat e.nh ++ ", nr=".toList ++ showNat e.nr ++ "]".toList

/-- core/Match.h:102-109 -/
def showMatch {Q L : Type} (sh : Event Q L → Str) (m : KwsMatch Q L) : Str :=
  "Match[".toList ++
  (match m.hyp with
    | some h => "Hyp=".toList ++ showScored sh h ++ ", ".toList
    | none => []) ++
  (match m.ref with
    | some r => "Ref=".toList ++ sh r ++ ", ".toList
    | none => []) ++
  "Error=".toList ++ showError m.error ++ "]".toList

/-- tools/GenericKwsEvalTool.h:405-411: the text of the file with the matches -/
def showDump {Q L : Type} (sh : Event Q L → Str) (d : List (KwsMatch Q L) × List (KwsMatch Q L)) :
    Str :=
  d.1.flatMap (fun m => endl (showMatch sh m)) ++
  endl "#### REPEATED MATCHES ####".toList ++
  d.2.flatMap (fun m => endl ("## ".toList ++ showMatch sh m))

/-- core/Assessment.h:365-367: the text of a curve file -/
def showCurve {K K' : Type} (sx : K → Str) (sy : K' → Str) (pts : List (K × K')) : Str :=
  pts.flatMap (fun p => endl (sx p.1 ++ ' ' :: sy p.2))

/-- tools/GenericKwsEvalTool.h:73-77 and 96-102: the line of a metric, with its interval if there is
one -/
def showMetric {K : Type} [Field K] [LinearOrder K] [FloorRing K] (name : String) (m : Metric K) :
    Str :=
  endl (name.toList ++ " = ".toList ++ showGeneral m.value ++
    (match m.ci with
      | some (lo, hi) =>
        " [".toList ++ showGeneral lo ++ ", ".toList ++ showGeneral hi ++ "]".toList
      | none => []))

/-! ## Effects -/

/-- Something that the program writes: to `std::cout`, to `std::cerr`, or the complete new contents
of a file, through a stream that does not throw exceptions (tools/GenericKwsEvalTool.h:399) or one that does
(core/Assessment.h:362-363). -/
inductive Effect
  | out (s : Str)
  | err (s : Str)
  | file (name text : Str)
  | curve (name text : Str)

/-- what is written to `std::cout`, piece by piece -/
def outsOf (es : List Effect) : List Str := es.filterMap fun
  | .out s => some s
  | _ => none

/-- what is written to `std::cerr`, message by message -/
def errsOf (es : List Effect) : List Str := es.filterMap fun
  | .err s => some s
  | _ => none

/-- the files that are written, in order -/
def filesOf (es : List Effect) : List (Str × Str) := es.filterMap fun
  | .file n t => some (n, t)
  | .curve n t => some (n, t)
  | _ => none

/-- the files that are written through streams that throw exceptions, in order -/
def curvesOf (es : List Effect) : List (Str × Str) := es.filterMap fun
  | .curve n t => some (n, t)
  | _ => none

/-- A computation with the effects so far, and its result or the way in which it ends abnormally. -/
structure Traced (α : Type) where
  effects : List Effect
  result : Cpp α

namespace Traced

instance : Monad Traced where
  pure a := ⟨[], .ok a⟩
  bind x f :=
    match x.result with
    | .error e => ⟨x.effects, .error e⟩
    | .ok a => ⟨x.effects ++ (f a).effects, (f a).result⟩

/-- a computation without effects -/
def lift {α : Type} (x : Cpp α) : Traced α := ⟨[], x⟩

/-- one effect -/
def emit (e : Effect) : Traced Unit := ⟨[e], .ok ()⟩

/-- a line on `std::cerr` -/
def say (s : Str) : Traced Unit := emit (.err (endl s))

/-- an effect that depends on a condition -/
def emitIf (c : Prop) [Decidable c] (e : Effect) : Traced Unit := if c then emit e else pure ()

/-- a line on `std::cerr` that depends on a condition -/
def sayIf (c : Prop) [Decidable c] (s : Str) : Traced Unit := emitIf c (.err (endl s))

end Traced

open Traced

/-! ## Main -/

/-- The texts and printing functions that distinguish the two tools. -/
structure ToolTexts (Q L : Type) where
  description : Str
  showEvent : Event Q L → Str

/-- tools/Icdar17KwsEval.cc:19-20 and core/DocumentBoundingBox.h:64-68 -/
def icdarTexts : ToolTexts Str (DocBox Str UInt32) :=
  ⟨"  Official evaluation tool for ICDAR2017 H-KWS Competition.".toList, showBoxEvent⟩

/-- tools/SimpleKwsEval.cc:17-18; the events hold the integers assigned by the mapper -/
def simpleTexts : ToolTexts Nat Nat :=
  ⟨"  Perform simple evaluation for segmentation-based keyword spotting.".toList, showIdEvent⟩

/-- tools/GenericKwsEvalTool.h:181-265: the help texts -/
def toolParserTexts (prog description : Str) : ParserTexts where
  prog := prog
  desc := description
  optHelp := ([("collapse_matches",
      "Collapse all matches with the same score before computing precision and recall curves."),
    ("interpolated_precision", "Use interpolated precision."),
    ("trapezoid_integral", "Use trapezoid integral to compute AP/mAP."),
    ("query_set", "File containing the set of queries to consider. Events regarding other queries " ++
      "are excluded from both references and hypotheses."),
    ("dump_matches", "Dump the raw matches to this file."),
    ("query_groups", "File containing the set of query groups to consider in the mAP. " ++
      "This option supersedes the queries read from the file --query_set."),
    ("bootstrap_ci_gap", "Compute bootstrapped confidence intervals for the Global AP."),
    ("bootstrap_ci_map", "Compute bootstrapped confidence intervals for the Mean AP."),
    ("bootstrap_ci_gndcg", "Compute bootstrapped confidence intervals for the Global NDCG."),
    ("bootstrap_ci_mndcg", "Compute bootstrapped confidence intervals for the Mean NDCG."),
    ("bootstrap_samples",
      "Use this number of bootstrapped samples to compute the confidence intervals."),
    ("bootstrap_seed", "Use this random seed to generate the bootstrapped samples."),
    ("bootstrap_alpha", "Use this alpha value to compute confidence intervals."),
    ("sort", "Sort the hypotheses according to this criterion. " ++
      "Values: \"asc\", \"desc\", \"none\""),
    ("output_grp", "Filename of the output global recall-precision curve."),
    ("output_mrp", "Filename of the output mean recall-precision curve."),
    ("rp_curve_samples", "Number of sample points to use to interpolate the mean " ++
      "recall-precision curve.")] : List (String × String)).map fun t => (t.1.toList, t.2.toList)
  args := [⟨"references".toList, "File containing the reference events (ground-truth).".toList⟩]
  optArgs := [⟨"hypotheses".toList, "File containing the hypothesis events (submission).".toList⟩]

/-- `"` around a file name -/
def quoted (s : Str) : Str := '"' :: s ++ ['"']

section
variable {μ σ Q L G : Type}

/-- tools/GenericKwsEvalTool.h:435-475: metrics and curves -/
noncomputable def traceAssess (R : Rnd) (S : StdSort) (rng : Rng G) (w : World) (o : ToolOptions)
    (ms : List (KwsMatch Q L)) (groups : List (List (KwsMatch Q L))) : Traced Nat := do
  let gAP ← lift (globalStatistic R S R.f64 rng o.ciGap o ms groups
    (fun ms => globalAP R ms o.collapse o.interp o.trapezoid)
    (fun gs b => globalAPGrouped R S gs o.collapse o.interp o.trapezoid b))
  emit (.out (showMetric "gAP" gAP))
  let mAP ← lift (meanStatistic R S R.f64 rng o.ciMap o groups
    (fun gs b => meanAP R S gs o.collapse o.interp o.trapezoid b))
  emit (.out (showMetric "mAP" mAP))
  let gNDCG ← lift (globalStatistic R S id rng o.ciGndcg o ms groups
    (fun ms => .ok (globalNDCG R ms o.collapse))
    (fun gs b => globalNDCGGrouped R S gs o.collapse b))
  emit (.out (showMetric "gNDCG" gNDCG))
  let mNDCG ← lift (meanStatistic R S id rng o.ciMndcg o groups
    (fun gs b => meanNDCG R S gs o.collapse b))
  emit (.out (showMetric "mNDCG" mNDCG))
  if o.outputGrp ≠ [] then do
    let c ← lift
      (globalRPCurve R w o.outputGrp ms o.curveSamples o.collapse o.interp o.trapezoid)
    emit (.curve o.outputGrp (showCurve showScientific showScientific c))
  if o.outputMrp ≠ [] then do
    let c ← lift
      (meanRPCurve R w o.outputMrp groups o.curveSamples o.collapse o.interp o.trapezoid)
    emit (.curve o.outputMrp (showCurve showScientific (showFlt showScientific) c))
  return 0

/-- tools/GenericKwsEvalTool.h:376-433: sorting, matching, the file with the matches, the check of
the number of hypotheses, grouping -/
noncomputable def traceMatchAndAssess [DecidableEq Q] [Cmp Q] [Cmp L] (R : Rnd) (S : StdSort)
    (rng : Rng G) (kit : ToolKit μ σ Q L) (texts : ToolTexts Q L) (w : World) (o : ToolOptions)
    (q2g : List (Q × Q)) (refs : List (Event Q L)) (hyps : List (ScoredEvent Q L)) :
    Traced Nat := do
  let hyps ← lift (sortHyps S o.sort hyps)
  sayIf (o.sort ≠ "desc".toList ∧ o.sort ≠ "asc".toList ∧ o.sort ≠ "none".toList)
    ("WARN: Ignoring sorting criterion ".toList ++ quoted o.sort ++
      ". Hypotheses won't be sorted.".toList)
  say "INFO: Computing matches...".toList
  let (_, ms, repeated) ← lift (SimpleMatcher.run kit.index kit.scorer kit.refsSet refs hyps)
  if o.dumpMatches ≠ [] ∧ w.writable o.dumpMatches = false then do
    say ("ERROR: Dump matches file ".toList ++ quoted o.dumpMatches ++
      " could not be opened for write!".toList)
    return 1
  else do
    emitIf (o.dumpMatches ≠ [])
      (.file o.dumpMatches (showDump texts.showEvent (ms, repeated)))
    let nh := ms.foldl (fun n m => n + m.error.nh) 0
    if nh > hyps.length then do
      say ("ERROR: Effective number of hypotheses IS GREATER than the original number! " ++
        "This should not happen ever, contact the author.").toList
      return 1
    else do
      sayIf (nh < hyps.length)
        ("INFO: Effective number of hypotheses is ".toList ++ showNat nh ++
          (". The rest of hypotheses were considered repetitions of some other match, " ++
            "and ignored.").toList)
      let groups ← lift (groupMatches q2g ms)
      traceAssess R S rng w o ms groups

/-- tools/GenericKwsEvalTool.h:350-374: filtering, with its messages -/
noncomputable def traceEvaluate [DecidableEq Q] [Cmp Q] [Cmp L] (R : Rnd) (S : StdSort)
    (rng : Rng G) (kit : ToolKit μ σ Q L) (texts : ToolTexts Q L) (w : World) (o : ToolOptions)
    (q2g : List (Q × Q)) (refs : List (Event Q L)) (hyps : List (ScoredEvent Q L)) :
    Traced Nat := do
  if q2g = [] then traceMatchAndAssess R S rng kit texts w o q2g refs hyps
  else do
    let refs' := filterEvents q2g (·.query) refs
    sayIf (refs.length ≠ refs'.length)
      ("INFO: Number of kept reference events = ".toList ++ showNat refs'.length)
    let hyps' := filterEvents q2g (·.base.query) hyps
    sayIf (hyps.length ≠ hyps'.length)
      ("INFO: Number of kept hypothesis events = ".toList ++ showNat hyps'.length)
    sayIf (o.queryGroups ≠ [])
      ("INFO: ".toList ++ showNat (q2g.map (·.2)).dedup.length ++
        " groups were read from ".toList ++ quoted o.queryGroups)
    traceMatchAndAssess R S rng kit texts w o q2g refs' hyps'

/-- tools/GenericKwsEvalTool.h:302-348: the query map, with its messages; `none` means that the
program stops with code 1 -/
def traceQueryMap [DecidableEq Q] (mapQuery : μ → Str → μ × Cpp Q) (w : World) (o : ToolOptions)
    (m : μ) : Traced (Option (List (Q × Q))) :=
  if o.querySet ≠ [] ∧ o.queryGroups = [] then
    match w.file o.querySet with
    | none => do
      say ("ERROR: Query set file ".toList ++ quoted o.querySet ++ " could not be read!".toList)
      return none
    | some text => do
      let q2g ← lift (readQuerySet mapQuery m text).2
      say ("INFO: ".toList ++ showNat q2g.length ++ " queries were read from ".toList ++
        quoted o.querySet)
      return some q2g
  else if o.queryGroups ≠ [] then
    match w.file o.queryGroups with
    | none => do
      say ("ERROR: Query groups file ".toList ++ quoted o.queryGroups ++
        " could not be read!".toList)
      return none
    | some text => do
      match ← lift (readQueryGroups mapQuery m text).2 with
      | none => do
        say ("ERROR: Query groups file ".toList ++ quoted o.queryGroups ++
          " has a wrong format!".toList)
        return none
      | some q2g => do
        say ("INFO: ".toList ++ showNat q2g.length ++ " queries were read from ".toList ++
          quoted o.queryGroups)
        return some q2g
  else return some []

/-- reader/PlainTextMapEventReader.h:24-53: reading a file or a stream (`none`: the file cannot be
opened), with the message of the reader. `none` in the result is `false`. -/
def traceRead {E : Type} (read : Str → μ × List E × ReadStatus) (text : Option Str) :
    Traced (Option (μ × List E)) :=
  match text with
  | none => return none
  | some text =>
    match read text with
    | (_, _, .fault f) => lift (.error f)
    | (_, _, .badLine n) => do
      say ("ERROR: Failed to read event from line ".toList ++ showNat n)
      return none
    | (_, _, .badStream) => return none
    | (m, es, .ok) => return some (m, es)

/-- tools/GenericKwsEvalTool.h:270-475: `Main` after the command line has been parsed; `argc`
decides the text of one message (line 294) -/
noncomputable def traceMainWith [DecidableEq Q] [Cmp Q] [Cmp L] (R : Rnd) (S : StdSort)
    (rng : Rng G) (kit : ToolKit μ σ Q L) (texts : ToolTexts Q L) (w : World) (argc : Nat)
    (o : ToolOptions) : Traced Nat := do
  if o.refFilename = [] then do
    say "ERROR: Empty filename was given for the references!".toList
    return 1
  else do
    match ← traceRead (kit.readRef kit.mapper) (w.file o.refFilename) with
    | none => do
      say ("ERROR: Failed reading file ".toList ++ quoted o.refFilename ++ "!".toList)
      return 1
    | some (m, refs) => do
      say ("INFO: Number of reference events read = ".toList ++ showNat refs.length)
      match ← traceRead (kit.readHyp m)
          (if o.hypFilename = [] then some w.stdin else w.file o.hypFilename) with
      | none => do
        say (if argc = 2 then "ERROR: Failed reading from stdin!".toList
          else "ERROR: Failed reading file ".toList ++ quoted o.hypFilename ++ "!".toList)
        return 1
      | some (m, hyps) => do
        say ("INFO: Number of hypothesis events read = ".toList ++ showNat hyps.length)
        match ← traceQueryMap kit.mapQuery w o m with
        | none => return 1
        | some q2g => traceEvaluate R S rng kit texts w o q2g refs hyps

/-- tools/GenericKwsEvalTool.h:155-476 `Main`; `argv` excludes the program name. The result is the
exit code. -/
noncomputable def traceMain [DecidableEq Q] [Cmp Q] [Cmp L] (R : Rnd) (S : StdSort) (rng : Rng G)
    (kit : ToolKit μ σ Q L) (texts : ToolTexts Q L) (w : World) (prog : Str) (argv : List Str) :
    Traced Nat := do
  let (outcome, p) := (toolParser R).parse R argv
  let help := (toolParserTexts prog texts.description).help p
  match outcome with
  | .exitHelp => do
    emit (.err (endl help))
    return 0
  | .rejected => do
    emit (.err (((toolParser R).message R argv).getD []))
    emit (.err (endl [] ++ endl help))
    return 1
  | .accepted => traceMainWith R S rng kit texts w (argv.length + 1) (ToolOptions.ofParser p)

end

end Kws
