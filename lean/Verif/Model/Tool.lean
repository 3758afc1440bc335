import Verif.Model.Bootstrap
import Verif.Model.Reader
import Verif.Model.Cmd
import Verif.Model.Matcher

/-!
# tools/GenericKwsEvalTool.h, tools/Icdar17KwsEval.cc, tools/SimpleKwsEval.cc, core/Statistic.h

A run returns the numbers; what it writes is modelled in `Model/Output.lean`.
-/

namespace Kws

/-! ## The environment of a run -/

/-- Files that can be read (with their contents), standard input, and files that can be written.
Reading and writing never fail half way. -/
structure World where
  file : Str → Option Str
  stdin : Str
  writable : Str → Bool

/-- What distinguishes the two tools: the readers (with the shared mapper state `μ`), the query
mapper, the reference set and the scorer. `L` and `Q` are the types after mapping. -/
structure ToolKit (μ σ Q L : Type) where
  mapper : μ
  refsSet : σ
  readRef : μ → Str → μ × List (Event Q L) × ReadStatus
  readHyp : μ → Str → μ × List (ScoredEvent Q L) × ReadStatus
  mapQuery : μ → Str → μ × Cpp Q
  index : RefIndex σ (Event Q L) (ScoredEvent Q L)
  scorer : Event Q L → ScoredEvent Q L → Cpp MatchError

/-- tools/Icdar17KwsEval.cc:23-38 -/
def icdarKit (R : Rnd) (S : StdSort) :
    ToolKit Unit (DocEventSet Str Str UInt32) Str (DocBox Str UInt32) where
  mapper := ()
  refsSet := DocEventSet.new
  readRef := fun m text => readEvents extractBoxEvent identityMap m text
  readHyp := fun m text => readEvents (extractScored R extractBoxEvent) identityMap m text
  mapQuery := fun m q => (m, .ok q)
  index := docIndex S Str Str UInt32
  scorer := iohScorer R (1 / 2)

/-- tools/SimpleKwsEval.cc:20-46; ids are `int32_t` -/
def simpleKit (R : Rnd) (queryFirst : Bool) :
    ToolKit IntMapper (EventSet (Event Nat Nat)) Nat Nat where
  mapper := IntMapper.new
  refsSet := EventSet.new
  readRef := fun m text =>
    readEvents extractStrEvent (IntMapper.mapEvent queryFirst (2 ^ 31 - 1)) m text
  readHyp := fun m text =>
    readEvents (extractScored R extractStrEvent)
      (IntMapper.mapScoredEvent queryFirst (2 ^ 31 - 1)) m text
  mapQuery := IntMapper.lookup (2 ^ 31 - 1)
  index := plainIndex Nat Nat
  scorer := trivialScorer

/-! ## Command line -/

/-- tools/GenericKwsEvalTool.h:160-178 -/
structure ToolOptions where
  refFilename : Str := []
  hypFilename : Str := []
  querySet : Str := []
  queryGroups : Str := []
  dumpMatches : Str := []
  sort : Str := "desc".toList
  outputGrp : Str := []
  outputMrp : Str := []
  collapse : Bool := true
  interp : Bool := true
  trapezoid : Bool := true
  ciGap : Bool := false
  ciMap : Bool := false
  ciGndcg : Bool := false
  ciMndcg : Bool := false
  samples : Nat := 10000
  seed : Nat := 0x12345
  alpha : ℚ
  curveSamples : Nat := 10000

/-- tools/GenericKwsEvalTool.h:181-263: the registrations, with the initial values of the
variables -/
def toolParser (R : Rnd) : Parser :=
  let reg (p : Parser) (nv : String × OptVal) := (p.registerOption nv.1.toList nv.2).2
  let p := [("collapse_matches", OptVal.bool true),
    ("interpolated_precision", .bool true),
    ("trapezoid_integral", .bool true),
    ("query_set", .str []),
    ("dump_matches", .str []),
    ("query_groups", .str []),
    ("bootstrap_ci_gap", .bool false),
    ("bootstrap_ci_map", .bool false),
    ("bootstrap_ci_gndcg", .bool false),
    ("bootstrap_ci_mndcg", .bool false),
    ("bootstrap_samples", .size 10000),
    ("bootstrap_seed", .size 0x12345),
    ("bootstrap_alpha", .double (R.f64 (5 / 100))),
    ("sort", .str "desc".toList),
    ("output_grp", .str []),
    ("output_mrp", .str []),
    ("rp_curve_samples", .size 10000)].foldl reg Parser.new
  (p.registerArgument (.str [])).registerOptArgument (.str [])

/-- The value of the variable bound to an option. -/
def optValue (p : Parser) (name : String) : Option OptVal := AMap.find? name.toList p.opts

def asBool : Option OptVal → Bool
  | some (.bool b) => b
  | _ => false

def asNat : Option OptVal → Nat
  | some (.size n) => n
  | _ => 0

def asRat : Option OptVal → ℚ
  | some (.double x) => x
  | _ => 0

def asStr : Option OptVal → Str
  | some (.str s) => s
  | _ => []

/-- The variables of `Main` after parsing. -/
def ToolOptions.ofParser (p : Parser) : ToolOptions where
  refFilename := asStr p.args[0]?
  hypFilename := asStr p.optArgs[0]?
  querySet := asStr (optValue p "query_set")
  queryGroups := asStr (optValue p "query_groups")
  dumpMatches := asStr (optValue p "dump_matches")
  sort := asStr (optValue p "sort")
  outputGrp := asStr (optValue p "output_grp")
  outputMrp := asStr (optValue p "output_mrp")
  collapse := asBool (optValue p "collapse_matches")
  interp := asBool (optValue p "interpolated_precision")
  trapezoid := asBool (optValue p "trapezoid_integral")
  ciGap := asBool (optValue p "bootstrap_ci_gap")
  ciMap := asBool (optValue p "bootstrap_ci_map")
  ciGndcg := asBool (optValue p "bootstrap_ci_gndcg")
  ciMndcg := asBool (optValue p "bootstrap_ci_mndcg")
  samples := asNat (optValue p "bootstrap_samples")
  seed := asNat (optValue p "bootstrap_seed")
  alpha := asRat (optValue p "bootstrap_alpha")
  curveSamples := asNat (optValue p "rp_curve_samples")

/-! ## Query sets and query groups -/

/-- `while (is >> s)`: the words extracted before the first failure. -/
def readWords : Nat → IStream → List Str
  | 0, _ => []
  | fuel + 1, s =>
    let (s, w) := s.getString
    match s.fail, w with
    | false, some w => w :: readWords fuel s
    | _, _ => []

/-- all words of a text (every word takes at least one character) -/
def wordsOf (text : Str) : List Str := readWords (text.length + 1) (IStream.ofStr text)

section
variable {μ σ Q L G : Type}

/-- Applies the query mapper to each word, stopping at an exception. -/
def mapQueries (mapQuery : μ → Str → μ × Cpp Q) : μ → List Str → μ × Cpp (List Q)
  | m, [] => (m, .ok [])
  | m, w :: ws =>
    match mapQuery m w with
    | (m, .error f) => (m, .error f)
    | (m, .ok q) =>
      match mapQueries mapQuery m ws with
      | (m, .error f) => (m, .error f)
      | (m, .ok qs) => (m, .ok (q :: qs))

/-- tools/GenericKwsEvalTool.h:314-318 -/
def readQuerySet [DecidableEq Q] (mapQuery : μ → Str → μ × Cpp Q) (m : μ) (text : Str) :
    μ × Cpp (List (Q × Q)) :=
  match mapQueries mapQuery m (wordsOf text) with
  | (m, .error f) => (m, .error f)
  | (m, .ok qs) => (m, .ok (qs.foldl (fun q2g q => AMap.set q q q2g) []))

/-- tools/GenericKwsEvalTool.h:331-343: the loop over the lines. `none` is the format error. -/
def readGroupLines [DecidableEq Q] (mapQuery : μ → Str → μ × Cpp Q) :
    Nat → μ → List (Q × Q) → IStream → μ × Cpp (Option (List (Q × Q)))
  | 0, m, q2g, _ => (m, .ok (some q2g))
  | fuel + 1, m, q2g, s =>
    let (s, line) := s.getline
    match s.fail, line with
    | false, some line =>
      match mapQueries mapQuery m (wordsOf line) with
      | (m, .error f) => (m, .error f)
      | (m, .ok (g :: q :: qs)) =>
        readGroupLines mapQuery fuel m
          ((q :: qs).foldl (fun q2g q => AMap.set q g q2g) q2g) s
      | (m, .ok _) => (m, .ok none)
    | _, _ => (m, .ok (some q2g))

/-- tools/GenericKwsEvalTool.h:323-343 -/
def readQueryGroups [DecidableEq Q] (mapQuery : μ → Str → μ × Cpp Q) (m : μ) (text : Str) :
    μ × Cpp (Option (List (Q × Q))) :=
  readGroupLines mapQuery (text.length + 1) m [] (IStream.ofStr text)

/-- tools/GenericKwsEvalTool.h:302-348: `query2group`, or `none` if the program stops with code 1 -/
def readQueryMap [DecidableEq Q] (mapQuery : μ → Str → μ × Cpp Q) (w : World) (o : ToolOptions)
    (m : μ) : Cpp (Option (List (Q × Q))) :=
  if o.querySet ≠ [] ∧ o.queryGroups = [] then
    match w.file o.querySet with
    | none => .ok none
    | some text => (readQuerySet mapQuery m text).2.map some
  else if o.queryGroups ≠ [] then
    match w.file o.queryGroups with
    | none => .ok none
    | some text => (readQueryGroups mapQuery m text).2
  else .ok (some [])

/-- tools/GenericKwsEvalTool.h:33-40 `filter_events` -/
def filterEvents {E : Type} [DecidableEq Q] (q2g : List (Q × Q)) (query : E → Q) (es : List E) :
    List E :=
  es.filter (fun e => (AMap.find? (query e) q2g).isSome)

/-! ## Statistics -/

/-- A printed metric: its value and, with bootstrapping, its confidence interval. -/
structure Metric (K : Type) where
  value : K
  ci : Option (K × K) := none

/-- tools/GenericKwsEvalTool.h:81-104 `ComputeGlobalStatistic`, where `plain` is
`statistic(matches)` and `grouped b` is `statistic(sample, b)` -/
def globalStatistic {K : Type} [LinearOrder K] [Sub K] (R : Rnd) (S : StdSort) (rd : K → K)
    (rng : Rng G) (bootstrap : Bool) (o : ToolOptions) (ms : List (KwsMatch Q L))
    (groups : List (List (KwsMatch Q L))) (plain : List (KwsMatch Q L) → Cpp K)
    (grouped : List (List (KwsMatch Q L)) → Bool → Cpp K) : Cpp (Metric K) :=
  if bootstrap then do
    let (v, lo, hi) ← percentileCIGrouped R S rd rng groups o.samples o.alpha o.seed
      (fun sample => grouped sample true)
    return ⟨v, some (lo, hi)⟩
  else do return ⟨← plain ms, none⟩

/-- tools/GenericKwsEvalTool.h:57-79 `ComputeMeanStatistic` -/
def meanStatistic {K : Type} [LinearOrder K] [Sub K] (R : Rnd) (S : StdSort) (rd : K → K)
    (rng : Rng G) (bootstrap : Bool) (o : ToolOptions) (groups : List (List (KwsMatch Q L)))
    (grouped : List (List (KwsMatch Q L)) → Bool → Cpp K) : Cpp (Metric K) :=
  if bootstrap then do
    let (v, lo, hi) ← percentileCIGrouped R S rd rng groups o.samples o.alpha o.seed
      (fun sample => grouped sample true)
    return ⟨v, some (lo, hi)⟩
  else do return ⟨← grouped groups false, none⟩

/-! ## Curves -/

/-- core/Assessment.h:350-369 with the file system: an unwritable file throws. -/
def writeCurveFile {K K' : Type} (w : World) (filename : Str) (x : List K) (y : List K') :
    Cpp (List (K × K')) := do
  let pts ← writeCurve filename x y
  if w.writable filename then return pts else .error .ioFailure

/-- tools/GenericKwsEvalTool.h:106-120 `WriteGlobalRPCurve` -/
def globalRPCurve (R : Rnd) (w : World) (filename : Str) (ms : List (KwsMatch Q L)) (n : Nat)
    (collapse interp linear : Bool) : Cpp (List (ℚ × ℚ)) := do
  let (pr, rc) := matchesPR R ms collapse interp
  let xs := evenPoints R n
  let ys ← sampleCurve R rc pr xs linear
  writeCurveFile w filename xs ys

/-- tools/GenericKwsEvalTool.h:132-139: the sampled precisions of every group -/
def groupCurves (R : Rnd) (xs : List ℚ) (collapse interp linear : Bool) :
    List (List (KwsMatch Q L)) → Cpp (List (List ℚ))
  | [] => return []
  | ms :: groups => do
    let (pr, rc) := matchesPR R ms collapse interp
    let ys ← sampleCurve R rc pr xs linear
    return ys :: (← groupCurves R xs collapse interp linear groups)

/-- tools/GenericKwsEvalTool.h:145-148: the sum of the `i`-th entries -/
def columnSum (R : Rnd) (i : Nat) : ℚ → List (List ℚ) → Cpp ℚ
  | s, [] => return s
  | s, ys :: yss => do
    let y ← vecAt ys i
    columnSum R i (R.f64 (s + y)) yss

/-- tools/GenericKwsEvalTool.h:149: `s / NQ`; without groups this is `0.0 / 0`, a NaN -/
def meanOf (R : Rnd) (s : ℚ) (n : Nat) : Flt :=
  if n = 0 then .nan else .fin (R.f64 (s / R.f64 n))

/-- tools/GenericKwsEvalTool.h:144-150: the mean precision at the points `i, i+1, ...` -/
def meanColumns (R : Rnd) (yss : List (List ℚ)) : Nat → Nat → Cpp (List Flt)
  | _, 0 => return []
  | i, n + 1 => do
    let s ← columnSum R i 0 yss
    return meanOf R s yss.length :: (← meanColumns R yss (i + 1) n)

/-- tools/GenericKwsEvalTool.h:122-153 `WriteMeanRPCurve` -/
def meanRPCurve (R : Rnd) (w : World) (filename : Str) (groups : List (List (KwsMatch Q L)))
    (n : Nat) (collapse interp linear : Bool) : Cpp (List (ℚ × Flt)) := do
  let xs := evenPoints R n
  let yss ← groupCurves R xs collapse interp linear groups
  let means ← meanColumns R yss 0 xs.length
  writeCurveFile w filename xs means

/-! ## Main -/

/-- Everything a successful run outputs. -/
structure Report (Q L : Type) where
  gAP : Metric ℚ
  mAP : Metric ℚ
  gNDCG : Metric ℝ
  mNDCG : Metric ℝ
  /-- the matches and repeated matches written with `--dump_matches` -/
  dump : Option (List (KwsMatch Q L) × List (KwsMatch Q L)) := none
  globalCurve : Option (List (ℚ × ℚ)) := none
  meanCurve : Option (List (ℚ × Flt)) := none

/-- A run ends with code 1 and no result, or with code 0 and a report, or (`--help`) with code 0
and no report. -/
inductive RunResult (Q L : Type)
  | failed
  | helped
  | done (r : Report Q L)

/-- tools/GenericKwsEvalTool.h:376-388: sorting of the hypotheses -/
def sortHyps [Cmp Q] [Cmp L] (S : StdSort) (criterion : Str) (hyps : List (ScoredEvent Q L)) :
    Cpp (List (ScoredEvent Q L)) :=
  if criterion = "desc".toList then S.sort ScoredEvent.gt hyps
  else if criterion = "asc".toList then S.sort ScoredEvent.lt hyps
  else .ok hyps

/-- tools/GenericKwsEvalTool.h:435-475: metrics and curves (`dump` is what was dumped before) -/
noncomputable def assess (R : Rnd) (S : StdSort) (rng : Rng G) (w : World) (o : ToolOptions)
    (ms : List (KwsMatch Q L)) (groups : List (List (KwsMatch Q L)))
    (dump : Option (List (KwsMatch Q L) × List (KwsMatch Q L))) : Cpp (Report Q L) := do
  let gAP ← globalStatistic R S R.f64 rng o.ciGap o ms groups
    (fun ms => globalAP R ms o.collapse o.interp o.trapezoid)
    (fun gs b => globalAPGrouped R S gs o.collapse o.interp o.trapezoid b)
  let mAP ← meanStatistic R S R.f64 rng o.ciMap o groups
    (fun gs b => meanAP R S gs o.collapse o.interp o.trapezoid b)
  let gNDCG ← globalStatistic R S id rng o.ciGndcg o ms groups
    (fun ms => .ok (globalNDCG R ms o.collapse))
    (fun gs b => globalNDCGGrouped R S gs o.collapse b)
  let mNDCG ← meanStatistic R S id rng o.ciMndcg o groups
    (fun gs b => meanNDCG R S gs o.collapse b)
  let grp ← if o.outputGrp = [] then pure none else
    some <$> globalRPCurve R w o.outputGrp ms o.curveSamples o.collapse o.interp o.trapezoid
  let mrp ← if o.outputMrp = [] then pure none else
    some <$> meanRPCurve R w o.outputMrp groups o.curveSamples o.collapse o.interp o.trapezoid
  return ⟨gAP, mAP, gNDCG, mNDCG, dump, grp, mrp⟩

/-- tools/GenericKwsEvalTool.h:376-475: sorting, matching, dumping, metrics and curves for the events
kept by the filter -/
noncomputable def matchAndAssess [DecidableEq Q] [Cmp Q] [Cmp L] (R : Rnd) (S : StdSort)
    (rng : Rng G) (kit : ToolKit μ σ Q L) (w : World) (o : ToolOptions) (q2g : List (Q × Q))
    (refs : List (Event Q L)) (hyps : List (ScoredEvent Q L)) : Cpp (RunResult Q L) := do
  let hyps ← sortHyps S o.sort hyps
  let (_, ms, repeated) ← SimpleMatcher.run kit.index kit.scorer kit.refsSet refs hyps
  if o.dumpMatches ≠ [] ∧ w.writable o.dumpMatches = false then return .failed
  let dump := if o.dumpMatches = [] then none else some (ms, repeated)
  let nh := ms.foldl (fun n m => n + m.error.nh) 0
  if nh > hyps.length then return .failed
  let groups ← groupMatches q2g ms
  return .done (← assess R S rng w o ms groups dump)

/-- tools/GenericKwsEvalTool.h:350-475: everything after the inputs have been read. (`group2query`,
lines 367-374, only feeds a message.) -/
noncomputable def evaluate [DecidableEq Q] [Cmp Q] [Cmp L] (R : Rnd) (S : StdSort) (rng : Rng G)
    (kit : ToolKit μ σ Q L) (w : World) (o : ToolOptions) (q2g : List (Q × Q))
    (refs : List (Event Q L)) (hyps : List (ScoredEvent Q L)) : Cpp (RunResult Q L) :=
  let refs := if q2g = [] then refs else filterEvents q2g (·.query) refs
  let hyps := if q2g = [] then hyps else filterEvents q2g (·.base.query) hyps
  matchAndAssess R S rng kit w o q2g refs hyps

/-- tools/GenericKwsEvalTool.h:270-475: `Main` after the command line has been parsed -/
noncomputable def mainWith [DecidableEq Q] [Cmp Q] [Cmp L] (R : Rnd) (S : StdSort) (rng : Rng G)
    (kit : ToolKit μ σ Q L) (w : World) (o : ToolOptions) : Cpp (RunResult Q L) :=
  if o.refFilename = [] then .ok .failed
  else
    match w.file o.refFilename with
    | none => .ok .failed
    | some refText =>
      match kit.readRef kit.mapper refText with
      | (_, _, .fault f) => .error f
      | (_, _, .badLine _) => .ok .failed
      | (_, _, .badStream) => .ok .failed
      | (m, refs, .ok) =>
        match (if o.hypFilename = [] then some w.stdin else w.file o.hypFilename) with
        | none => .ok .failed
        | some hypText =>
          match kit.readHyp m hypText with
          | (_, _, .fault f) => .error f
          | (_, _, .badLine _) => .ok .failed
          | (_, _, .badStream) => .ok .failed
          | (m, hyps, .ok) => do
            match ← readQueryMap kit.mapQuery w o m with
            | none => return .failed
            | some q2g => evaluate R S rng kit w o q2g refs hyps

/-- tools/GenericKwsEvalTool.h:155-476 `Main`; `argv` excludes the program name. -/
noncomputable def toolMain [DecidableEq Q] [Cmp Q] [Cmp L] (R : Rnd) (S : StdSort) (rng : Rng G)
    (kit : ToolKit μ σ Q L) (w : World) (argv : List Str) : Cpp (RunResult Q L) :=
  match (toolParser R).parse R argv with
  | (.rejected, _) => .ok .failed
  | (.exitHelp, _) => .ok .helped
  | (.accepted, p) => mainWith R S rng kit w (ToolOptions.ofParser p)

end

end Kws
