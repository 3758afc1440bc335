import Verif.Spec.Output

/-!
# What the tools say about their inputs

The messages on standard error, without the line breaks. They depend on the texts of the files only.
-/

namespace Kws.Spec

/-- a number in decimal notation -/
def decimal (n : ℕ) : Str := Nat.toDigits 10 n

/-- a name between quotation marks -/
def inQuotes (s : Str) : Str := "\"".toList ++ s ++ "\"".toList

/-- Line number `k` (counted from 1) is the first one that is neither ignored nor one event. -/
def FirstBadLine {E : Type} (G : Str → E → Str → Prop) (t : Str) (k : ℕ) : Prop :=
  ∃ pre l post, lines t = pre ++ l :: post ∧ k = pre.length + 1 ∧
    (∀ l' ∈ pre, Ignored l' ∨ ∃ e, IsEvent G l' e) ∧ ¬ Ignored l ∧ ¬ ∃ e, IsEvent G l e

/-- Why events cannot be read from a text (`none`: the file cannot be opened), with the message about
it. -/
inductive Unreadable {E : Type} (G : Str → E → Str → Prop) : Option Str → List Str → Prop
  | missing : Unreadable G none []
  | badLine {t k} : FirstBadLine G t k →
      Unreadable G (some t) ["ERROR: Failed to read event from line ".toList ++ decimal k]

/-- the number of references -/
def sayRefs (n : ℕ) : Str := "INFO: Number of reference events read = ".toList ++ decimal n

/-- the number of hypotheses -/
def sayHyps (n : ℕ) : Str := "INFO: Number of hypothesis events read = ".toList ++ decimal n

/-- a file that could not be read -/
def sayFailed (name : Str) : Str := "ERROR: Failed reading file ".toList ++ inQuotes name ++ "!".toList

/-- Reading the hypotheses failed. The text depends on the number of command line arguments. -/
def sayHypsFailed (o : ToolOptions) (argc : ℕ) : Str :=
  if argc = 2 then "ERROR: Failed reading from stdin!".toList else sayFailed o.hypFilename

/-- The run has the events `refs` and `hyps`. -/
structure Inputs {E H : Type} (GR : Str → E → Str → Prop) (GH : Str → H → Str → Prop) (w : World)
    (o : ToolOptions) (refs : List E) (hyps : List H) : Prop where
  refName : o.refFilename ≠ []
  refs : ∃ t, w.file o.refFilename = some t ∧ Yields GR (lines t) refs
  hyps : ∃ u, hypText w o = some u ∧ Yields GH (lines u) hyps

/-- The query set or the groups file, if one is named, can be read. -/
structure QueriesReadable (w : World) (o : ToolOptions) : Prop where
  querySet : o.querySet ≠ [] → o.queryGroups = [] → ∃ t, w.file o.querySet = some t
  queryGroups : o.queryGroups ≠ [] → ∃ t, w.file o.queryGroups = some t ∧
    WellFormedGroups ((lines t).map words)

/-- Why a run stops before anything is evaluated, with everything that it says. -/
inductive Stops {E H : Type} (GR : Str → E → Str → Prop) (GH : Str → H → Str → Prop) (w : World)
    (o : ToolOptions) (argc : ℕ) : List Str → Prop
  | noName : o.refFilename = [] →
      Stops GR GH w o argc ["ERROR: Empty filename was given for the references!".toList]
  | refs {ds} : o.refFilename ≠ [] → Unreadable GR (w.file o.refFilename) ds →
      Stops GR GH w o argc (ds ++ [sayFailed o.refFilename])
  | hyps {t refs ds} : o.refFilename ≠ [] → w.file o.refFilename = some t →
      Yields GR (lines t) refs → Unreadable GH (hypText w o) ds →
      Stops GR GH w o argc (sayRefs refs.length :: ds ++ [sayHypsFailed o argc])
  | querySet {refs hyps} : Inputs GR GH w o refs hyps → o.querySet ≠ [] → o.queryGroups = [] →
      w.file o.querySet = none →
      Stops GR GH w o argc [sayRefs refs.length, sayHyps hyps.length,
        "ERROR: Query set file ".toList ++ inQuotes o.querySet ++ " could not be read!".toList]
  | groups {refs hyps} : Inputs GR GH w o refs hyps → o.queryGroups ≠ [] →
      w.file o.queryGroups = none →
      Stops GR GH w o argc [sayRefs refs.length, sayHyps hyps.length,
        "ERROR: Query groups file ".toList ++ inQuotes o.queryGroups ++ " could not be read!".toList]
  | format {refs hyps t} : Inputs GR GH w o refs hyps → o.queryGroups ≠ [] →
      w.file o.queryGroups = some t → ¬ WellFormedGroups ((lines t).map words) →
      Stops GR GH w o argc [sayRefs refs.length, sayHyps hyps.length,
        "ERROR: Query groups file ".toList ++ inQuotes o.queryGroups ++ " has a wrong format!".toList]

/-- the file that lists queries -/
def queryFile (o : ToolOptions) : Str := if o.queryGroups ≠ [] then o.queryGroups else o.querySet

/-- a message if a condition holds -/
def onlyIf (c : Prop) [Decidable c] (s : Str) : List Str := if c then [s] else []

section
variable {L : Type}

/-- What is said before the matching: the numbers of events, of different queries and groups listed,
and the numbers of events that are kept if these are less. -/
def saysBefore (w : World) (o : ToolOptions) (refs : List (Event Str L))
    (hyps : List (ScoredEvent Str L)) : List Str :=
  let listed := listedQueries w o
  let refs' := keep (·.query) listed refs
  let hyps' := keep (·.base.query) listed hyps
  [sayRefs refs.length, sayHyps hyps.length] ++
  onlyIf (queryFile o ≠ []) ("INFO: ".toList ++ decimal listed.toFinset.card ++
    " queries were read from ".toList ++ inQuotes (queryFile o)) ++
  onlyIf (refs'.length < refs.length)
    ("INFO: Number of kept reference events = ".toList ++ decimal refs'.length) ++
  onlyIf (hyps'.length < hyps.length)
    ("INFO: Number of kept hypothesis events = ".toList ++ decimal hyps'.length) ++
  onlyIf (o.queryGroups ≠ [] ∧ listed ≠ []) ("INFO: ".toList ++
    decimal (listed.toFinset.image (groupFor w o)).card ++ " groups were read from ".toList ++
    inQuotes o.queryGroups) ++
  onlyIf (o.sort ∉ ["desc".toList, "asc".toList, "none".toList])
    ("WARN: Ignoring sorting criterion ".toList ++ inQuotes o.sort ++
      ". Hypotheses won't be sorted.".toList) ++
  ["INFO: Computing matches...".toList]

/-- What is said after the matching, when `all` hypotheses were kept and `n` of them are hits or false
positives. -/
def saysAfter (w : World) (o : ToolOptions) (n all : ℕ) : List Str :=
  if o.dumpMatches ≠ [] ∧ w.writable o.dumpMatches = false then
    ["ERROR: Dump matches file ".toList ++ inQuotes o.dumpMatches ++
      " could not be opened for write!".toList]
  else onlyIf (n < all) ("INFO: Effective number of hypotheses is ".toList ++ decimal n ++
    ". The rest of hypotheses were considered repetitions of some other match, and ignored.".toList)

end

/-- The number of hits and false positives of the segmentation-based evaluation. -/
def segEffective {Q L : Type} [DecidableEq Q] [DecidableEq L] (refs : List (Event Q L))
    (hyps : List (ScoredEvent Q L)) : ℕ :=
  (refs.toFinset ∩ (hyps.map (·.base)).toFinset).card + hyps.countP (fun h => h.base ∉ refs)

/-- The hypotheses in the order in which they are matched. -/
def RankedBy {Q L : Type} (criterion : Str) (hyps l : List (ScoredEvent Q L)) : Prop :=
  l.Perm hyps ∧
  (criterion = "desc".toList → l.Pairwise (fun a b => Flt.lt a.score b.score = false)) ∧
  (criterion = "asc".toList → l.Pairwise (fun a b => Flt.lt b.score a.score = false)) ∧
  (criterion ≠ "desc".toList → criterion ≠ "asc".toList → l = hyps)

end Kws.Spec
