import Verif.Spec.Tool
import Verif.Model.Output

/-!
# Specification of runs whose files have other names
-/

namespace Kws.Spec

/-- The options of a run, with other names for the files. -/
def renamed (o : ToolOptions) (ref hyp set groups dump grp mrp : Str) : ToolOptions :=
  { o with refFilename := ref, hypFilename := hyp, querySet := set, queryGroups := groups,
           dumpMatches := dump, outputGrp := grp, outputMrp := mrp }

/-- Two runs with the same options but for the names of files: the input files have the same
contents (or are both missing), and the same output files are requested and can be written. The
hypotheses may come from a file in one run and from the standard input in the other. The set of
queries does not matter if there are groups. -/
structure SameContents (w w' : World) (o o' : ToolOptions) : Prop where
  options : o' = renamed o o'.refFilename o'.hypFilename o'.querySet o'.queryGroups o'.dumpMatches
    o'.outputGrp o'.outputMrp
  refsGiven : o'.refFilename = [] ↔ o.refFilename = []
  refs : o.refFilename ≠ [] → w'.file o'.refFilename = w.file o.refFilename
  hyps : hypText w' o' = hypText w o
  groupsGiven : o'.queryGroups = [] ↔ o.queryGroups = []
  groups : o.queryGroups ≠ [] → w'.file o'.queryGroups = w.file o.queryGroups
  setGiven : o.queryGroups = [] → (o'.querySet = [] ↔ o.querySet = [])
  set : o.queryGroups = [] → o.querySet ≠ [] → w'.file o'.querySet = w.file o.querySet
  dumpGiven : o'.dumpMatches = [] ↔ o.dumpMatches = []
  dump : o.dumpMatches ≠ [] → w'.writable o'.dumpMatches = w.writable o.dumpMatches
  grpGiven : o'.outputGrp = [] ↔ o.outputGrp = []
  grp : o.outputGrp ≠ [] → w'.writable o'.outputGrp = w.writable o.outputGrp
  mrpGiven : o'.outputMrp = [] ↔ o.outputMrp = []
  mrp : o.outputMrp ≠ [] → w'.writable o'.outputMrp = w.writable o.outputMrp

/-- The names that a message may mention, in both runs. -/
def namesMentioned (o o' : ToolOptions) : List (Str × Str) :=
  [(o.refFilename, o'.refFilename), (o.querySet, o'.querySet), (o.queryGroups, o'.queryGroups),
   (o.dumpMatches, o'.dumpMatches)]

/-- What is said if the hypotheses cannot be read. -/
def HypsUnread (o : ToolOptions) (s : Str) : Prop :=
  s = "ERROR: Failed reading from stdin!\n".toList ∨
    s = "ERROR: Failed reading file \"".toList ++ o.hypFilename ++ "\"!\n".toList

/-- Effects of two runs that differ in the names of files only. -/
inductive SameEffect (o o' : ToolOptions) : Effect → Effect → Prop
  | out (s : Str) : SameEffect o o' (.out s) (.out s)
  | err (s : Str) : SameEffect o o' (.err s) (.err s)
  | named (s t n n' : Str) : (n, n') ∈ namesMentioned o o' →
      SameEffect o o' (.err (s ++ n ++ t)) (.err (s ++ n' ++ t))
  | hyps (s s' : Str) : HypsUnread o s → HypsUnread o' s' → SameEffect o o' (.err s) (.err s')
  | dump (t : Str) : SameEffect o o' (.file o.dumpMatches t) (.file o'.dumpMatches t)
  | grp (t : Str) : SameEffect o o' (.curve o.outputGrp t) (.curve o'.outputGrp t)
  | mrp (t : Str) : SameEffect o o' (.curve o.outputMrp t) (.curve o'.outputMrp t)

/-- Two runs that do the same, one step after the other, and end in the same way. -/
structure SameRun (o o' : ToolOptions) {α : Type} (x x' : Traced α) : Prop where
  effects : List.Forall₂ (SameEffect o o') x.effects x'.effects
  result : x'.result = x.result

end Kws.Spec
