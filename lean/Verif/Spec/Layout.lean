import Verif.Spec.Grammar
import Verif.Spec.Tool

/-!
# Specification of input files that differ in their layout only
-/

namespace Kws.Spec

/-- Two lines of an event file that consist of the same words, or that are both comments. -/
def SameLine (l l' : Str) : Prop := words l = words l' ∨ Comment l ∧ Comment l'

/-- Two event files that have such lines at the same places. -/
def SameLines (t t' : Str) : Prop := List.Forall₂ SameLine (lines t) (lines t')

/-- Lists of lines with the same words, lines without an event apart. -/
inductive SameWords : List Str → List Str → Prop
  | nil : SameWords [] []
  | line {l l' ls ls'} : words l = words l' → SameWords ls ls' → SameWords (l :: ls) (l' :: ls')
  | left {l ls ls'} : Ignored l → SameWords ls ls' → SameWords (l :: ls) ls'
  | right {l ls ls'} : Ignored l → SameWords ls ls' → SameWords ls (l :: ls')

/-- The query set and the query groups have the same words, the latter line by line. -/
structure SameQueries (o : ToolOptions) (w w' : World) : Prop where
  set : o.querySet ≠ [] → (w.file o.querySet).map words = (w'.file o.querySet).map words
  groups : o.queryGroups ≠ [] → (w.file o.queryGroups).map (fun t => (lines t).map words) =
    (w'.file o.queryGroups).map (fun t => (lines t).map words)

/-- The input files of two runs have the same words on the same lines. -/
structure SameLayout (o : ToolOptions) (w w' : World) : Prop extends SameQueries o w w' where
  refs : Option.Rel SameLines (w.file o.refFilename) (w'.file o.refFilename)
  hyps : Option.Rel SameLines (hypText w o) (hypText w' o)
  writable : w.writable = w'.writable

/-- The input files of two runs have the same words on the lines that carry something. -/
structure SameEvents (o : ToolOptions) (w w' : World) : Prop extends SameQueries o w w' where
  refs : Option.Rel (fun t t' => SameWords (lines t) (lines t'))
    (w.file o.refFilename) (w'.file o.refFilename)
  hyps : Option.Rel (fun t t' => SameWords (lines t) (lines t'))
    (hypText w o) (hypText w' o)
  writable : w.writable = w'.writable

end Kws.Spec
