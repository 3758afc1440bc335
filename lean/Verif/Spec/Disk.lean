import Verif.Spec.Tool
import Verif.Model.Output

/-!
# Specification of the files after a run

Names that differ denote different files, and a file that can be written once can be written again.
-/

namespace Kws.Spec

/-- The text of a file after texts have been written to files, in this order: the last one replaces the
others. -/
def textAfter (before : Option Str) : List (Str × Str) → Str → Option Str
  | [], _ => before
  | (n, t) :: files, f => textAfter (if n = f then some t else before) files f

/-- The world after a run with the effects `es`; `stdin` is what comes next on the standard input. -/
def worldAfter (w : World) (es : List Effect) (stdin : Str) : World where
  file f := textAfter (w.file f) (filesOf es) f
  stdin := stdin
  writable := w.writable

/-- The names of the files that a run may write. -/
def outputNames (o : ToolOptions) : List Str := [o.dumpMatches, o.outputGrp, o.outputMrp]

/-- No file is both read and written. -/
structure Separate (o : ToolOptions) : Prop where
  refs : o.refFilename ≠ [] → o.refFilename ∉ outputNames o
  hyps : o.hypFilename ≠ [] → o.hypFilename ∉ outputNames o
  set : o.querySet ≠ [] → o.queryGroups = [] → o.querySet ∉ outputNames o
  groups : o.queryGroups ≠ [] → o.queryGroups ∉ outputNames o

end Kws.Spec
