import Verif.Model.Writing

/-!
# Specification of output to devices that take only so much
-/

namespace Kws.Spec
open Kws

/-- What a device takes of a text. -/
def cut (n : ℕ) (s : Str) : Str := s.take n

/-- the files that are written through streams that do not throw exceptions, in order -/
def plainOf (es : List Effect) : List (Str × Str) := es.filterMap fun
  | .file n t => some (n, t)
  | _ => none

/-- Everything that the program has to write has arrived, and it has ended in this way. -/
structure AllWritten (t : Traced Nat) (x : Observed) : Prop where
  out : x.out = (outsOf t.effects).flatten
  err : x.err = (errsOf t.effects).flatten
  files : x.files = filesOf t.effects
  result : x.result = t.result

/-- There is room for the files of the curves. -/
def CurvesFit (d : Devices) (t : Traced Nat) : Prop := ∀ f ∈ curvesOf t.effects, f.2.length ≤ d.file f.1

/-- There is room for everything. -/
structure EnoughRoom (d : Devices) (t : Traced Nat) : Prop where
  out : ((outsOf t.effects).flatten).length ≤ d.out
  err : ((errsOf t.effects).flatten).length ≤ d.err
  files : ∀ f ∈ filesOf t.effects, f.2.length ≤ d.file f.1

end Kws.Spec
