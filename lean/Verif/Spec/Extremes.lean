import Verif.Model.Tool
import Verif.Spec.Tool

/-!
# Specification of the results of extreme submissions
-/

namespace Kws.Spec

/-- The line for a number, with an interval if it is asked for: the number and both bounds are written as `x`. -/
def resultLine (name : String) (interval : Bool) (x : String) : Str :=
  (name ++ " = " ++ x ++ (if interval then " [" ++ x ++ ", " ++ x ++ "]" else "") ++ "\n").toList

/-- The results, all of them `x`. -/
def resultLines (o : ToolOptions) (x : String) : List Str :=
  [resultLine "gAP" o.ciGap x, resultLine "mAP" o.ciMap x, resultLine "gNDCG" o.ciGndcg x,
    resultLine "mNDCG" o.ciMndcg x]

/-- There are at most `B` events in the two files. If an interval is asked for a number of all matches, this
is so for the square of their number: a sample may contain the largest group again and again. -/
structure AtMost (B n : ℕ) (o : ToolOptions) : Prop where
  events : n ≤ B
  samples : o.ciGap = true ∨ o.ciGndcg = true → n ^ 2 ≤ B

end Kws.Spec
