import Verif.Spec.CommandLine
import Verif.Spec.Output

/-!
# What the help shows about the options
-/

namespace Kws.Spec

/-- The text shows the value. -/
def ShowsValue : OptVal → Str → Prop
  | .bool b, s => s = (if b then "true" else "false").toList
  | .int32 z, s => Denotes s z
  | .size n, s => Denotes s n
  | .double x, s => Prints 6 x s
  | .str t, s => s = t

/-- The name of the type of the value. -/
def TypeText : OptVal → Str → Prop
  | .bool _, s => s = "bool".toList
  | .int32 _, s => s = "int32_t".toList
  | .size _, s => s = "uint64_t".toList
  | .double _, s => s = "d".toList
  | .str _, s => s = "string".toList

/-- A line about the option with name `o.1` and value `o.2`, with the name padded to `w`
characters. -/
def OptionLine (w : ℕ) (o : Str × OptVal) (line : Str) : Prop := ∃ pad help ty text,
  (∀ c ∈ pad, c = ' ') ∧ ("--".toList ++ o.1 ++ pad).length = w ∧ TypeText o.2 ty ∧
  ShowsValue o.2 text ∧
  line = "  --".toList ++ o.1 ++ pad ++ " : ".toList ++ help ++ " (type = ".toList ++ ty ++
    ", value = \"".toList ++ text ++ "\")\n".toList

/-- The text ends with a section about the options, one line for each, in the order of the names. -/
def ListsOptions (opts : List (Str × OptVal)) (t : Str) : Prop := ∃ pre opts' lines w,
  t = pre ++ "\nOptions:\n".toList ++ lines.flatten ∧ opts'.Perm opts ∧
  (opts'.map Prod.fst).Pairwise (· < ·) ∧ List.Forall₂ (OptionLine w) opts' lines

/-- A value of its type that does not change when it is printed and read. -/
def Presentable (R : Rnd) : OptVal → Prop
  | .bool _ => True
  | .int32 z => -2 ^ 31 ≤ z ∧ z < 2 ^ 31
  | .size n => n < 2 ^ 64
  | .double x => |x| ≤ dblMax ∧ ∀ q : ℚ, Nearest 6 x q → R.f64 q = x
  | .str s => '\x00' ∉ s

end Kws.Spec
