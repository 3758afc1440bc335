import Verif.Spec.CommandLine

/-!
# Wrong command lines and what is said about them
-/

namespace Kws.Spec

/-- The next words are not an option that can be accepted: the message about it. -/
inductive BadOption (R : Rnd) (opts : List (Str × OptVal)) : List Str → Str → Prop
  | unknown {w name rest} : Selects w name → name ∉ opts.map Prod.fst →
      BadOption R opts (w :: rest) ("ERROR: Unknown option '".toList ++ w ++ "'".toList)
  | noValue {w name v} : Selects w name → AMap.find? name opts = some v → v.isBoolean = false →
      BadOption R opts [w] ("ERROR: Invalid value for option '".toList ++ w ++ "'".toList)
  | badValue {w name s rest v} : Selects w name → AMap.find? name opts = some v →
      (v.isBoolean = true → s.head? ≠ some '-') → (v.parseOpt R s).1 = false →
      BadOption R opts (w :: s :: rest) ("ERROR: Invalid value for option '".toList ++ w ++ "'".toList)

/-- The text number `k` (from 0) is the first one that its positional argument does not accept. -/
def FirstBadArg (R : Rnd) (vs : List OptVal) (ws : List Str) (k : ℕ) : Prop :=
  ∃ v w, (vs.zip ws)[k]? = some (v, w) ∧ (v.parseArg R w).1 = false ∧
    ∀ p ∈ (vs.zip ws).take k, (p.1.parseArg R p.2).1 = true

/-- The positional arguments are wrong: the message about them. -/
inductive BadArguments (R : Rnd) (args optArgs : List OptVal) (pos : List Str) : Str → Prop
  | badArg {k} : FirstBadArg R args pos k → BadArguments R args optArgs pos
      ("ERROR: Invalid value for ".toList ++ Nat.toDigits 10 (k + 1) ++ "positional argument".toList)
  | missing : ArgsOk R args pos → pos.length < args.length → BadArguments R args optArgs pos
      ("ERROR: Missing ".toList ++ Nat.toDigits 10 (args.length - pos.length) ++ " arguments.".toList)
  | badOptArg {k} : ArgsOk R args pos → args.length ≤ pos.length →
      FirstBadArg R optArgs (pos.drop args.length) k → BadArguments R args optArgs pos
      ("ERROR: Invalid value for ".toList ++ Nat.toDigits 10 (args.length + k + 1) ++
        " positional argument".toList)
  | tooMany : ArgsOk R args pos → ArgsOk R optArgs (pos.drop args.length) →
      args.length + optArgs.length < pos.length → BadArguments R args optArgs pos
      ("ERROR: Expecting at most ".toList ++ Nat.toDigits 10 (args.length + optArgs.length) ++
        " positional cmd, but ".toList ++ Nat.toDigits 10 pos.length ++ " were given".toList)

/-- The command line is wrong: the message about it. After options that are fine, there is one that
is not; or there are only options that are fine, none of them `--help`, and wrong arguments. -/
inductive WrongLine (R : Rnd) (p : Parser) (argv : List Str) : Str → Prop
  | option {items rest s} : argv = items.flatMap OptItem.render ++ rest →
      ItemsOk R p.opts items rest → BadOption R p.opts rest s → WrongLine R p argv s
  | arguments {items tail pos s} : argv = items.flatMap OptItem.render ++ tail →
      ItemsOk R p.opts items tail → TailOk tail pos → (∀ it ∈ items, it.word ≠ "--help".toList) →
      BadArguments R p.args p.optArgs pos s → WrongLine R p argv s

end Kws.Spec
