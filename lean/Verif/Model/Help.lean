import Mathlib.Data.List.Sort
import Verif.Model.Number
import Verif.Model.Tool

/-!
# The help text of cmd/Parser.h, and its messages; core/TypeInfo.h
-/

namespace Kws

/-- `std::endl`: the end of a line -/
def endl (s : Str) : Str := s ++ ['\n']

/-- `os << n` for a signed integer -/
def showInt (z : Int) : Str := if z < 0 then '-' :: showNat z.natAbs else showNat z.natAbs

namespace OptVal

/-- core/TypeInfo.h:12-79 for the types of `OptVal`. `size_t` is `uint64_t`; there is no entry for
`double`, whose name is that of the type information object (libstdc++). -/
def typeName : OptVal → Str
  | bool _ => "bool".toList
  | int32 _ => "int32_t".toList
  | size _ => "uint64_t".toList
  | double _ => "d".toList
  | str _ => "string".toList

/-- cmd/Option.h:45 `<< *value_`, and cmd/Option.h:73 for `bool` -/
def showValue : OptVal → Str
  | bool b => if b then "true".toList else "false".toList
  | int32 z => showInt z
  | size n => showNat n
  | double x => showGeneral x
  | str s => s

end OptVal

/-- The name and the help text of an option or argument (cmd/Option.h:65-66) -/
structure OptText where
  name : Str
  help : Str

/-- `std::setw(w) << std::left << s` -/
def padTo (w : Nat) (s : Str) : Str := s ++ List.replicate (w - s.length) ' '

/-- cmd/Option.h:40-47 and 68-75 `Option<T>::Help` -/
def OptText.optionHelp (t : OptText) (w : Nat) (v : OptVal) : Str :=
  padTo w t.name ++ " : ".toList ++ t.help ++ " (type = ".toList ++ v.typeName ++
    ", value = \"".toList ++ v.showValue ++ "\")".toList

/-- cmd/Argument.h:18-23 and 36-41 `Argument<T>::Help` -/
def OptText.argumentHelp (t : OptText) (w : Nat) (v : OptVal) : Str :=
  padTo w t.name ++ " : ".toList ++ t.help ++ " (type = ".toList ++ v.typeName ++ ")".toList

/-- The texts of a parser (cmd/Parser.h:190-194): program name, description, the texts of the
options (by name without dashes) and of the arguments, in order of registration. -/
structure ParserTexts where
  prog : Str
  desc : Str
  optHelp : List (Str × Str)
  args : List OptText
  optArgs : List OptText

namespace ParserTexts

/-- cmd/Parser.h:169: the name of an option is shown with two dashes -/
def optText (t : ParserTexts) (name : Str) : OptText :=
  ⟨"--".toList ++ name, (AMap.find? name t.optHelp).getD []⟩

/-- cmd/Parser.h:33-52: the usage line -/
def usage (t : ParserTexts) (p : Parser) : Str :=
  endl ("Usage: ".toList ++ t.prog ++ (if p.opts = [] then [] else " [ options ]".toList) ++
    t.args.flatMap (fun a => ' ' :: a.name) ++
    t.optArgs.flatMap (fun a => " [ ".toList ++ a.name) ++
    t.optArgs.flatMap (fun _ => " ]".toList))

/-- cmd/Parser.h:61-65 -/
def width (t : ParserTexts) (p : Parser) : Nat :=
  let w := p.opts.foldl (fun w o => max w (t.optText o.1).name.length) 0
  let w := t.args.foldl (fun w a => max w a.name.length) w
  t.optArgs.foldl (fun w a => max w a.name.length) w

/-- cmd/Parser.h:30-90 `Help`. The options are shown in the order of their names (`std::map`). -/
def help (t : ParserTexts) (p : Parser) : Str :=
  let w := t.width p
  let line (s : Str) : Str := endl ("  ".toList ++ s)
  t.usage p ++
  (if t.desc = [] then [] else endl [] ++ endl "Description:".toList ++ endl t.desc) ++
  (if t.args = [] ∧ t.optArgs = [] then []
   else endl [] ++ endl "Arguments:".toList ++
    (t.args.zip p.args).flatMap (fun a => line (a.1.argumentHelp w a.2)) ++
    (t.optArgs.zip p.optArgs).flatMap (fun a => line (a.1.argumentHelp w a.2))) ++
  (if p.opts = [] then []
   else endl [] ++ endl "Options:".toList ++
    (p.opts.insertionSort (fun a b => a.1 ≤ b.1)).flatMap
      (fun o => line ((t.optText o.1).optionHelp w o.2)))

end ParserTexts

namespace Parser

/-- cmd/Parser.h:97-121: the message with which the option loop gives up, if it does -/
def optionsMessage (R : Rnd) (opts : List (Str × OptVal)) : List Str → Option Str
  | [] => none
  | arg :: argv =>
    if arg.length < 2 || !startsDash arg then none
    else if arg = "--".toList then none
    else if arg = "--help".toList then optionsMessage R opts argv
    else
      match AMap.find? (arg.drop 2) opts with
      | none => some (endl ("ERROR: Unknown option '".toList ++ arg ++ ['\'']))
      | some v =>
        let invalid := some (endl ("ERROR: Invalid value for option '".toList ++ arg ++ ['\'']))
        if v.isBoolean then
          match argv with
          | w :: argv' =>
            if startsDash w then
              let (ok, v) := v.parseOpt R []
              if ok then optionsMessage R (AMap.set (arg.drop 2) v opts) (w :: argv') else invalid
            else
              let (ok, v) := v.parseOpt R w
              if ok then optionsMessage R (AMap.set (arg.drop 2) v opts) argv' else invalid
          | [] => if (v.parseOpt R []).1 then none else invalid
        else
          match argv with
          | w :: argv' =>
            let (ok, v) := v.parseOpt R w
            if ok then optionsMessage R (AMap.set (arg.drop 2) v opts) argv' else invalid
          | [] => invalid
  termination_by argv => argv.length

/-- cmd/Parser.h:92-163: the message of `Parse` on `std::cerr` when it returns false -/
def message (R : Rnd) (p : Parser) (argv : List Str) : Option Str :=
  match parseOptions R p.opts false argv with
  | .rejected _ => optionsMessage R p.opts argv
  | .done _ true _ => none
  | .done _ false rest =>
    match parseArgs R p.args rest with
    | (false, _, j, _) =>
      some (endl ("ERROR: Invalid value for ".toList ++ showNat (j + 1) ++
        "positional argument".toList))
    | (true, _, n, rest) =>
      if n < p.args.length then
        some (endl ("ERROR: Missing ".toList ++ showNat (p.args.length - n) ++
          " arguments.".toList))
      else
        match parseArgs R p.optArgs rest with
        | (false, _, k, _) =>
          some (endl ("ERROR: Invalid value for ".toList ++ showNat (n + k + 1) ++
            " positional argument".toList))
        | (true, _, _, rest) =>
          if rest.isEmpty then none
          else
            let m := p.args.length + p.optArgs.length
            some (endl ("ERROR: Expecting at most ".toList ++ showNat m ++
              " positional cmd, but ".toList ++ showNat (m + rest.length) ++ " were given".toList))

end Parser

end Kws
