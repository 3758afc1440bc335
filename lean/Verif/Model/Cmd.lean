import Verif.Model.Stream

/-!
# cmd/Option.h, cmd/Argument.h, cmd/Parser.h
-/

namespace Kws

/-- The variable an option or argument points to, with its current value; the constructor is its
type. Only the types used by the tools and the tests are included. Two options pointing to the same
variable are not modelled. -/
inductive OptVal
  | bool (b : Bool)
  | int32 (n : Int)
  | size (n : Nat)
  | double (x : ℚ)
  | str (s : Str)

namespace OptVal

/-- cmd/Option.h:48-50 `IsBoolean` -/
def isBoolean : OptVal → Bool
  | bool _ => true
  | _ => false

/-- cmd/Option.h:79-90 -/
def parseOptBool (old : Bool) (s : Str) : Bool × OptVal :=
  if s = "".toList ∨ s = "true".toList ∨ s = "1".toList then (true, bool true)
  else if s = "false".toList ∨ s = "0".toList then (true, bool false)
  else (false, bool old)

/-- cmd/Argument.h:43-53 -/
def parseArgBool (old : Bool) (s : Str) : Bool × OptVal :=
  if s = "true".toList ∨ s = "1".toList then (true, bool true)
  else if s = "false".toList ∨ s = "0".toList then (true, bool false)
  else (false, bool old)

/-- cmd/Option.h:94-97. Command line strings contain no NUL; reading up to NUL or the end stores the
text before it and sets `eofbit` unless a NUL was found. An empty text leaves the string empty. -/
def parseStr (s : Str) : Bool × OptVal :=
  (!s.contains '\x00', str (s.takeWhile (· != '\x00')))

/-- cmd/Option.h:52-56 for the numeric types, and the specialisation for strings; also inherited by
`Argument` (cmd/Argument.h:15-16). The result is `eof()` alone: `failbit` is not tested. -/
def parseOther (R : Rnd) (v : OptVal) (s : Str) : Bool × OptVal :=
  let iss := IStream.ofStr s
  match v with
  | bool b => (false, bool b)  -- not reached, see `parseOpt` and `parseArg`
  | int32 n =>
    let (iss, r) := iss.getSigned (2 ^ 31 - 1) false
    (iss.eof, int32 (r.getD n))
  | size n =>
    let (iss, r) := iss.getUnsigned (2 ^ 64 - 1) false
    (iss.eof, size (r.getD n))
  | double x =>
    let (iss, r) := iss.getFloat R.f64 dblMax false
    (iss.eof, double (r.getD x))
  | str _ => parseStr s

/-- `Option<T>::Parse` -/
def parseOpt (R : Rnd) (v : OptVal) (s : Str) : Bool × OptVal :=
  match v with
  | bool b => parseOptBool b s
  | v => parseOther R v s

/-- `Argument<T>::Parse` -/
def parseArg (R : Rnd) (v : OptVal) (s : Str) : Bool × OptVal :=
  match v with
  | bool b => parseArgBool b s
  | v => parseOther R v s

end OptVal

/-- cmd/Parser.h:190-194: registered options (by name, without dashes), mandatory and optional
arguments, with the values of their variables. Help texts and argument names are not part of this
structure. -/
structure Parser where
  opts : List (Str × OptVal)
  args : List OptVal
  optArgs : List OptVal

/-- What `Parse` does: return true, return false, or print the help and call `exit(0)`. -/
inductive ParseOutcome
  | accepted
  | rejected
  | exitHelp
  deriving DecidableEq

namespace Parser

/-- cmd/Parser.h:16 -/
def new : Parser := ⟨[], [], []⟩

/-- cmd/Parser.h:165-175 -/
def registerOption (p : Parser) (name : Str) (v : OptVal) : Bool × Parser :=
  if name = "help".toList then (false, p)
  else
    match AMap.find? name p.opts with
    | some _ => (false, p)
    | none => (true, { p with opts := (AMap.emplace name v p.opts).1 })

/-- cmd/Parser.h:177-181 -/
def registerArgument (p : Parser) (v : OptVal) : Parser := { p with args := p.args ++ [v] }

/-- cmd/Parser.h:183-187 -/
def registerOptArgument (p : Parser) (v : OptVal) : Parser :=
  { p with optArgs := p.optArgs ++ [v] }

/-- Outcome of the option loop. -/
inductive OptionsOutcome
  | done (opts : List (Str × OptVal)) (help : Bool) (rest : List Str)
  | rejected (opts : List (Str × OptVal))

/-- `argv[i][0] == '-'` -/
def startsDash : Str → Bool
  | c :: _ => c == '-'
  | [] => false

/-- cmd/Parser.h:97-121: the option loop; `argv` are the words not yet consumed. -/
def parseOptions (R : Rnd) (opts : List (Str × OptVal)) (help : Bool) :
    List Str → OptionsOutcome
  | [] => .done opts help []
  | arg :: argv =>
    if arg.length < 2 || !startsDash arg then .done opts help (arg :: argv)
    else if arg = "--".toList then .done opts help argv
    else if arg = "--help".toList then parseOptions R opts true argv
    else
      match AMap.find? (arg.drop 2) opts with
      | none => .rejected opts
      | some v =>
        if v.isBoolean then
          match argv with
          | w :: argv' =>
            if startsDash w then
              let (ok, v) := v.parseOpt R []
              if ok then parseOptions R (AMap.set (arg.drop 2) v opts) help (w :: argv')
              else .rejected (AMap.set (arg.drop 2) v opts)
            else
              let (ok, v) := v.parseOpt R w
              if ok then parseOptions R (AMap.set (arg.drop 2) v opts) help argv'
              else .rejected (AMap.set (arg.drop 2) v opts)
          | [] =>
            let (ok, v) := v.parseOpt R []
            if ok then .done (AMap.set (arg.drop 2) v opts) help []
            else .rejected (AMap.set (arg.drop 2) v opts)
        else
          match argv with
          | w :: argv' =>
            let (ok, v) := v.parseOpt R w
            if ok then parseOptions R (AMap.set (arg.drop 2) v opts) help argv'
            else .rejected (AMap.set (arg.drop 2) v opts)
          | [] => .rejected opts
  termination_by argv => argv.length

/-- cmd/Parser.h:128-135 and 143-150: assigns words to arguments until one of them runs out.
Returns whether all parsed, the arguments, the number of assigned arguments and the rest. -/
def parseArgs (R : Rnd) : List OptVal → List Str → Bool × List OptVal × Nat × List Str
  | [], argv => (true, [], 0, argv)
  | vs, [] => (true, vs, 0, [])
  | v :: vs, w :: argv =>
    let (ok, v) := v.parseArg R w
    if ok then
      let (ok, vs, n, argv) := parseArgs R vs argv
      (ok, v :: vs, n + 1, argv)
    else (false, v :: vs, 0, w :: argv)

/-- cmd/Parser.h:92-163 `Parse`; `argv` excludes `argv[0]`. -/
def parse (R : Rnd) (p : Parser) (argv : List Str) : ParseOutcome × Parser :=
  match parseOptions R p.opts false argv with
  | .rejected opts => (.rejected, { p with opts := opts })
  | .done opts true _ => (.exitHelp, { p with opts := opts })
  | .done opts false rest =>
    match parseArgs R p.args rest with
    | (false, args, _, _) => (.rejected, { p with opts := opts, args := args })
    | (true, args, n, rest) =>
      if n < p.args.length then (.rejected, { p with opts := opts, args := args })
      else
        match parseArgs R p.optArgs rest with
        | (false, oargs, _, _) => (.rejected, ⟨opts, args, oargs⟩)
        | (true, oargs, _, rest) =>
          if rest.isEmpty then (.accepted, ⟨opts, args, oargs⟩)
          else (.rejected, ⟨opts, args, oargs⟩)

end Parser

end Kws
