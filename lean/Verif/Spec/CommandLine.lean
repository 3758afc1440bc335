import Verif.Model.Cmd

/-!
# Specification of command lines
-/

namespace Kws.Spec

/-- An option on the command line: the word that selects it and the text of its value, if given. -/
structure OptItem where
  word : Str
  value : Option Str

/-- The words of an option. -/
def OptItem.render (it : OptItem) : List Str := it.word :: it.value.toList

/-- At least two characters, the first one a dash. -/
def OptionLike (w : Str) : Prop := 2 ≤ w.length ∧ w.head? = some '-'

/-- The word selects the option `name`: a dash, any character (normally a dash) and the name. -/
def Selects (w name : Str) : Prop :=
  (∃ c, w = '-' :: c :: name) ∧ w ≠ "--".toList ∧ w ≠ "--help".toList

/-- The value given by the last occurrence of the option `name`; an option without value has the
empty text. -/
def lastText (items : List OptItem) (name : Str) : Option Str :=
  ((items.filter (fun it => it.word.drop 2 == name)).getLast?).map (fun it => it.value.getD [])

/-- The value of a variable with default `v` to which the text is assigned, if there is one. -/
def valueAfter (R : Rnd) (v : OptVal) : Option Str → OptVal
  | none => v
  | some s => (v.parseOpt R s).2

/-- The item is `--help`, or selects a registered option and has a valid value. A boolean option can
come without value if the next word, if any, starts with a dash; and its value cannot start with a
dash. -/
def ItemOk (R : Rnd) (opts : List (Str × OptVal)) (it : OptItem) (next : List Str) : Prop :=
  (it.word = "--help".toList ∧ it.value = none) ∨
  ∃ name v, Selects it.word name ∧ AMap.find? name opts = some v ∧
    ((v.isBoolean = false ∧ ∃ s, it.value = some s ∧ (v.parseOpt R s).1 = true) ∨
     (v.isBoolean = true ∧ it.value = none ∧ ∀ w, next.head? = some w → w.head? = some '-') ∨
     (v.isBoolean = true ∧ ∃ s, it.value = some s ∧ s.head? ≠ some '-' ∧
        (v.parseOpt R s).1 = true))

/-- All items are fine, where `tail` are the words after them. -/
def ItemsOk (R : Rnd) (opts : List (Str × OptVal)) : List OptItem → List Str → Prop
  | [], _ => True
  | it :: items, tail => ItemOk R opts it (items.flatMap OptItem.render ++ tail) ∧
      ItemsOk R opts items tail

/-- The part of the command line after the options is `tail`, the positional arguments are `pos`. -/
def TailOk (tail pos : List Str) : Prop :=
  tail = "--".toList :: pos ∨ (tail = pos ∧ ∀ w, pos.head? = some w → ¬ OptionLike w)

/-- The texts are valid for the positional arguments they are assigned to. -/
def ArgsOk (R : Rnd) (vs : List OptVal) (ws : List Str) : Prop :=
  ∀ p ∈ vs.zip ws, (p.1.parseArg R p.2).1 = true

/-- The positional variables after assigning the texts in order. -/
def assigned (R : Rnd) (vs : List OptVal) (ws : List Str) : List OptVal :=
  List.zipWith (fun v s => (v.parseArg R s).2) vs ws ++ vs.drop ws.length

/-- The option variables after the items. -/
def optsAfter (R : Rnd) (opts : List (Str × OptVal)) (items : List OptItem) : List (Str × OptVal) :=
  opts.map fun nv => (nv.1, valueAfter R nv.2 (lastText items nv.1))

/-- Names are unique and `help` is not among them. -/
def WellRegistered (p : Parser) : Prop :=
  (p.opts.map Prod.fst).Nodup ∧ "help".toList ∉ p.opts.map Prod.fst

/-- A command line that is accepted: options, then the right number of valid positional arguments. -/
def WellFormedLine (R : Rnd) (p : Parser) (argv : List Str) : Prop := ∃ items tail pos,
  argv = items.flatMap OptItem.render ++ tail ∧ ItemsOk R p.opts items tail ∧ TailOk tail pos ∧
  (∀ it ∈ items, it.word ≠ "--help".toList) ∧ p.args.length ≤ pos.length ∧
  pos.length ≤ p.args.length + p.optArgs.length ∧ ArgsOk R p.args pos ∧
  ArgsOk R p.optArgs (pos.drop p.args.length)

/-- A command line that asks for help: `--help` is among its options, which are all fine. -/
def AsksHelp (R : Rnd) (p : Parser) (argv : List Str) : Prop := ∃ items tail pos,
  argv = items.flatMap OptItem.render ++ tail ∧ ItemsOk R p.opts items tail ∧ TailOk tail pos ∧
  ∃ it ∈ items, it.word = "--help".toList

end Kws.Spec
