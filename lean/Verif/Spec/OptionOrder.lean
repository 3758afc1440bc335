import Verif.Spec.CommandLine

/-!
# Specification of reordered options
-/

namespace Kws.Spec

/-- The same options in another order, where the occurrences of each option keep their order. -/
structure ReorderedItems (items items' : List OptItem) : Prop where
  perm : items.Perm items'
  each : ∀ name, items.filter (fun it => it.word.drop 2 == name) = items'.filter (fun it => it.word.drop 2 == name)

/-- What follows the options cannot be taken for the value of the last one: the last one has a value (or is
`--help`), or a word with a dash follows. -/
def NotSwallowed (items : List OptItem) (tail : List Str) : Prop :=
  (∀ it, items.getLast? = some it → it.value ≠ none ∨ it.word = "--help".toList) ∨
    ∀ w, tail.head? = some w → w.head? = some '-'

end Kws.Spec
