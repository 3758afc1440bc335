import Verif.Spec.Query
import Verif.Model.Tool

/-!
# Specification of what the query options select
-/

namespace Kws.Spec

/-- A query set selects its words, each as a group of its own, and all queries if it is empty. -/
def setSelection (ws : List Str) : Str → Option Str :=
  if ws = [] then some else fun q => if q ∈ ws then some q else none

/-- A file of groups selects the listed queries, and all queries if it has no lines. -/
def groupSelection (ls : List (List Str)) : Str → Option Str := if ls = [] then some else groupIn ls

/-- What the query options ask for: the group of each query that is evaluated, `none` for a query
that is left out. There is no selection if the file is missing or not well formed. A file of groups
has priority over a query set. -/
def selection (w : World) (o : ToolOptions) : Option (Str → Option Str) :=
  if o.queryGroups ≠ [] then
    (w.file o.queryGroups).bind fun text =>
      let ls := (lines text).map words
      if ∀ l ∈ ls, 2 ≤ l.length then some (groupSelection ls) else none
  else if o.querySet ≠ [] then (w.file o.querySet).map fun text => setSelection (words text)
  else some some

/-- Of the queries with property `P`, the same ones are evaluated, and the same ones together. -/
def SameSelection (P : Str → Prop) (f g : Str → Option Str) : Prop :=
  ∀ q, P q → ((f q).isSome ↔ (g q).isSome) ∧
    ∀ q', P q' → (f q).isSome → (f q').isSome → (f q = f q' ↔ g q = g q')

end Kws.Spec
