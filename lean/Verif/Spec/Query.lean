import Verif.Spec.Reading

/-!
# Specification of query set and query groups files
-/

namespace Kws.Spec

/-- The group that a groups file assigns to a query, given the words of each line: the first word of
the last line that has the query among its other words. -/
def groupIn {α : Type} [DecidableEq α] (lines : List (List α)) (q : α) : Option α :=
  (lines.filter (fun l => q ∈ l.tail)).getLast?.bind List.head?

/-- The queries listed in a groups file. -/
def listedIn (lines : List (List Str)) : List Str := lines.flatMap List.tail

/-- Every line has a group and at least one query. -/
def WellFormedGroups (lines : List (List Str)) : Prop := ∀ l ∈ lines, 2 ≤ l.length

/-- Events whose query is listed; all events if nothing is listed. -/
def keep {E : Type} (query : E → Str) (listed : List Str) (es : List E) : List E :=
  if listed = [] then es else es.filter (fun e => query e ∈ listed)

end Kws.Spec
