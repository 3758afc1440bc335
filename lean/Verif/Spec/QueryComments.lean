import Verif.Spec.Reading
import Verif.Spec.QueryFiles

/-!
# Specification of comments in files of queries
-/

namespace Kws.Spec

/-- The second list of lines is the first with the comments `cs` added, at any places. -/
inductive CommentsAdded : List Str → List Str → List Str → Prop
  | nil : CommentsAdded [] [] []
  | keep (l : Str) {ls ls' cs : List Str} : CommentsAdded ls ls' cs → CommentsAdded (l :: ls) (l :: ls') cs
  | add (c : Str) {ls ls' cs : List Str} : Comment c → CommentsAdded ls ls' cs → CommentsAdded ls (c :: ls') (c :: cs)

/-- The query set or the groups of the second run are those of the first with comments added, and none of their
words has the property `P`. There is at least one query in the first file; all comments in a file of groups have two
or more words. -/
def CommentedQueries (w : World) (o : ToolOptions) (querySet queryGroups : Str) (P : Str → Prop) : Prop :=
  (∃ t t' cs, o.queryGroups = [] ∧ queryGroups = [] ∧ o.querySet ≠ [] ∧ querySet ≠ [] ∧
    w.file o.querySet = some t ∧ w.file querySet = some t' ∧ CommentsAdded (lines t) (lines t') cs ∧
    words t ≠ [] ∧ ∀ c ∈ cs, ∀ q ∈ words c, ¬ P q) ∨
  (∃ t t' cs, o.queryGroups ≠ [] ∧ queryGroups ≠ [] ∧
    w.file o.queryGroups = some t ∧ w.file queryGroups = some t' ∧ CommentsAdded (lines t) (lines t') cs ∧
    words t ≠ [] ∧ (∀ l ∈ lines t', 2 ≤ (words l).length) ∧ ∀ c ∈ cs, ∀ q ∈ words c, ¬ P q)

end Kws.Spec
