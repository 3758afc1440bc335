import Verif.Spec.Dilution
import Verif.Spec.Tail

/-! # Specification of more references, which nothing finds -/

namespace Kws.Spec

/-- The events `refs'` are those of `refs` and of `more`. -/
def AddsRefs {E : Type} (refs more refs' : List E) : Prop := ∀ r, r ∈ refs' ↔ r ∈ refs ∨ r ∈ more

/-- Two lists of matches. Both begin with the same matches of hypotheses and end with references without a
hypothesis; those of the second are those of the first, in the same order, and those of `more` between them. -/
def OnlyMissesAdded {Q L : Type} (more : List (Event Q L))
    (ms ms' : List (Match (Event Q L) (ScoredEvent Q L))) : Prop :=
  ∃ found missed missed', ms = found ++ missed ∧ ms' = found ++ missed' ∧
    (∀ m ∈ found, m.hyp ≠ none) ∧ (∀ m ∈ missed ++ missed', m.hyp = none) ∧
    missed.Sublist missed' ∧
    ∀ m, m ∈ missed' ↔ m ∈ missed ∨ ∃ r ∈ more, m = ⟨some r, none, Outcome.falseNeg.error⟩

end Kws.Spec
