import Verif.Spec.CutOff
import Verif.Spec.Curves

/-! # Specification: what later hypotheses leave as it is -/

namespace Kws.Spec

/-- Two curves at the same recalls. They agree up to recall `m`, and the first is 0 beyond. -/
def Continued (m : ℚ) (c c' : List (ℚ × ℚ)) : Prop :=
  List.Forall₂ (fun p p' => p'.1 = p.1 ∧ (p.1 ≤ m → p'.2 = p.2) ∧ (m < p.1 → p.2 = 0)) c c'

/-- Two curves at the same recalls, of which the second is nowhere below the first. -/
def NotBelow (c c' : List (ℚ × ℚ)) : Prop := List.Forall₂ (fun p p' => p'.1 = p.1 ∧ p.2 ≤ p'.2) c c'

/-- The part of the references that are found. -/
def recallAtEnd {Q L : Type} [DecidableEq Q] [DecidableEq L] (refs : List (Event Q L))
    (hyps : List (ScoredEvent Q L)) : ℚ :=
  ((refs.toFinset.filter (fun r => ∃ h ∈ hyps, h.base = r)).card : ℚ) / refs.toFinset.card

/-- Two lists of matches and of repeated matches. Both lists of matches begin with the same matches of `hyps`;
those of `extra` come next, and references without a hypothesis at the end. The repeated matches of the first
are the first of the second, and those after them are of `extra`. -/
def SameStart {Q L : Type} (hyps extra : List (ScoredEvent Q L))
    (ms rep ms' rep' : List (Match (Event Q L) (ScoredEvent Q L))) : Prop :=
  ∃ a b m m' r, ms = a ++ m ∧ ms' = a ++ b ++ m' ∧ rep' = rep ++ r ∧
    (∀ x ∈ a, ∃ y ∈ hyps, x.hyp = some y) ∧ (∀ x ∈ b ++ r, ∃ y ∈ extra, x.hyp = some y) ∧
    ∀ x ∈ m ++ m', x.hyp = none

end Kws.Spec
