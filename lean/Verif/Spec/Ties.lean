import Verif.Spec.Evaluation
import Verif.Spec.Sets

/-!
# Specification of the box-based matching with all ties resolved

`BoxMatching` (Spec/Evaluation.lean) leaves open in which order hypotheses with the same score take
their turns, and which of several references that share the same area with a hypothesis it is given.
-/

namespace Kws.Spec

/-- The order of box events: by query, document, left edge, top edge, width and height. -/
def BoxEventLt (a b : Event Str (DocBox Str UInt32)) : Prop :=
  EventLt (· < ·) (DocBoxLt (· < ·) (· < ·)) a b

/-- `a` takes its turn before `b`: it has the higher score, or the same score and the greater event. -/
def TurnBefore (a b : ScoredEvent Str (DocBox Str UInt32)) : Prop :=
  ScoredLt (· < ·) (DocBoxLt (· < ·) (· < ·)) b a

/-- The matches `ms`, in order, and repeated matches `rep` of the box-based evaluation. -/
def ExactBoxMatching (refs : List (Event Str (DocBox Str UInt32)))
    (hyps : List (ScoredEvent Str (DocBox Str UInt32)))
    (ms rep : List (Match (Event Str (DocBox Str UInt32)) (ScoredEvent Str (DocBox Str UInt32)))) :
    Prop :=
  ∃ (l : List (ScoredEvent Str (DocBox Str UInt32)))
    (overl : ScoredEvent Str (DocBox Str UInt32) → List (Event Str (DocBox Str UInt32)))
    (entries : List (Match (Event Str (DocBox Str UInt32)) (ScoredEvent Str (DocBox Str UInt32))))
    (missed : List (Event Str (DocBox Str UInt32))),
    -- the turns
    l.Perm hyps ∧ l.Pairwise (fun a b => TurnBefore a b ∨ a = b) ∧
    -- the references of the same query that share something with a hypothesis, best first; among
    -- those that share the same the greater one comes first
    (∀ h ∈ l, (∀ r, r ∈ overl h ↔ r ∈ refs ∧ r.query = h.base.query ∧ 0 < commonU r h.base) ∧
      (overl h).Pairwise (OverlapBefore (· < ·) BoxEventLt (commonU · h.base))) ∧
    -- each hypothesis is given the first free one that covers at least half of it
    Greedy overl (fun r h => verdict (areaU h.base ≤ 2 * commonU r h.base)) [] l entries rep ∧
    -- the references that are left, in increasing order
    missed.Pairwise BoxEventLt ∧ (∀ r, r ∈ missed ↔ r ∈ refs ∧ ¬ Taken entries r) ∧
    ms = entries ++ missed.map (fun r => ⟨some r, none, Outcome.falseNeg.error⟩)

end Kws.Spec
