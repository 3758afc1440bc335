import Verif.Spec.Evaluation
import Mathlib.Data.List.ReduceOption

/-!
# Specification of the number of hits
-/

namespace Kws.Spec
variable {RE HE : Type}

/-- The number of pairs of a reference and a hypothesis. -/
def hitCount (ms : List (Match RE HE)) : Nat := ms.countP (fun m => m.ref.isSome && m.hyp.isSome)

/-- The number of references without hypothesis. -/
def missCount (ms : List (Match RE HE)) : Nat := ms.countP (fun m => m.ref.isSome && m.hyp.isNone)

/-- A way to give each hypothesis of a list an acceptable reference or none, no reference twice. -/
def Assignment (ok : RE → HE → Prop) (hyps : List HE) (given : List (Option RE)) : Prop :=
  List.Forall₂ (fun h g => ∀ r, g = some r → ok r h) hyps given ∧ given.reduceOption.Nodup

/-- A hypothesis may be given a reference: same query and document, and at least half of it is
covered. -/
def BoxPair (r : Event Str (DocBox Str UInt32)) (h : ScoredEvent Str (DocBox Str UInt32)) : Prop :=
  r.query = h.base.query ∧ 0 < commonU r h.base ∧ areaU h.base ≤ 2 * commonU r h.base

end Kws.Spec
