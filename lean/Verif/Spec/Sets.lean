import Verif.Spec.Geometry
import Verif.Spec.Order
import Verif.Model.EventSets

/-!
# Specification of event sets: which events a history of operations leaves in the set
-/

namespace Kws.Spec

/-- A call on an event set. -/
inductive SetOp (E : Type)
  | insert (e : E)
  | remove (e : E)
  | clear

/-- `e` was inserted at some point, and neither removed nor swept by a `Clear` afterwards. -/
def Present {E : Type} (ops : List (SetOp E)) (e : E) : Prop :=
  ∃ before after, ops = before ++ SetOp.insert e :: after ∧
    SetOp.remove e ∉ after ∧ SetOp.clear ∉ after

/-- `n` is the number of events with property `P`. -/
def HasCount {E : Type} (P : E → Prop) (n : Nat) : Prop :=
  ∃ F : Finset E, (∀ e, e ∈ F ↔ P e) ∧ F.card = n

/-- Order of the results of an overlap search with areas `area`: larger intersection first, ties
by decreasing event. -/
def OverlapBefore {E T : Type} (areaLt : T → T → Prop) (evLt : E → E → Prop) (area : E → T)
    (x y : E) : Prop :=
  areaLt (area y) (area x) ∨ area x = area y ∧ evLt y x

end Kws.Spec

namespace Kws
open Spec

/-- Perform a call on a plain set. -/
def EventSet.step {E : Type} [Cmp E] (s : EventSet E) : SetOp E → EventSet E
  | .insert e => s.insert e
  | .remove e => s.remove e
  | .clear => s.clear

/-- Perform a call on a document set. -/
def DocEventSet.step {Q D T : Type} [DecidableEq Q] [DecidableEq D] [Cmp Q] [Cmp D] [Coord T]
    (s : DocEventSet Q D T) : SetOp (Event Q (DocBox D T)) → DocEventSet Q D T
  | .insert e => s.insert e
  | .remove e => s.remove e
  | .clear => s.clear

end Kws
