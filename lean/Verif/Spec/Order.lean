import Verif.Model.Events
import Verif.Model.Mapper

/-!
# Specification of comparison operators
-/

namespace Kws.Spec

/-- The six operators agree with the strict total order `r` on the elements satisfying `P`. -/
structure SixOps {α : Type} (P : α → Prop) (r : α → α → Prop)
    (eq ne lt gt le ge : α → α → Bool) : Prop where
  irrefl : ∀ a, P a → ¬ r a a
  trans : ∀ a b c, P a → P b → P c → r a b → r b c → r a c
  tri : ∀ a b, P a → P b → r a b ∨ a = b ∨ r b a
  eq_iff : ∀ a b, P a → P b → (eq a b = true ↔ a = b)
  ne_iff : ∀ a b, P a → P b → (ne a b = true ↔ a ≠ b)
  lt_iff : ∀ a b, P a → P b → (lt a b = true ↔ r a b)
  gt_iff : ∀ a b, P a → P b → (gt a b = true ↔ r b a)
  le_iff : ∀ a b, P a → P b → (le a b = true ↔ r a b ∨ a = b)
  ge_iff : ∀ a b, P a → P b → (ge a b = true ↔ r b a ∨ a = b)

/-- Lexicographic order on boxes: left edge, top edge, width, height. -/
def BoxLt {T : Type} (lt : T → T → Prop) (a b : BBox T) : Prop :=
  lt a.x b.x ∨ a.x = b.x ∧ (lt a.y b.y ∨ a.y = b.y ∧ (lt a.w b.w ∨ a.w = b.w ∧ lt a.h b.h))

/-- Document boxes: document name first, then the box. -/
def DocBoxLt {D T : Type} (ltD : D → D → Prop) (lt : T → T → Prop) (a b : DocBox D T) : Prop :=
  ltD a.document b.document ∨ a.document = b.document ∧ BoxLt lt a.toBBox b.toBBox

/-- Events: query first, then the location. -/
def EventLt {Q L : Type} (ltQ : Q → Q → Prop) (ltL : L → L → Prop) (a b : Event Q L) : Prop :=
  ltQ a.query b.query ∨ a.query = b.query ∧ ltL a.location b.location

/-- The order of the extended real line on scores that are not NaN. -/
def ScoreLt : Flt → Flt → Prop
  | .ninf, .fin _ => True
  | .ninf, .pinf => True
  | .fin a, .fin b => a < b
  | .fin _, .pinf => True
  | _, _ => False

/-- Scored events: score first, then the event. -/
def ScoredLt {Q L : Type} (ltQ : Q → Q → Prop) (ltL : L → L → Prop)
    (a b : ScoredEvent Q L) : Prop :=
  ScoreLt a.score b.score ∨ a.score = b.score ∧ EventLt ltQ ltL a.base b.base

end Kws.Spec
