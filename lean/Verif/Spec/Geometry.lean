import Mathlib.Order.Interval.Finset.Nat
import Mathlib.Data.Int.Interval
import Mathlib.Data.Finset.Prod
import Verif.Model.Events

/-!
# Specification of box geometry: a box is a finite set of unit cells
-/

namespace Kws.Spec

/-- The unit cells of an unsigned box: columns `x .. x+w-1`, rows `y .. y+h-1` (mathematical
integers, no wrap-around). -/
def cellsU (b : BBox UInt32) : Finset (ℕ × ℕ) :=
  Finset.Ico b.x.toNat (b.x.toNat + b.w.toNat) ×ˢ Finset.Ico b.y.toNat (b.y.toNat + b.h.toNat)

/-- The unit cells of a signed box (empty if a side is not positive). -/
def cellsI (b : BBox Int32) : Finset (ℤ × ℤ) :=
  Finset.Ico b.x.toInt (b.x.toInt + b.w.toInt) ×ˢ Finset.Ico b.y.toInt (b.y.toInt + b.h.toInt)

/-- The right and bottom edges of an unsigned box are representable. -/
def EdgesOkU (b : BBox UInt32) : Prop :=
  b.x.toNat + b.w.toNat < 2 ^ 32 ∧ b.y.toNat + b.h.toNat < 2 ^ 32

/-- The value fits `int`. -/
def FitsInt (z : ℤ) : Prop := -2 ^ 31 ≤ z ∧ z < 2 ^ 31

/-- The right and bottom edges of a signed box are representable. -/
def EdgesOkI (b : BBox Int32) : Prop :=
  FitsInt (b.x.toInt + b.w.toInt) ∧ FitsInt (b.y.toInt + b.h.toInt)

end Kws.Spec
