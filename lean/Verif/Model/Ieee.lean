import Mathlib.Data.Int.Log
import Mathlib.Algebra.Order.Floor.Ring
import Mathlib.Data.Rat.Floor
import Verif.Model.Cpp

/-!
# IEEE-754 binary32 and binary64 rounding

Round to nearest, ties to even, with gradual underflow. There is no largest number here;
that overflow does not influence what the tools write is proved separately (C123).
-/

namespace Kws.Ieee

/-- Nearest integer, ties to even. -/
def rne (x : ℚ) : ℤ :=
  if x - ⌊x⌋ < 1 / 2 then ⌊x⌋
  else if 1 / 2 < x - ⌊x⌋ then ⌊x⌋ + 1
  else if ⌊x⌋ % 2 = 0 then ⌊x⌋ else ⌊x⌋ + 1

/-- Exponent of the last bit of the significand for a positive number `x`. -/
def quantum (p : ℕ) (emin : ℤ) (x : ℚ) : ℤ := max (Int.log 2 x - (p - 1)) emin

/-- Rounding of a positive number to `p` significant bits, last bit at least `2^emin`. -/
def roundPos (p : ℕ) (emin : ℤ) (x : ℚ) : ℚ :=
  rne (x / 2 ^ quantum p emin x) * 2 ^ quantum p emin x

/-- Rounding of any number. -/
def round (p : ℕ) (emin : ℤ) (x : ℚ) : ℚ :=
  if 0 < x then roundPos p emin x else if x < 0 then -roundPos p emin (-x) else 0

end Kws.Ieee

namespace Kws

/-- `float` and `double` arithmetic of IEEE-754. -/
def Rnd.ieee : Rnd := ⟨Ieee.round 24 (-149), Ieee.round 53 (-1074)⟩

end Kws
