import Mathlib.Data.Int.Log
import Mathlib.Data.List.DropRight
import Mathlib.Algebra.Order.Floor.Ring
import Mathlib.Data.Rat.Floor
import Verif.Model.Stream

/-!
# `std::ostream` insertion of floating-point numbers in the "C" locale

The meaning of the library (libstdc++ with glibc's `printf`): the exact value of the number is
rounded to the printed digits, to nearest, ties to even. The default format is `%g` with precision 6
(used for the metrics, the scores and the match errors); `std::scientific` is `%e` with precision 6
(used for the curves). The numbers are exact elements of an ordered field, so that the metrics that
the model computes over `ℝ` can be printed too. The sign of a zero is not modelled: a negative zero
is printed here as `0`.
-/

namespace Kws

section
variable {K : Type} [Field K] [LinearOrder K] [FloorRing K]

/-- Nearest integer, ties to even. -/
def roundEven (x : K) : ℤ :=
  if x - ⌊x⌋ < 1 / 2 then ⌊x⌋
  else if 1 / 2 < x - ⌊x⌋ then ⌊x⌋ + 1
  else if ⌊x⌋ % 2 = 0 then ⌊x⌋ else ⌊x⌋ + 1

/-- The decimal exponent and the `p + 1` significant digits (as one integer) of a number that is not
negative, as `%.pe` prints them: rounding up to the next power of ten changes the exponent. -/
def sciDigits (p : ℕ) (x : K) : ℤ × ℕ :=
  if x = 0 then (0, 0)
  else
    let e := Int.log 10 x
    let s := (roundEven (x / 10 ^ (e - p))).toNat
    if s = 10 ^ (p + 1) then (e + 1, 10 ^ p) else (e, s)

end

/-- The last `k` decimal digits of a number. -/
def digitsOf : ℕ → ℕ → Str
  | 0, _ => []
  | k + 1, n => digitsOf k (n / 10) ++ [Char.ofNat (48 + n % 10)]

/-- Integer and fractional digits; without fractional digits there is no point. -/
def withPoint (int frac : Str) : Str := if frac = [] then int else int ++ '.' :: frac

/-- The exponent of `%e`: a sign and at least two digits. -/
def showExponent (e : ℤ) : Str :=
  'e' :: (if e < 0 then '-' else '+') ::
    (if e.natAbs < 100 then digitsOf 2 e.natAbs else showNat e.natAbs)

/-- A text without the zeros at its end. -/
def stripZeros (s : Str) : Str := s.rdropWhile (· == '0')

section
variable {K : Type} [Field K] [LinearOrder K] [FloorRing K]

/-- `os << std::scientific << x`, i.e. `%.6e` -/
def showScientific (x : K) : Str :=
  let (e, s) := sciDigits 6 |x|
  let ds := digitsOf 7 s
  (if x < 0 then ['-'] else []) ++ withPoint (ds.take 1) (ds.drop 1) ++ showExponent e

/-- `os << x` with the default format, i.e. `%g`: six significant digits, without trailing zeros; in
scientific notation if the exponent is less than -4 or at least 6. -/
def showGeneral (x : K) : Str :=
  let (e, s) := sciDigits 5 |x|
  let ds := digitsOf 6 s
  (if x < 0 then ['-'] else []) ++
    (if e < -4 ∨ 6 ≤ e then
      withPoint (ds.take 1) (stripZeros (ds.drop 1)) ++ showExponent e
    else if 0 ≤ e then
      withPoint (ds.take (e.toNat + 1)) (stripZeros (ds.drop (e.toNat + 1)))
    else withPoint ['0'] (stripZeros (List.replicate (-e - 1).toNat '0' ++ ds)))

end

/-- `os << x` for a `float` that may be infinite or NaN. The sign of a NaN is not modelled (on
x86, the NaN of `0.0 / 0` prints as `-nan`). -/
def showFlt (fin : ℚ → Str) : Flt → Str
  | .nan => "nan".toList
  | .ninf => "-inf".toList
  | .pinf => "inf".toList
  | .fin x => fin x

end Kws
