import Verif.Model.Ieee
import Verif.Model.ToolDouble

/-!
# Specification of overflow
-/

namespace Kws.Spec
open Kws

/-- A rounding with the largest finite numbers of IEEE-754. `Rnd.ieee` has no largest number: it says what the
result of an operation would be if exponents were unbounded. If that is a finite number of the format, it is the
result. Otherwise the operation overflows, and the result is anything that is larger than all finite numbers: the
value that stands for infinity is not fixed, and it may even differ from operation to operation. -/
structure Overflowing (R : Rnd) : Prop where
  fits32 : ∀ x, |Rnd.ieee.f32 x| ≤ fltMax → R.f32 x = Rnd.ieee.f32 x
  over32 : ∀ x, fltMax < Rnd.ieee.f32 x → fltMax < R.f32 x
  under32 : ∀ x, Rnd.ieee.f32 x < -fltMax → R.f32 x < -fltMax
  fits64 : ∀ x, |Rnd.ieee.f64 x| ≤ dblMax → R.f64 x = Rnd.ieee.f64 x
  over64 : ∀ x, dblMax < Rnd.ieee.f64 x → dblMax < R.f64 x
  under64 : ∀ x, Rnd.ieee.f64 x < -dblMax → R.f64 x < -dblMax

/-- Files and standard input have less than `2^60` characters (a million terabytes). -/
structure SmallInputs (w : World) : Prop where
  file : ∀ name text, w.file name = some text → text.length < 2 ^ 60
  stdin : w.stdin.length < 2 ^ 60

end Kws.Spec

namespace Kws

/-- A mathematical library that is not completely wrong: where NDCG uses them, powers of two are between 0 and 4,
and logarithms between a half and the argument. (The true values are between 0 and 2, and at least 1.) -/
structure Libm.Sane (m : Libm) : Prop where
  exp2 : ∀ r, r ≤ 1 → 0 ≤ m.exp2 r ∧ m.exp2 r ≤ 4
  log2 : ∀ x, 2 ≤ x → 1 / 2 ≤ m.log2 x ∧ m.log2 x ≤ x

end Kws
