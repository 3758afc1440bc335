import Mathlib.Data.Nat.Notation

/-!
# Drawing a number from a linear congruential engine

The numbers of the engine go from 1 to 2147483646, so one of them, less 1, is one of `2^31 - 2` numbers.
-/

namespace Kws.Spec

/-- The number after `x`. -/
def follow (x : ℕ) : ℕ := 16807 * x % (2 ^ 31 - 1)

/-- `Draws max x k y`: after the number `x`, a draw of a number from 0 to `max` gives `k`, and `y` is the last number
of the engine that was used. There is no bound on the numbers used.

* A range smaller than that of the engine is cut into intervals of `(2^31 - 3) / (max + 1)` numbers; numbers beyond
  the last interval are thrown away.
* A range larger than that of the engine has two digits in base `2^31 - 2`: the first is drawn in the same way, the
  second is the next number; both are thrown away if they exceed `max`. -/
inductive Draws : ℕ → ℕ → ℕ → ℕ → Prop
  | small {max x k : ℕ} : max + 1 < 2 ^ 31 - 2 → k ≤ max →
      k * ((2 ^ 31 - 3) / (max + 1)) < follow x → follow x ≤ (k + 1) * ((2 ^ 31 - 3) / (max + 1)) →
      Draws max x k (follow x)
  | smallAgain {max x k y : ℕ} : max + 1 < 2 ^ 31 - 2 →
      (max + 1) * ((2 ^ 31 - 3) / (max + 1)) < follow x → Draws max (follow x) k y → Draws max x k y
  | same {x : ℕ} : Draws (2 ^ 31 - 3) x (follow x - 1) (follow x)
  | large {max x first z : ℕ} : 2 ^ 31 - 2 < max + 1 → Draws (max / (2 ^ 31 - 2)) x first z →
      first * (2 ^ 31 - 2) + (follow z - 1) ≤ max →
      Draws max x (first * (2 ^ 31 - 2) + (follow z - 1)) (follow z)
  | largeAgain {max x first z k y : ℕ} : 2 ^ 31 - 2 < max + 1 → Draws (max / (2 ^ 31 - 2)) x first z →
      max < first * (2 ^ 31 - 2) + (follow z - 1) → Draws max (follow z) k y → Draws max x k y

end Kws.Spec
