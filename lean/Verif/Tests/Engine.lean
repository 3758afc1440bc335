import Verif.Model.Engine

/-!
# A test of the engine

This is a test of the model, not a proof about it. The C++ standard ([rand.predef]) gives the 10000th number of a
default-constructed `minstd_rand0`, whose seed is 1.
-/

namespace Kws.Tests

/-- [rand.predef]: the 10000th number of `minstd_rand0` is 1043618065. -/
example : (MinStd.next^[10000] (MinStd.seed 1)).1 = 1043618065 := by decide +kernel

end Kws.Tests
