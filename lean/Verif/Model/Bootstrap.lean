import Verif.Model.Assessment
import Mathlib.Data.Rat.Floor

/-!
# core/Bootstrapping.h
-/

namespace Kws

/-- `std::default_random_engine` together with `std::uniform_int_distribution<size_t>(0, max)`:
`draw max g` is the next number in `0..max`. Theorems quantify over all such generators. -/
structure Rng (G : Type) where
  seed : Nat → G
  draw : Nat → G → Nat × G
  inRange : ∀ max g, (draw max g).1 ≤ max

section Sampler
variable {G M : Type}

/-- core/Bootstrapping.h:25-27 and 51-54: `n` draws `push_back(original[mdist(rng_)])` -/
def drawN (rng : Rng G) (original : List M) (max : Nat) : Nat → G → Cpp (List M × G)
  | 0, g => return ([], g)
  | n + 1, g => do
    let (k, g) := rng.draw max g
    match original[k]? with
    | none => .error .ub
    | some m =>
      let (ms, g) ← drawN rng original max n g
      return (m :: ms, g)

/-- `std::vector::resize(n)`: truncate, or append default-constructed elements -/
def resize (dflt : M) (n : Nat) (l : List M) : List M :=
  l.take n ++ List.replicate (n - l.length) dflt

/-- core/Bootstrapping.h:21-28 `MatchesSampler::operator()`. The output vector is *resized*, and
then the draws are appended. (`n - 1` is computed in `size_t`; for `n = 0` nothing is drawn.) -/
def matchesSampler (rng : Rng G) (dflt : M) (original sampled : List M) (g : G) :
    Cpp (List M × G) := do
  let n := original.length
  let (ms, g) ← drawN rng original (n - 1) n g
  return (resize dflt n sampled ++ ms, g)

/-- core/Bootstrapping.h:47-55: `n` more resampled groups -/
def drawGroups (rng : Rng G) (original : List (List M)) (max : Nat) :
    Nat → G → Cpp (List (List M) × G)
  | 0, g => return ([], g)
  | n + 1, g => do
    let (q, g) := rng.draw max g
    match original[q]? with
    | none => .error .ub
    | some ms =>
      let (s, g) ← drawN rng ms (ms.length - 1) ms.length g
      let (ss, g) ← drawGroups rng original max n g
      return (s :: ss, g)

/-- core/Bootstrapping.h:42-56 `MatchesByQuerySampler::operator()` (the output vector is cleared
first) -/
def matchesByQuerySampler (rng : Rng G) (original : List (List M)) (g : G) :
    Cpp (List (List M) × G) :=
  drawGroups rng original (original.length - 1) original.length g

end Sampler

/-- Conversion `(size_t)x` of a `double`: truncation; undefined if the result does not fit. -/
def toSize (x : ℚ) : Cpp Nat :=
  if -1 < x ∧ x < 2 ^ 64 then .ok ⌊x⌋.toNat else .error .ub

/-- `v[i]` -/
def vecAt {α : Type} (v : List α) (i : Nat) : Cpp α :=
  match v[i]? with
  | some a => .ok a
  | none => .error .ub

section CI
variable {C G K : Type} [LinearOrder K] [Sub K]

/-- core/Bootstrapping.h:70-78: the loop collecting the deviations. `rd` is the rounding of
`double` operations on the statistic. -/
def bootstrapLoop (rd : K → K) (statistic : C → Cpp K) (sampler : G → Cpp (C × G))
    (observed : K) : Nat → G → Cpp (List K)
  | 0, _ => return []
  | r + 1, g => do
    let (sample, g) ← sampler g
    let v ← statistic sample
    let rest ← bootstrapLoop rd statistic sampler observed r g
    return rd (v - observed) :: rest

/-- core/Bootstrapping.h:80 -/
def lowerIndex (R : Rnd) (alpha : ℚ) (repetitions : Nat) : Cpp Nat :=
  toSize (R.f64 (R.f64 (1 - R.f64 (alpha * (1 / 2))) * R.f64 repetitions))

/-- core/Bootstrapping.h:81 -/
def upperIndex (R : Rnd) (alpha : ℚ) (repetitions : Nat) : Cpp Nat :=
  toSize (R.f64 (R.f64 (alpha * (1 / 2)) * R.f64 repetitions))

/-- core/Bootstrapping.h:62-85 `ComputePercentileBootstrapCI` with a sampler. Returns the observed
statistic, the lower bound and the upper bound. -/
def percentileCI (R : Rnd) (S : StdSort) (rd : K → K) (original : C) (repetitions : Nat)
    (alpha : ℚ) (statistic : C → Cpp K) (sampler : G → Cpp (C × G)) (g : G) :
    Cpp (K × K × K) := do
  let observed ← statistic original
  let diffs ← bootstrapLoop rd statistic sampler observed repetitions g
  let diffs ← S.sort (fun a b => decide (a < b)) diffs
  let li ← lowerIndex R alpha repetitions
  let ui ← upperIndex R alpha repetitions
  let dl ← vecAt diffs li
  let du ← vecAt diffs ui
  return (observed, rd (observed - dl), rd (observed - du))

/-- core/Bootstrapping.h:87-98 `ComputePercentileBootstrapCI` for grouped matches -/
def percentileCIGrouped {M : Type} (R : Rnd) (S : StdSort) (rd : K → K) (rng : Rng G)
    (grouped : List (List M)) (repetitions : Nat) (alpha : ℚ) (seed : Nat)
    (statistic : List (List M) → Cpp K) : Cpp (K × K × K) :=
  percentileCI R S rd grouped repetitions alpha statistic
    (matchesByQuerySampler rng grouped) (rng.seed seed)

end CI

end Kws
