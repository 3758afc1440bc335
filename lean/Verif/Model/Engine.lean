import Verif.Model.Bootstrap

/-!
# The random engine of core/Bootstrapping.h

`std::default_random_engine` (core/Bootstrapping.h:31, 59) is `std::minstd_rand0` in libstdc++, that is
`std::linear_congruential_engine<uint_fast32_t, 16807, 0, 2147483647>`, where `uint_fast32_t` has 64 bits on
x86-64, so that a `size_t` is not truncated when it is used as a seed. `std::uniform_int_distribution<size_t>`
is that of libstdc++. The lines cited are those of the headers of GCC 13. Everything in `Model/Bootstrap.lean` is
defined for any generator; this is the one of the program.
-/

namespace Kws

/-- The state of the engine: a number from 1 to 2147483646. -/
abbrev MinStd : Type := { x : ℕ // 0 < x ∧ x < 2147483647 }

namespace MinStd

/-- bits/random.tcc:116-126 `linear_congruential_engine::seed`: the seed modulo 2147483647, or 1 if this is 0 -/
def seed (s : ℕ) : MinStd :=
  if h : s % 2147483647 = 0 then ⟨1, by decide⟩ else ⟨s % 2147483647, by omega⟩

theorem step_range (g : MinStd) : 0 < 16807 * g.1 % 2147483647 ∧ 16807 * g.1 % 2147483647 < 2147483647 := by
  refine ⟨Nat.pos_of_ne_zero fun h => ?_, Nat.mod_lt _ (by decide)⟩
  have hd := Nat.Coprime.dvd_of_dvd_mul_left (by decide : Nat.Coprime 2147483647 16807)
    (Nat.dvd_of_mod_eq_zero h)
  have := Nat.le_of_dvd g.2.1 hd
  have := g.2.2
  omega

/-- bits/random.h:135-146 and 367-372 `linear_congruential_engine::operator()`: the next state, which is also the number drawn -/
def next (g : MinStd) : MinStd := ⟨16807 * g.1 % 2147483647, step_range g⟩

/-- bits/uniform_int_dist.h:336-338 `uniform_int_distribution::operator()`: the loop
`do ret = urng() - urng.min(); while (ret >= past);`, with at most `n` iterations -/
def reject (past : ℕ) : ℕ → MinStd → Option (ℕ × MinStd)
  | 0, _ => none
  | n + 1, g => if past ≤ (next g).1 - 1 then reject past n (next g) else some ((next g).1 - 1, next g)

/-- bits/uniform_int_dist.h:308-341 `uniform_int_distribution::operator()` with parameters 0 and `max`, if
`max < urng.max() - urng.min()`: the loop above, and a division of its result. `C107_draws` shows that 2147483646
iterations are enough, so that the other case of the `match` does not occur. -/
def downscale (max : ℕ) (g : MinStd) : ℕ × MinStd :=
  let scaling := 2147483645 / (max + 1)
  match reject ((max + 1) * scaling) 2147483646 g with
  | some (ret, g) => (ret / scaling, g)
  | none => (0, g)

/-- bits/uniform_int_dist.h:358-366 `uniform_int_distribution::operator()`: the loop for ranges larger than that of
the engine, with at most `n` iterations; `high` is the recursive call with the parameters 0 and
`max / 2147483646`. The sums and products of `uint64_t` wrap. -/
def upscale (max : ℕ) (high : MinStd → ℕ × MinStd) : ℕ → MinStd → Option (ℕ × MinStd)
  | 0, _ => none
  | n + 1, g =>
    let tmp := 2147483646 * (high g).1 % 2 ^ 64
    let g := next (high g).2
    let ret := (tmp + (g.1 - 1)) % 2 ^ 64
    if max < ret ∨ ret < tmp then upscale max high n g else some (ret, g)

/-- bits/uniform_int_dist.h:299-372 `uniform_int_distribution::operator()` with parameters 0 and `max`, with at most
`n` recursive calls inside one another -/
def drawAt : ℕ → ℕ → MinStd → ℕ × MinStd
  | 0, max, g => downscale max g
  | n + 1, max, g =>
    if max < 2147483645 then downscale max g
    else if 2147483645 < max then
      match upscale max (drawAt n (max / 2147483646)) 2147483647 g with
      | some r => r
      | none => (0, g)
    else ((next g).1 - 1, next g)

/-- bits/uniform_int_dist.h:299-372 `uniform_int_distribution::operator()` with parameters 0 and `max`. `C107_draws`
shows that two recursive calls and the iterations allowed are enough for all `max < 2^64`. -/
def draw (max : ℕ) (g : MinStd) : ℕ × MinStd := drawAt 2 max g

theorem reject_lt {past n : ℕ} {g : MinStd} {r : ℕ × MinStd} (h : reject past n g = some r) : r.1 < past := by
  induction n generalizing g with
  | zero => cases h
  | succ n ih =>
    unfold reject at h
    split at h
    · exact ih h
    · obtain rfl := Option.some.inj h
      omega

theorem downscale_le (max : ℕ) (g : MinStd) : (downscale max g).1 ≤ max := by
  unfold downscale
  dsimp only
  split
  · rename_i r h
    have := reject_lt h
    exact Nat.lt_succ_iff.1 (Nat.div_lt_of_lt_mul (by rw [Nat.mul_comm]; exact this))
  · exact Nat.zero_le _

theorem upscale_le {max n : ℕ} {high : MinStd → ℕ × MinStd} {g : MinStd} {r : ℕ × MinStd}
    (h : upscale max high n g = some r) : r.1 ≤ max := by
  induction n generalizing g with
  | zero => cases h
  | succ n ih =>
    unfold upscale at h
    dsimp only at h
    split at h
    · exact ih h
    · obtain rfl := Option.some.inj h
      dsimp only
      omega

theorem drawAt_le (n max : ℕ) (g : MinStd) : (drawAt n max g).1 ≤ max := by
  cases n with
  | zero => exact downscale_le max g
  | succ n =>
    unfold drawAt
    split
    · exact downscale_le max g
    · split
      · split
        · rename_i h
          exact upscale_le h
        · exact Nat.zero_le _
      · have := (next g).2.2
        dsimp only
        omega

theorem draw_le (max : ℕ) (g : MinStd) : (draw max g).1 ≤ max := drawAt_le 2 max g

/-- The generator of the program. -/
def rng : Rng MinStd where
  seed := seed
  draw := draw
  inRange := draw_le

end MinStd

end Kws
