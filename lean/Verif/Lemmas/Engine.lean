import Verif.Model.Engine
import Mathlib.NumberTheory.LucasPrimality
import Mathlib.GroupTheory.OrderOfElement
import Mathlib.Tactic.NormNum.Prime
import Mathlib.Tactic.ReduceModChar
import Mathlib.Data.ZMod.Basic
import Mathlib.Order.Interval.Finset.Nat
import Mathlib.Data.Set.Card

/-!
# The engine goes through all its states
-/

namespace Kws
namespace MinStd

theorem primeFactors_eq {q : ℕ} (hq : q.Prime) (h : q ∣ 2147483646) :
    q = 2 ∨ q = 3 ∨ q = 7 ∨ q = 11 ∨ q = 31 ∨ q = 151 ∨ q = 331 := by
  have e : (2147483646 : ℕ) = 2 * 3 ^ 2 * 7 * 11 * 31 * 151 * 331 := by norm_num
  rw [e] at h
  simp only [hq.dvd_mul] at h
  have key : ∀ p : ℕ, p.Prime → q ∣ p → q = p := fun p hp hd => (Nat.prime_dvd_prime_iff_eq hq hp).1 hd
  rcases h with (((((h | h) | h) | h) | h) | h) | h
  · exact Or.inl (key 2 (by norm_num) h)
  · exact Or.inr (Or.inl (key 3 (by norm_num) (hq.dvd_of_dvd_pow h)))
  · exact Or.inr (Or.inr (Or.inl (key 7 (by norm_num) h)))
  · exact Or.inr (Or.inr (Or.inr (Or.inl (key 11 (by norm_num) h))))
  · exact Or.inr (Or.inr (Or.inr (Or.inr (Or.inl (key 31 (by norm_num) h)))))
  · exact Or.inr (Or.inr (Or.inr (Or.inr (Or.inr (Or.inl (key 151 (by norm_num) h))))))
  · exact Or.inr (Or.inr (Or.inr (Or.inr (Or.inr (Or.inr (key 331 (by norm_num) h))))))

theorem pow_full : (16807 : ZMod 2147483647) ^ 2147483646 = 1 := by reduce_mod_char

theorem pow_part {q : ℕ} (hq : q.Prime) (h : q ∣ 2147483646) :
    (16807 : ZMod 2147483647) ^ (2147483646 / q) ≠ 1 := by
  rcases primeFactors_eq hq h with rfl | rfl | rfl | rfl | rfl | rfl | rfl <;> norm_num only <;>
    reduce_mod_char <;> decide +kernel

theorem order : orderOf (16807 : ZMod 2147483647) = 2147483646 :=
  orderOf_eq_of_pow_and_pow_div_prime (by decide) pow_full fun _ hq h => pow_part hq h

theorem prime : Nat.Prime 2147483647 :=
  lucas_primality 2147483647 16807 pow_full fun _ hq h => pow_part hq h

theorem iterate_val (g : MinStd) (i : ℕ) :
    (((next^[i] g).1 : ℕ) : ZMod 2147483647) = 16807 ^ i * (g.1 : ℕ) := by
  induction i with
  | zero => simp
  | succ i ih =>
    rw [Function.iterate_succ_apply', pow_succ]
    show (((16807 * (next^[i] g).1 % 2147483647 : ℕ)) : ZMod 2147483647) = _
    rw [ZMod.natCast_mod, Nat.cast_mul, ih]
    push_cast
    ring

theorem val_inj {g h : MinStd} (e : ((g.1 : ℕ) : ZMod 2147483647) = (h.1 : ℕ)) : g = h := by
  rw [ZMod.natCast_eq_natCast_iff', Nat.mod_eq_of_lt g.2.2, Nat.mod_eq_of_lt h.2.2] at e
  exact Subtype.ext e

theorem val_ne_zero (g : MinStd) : ((g.1 : ℕ) : ZMod 2147483647) ≠ 0 := by
  intro h
  rw [ZMod.natCast_eq_zero_iff] at h
  have := Nat.le_of_dvd g.2.1 h
  have := g.2.2
  omega

theorem iterate_inj (g : MinStd) {i j : ℕ} (hi : i < 2147483646) (hj : j < 2147483646)
    (h : next^[i] g = next^[j] g) : i = j := by
  have : Fact (Nat.Prime 2147483647) := ⟨prime⟩
  have e : (16807 : ZMod 2147483647) ^ i * (g.1 : ℕ) = 16807 ^ j * (g.1 : ℕ) := by
    rw [← iterate_val, ← iterate_val, h]
  have e := mul_right_cancel₀ (val_ne_zero g) e
  exact pow_injOn_Iio_orderOf (by rw [order]; exact hi) (by rw [order]; exact hj) e

theorem factor_ne : (16807 : ZMod 2147483647) ≠ 0 := by decide +kernel

theorem next_inj {g h : MinStd} (e : next g = next h) : g = h := by
  have : Fact (Nat.Prime 2147483647) := ⟨prime⟩
  refine val_inj ?_
  have e1 := iterate_val g 1
  have e2 := iterate_val h 1
  rw [Function.iterate_one] at e1 e2
  rw [e, e2] at e1
  refine (mul_left_cancel₀ ?_ e1).symm
  rw [pow_one]
  exact factor_ne

/-- Every state is reached. -/
theorem reach (g h : MinStd) : ∃ i < 2147483646, next^[i] g = h := by
  have key : (Finset.range 2147483646).image (fun i => (next^[i] g).1) = Finset.Ioo 0 2147483647 := by
    refine Finset.eq_of_subset_of_card_le ?_ ?_
    · intro x hx
      obtain ⟨i, _, rfl⟩ := Finset.mem_image.1 hx
      exact Finset.mem_Ioo.2 (next^[i] g).2
    · rw [Finset.card_image_of_injOn, Finset.card_range, Nat.card_Ioo]
      intro i hi j hj e
      exact iterate_inj g (Finset.mem_range.1 hi) (Finset.mem_range.1 hj) (Subtype.ext e)
  have hm : h.1 ∈ Finset.Ioo 0 2147483647 := Finset.mem_Ioo.2 h.2
  rw [← key] at hm
  obtain ⟨i, hi, e⟩ := Finset.mem_image.1 hm
  exact ⟨i, Finset.mem_range.1 hi, Subtype.ext e⟩

/-! ## Rejections -/

theorem reject_none {past n : ℕ} {g : MinStd} (h : reject past n g = none) :
    ∀ i < n, past ≤ (next^[i + 1] g).1 - 1 := by
  induction n generalizing g with
  | zero => intro i hi; omega
  | succ n ih =>
    unfold reject at h
    split at h
    · rename_i hp
      intro i hi
      rcases i with _ | i
      · exact hp
      · exact ih h i (by omega)
    · cases h

theorem reject_some {past n : ℕ} {g : MinStd} {r : ℕ × MinStd} (h : reject past n g = some r) :
    ∃ i < n, r = ((next^[i + 1] g).1 - 1, next^[i + 1] g) ∧ ¬ past ≤ (next^[i + 1] g).1 - 1 ∧
      ∀ j < i, past ≤ (next^[j + 1] g).1 - 1 := by
  induction n generalizing g with
  | zero => cases h
  | succ n ih =>
    unfold reject at h
    split at h
    · rename_i hp
      obtain ⟨i, hi, e, hn, hj⟩ := ih h
      refine ⟨i + 1, by omega, e, hn, fun j hj' => ?_⟩
      rcases j with _ | j
      · exact hp
      · exact hj j (by omega)
    · rename_i hp
      exact ⟨0, by omega, (Option.some.inj h).symm, hp, fun j hj => by omega⟩

theorem reject_mono {past n n' : ℕ} (hn : n ≤ n') {g : MinStd} {r : ℕ × MinStd}
    (h : reject past n g = some r) : reject past n' g = some r := by
  induction n generalizing g n' with
  | zero => cases h
  | succ n ih =>
    obtain ⟨k, rfl⟩ : ∃ k, n' = k + 1 := ⟨n' - 1, by omega⟩
    unfold reject at h ⊢
    split at h
    · rename_i hp
      rw [if_pos hp]
      exact ih (by omega) h
    · rename_i hp
      rw [if_neg hp]
      exact h

/-- The first number that is rejected. -/
def past (max : ℕ) : ℕ := (max + 1) * (2147483645 / (max + 1))

theorem past_bounds (max : ℕ) : past max ≤ 2147483645 ∧ 2147483645 < past max + (max + 1) := by
  unfold past
  have h1 := Nat.mul_div_le 2147483645 (max + 1)
  have h2 := Nat.lt_mul_div_succ 2147483645 (Nat.succ_pos max)
  rw [Nat.mul_add, Nat.mul_one] at h2
  exact ⟨h1, h2⟩

/-- As many numbers as there are elements are not all rejected. -/
theorem reject_ends (max : ℕ) (hm : max < 2147483645) (g : MinStd) :
    ∃ r, reject (past max) (max + 2) g = some r := by
  cases h : reject (past max) (max + 2) g with
  | some r => exact ⟨r, rfl⟩
  | none =>
    have hn := reject_none h
    have hb := past_bounds max
    have hs : (Finset.range (max + 2)).image (fun i => (next^[i + 1] g).1) ⊆
        Finset.Ioo (past max) 2147483647 := by
      intro x hx
      obtain ⟨i, hi, rfl⟩ := Finset.mem_image.1 hx
      have := hn i (Finset.mem_range.1 hi)
      have := (next^[i + 1] g).2
      exact Finset.mem_Ioo.2 ⟨by omega, by omega⟩
    have hc := Finset.card_le_card hs
    rw [Finset.card_image_of_injOn, Finset.card_range, Nat.card_Ioo] at hc
    · omega
    · intro i hi j hj e
      have hi := Finset.mem_range.1 hi
      have hj := Finset.mem_range.1 hj
      have e : next^[i] (next g) = next^[j] (next g) := Subtype.ext e
      exact iterate_inj (next g) (by omega) (by omega) e

theorem downscale_spec (max : ℕ) (hm : max < 2147483645) (g : MinStd) :
    ∃ i ≤ max + 1, downscale max g = (((next^[i + 1] g).1 - 1) / (2147483645 / (max + 1)), next^[i + 1] g) ∧
      (next^[i + 1] g).1 - 1 < past max ∧ ∀ j < i, past max ≤ (next^[j + 1] g).1 - 1 := by
  obtain ⟨r, hr⟩ := reject_ends max hm g
  obtain ⟨i, hi, e, hp, hj⟩ := reject_some hr
  have h2 := reject_mono (n' := 2147483646) (by omega) hr
  refine ⟨i, by omega, ?_, by omega, hj⟩
  unfold downscale
  dsimp only
  rw [show (max + 1) * (2147483645 / (max + 1)) = past max from rfl, h2, e]

theorem drawAt_small (n max : ℕ) (hm : max < 2147483645) (g : MinStd) : drawAt n max g = downscale max g := by
  cases n with
  | zero => rfl
  | succ n => rw [drawAt, if_pos hm]

theorem draw_spec (max : ℕ) (hm : max < 2147483645) (g : MinStd) :
    ∃ i ≤ max + 1, draw max g = (((next^[i + 1] g).1 - 1) / (2147483645 / (max + 1)), next^[i + 1] g) ∧
      (next^[i + 1] g).1 - 1 < past max ∧ ∀ j < i, past max ≤ (next^[j + 1] g).1 - 1 := by
  obtain ⟨i, hi, h⟩ := downscale_spec max hm g
  exact ⟨i, hi, by rw [draw, drawAt_small 2 max hm]; exact h.1, h.2⟩

/-! ## Counting states -/

theorem ncard_next (P : ℕ → Prop) : {g : MinStd | P (next g).1}.ncard = {x | 0 < x ∧ x < 2147483647 ∧ P x}.ncard := by
  refine Set.ncard_congr (fun g _ => (next g).1) ?_ ?_ ?_
  · intro g hg
    exact ⟨(next g).2.1, (next g).2.2, hg⟩
  · intro g h _ _ e
    exact next_inj (Subtype.ext e)
  · rintro x ⟨h1, h2, h3⟩
    obtain ⟨i, hi, e⟩ := reach ⟨1, by decide⟩ ⟨x, h1, h2⟩
    rcases i with _ | i
    · refine ⟨next^[2147483645] ⟨1, by decide⟩, ?_⟩
      have hx : (next (next^[2147483645] ⟨1, by decide⟩)).1 = x := by
        rw [← Function.iterate_succ_apply' next]
        have : next^[2147483645 + 1] (⟨1, by decide⟩ : MinStd) = ⟨1, by decide⟩ := by
          refine val_inj ?_
          rw [iterate_val, show 2147483645 + 1 = 2147483646 from rfl, pow_full, one_mul]
        rw [this]
        exact congrArg Subtype.val e
      exact ⟨by show P _; rw [hx]; exact h3, hx⟩
    · rw [Function.iterate_succ_apply'] at e
      have hx := congrArg Subtype.val e
      exact ⟨next^[i] ⟨1, by decide⟩, by show P _; rw [hx]; exact h3, hx⟩

end MinStd
end Kws
