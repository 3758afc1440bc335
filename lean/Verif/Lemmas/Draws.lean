import Verif.Lemmas.Engine
import Verif.Spec.Engine

/-!
# The loops of the distribution end
-/

namespace Kws
namespace MinStd

/-- The state 1. -/
def one : MinStd := ⟨1, by decide⟩

theorem follow_val (g : MinStd) : Spec.follow g.1 = (next g).1 := rfl

theorem reach_one (g : MinStd) : ∃ d < 2147483646, next^[d + 1] g = one := by
  obtain ⟨i, hi, e⟩ := reach (next g) one
  exact ⟨i, hi, e⟩

/-- The draws from a state `d + 1` numbers before 1 end, with a draw below `max`, before the `a`th number after 1. -/
def Window (D : MinStd → ℕ × MinStd) (max a : ℕ) : Prop :=
  ∀ g d, d < 2147483646 → next^[d + 1] g = one →
    ∃ i, 1 ≤ i ∧ (D g).2 = next^[i] g ∧ (i ≤ d + a ∨ (D g).1 < max)

theorem scaled_lt (max : ℕ) (h1 : 1 ≤ max) (hm : max < 2147483645) :
    282475249 ≤ max * (2147483645 / (max + 1)) := by
  have hq : 0 < 2147483645 / (max + 1) := Nat.div_pos (by omega) (by omega)
  have h2 := Nat.lt_mul_div_succ 2147483645 (Nat.succ_pos max)
  generalize 2147483645 / (max + 1) = q at hq h2 ⊢
  have h3 : max ≤ max * q := Nat.le_mul_of_pos_right _ hq
  have h4 : q ≤ max * q := Nat.le_mul_of_pos_left _ h1
  have h5 : (max + 1) * (q + 1) = max * q + max + q + 1 := by ring
  rw [Nat.succ_eq_add_one, h5] at h2
  omega

theorem downscale_window (max : ℕ) (h1 : 1 ≤ max) (hm : max < 2147483645) : Window (downscale max) max 0 := by
  intro g d hd e
  obtain ⟨i, hi, e1, hp, hj⟩ := downscale_spec max hm g
  refine ⟨i + 1, by omega, by rw [e1], ?_⟩
  rw [e1]
  rcases Nat.lt_trichotomy i d with h | h | h
  · exact Or.inl (by omega)
  · right
    rw [h, e]
    show (1 - 1) / _ < max
    rw [Nat.sub_self, Nat.zero_div]
    omega
  · have := hj d h
    rw [e] at this
    change past max ≤ 1 - 1 at this
    omega

theorem downscale_first (max : ℕ) (h1 : 1 ≤ max) (hm : max < 2147483645) (g : MinStd)
    (h : (next g).1 ≤ 282475249) : (downscale max g).1 < max := by
  have hs := scaled_lt max h1 hm
  have hb : max * (2147483645 / (max + 1)) ≤ past max := Nat.mul_le_mul_right _ (by omega)
  have hn := (next g).2.1
  obtain ⟨i, hi, e1, hp, hj⟩ := downscale_spec max hm g
  rcases i with _ | i
  · rw [e1]
    exact Nat.div_lt_of_lt_mul (by rw [Nat.mul_comm]; change (next g).1 - 1 < _; omega)
  · have := hj 0 (by omega)
    change past max ≤ (next g).1 - 1 at this
    omega

theorem drawAt_same (n : ℕ) (g : MinStd) : drawAt (n + 1) 2147483645 g = ((next g).1 - 1, next g) := by
  rw [drawAt, if_neg (by omega), if_neg (by omega)]

theorem same_window (n : ℕ) : Window (drawAt (n + 1) 2147483645) 2147483645 0 := by
  intro g d hd e
  rw [drawAt_same]
  refine ⟨1, le_refl _, rfl, ?_⟩
  rcases d with _ | d
  · right
    change next g = one at e
    rw [e]
    decide
  · exact Or.inl (by omega)

theorem same_first (n : ℕ) (g : MinStd) (h : (next g).1 ≤ 282475249) :
    (drawAt (n + 1) 2147483645 g).1 < 2147483645 := by
  rw [drawAt_same]
  dsimp only
  omega

/-! ## Ranges larger than that of the engine -/

theorem upscale_step {max : ℕ} {D : MinStd → ℕ × MinStd} (hm : max < 2 ^ 64) (g : MinStd)
    (hD : (D g).1 ≤ max / 2147483646) (n : ℕ) :
    upscale max D (n + 1) g =
      if (D g).1 * 2147483646 + ((next (D g).2).1 - 1) ≤ max then
        some ((D g).1 * 2147483646 + ((next (D g).2).1 - 1), next (D g).2)
      else upscale max D n (next (D g).2) := by
  have hl := (next (D g).2).2
  have ht : 2147483646 * (D g).1 % 2 ^ 64 = (D g).1 * 2147483646 := by omega
  rw [upscale, ht]
  by_cases h : (D g).1 * 2147483646 + ((next (D g).2).1 - 1) ≤ max
  · have e := Nat.mod_eq_of_lt (lt_of_le_of_lt h hm)
    rw [e, if_pos h, if_neg (by omega)]
  · rw [if_neg h, if_pos]
    by_cases hw : (D g).1 * 2147483646 + ((next (D g).2).1 - 1) < 2 ^ 64
    · rw [Nat.mod_eq_of_lt hw]
      omega
    · omega

theorem upscale_mono {max : ℕ} {D : MinStd → ℕ × MinStd} {n n' : ℕ} (hn : n ≤ n') {g : MinStd} {r : ℕ × MinStd}
    (h : upscale max D n g = some r) : upscale max D n' g = some r := by
  induction n generalizing g n' with
  | zero => cases h
  | succ n ih =>
    obtain ⟨k, rfl⟩ : ∃ k, n' = k + 1 := ⟨n' - 1, by omega⟩
    unfold upscale at h ⊢
    dsimp only at h ⊢
    split at h
    · rename_i hp
      rw [if_pos hp]
      exact ih (by omega) h
    · rename_i hp
      rw [if_neg hp]
      exact h

theorem upscale_first {max : ℕ} {D : MinStd → ℕ × MinStd} (hm : max < 2 ^ 64) (g : MinStd)
    (hD : (D g).1 < max / 2147483646) (n : ℕ) :
    ∃ r, upscale max D (n + 1) g = some r ∧ r.1 < max ∧ r.2 = next (D g).2 := by
  have hl := (next (D g).2).2
  refine ⟨_, (upscale_step hm g (le_of_lt hD) n).trans (if_pos (by omega)), ?_, rfl⟩
  dsimp only
  omega

theorem upscale_window {max a : ℕ} {D : MinStd → ℕ × MinStd} (hm : max < 2 ^ 64)
    (hw : Window D (max / 2147483646) a) (hD : ∀ g, (D g).1 ≤ max / 2147483646)
    (hg : ∀ j ≤ a, (D (next^[j] one)).1 < max / 2147483646) (d : ℕ) :
    ∀ g, d < 2147483646 → next^[d + 1] g = one →
      ∃ r i, upscale max D (d + 2) g = some r ∧ 1 ≤ i ∧ r.2 = next^[i] g ∧ (i ≤ d + (a + 1) ∨ r.1 < max) := by
  induction d using Nat.strong_induction_on with
  | _ d ih =>
    intro g hd e
    obtain ⟨i, hi, e1, hor⟩ := hw g d hd e
    have hl := (next (D g).2).2
    have hn : next (D g).2 = next^[i + 1] g := by rw [e1, Function.iterate_succ_apply']
    have hv := hD g
    by_cases hacc : (D g).1 * 2147483646 + ((next (D g).2).1 - 1) ≤ max
    · refine ⟨_, i + 1, (upscale_step hm g hv (d + 1)).trans (if_pos hacc), by omega, hn, ?_⟩
      rcases hor with h | h
      · exact Or.inl (by omega)
      · right
        dsimp only
        omega
    · have hid : i ≤ d + a := by
        rcases hor with h | h
        · exact h
        · omega
      have hstep := (upscale_step hm g hv (d + 1)).trans (if_neg hacc)
      rw [hstep, hn]
      by_cases hlt : i + 1 ≤ d
      · obtain ⟨r, i', b1, b2, b3, b4⟩ := ih (d - (i + 1)) (by omega) (next^[i + 1] g) (by omega) (by
          rw [← Function.iterate_add_apply, show d - (i + 1) + 1 + (i + 1) = d + 1 by omega]
          exact e)
        refine ⟨r, i' + (i + 1), upscale_mono (by omega) b1, by omega, ?_, ?_⟩
        · rw [b3, ← Function.iterate_add_apply]
        · rcases b4 with h | h
          · exact Or.inl (by omega)
          · exact Or.inr h
      · have hs : next^[i + 1] g = next^[i - d] one := by
          rw [← e, ← Function.iterate_add_apply, show i - d + (d + 1) = i + 1 by omega]
        obtain ⟨r, b1, b2, b3⟩ := upscale_first hm (next^[i + 1] g) (by rw [hs]; exact hg _ (by omega)) d
        obtain ⟨d', hd', e'⟩ := reach_one (next^[i + 1] g)
        obtain ⟨i', c1, c2, _⟩ := hw _ d' hd' e'
        refine ⟨r, i' + 1 + (i + 1), b1, by omega, ?_, Or.inr b2⟩
        rw [b3, c2, ← Function.iterate_succ_apply' next, ← Function.iterate_add_apply]

theorem upscale_ends {max a : ℕ} {D : MinStd → ℕ × MinStd} (hm : max < 2 ^ 64)
    (hw : Window D (max / 2147483646) a) (hD : ∀ g, (D g).1 ≤ max / 2147483646)
    (hg : ∀ j ≤ a, (D (next^[j] one)).1 < max / 2147483646) (g : MinStd) :
    ∃ r, upscale max D 2147483647 g = some r := by
  obtain ⟨d, hd, e⟩ := reach_one g
  obtain ⟨r, i, h, _⟩ := upscale_window hm hw hD hg d g hd e
  exact ⟨r, upscale_mono (by omega) h⟩

theorem drawAt_large {n max : ℕ} (h : 2147483645 < max) (g : MinStd) (r : ℕ × MinStd)
    (e : upscale max (drawAt n (max / 2147483646)) 2147483647 g = some r) : drawAt (n + 1) max g = r := by
  rw [drawAt, if_neg (by omega), if_pos h, e]

theorem one_values : (next one).1 = 16807 ∧ (next (next one)).1 = 282475249 := by
  constructor <;> decide

theorem first_states (j : ℕ) (hj : j ≤ 1) : (next (next^[j] one)).1 ≤ 282475249 := by
  obtain ⟨h1, h2⟩ := one_values
  rcases j with _ | _ | j
  · change (next one).1 ≤ _
    omega
  · change (next (next one)).1 ≤ _
    omega
  · omega

/-- At most one recursive call -/
theorem drawAt_zero_window (max : ℕ) (h1 : 1 ≤ max) (hm : max < 2147483645) :
    Window (drawAt 0 max) max 0 ∧ ∀ j ≤ 1, (drawAt 0 max (next^[j] one)).1 < max :=
  ⟨downscale_window max h1 hm, fun j hj => downscale_first max h1 hm _ (first_states j hj)⟩

theorem drawAt_one_window (max : ℕ) (h1 : 1 ≤ max) (hm : max < 2 ^ 34) :
    Window (drawAt 1 max) max 1 ∧ ∀ j ≤ 1, (drawAt 1 max (next^[j] one)).1 < max := by
  rcases Nat.lt_trichotomy max 2147483645 with h | h | h
  · rw [show drawAt 1 max = drawAt 0 max from funext fun g =>
      (drawAt_small 1 max h g).trans (drawAt_small 0 max h g).symm]
    obtain ⟨a, b⟩ := drawAt_zero_window max h1 h
    refine ⟨fun g d hd e => ?_, b⟩
    obtain ⟨i, c1, c2, c3⟩ := a g d hd e
    exact ⟨i, c1, c2, c3.imp (fun _ => by omega) id⟩
  · subst h
    refine ⟨fun g d hd e => ?_, fun j hj => same_first 0 _ (first_states j hj)⟩
    obtain ⟨i, c1, c2, c3⟩ := same_window 0 g d hd e
    exact ⟨i, c1, c2, c3.imp (fun _ => by omega) id⟩
  · obtain ⟨a, b⟩ := drawAt_zero_window (max / 2147483646) (by omega) (by omega)
    have hm' : max < 2 ^ 64 := by omega
    refine ⟨fun g d hd e => ?_, fun j hj => ?_⟩
    · obtain ⟨r, i, c1, c2, c3, c4⟩ := upscale_window hm' a (drawAt_le 0 _) (fun j hj => b j (by omega)) d g hd e
      rw [drawAt_large h g r (upscale_mono (by omega) c1)]
      exact ⟨i, c2, c3, c4⟩
    · obtain ⟨r, c1, c2, c3⟩ := upscale_first hm' (next^[j] one) (b j hj) 2147483646
      rw [drawAt_large h _ r c1]
      exact c2

/-! ## The draws are those of the specification -/

theorem downscale_draws (max : ℕ) (hm : max < 2147483645) (g : MinStd) :
    Spec.Draws max g.1 (downscale max g).1 (downscale max g).2.1 := by
  obtain ⟨i, hi, e1, hp, hj⟩ := downscale_spec max hm g
  rw [e1]
  clear e1
  dsimp only
  have hsc : 0 < 2147483645 / (max + 1) := Nat.div_pos (by omega) (by omega)
  clear hi
  induction i generalizing g with
  | zero =>
    change (next g).1 - 1 < _ at hp
    change Spec.Draws max g.1 (((next g).1 - 1) / _) (next g).1
    have hn := (next g).2.1
    refine Spec.Draws.small (by omega) ?_ ?_ ?_
    · exact Nat.lt_succ_iff.1 (Nat.div_lt_of_lt_mul (by rw [Nat.mul_comm]; exact hp))
    · have := Nat.div_mul_le_self ((next g).1 - 1) (2147483645 / (max + 1))
      change _ < (next g).1
      change _ * (2147483645 / (max + 1)) < _
      omega
    · have := Nat.lt_div_mul_add (a := (next g).1 - 1) hsc
      change (next g).1 ≤ (_ + 1) * (2147483645 / (max + 1))
      rw [Nat.add_mul, Nat.one_mul]
      omega
  | succ i ih =>
    refine Spec.Draws.smallAgain (by omega) ?_ (ih (next g) hp fun j h => hj (j + 1) (by omega))
    have := hj 0 (by omega)
    change past max ≤ (next g).1 - 1 at this
    have hn := (next g).2.1
    change past max < (next g).1
    have h0 : 0 < past max := Nat.mul_pos (by omega) hsc
    omega

theorem upscale_draws {max n : ℕ} {D : MinStd → ℕ × MinStd} (hm : max < 2 ^ 64) (h : 2147483645 < max)
    (hD : ∀ g, (D g).1 ≤ max / 2147483646)
    (hd : ∀ g, Spec.Draws (max / 2147483646) g.1 (D g).1 (D g).2.1) {g : MinStd} {r : ℕ × MinStd}
    (e : upscale max D n g = some r) : Spec.Draws max g.1 r.1 r.2.1 := by
  induction n generalizing g with
  | zero => cases e
  | succ n ih =>
    rw [upscale_step hm g (hD g)] at e
    split at e
    · rename_i hle
      obtain rfl := Option.some.inj e
      exact Spec.Draws.large (by omega) (hd g) hle
    · rename_i hgt
      exact Spec.Draws.largeAgain (by omega) (hd g) (Nat.lt_of_not_le hgt) (ih e)

theorem same_draws (n : ℕ) (g : MinStd) :
    Spec.Draws 2147483645 g.1 (drawAt (n + 1) 2147483645 g).1 (drawAt (n + 1) 2147483645 g).2.1 := by
  rw [drawAt_same]
  exact Spec.Draws.same

theorem drawAt_one_draws (max : ℕ) (h1 : 1 ≤ max) (hm : max < 2 ^ 34) (g : MinStd) :
    Spec.Draws max g.1 (drawAt 1 max g).1 (drawAt 1 max g).2.1 := by
  rcases Nat.lt_trichotomy max 2147483645 with h | h | h
  · rw [drawAt_small 1 max h]
    exact downscale_draws max h g
  · subst h
    exact same_draws 0 g
  · obtain ⟨a, b⟩ := drawAt_zero_window (max / 2147483646) (by omega) (by omega)
    have hm' : max < 2 ^ 64 := by omega
    obtain ⟨r, hr⟩ := upscale_ends hm' a (drawAt_le 0 _) (fun j hj => b j (by omega)) g
    rw [drawAt_large h g r hr]
    exact upscale_draws hm' h (drawAt_le 0 _) (fun g => downscale_draws _ (by omega) g) hr

theorem draw_draws (max : ℕ) (hm : max < 2 ^ 64) (g : MinStd) :
    Spec.Draws max g.1 (draw max g).1 (draw max g).2.1 := by
  unfold draw
  rcases Nat.lt_trichotomy max 2147483645 with h | h | h
  · rw [drawAt_small 2 max h]
    exact downscale_draws max h g
  · subst h
    exact same_draws 1 g
  · obtain ⟨a, b⟩ := drawAt_one_window (max / 2147483646) (by omega) (by omega)
    obtain ⟨r, hr⟩ := upscale_ends hm a (drawAt_le 1 _) b g
    rw [drawAt_large h g r hr]
    exact upscale_draws hm h (drawAt_le 1 _) (drawAt_one_draws _ (by omega) (by omega)) hr

theorem _root_.Kws.Spec.Draws.unique {max x k y k' y' : ℕ} (h : Spec.Draws max x k y) (h' : Spec.Draws max x k' y') :
    k = k' ∧ y = y' := by
  induction h generalizing k' y' with
  | @small max x k a b c d =>
    cases h' with
    | small a' b' c' d' =>
      have l1 := lt_of_mul_lt_mul_right (lt_of_lt_of_le c d') (Nat.zero_le _)
      have l2 := lt_of_mul_lt_mul_right (lt_of_lt_of_le c' d) (Nat.zero_le _)
      exact ⟨by omega, rfl⟩
    | smallAgain a' b' c' =>
      have := Nat.mul_le_mul_right ((2 ^ 31 - 3) / (max + 1)) (by omega : k + 1 ≤ max + 1)
      omega
    | same => omega
    | large a' => omega
    | largeAgain a' => omega
  | @smallAgain max x k y a b _ ih =>
    cases h' with
    | small a' b' c' d' =>
      have := Nat.mul_le_mul_right ((2 ^ 31 - 3) / (max + 1)) (by omega : k' + 1 ≤ max + 1)
      omega
    | smallAgain a' b' c' => exact ih c'
    | same => omega
    | large a' => omega
    | largeAgain a' => omega
  | same =>
    cases h' with
    | small a' => omega
    | smallAgain a' => omega
    | same => exact ⟨rfl, rfl⟩
    | large a' => omega
    | largeAgain a' => omega
  | large a _ c ih =>
    cases h' with
    | small a' => omega
    | smallAgain a' => omega
    | same => omega
    | large a' b' c' =>
      obtain ⟨rfl, rfl⟩ := ih b'
      exact ⟨rfl, rfl⟩
    | largeAgain a' b' c' =>
      obtain ⟨rfl, rfl⟩ := ih b'
      omega
  | largeAgain a _ c _ ih ih2 =>
    cases h' with
    | small a' => omega
    | smallAgain a' => omega
    | same => omega
    | large a' b' c' =>
      obtain ⟨rfl, rfl⟩ := ih b'
      omega
    | largeAgain a' b' c' d' =>
      obtain ⟨rfl, rfl⟩ := ih b'
      exact ih2 d'

end MinStd
end Kws
