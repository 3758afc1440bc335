import Verif.Lemmas.Tactics
import Verif.Lemmas.Sort
import Verif.Lemmas.Ieee
import Verif.Model.Bootstrap
import Verif.Spec.Bootstrap
import Mathlib.Algebra.Order.Group.Defs
import Mathlib.Algebra.Order.Floor.Ring
import Mathlib.Algebra.Order.Sub.Basic

/-!
# Bootstrapping
-/

set_option linter.unusedSectionVars false

namespace Kws
open Spec

section
variable {G M : Type}

theorem drawN_ok (rng : Rng G) (o : List M) (max : Nat) (n : Nat) :
    (n = 0 ∨ max < o.length) → ∀ g, ∃ ms g', drawN rng o max n g = .ok (ms, g') ∧ ms.length = n ∧
      ∀ m ∈ ms, m ∈ o := by
  induction n with
  | zero => intro _ g; exact ⟨[], g, rfl, rfl, by simp⟩
  | succ n ih =>
    intro h g
    have hm : max < o.length := by omega
    have hk := rng.inRange max g
    obtain ⟨ms, g', h1, h2, h3⟩ := ih (Or.inr hm) (rng.draw max g).2
    have hlt : (rng.draw max g).1 < o.length := by omega
    refine ⟨o[(rng.draw max g).1] :: ms, g', ?_, by simp [h2], ?_⟩
    · unfold drawN
      simp only [List.getElem?_eq_getElem hlt, h1, bind, Except.bind, pure, Except.pure]
    · intro m hm
      rcases List.mem_cons.1 hm with rfl | hm
      · exact List.getElem_mem hlt
      · exact h3 m hm

theorem drawGroups_ok (rng : Rng G) (o : List (List M)) (max : Nat) (n : Nat) :
    (n = 0 ∨ max < o.length) → ∀ g, ∃ ss g', drawGroups rng o max n g = .ok (ss, g') ∧
      ss.length = n ∧ ∀ s ∈ ss, ∃ x ∈ o, DrawnFrom x s := by
  induction n with
  | zero => intro _ g; exact ⟨[], g, rfl, rfl, by simp⟩
  | succ n ih =>
    intro h g
    have hm : max < o.length := by omega
    have hk := rng.inRange max g
    have hlt : (rng.draw max g).1 < o.length := by omega
    set x := o[(rng.draw max g).1] with hx
    obtain ⟨s, g1, a1, a2, a3⟩ := drawN_ok rng x (x.length - 1) x.length (by omega)
      (rng.draw max g).2
    obtain ⟨ss, g', h1, h2, h3⟩ := ih (Or.inr hm) g1
    refine ⟨s :: ss, g', ?_, by simp [h2], ?_⟩
    · unfold drawGroups
      simp only [List.getElem?_eq_getElem hlt, ← hx, a1, h1, bind, Except.bind, pure, Except.pure]
    · intro y hy
      rcases List.mem_cons.1 hy with rfl | hy
      · exact ⟨x, List.getElem_mem hlt, a2, a3⟩
      · exact h3 y hy

/-- The generator that follows a script. -/
def scripted : Rng (List Nat) where
  seed _ := []
  draw max g := (min (g.headD 0) max, g.tail)
  inRange _ _ := min_le_right _ _

theorem drawN_script (o : List M) (ms : List M) (h : ∀ m ∈ ms, m ∈ o) : ∃ script : List Nat,
    ∀ rest, drawN scripted o (o.length - 1) ms.length (script ++ rest) = .ok (ms, rest) := by
  induction ms with
  | nil => exact ⟨[], fun rest => rfl⟩
  | cons m ms ih =>
    obtain ⟨script, hs⟩ := ih (fun x hx => h x (by simp [hx]))
    obtain ⟨i, hi, hm⟩ := List.mem_iff_getElem.1 (h m (by simp))
    refine ⟨i :: script, fun rest => ?_⟩
    have : min i (o.length - 1) = i := by omega
    have hd : scripted.draw (o.length - 1) (i :: script ++ rest) = (i, script ++ rest) := by
      simp [scripted, this]
    rw [List.length_cons]
    unfold drawN
    simp only [hd, List.getElem?_eq_getElem hi, hm, hs rest, bind, Except.bind, pure, Except.pure]

theorem drawGroups_script (o ss : List (List M)) (h : ∀ s ∈ ss, ∃ x ∈ o, DrawnFrom x s) :
    ∃ script : List Nat, ∀ rest,
      drawGroups scripted o (o.length - 1) ss.length (script ++ rest) = .ok (ss, rest) := by
  induction ss with
  | nil => exact ⟨[], fun rest => rfl⟩
  | cons s ss ih =>
    obtain ⟨script, hs⟩ := ih (fun x hx => h x (by simp [hx]))
    obtain ⟨x, hx, hl, hm⟩ := h s (by simp)
    obtain ⟨q, hq, rfl⟩ := List.mem_iff_getElem.1 hx
    obtain ⟨sc, hsc⟩ := drawN_script o[q] s hm
    refine ⟨q :: sc ++ script, fun rest => ?_⟩
    have hmin : min q (o.length - 1) = q := by omega
    have h1 := hs rest
    have h2 := hsc (script ++ rest)
    rw [hl] at h2
    rw [List.length_cons]
    unfold drawGroups
    have hd : scripted.draw (o.length - 1) (q :: sc ++ script ++ rest) = (q, sc ++ (script ++ rest)) := by
      simp [scripted, hmin]
    simp only [hd, List.getElem?_eq_getElem hq, h2, h1, bind, Except.bind, pure, Except.pure]

end

section
variable {C G K : Type} [LinearOrder K] [AddCommGroup K]

theorem bootstrapLoop_ok (rd : K → K) (statistic : C → Cpp K) (sampler : G → Cpp (C × G)) (v : K)
    (hs : ∀ g, ∃ c g', sampler g = .ok (c, g')) (stat : C → K)
    (hstat : ∀ g c g', sampler g = .ok (c, g') → statistic c = .ok (stat c)) (n : Nat) :
    ∀ g, ∃ cs, Successive sampler g cs ∧ cs.length = n ∧
      bootstrapLoop rd statistic sampler v n g = .ok (cs.map (fun c => rd (stat c - v))) := by
  induction n with
  | zero => intro g; exact ⟨[], .nil g, rfl, rfl⟩
  | succ n ih =>
    intro g
    obtain ⟨c, g', h1⟩ := hs g
    obtain ⟨cs, h2, h3, h4⟩ := ih g'
    refine ⟨c :: cs, .cons g g' c cs h1 h2, by simp [h3], ?_⟩
    unfold bootstrapLoop
    simp only [h1, hstat g c g' h1, h4, bind, Except.bind, pure, Except.pure, List.map_cons]

theorem lt_strictTotal : StrictTotal (fun a b : K => decide (a < b)) where
  irrefl := fun a => by simp
  trans := fun a b c h1 h2 => by
    simp only [decide_eq_true_eq] at *; exact lt_trans h1 h2
  tri := fun a b => by
    simp only [decide_eq_true_eq]; exact lt_trichotomy a b

theorem sort_lt (S : StdSort) (l : List K) :
    ∃ l', S.sort (fun a b : K => decide (a < b)) l = .ok l' ∧ l'.Perm l ∧ l'.Pairwise (· ≤ ·) := by
  obtain ⟨l', h1, h2⟩ := S.ok _ l (lt_strictTotal.strictWeak l)
  refine ⟨l', h1, h2.perm, h2.sorted.imp ?_⟩
  intro a b h
  simpa using h

end

theorem toSize_ok (x : ℚ) (h0 : 0 ≤ x) (h1 : x < 2 ^ 64) : toSize x = .ok ⌊x⌋.toNat := by
  unfold toSize
  rw [if_pos ⟨by linarith, h1⟩]

theorem floor_toNat_lt (x : ℚ) (n : Nat) (h0 : 0 ≤ x) (h1 : x < n) : ⌊x⌋.toNat < n := by
  have : ⌊x⌋ < n := by rw [Int.floor_lt]; exact_mod_cast h1
  have h2 : 0 ≤ ⌊x⌋ := Int.floor_nonneg.2 h0
  omega

theorem floor_toNat_mono {x y : ℚ} (h : x ≤ y) : ⌊x⌋.toNat ≤ ⌊y⌋.toNat := by
  have := Int.floor_le_floor h
  omega

end Kws
