import Verif.Spec.Initial
import Verif.Lemmas.CutOff
import Verif.Lemmas.Curve

/-! # Lemmas: curves with more points at the end -/

namespace Kws
open Spec

theorem valueAt_append (linear : Bool) (x : ℚ) (l l' : List (ℚ × ℚ)) : ∀ prev, (∃ p ∈ l, x ≤ p.1) →
    valueAt linear x prev (l ++ l') = valueAt linear x prev l := by
  induction l with
  | nil => rintro _ ⟨p, hp, _⟩; cases hp
  | cons p l ih =>
    intro prev h
    rw [List.cons_append]
    unfold valueAt
    by_cases hp : p.1 < x
    · rw [if_pos hp, if_pos hp]
      refine ih _ ?_
      obtain ⟨q, hq, e⟩ := h
      rcases List.mem_cons.1 hq with rfl | hq
      · exact absurd e (not_le.2 hp)
      · exact ⟨q, hq, e⟩
    · rw [if_neg hp, if_neg hp]

theorem valueAt_beyond (linear : Bool) (x : ℚ) (l : List (ℚ × ℚ)) : ∀ prev, (∀ p ∈ l, p.1 < x) →
    valueAt linear x prev l = 0 := by
  induction l with
  | nil => intro _ _; rfl
  | cons p l ih =>
    intro prev h
    unfold valueAt
    rw [if_pos (h p (by simp))]
    exact ih _ fun q hq => h q (by simp [hq])

/-- The same abscissa, and no lower ordinate. -/
def Over (p q : ℚ × ℚ) : Prop := q.1 = p.1 ∧ p.2 ≤ q.2

theorem valueAt_over (linear : Bool) (x : ℚ) (b : List (ℚ × ℚ)) {l l' : List (ℚ × ℚ)}
    (h : List.Forall₂ Over l l') (hx : ∃ p ∈ l, x ≤ p.1) : ∀ q q', Over q q' → q.1 < x →
    valueAt linear x (some q) l ≤ valueAt linear x (some q') (l' ++ b) := by
  induction h with
  | nil => obtain ⟨_, hp, _⟩ := hx; cases hp
  | @cons p p' l l' hp _ ih =>
    intro q q' hq hqx
    rw [List.cons_append, valueAt, valueAt, hp.1]
    by_cases c : p.1 < x
    · rw [if_pos c, if_pos c]
      refine ih ?_ p p' hp c
      obtain ⟨r, hr, e⟩ := hx
      rcases List.mem_cons.1 hr with rfl | hr
      · exact absurd e (not_le.2 c)
      · exact ⟨r, hr, e⟩
    · rw [if_neg c, if_neg c]
      cases linear with
      | false => exact hp.2
      | true =>
        simp only [if_true]
        rw [hq.1]
        push Not at c
        have d : 0 < p.1 - q.1 := by linarith
        set t := (x - q.1) / (p.1 - q.1) with ht
        have t0 : 0 ≤ t := div_nonneg (by linarith) d.le
        have t1 : t ≤ 1 := (div_le_one d).2 (by linarith)
        rw [mul_div_assoc, mul_div_assoc, ← ht]
        have := hp.2
        have := hq.2
        nlinarith

theorem valueAt_over_start (linear : Bool) (x : ℚ) (b : List (ℚ × ℚ)) {l l' : List (ℚ × ℚ)}
    (h : List.Forall₂ Over l l') (hx : ∃ p ∈ l, x ≤ p.1) :
    valueAt linear x none l ≤ valueAt linear x none (l' ++ b) := by
  cases h with
  | nil => obtain ⟨_, hp, _⟩ := hx; cases hp
  | @cons p p' l l' hp h =>
    rw [List.cons_append, valueAt, valueAt, hp.1]
    by_cases c : p.1 < x
    · rw [if_pos c, if_pos c]
      refine valueAt_over linear x b h ?_ p p' hp c
      obtain ⟨r, hr, e⟩ := hx
      rcases List.mem_cons.1 hr with rfl | hr
      · exact absurd e (not_le.2 c)
      · exact ⟨r, hr, e⟩
    · rw [if_neg c, if_neg c]
      exact hp.2

theorem Prolongs.points {S S' : List Flt} {c c' : Tally} (h : Prolongs S S' c c') (h0 : S ≠ []) :
    ∃ b, (Spec.descending S').map c'.point = (Spec.descending S).map c.point ++ b ∧
      Spec.descending S ≠ [] ∧ Spec.descending S' ≠ [] := by
  obtain ⟨b, e, hm⟩ := h.descending
  have t := descending_thresholds S (fun s hs => h.num s (h.sub s hs))
  have ne : Spec.descending S ≠ [] := by
    obtain ⟨s, hs⟩ := List.exists_mem_of_ne_nil S h0
    exact List.ne_nil_of_mem ((t.mem s).2 hs)
  refine ⟨b.map c'.point, ?_, ne, ?_⟩
  · rw [e, List.map_append]
    congr 1
    refine List.map_congr_left fun s hs => ?_
    unfold Tally.point
    rw [(h.same s (hm s hs)).1, (h.same s (hm s hs)).2, h.refs]
  · rw [e]
    simp [ne]

theorem Prolongs.value {S S' : List Flt} {c c' : Tally} (h : Prolongs S S' c c') (h0 : S ≠ []) (linear : Bool)
    (x : ℚ) (hx : ∃ s ∈ S, x ≤ (c.point s).2) :
    valueAt linear x none (c'.curve false (Spec.descending S')) =
      valueAt linear x none (c.curve false (Spec.descending S)) := by
  obtain ⟨b, e, n1, n2⟩ := h.points h0
  have t := descending_thresholds S (fun s hs => h.num s (h.sub s hs))
  unfold Tally.curve
  simp only [n1, n2, false_and, if_false, e, List.map_append, Bool.false_eq_true]
  refine valueAt_append linear x _ _ none ?_
  obtain ⟨s, hs, hxs⟩ := hx
  exact ⟨_, List.mem_map_of_mem (List.mem_map_of_mem ((t.mem s).2 hs)), hxs⟩

theorem curve_recalls {S : List Flt} {c : Tally} (interp : Bool) (h0 : Spec.descending S ≠ []) :
    (c.curve interp (Spec.descending S)).map Prod.fst = (Spec.descending S).map (fun s => (c.point s).2) := by
  unfold Tally.curve
  simp only [h0, false_and, if_false]
  cases interp
  · simp
  · simp only [if_true, List.map_map]
    have := topped_snd ((Spec.descending S).map c.point)
    simpa [Function.comp_def] using this

theorem Prolongs.beyond {S S' : List Flt} {c c' : Tally} (h : Prolongs S S' c c') (h0 : S ≠ [])
    (interp linear : Bool) (x : ℚ) (hx : ∀ s ∈ S, (c.point s).2 < x) :
    valueAt linear x none (c.curve interp (Spec.descending S)) = 0 := by
  obtain ⟨_, _, n1, _⟩ := h.points h0
  have t := descending_thresholds S (fun s hs => h.num s (h.sub s hs))
  refine valueAt_beyond linear x _ none fun p hp => ?_
  have : p.1 ∈ (c.curve interp (Spec.descending S)).map Prod.fst := List.mem_map_of_mem hp
  rw [curve_recalls interp n1] at this
  obtain ⟨s, hs, e⟩ := List.mem_map.1 this
  rw [← e]
  exact hx s ((t.mem s).1 hs)

theorem Prolongs.value_le {S S' : List Flt} {c c' : Tally} (h : Prolongs S S' c c') (h0 : S ≠ [])
    (interp linear : Bool) (x : ℚ) :
    valueAt linear x none (c.curve interp (Spec.descending S)) ≤
      valueAt linear x none (c'.curve interp (Spec.descending S')) := by
  by_cases hx : ∃ s ∈ S, x ≤ (c.point s).2
  · cases interp with
    | false => rw [h.value h0 linear x hx]
    | true =>
      obtain ⟨b, e, n1, n2⟩ := h.points h0
      have t := descending_thresholds S (fun s hs => h.num s (h.sub s hs))
      obtain ⟨a', r1, r2⟩ := topped_tail ((Spec.descending S).map c.point) b
      have hr := curve_recalls (c := c) true n1
      unfold Tally.curve at hr ⊢
      simp only [n1, n2, false_and, if_false, if_true, e] at hr ⊢
      rw [r2, List.map_append]
      refine valueAt_over_start linear x _ ?_ ?_
      · refine List.forall₂_map_left_iff.2 (List.forall₂_map_right_iff.2 (r1.imp fun p q hpq => ?_))
        obtain ⟨k1, k2⟩ := hpq
        exact ⟨by simpa using k1, by simpa using k2⟩
      · obtain ⟨s, hs, hxs⟩ := hx
        have : (c.point s).2 ∈ (Spec.descending S).map (fun s => (c.point s).2) :=
          List.mem_map.2 ⟨s, (t.mem s).2 hs, rfl⟩
        rw [← hr] at this
        obtain ⟨p, hp, e⟩ := List.mem_map.1 this
        exact ⟨p, hp, by rw [e]; exact hxs⟩
  · push Not at hx
    rw [h.beyond h0 interp linear x hx]
    exact (valueAt_unit linear x _ none (by simpa using curve_unit (c', S') interp) (by simp)).1

theorem sampled_forall₂ {α β : Type} {R : ℚ × α → ℚ × β → Prop} (n : ℕ) (f : ℚ → α) (g : ℚ → β)
    (h : ∀ x, R (x, f x) (x, g x)) : List.Forall₂ R (sampled n f) (sampled n g) := by
  unfold sampled
  split
  · exact .nil
  · rw [List.forall₂_map_left_iff, List.forall₂_map_right_iff]
    exact List.forall₂_same.2 fun k _ => h _

theorem Prolongs.continued {S S' : List Flt} {c c' : Tally} (h : Prolongs S S' c c') (h0 : S ≠ []) {f v : ℕ}
    (hl : Lowest S c f v) (hN : c.refs ≠ 0) (n : ℕ) (linear : Bool) :
    Continued ((f : ℚ) / c.refs) (sampled n fun x => valueAt linear x none (c.curve false (Spec.descending S)))
      (sampled n fun x => valueAt linear x none (c'.curve false (Spec.descending S'))) := by
  obtain ⟨s0, hs0, low, hf, _⟩ := hl.resolve_left fun e => h0 e.1
  have pos : (0 : ℚ) < c.refs := by exact_mod_cast Nat.pos_of_ne_zero hN
  refine sampled_forall₂ n _ _ fun x => ⟨rfl, fun hx => h.value h0 linear x ⟨s0, hs0, ?_⟩,
    fun hx => h.beyond h0 false linear x fun s hs => lt_of_le_of_lt ?_ hx⟩
  · unfold Tally.point
    rw [if_neg hN, hf]
    exact hx
  · unfold Tally.point
    rw [if_neg hN]
    refine div_le_div_of_nonneg_right ?_ pos.le
    have := (h.mono s0 s (h.num _ (h.sub _ hs0)) (h.num _ (h.sub _ hs)) (low s hs)).1
    rw [(h.same s hs).1, (h.same s0 hs0).1, hf] at this
    exact_mod_cast this

theorem Prolongs.notBelow {S S' : List Flt} {c c' : Tally} (h : Prolongs S S' c c') (h0 : S ≠ []) (n : ℕ)
    (interp linear : Bool) :
    NotBelow (sampled n fun x => valueAt linear x none (c.curve interp (Spec.descending S)))
      (sampled n fun x => valueAt linear x none (c'.curve interp (Spec.descending S'))) :=
  sampled_forall₂ n _ _ fun x => ⟨rfl, h.value_le h0 interp linear x⟩

end Kws
