import Mathlib.Data.List.Count
import Mathlib.Algebra.BigOperators.Intervals
import Mathlib.Algebra.Order.BigOperators.Group.List
import Mathlib.Tactic.FieldSimp
import Mathlib.Tactic.Ring
import Verif.Spec.Resampling

/-!
# Probabilities of sequences of draws
-/

namespace Kws
open Spec

theorem sequences_length (N L : ℕ) : (sequences N L).length = N ^ L := by
  induction L with
  | zero => rfl
  | succ L ih =>
    simp only [sequences, List.length_flatMap, List.length_map, ih]
    simp [pow_succ, mul_comm]

theorem probability_congr {N L : ℕ} {P Q : List ℕ → Prop} (h : ∀ l, P l ↔ Q l) :
    probability N L P = probability N L Q := by
  have : P = Q := funext fun l => propext (h l)
  rw [this]

theorem probability_false {N L : ℕ} {P : List ℕ → Prop} (h : ∀ l, ¬ P l) :
    probability N L P = 0 := by
  classical
  unfold probability
  rw [List.countP_eq_zero.2 (by simpa using fun l _ => h l)]
  simp

theorem probability_true {N L : ℕ} (hN : 0 < N) {P : List ℕ → Prop} (h : ∀ l, P l) :
    probability N L P = 1 := by
  classical
  unfold probability
  rw [List.countP_eq_length.2 (by simpa using fun l _ => h l), sequences_length]
  have : ((N ^ L : ℕ) : ℚ) ≠ 0 := by exact_mod_cast (pow_pos hN L).ne'
  exact div_self this

/-- The first number of the sequence is any number below `N`. -/
theorem probability_succ (N L : ℕ) (P : List ℕ → Prop) :
    probability N (L + 1) P =
      ((List.range N).map (fun a => probability N L (fun l => P (a :: l)))).sum / N := by
  classical
  unfold probability
  have hc : (sequences N (L + 1)).countP (fun l => decide (P l)) =
      ((List.range N).map
        (fun a => (sequences N L).countP (fun l => decide (P (a :: l))))).sum := by
    simp only [sequences, List.countP_flatMap]
    congr 1
    refine List.map_congr_left fun a _ => ?_
    simp only [Function.comp_def, List.countP_map]
  rw [hc, sequences_length, sequences_length]
  have hs : ∀ l : List ℕ, (l.map (fun a =>
      ((sequences N L).countP (fun l => decide (P (a :: l))) : ℚ) / ((N ^ L : ℕ) : ℚ))).sum =
      (((l.map (fun a => (sequences N L).countP (fun l => decide (P (a :: l))))).sum : ℕ) : ℚ) /
        ((N ^ L : ℕ) : ℚ) := by
    intro l
    induction l with
    | nil => simp
    | cons a l ih =>
      simp only [List.map_cons, List.sum_cons, ih]
      push_cast
      ring
  rw [hs, div_div]
  congr 1
  push_cast
  ring

theorem sum_mod (k c : ℕ) (f : ℕ → ℚ) :
    ((List.range (k * c)).map (fun a => f (a % k))).sum = c * ((List.range k).map f).sum := by
  induction c with
  | zero => simp
  | succ c ih =>
    rw [Nat.mul_succ, List.range_add, List.map_append, List.sum_append, ih, List.map_map]
    have : ((List.range k).map ((fun a => f (a % k)) ∘ fun x => k * c + x)) =
        (List.range k).map f := by
      refine List.map_congr_left fun x hx => ?_
      have hx := List.mem_range.1 hx
      simp [Nat.mod_eq_of_lt hx]
    rw [this]
    push_cast
    ring

/-- A draw among `k` numbers, if `k` divides `N`. -/
theorem probability_draw {N k : ℕ} (hN : 0 < N) (hk : k ∣ N) (L : ℕ) (P : ℕ → List ℕ → Prop) :
    probability N (L + 1) (fun l => P (l.headD 0 % k) l.tail) =
      ((List.range k).map (fun b => probability N L (P b))).sum / k := by
  obtain ⟨c, rfl⟩ := hk
  rw [probability_succ]
  simp only [List.headD_cons, List.tail_cons]
  rw [sum_mod k c (fun b => probability (k * c) L (P b))]
  have hk : (k : ℚ) ≠ 0 := by
    have := Nat.pos_of_mul_pos_right hN
    positivity
  have hc : (c : ℚ) ≠ 0 := by
    have := Nat.pos_of_mul_pos_left hN
    positivity
  push_cast
  field_simp

section
variable {M : Type}

theorem sum_positions [DecidableEq M] (o : List M) (m : M) (v : ℚ) :
    ((List.range o.length).map (fun b => if o[b]? = some m then v else 0)).sum =
      o.count m * v := by
  induction o with
  | nil => simp
  | cons a o ih =>
    rw [List.length_cons, List.range_succ_eq_map, List.map_cons, List.sum_cons, List.map_map]
    simp only [Function.comp_def, List.getElem?_cons_zero, List.getElem?_cons_succ,
      Option.some.injEq, ih, List.count_cons, beq_iff_eq]
    split <;> push_cast <;> ring

theorem sum_members {α : Type} (o : List α) (f : α → ℚ) :
    ((List.range o.length).map (fun b => (o[b]?).elim 0 f)).sum = (o.map f).sum := by
  induction o with
  | nil => simp
  | cons a o ih =>
    rw [List.length_cons, List.range_succ_eq_map, List.map_cons, List.sum_cons, List.map_map]
    simp only [Function.comp_def, List.getElem?_cons_zero, List.getElem?_cons_succ, ih,
      Option.elim_some, List.map_cons, List.sum_cons]

theorem sum_indicator {α : Type} [DecidableEq α] (l : List α) (hl : l.Nodup) (o : α) (ho : o ∈ l)
    (v : ℚ) : (l.map (fun x => if x = o then v else 0)).sum = v := by
  induction l with
  | nil => cases ho
  | cons a l ih =>
    rw [List.nodup_cons] at hl
    rw [List.map_cons, List.sum_cons]
    by_cases e : a = o
    · have hz : (l.map (fun x => if x = o then v else 0)).sum = 0 := by
        refine List.sum_eq_zero fun x hx => ?_
        obtain ⟨y, hy, rfl⟩ := List.mem_map.1 hx
        exact if_neg fun e' => hl.1 (by rw [e, ← e']; exact hy)
      rw [hz, if_pos e, add_zero]
    · rw [if_neg e, zero_add, ih hl.2 ((List.mem_cons.1 ho).resolve_left (Ne.symm e))]

theorem drawN_length {G : Type} (rng : Rng G) (o : List M) (max n : ℕ) (g g' : G) (s : List M)
    (h : drawN rng o max n g = .ok (s, g')) : s.length = n := by
  induction n generalizing g s with
  | zero =>
    simp only [drawN, pure, Except.pure, Except.ok.injEq, Prod.mk.injEq] at h
    rw [← h.1]; rfl
  | succ n ih =>
    simp only [drawN] at h
    split at h
    · cases h
    · simp only [bind, Except.bind, pure, Except.pure] at h
      split at h
      · cases h
      · rename_i v hv
        obtain ⟨ms, g1⟩ := v
        simp only [Except.ok.injEq, Prod.mk.injEq] at h
        rw [← h.1, List.length_cons, ih _ _ (by rw [hv, h.2])]

/-- One draw after the other from the same list. -/
theorem drawN_probability [DecidableEq M] {N : ℕ} (hN : 0 < N) (o : List M)
    (ho : o ≠ [] → o.length ∣ N) (s : List M) (L : ℕ) (Q : List ℕ → Prop) :
    probability N (L + s.length)
        (fun l => ∃ l', drawN dice o (o.length - 1) s.length l = .ok (s, l') ∧ Q l') =
      drawLaw o s * probability N L Q := by
  induction s generalizing L with
  | nil =>
    simp only [drawN, List.length_nil, pure, Except.pure, Except.ok.injEq, Prod.mk.injEq, true_and,
      drawLaw, List.map_nil, List.prod_nil, one_mul, Nat.add_zero]
    exact probability_congr fun l => by simp
  | cons m s ih =>
    have step : ∀ l : List ℕ, (∃ l', drawN dice o (o.length - 1) (m :: s).length l =
          .ok (m :: s, l') ∧ Q l') ↔
        (fun (b : ℕ) t => o[b]? = some m ∧
          ∃ l', drawN dice o (o.length - 1) s.length t = .ok (s, l') ∧ Q l')
          (l.headD 0 % (o.length - 1 + 1)) l.tail := by
      intro l
      simp only [List.length_cons, drawN, dice]
      generalize l.headD 0 % (o.length - 1 + 1) = b
      cases ho : o[b]? with
      | none => simp
      | some x =>
        simp only [bind, Except.bind, pure, Except.pure, Option.some.injEq]
        generalize drawN _ o (o.length - 1) s.length l.tail = r
        match r with
        | .error e => simp
        | .ok (ms, g) =>
          simp only [Except.ok.injEq, Prod.mk.injEq, List.cons.injEq]
          constructor
          · rintro ⟨l', ⟨⟨h1, h2⟩, h3⟩, h4⟩
            exact ⟨h1, l', ⟨h2, h3⟩, h4⟩
          · rintro ⟨h1, l', ⟨h2, h3⟩, h4⟩
            exact ⟨l', ⟨⟨h1, h2⟩, h3⟩, h4⟩
    rw [probability_congr step]
    by_cases hne : o = []
    · subst hne
      rw [probability_false (by simp)]
      simp [drawLaw]
    · have hpos : 0 < o.length := List.length_pos_iff.2 hne
      have hlen : o.length - 1 + 1 = o.length := by omega
      rw [hlen, show L + (m :: s).length = (L + s.length) + 1 from by simp; omega,
        probability_draw hN (ho hne) (L + s.length) (fun (b : ℕ) t => o[b]? = some m ∧
          ∃ l', drawN dice o (o.length - 1) s.length t = .ok (s, l') ∧ Q l')]
      have : ∀ b : ℕ, probability N (L + s.length) (fun t => o[b]? = some m ∧
            ∃ l', drawN dice o (o.length - 1) s.length t = .ok (s, l') ∧ Q l') =
          if o[b]? = some m then drawLaw o s * probability N L Q else 0 := by
        intro b
        split
        · rename_i hb
          rw [← ih L]
          exact probability_congr fun l => by simp [hb]
        · rename_i hb
          exact probability_false fun l => by simp [hb]
      simp only [this]
      rw [sum_positions]
      simp only [drawLaw, List.map_cons, List.prod_cons]
      ring

/-- One resampled group after the other. -/
theorem drawGroups_probability [DecidableEq M] {N : ℕ} (original : List (List M))
    (hf : Fair original N) (hne : original ≠ []) (sample : List (List M)) (L : ℕ)
    (Q : List ℕ → Prop) :
    probability N (L + drawsOf sample)
        (fun l => ∃ l', drawGroups dice original (original.length - 1) sample.length l =
          .ok (sample, l') ∧ Q l') =
      resampleLaw original sample * probability N L Q := by
  obtain ⟨hN, hn, ho⟩ := hf
  induction sample with
  | nil =>
    simp only [drawGroups, List.length_nil, pure, Except.pure, Except.ok.injEq, Prod.mk.injEq,
      true_and, resampleLaw, drawsOf, List.map_nil, List.prod_nil, List.sum_nil, one_mul, Nat.add_zero]
    exact probability_congr fun l => by simp
  | cons s ss ih =>
    have step : ∀ l : List ℕ, (∃ l', drawGroups dice original (original.length - 1)
          (s :: ss).length l = .ok (s :: ss, l') ∧ Q l') ↔
        (fun (b : ℕ) t => match original[b]? with
          | none => False
          | some o => ∃ l1, drawN dice o (o.length - 1) o.length t = .ok (s, l1) ∧
              ∃ l', drawGroups dice original (original.length - 1) ss.length l1 = .ok (ss, l') ∧
                Q l')
          (l.headD 0 % (original.length - 1 + 1)) l.tail := by
      intro l
      simp only [List.length_cons, drawGroups, dice]
      generalize l.headD 0 % (original.length - 1 + 1) = b
      cases hb : original[b]? with
      | none => simp
      | some o =>
        simp only [bind, Except.bind, pure, Except.pure]
        generalize drawN _ o (o.length - 1) o.length l.tail = r
        match r with
        | .error e => simp
        | .ok (ms, g) =>
          simp only [Except.ok.injEq, Prod.mk.injEq]
          constructor
          · rintro ⟨l', h1, h2⟩
            split at h1
            · cases h1
            · rename_i v hv
              obtain ⟨v1, v2⟩ := v
              simp only [Except.ok.injEq, Prod.mk.injEq, List.cons.injEq] at h1
              obtain ⟨⟨rfl, rfl⟩, rfl⟩ := h1
              exact ⟨g, ⟨rfl, rfl⟩, v2, hv, h2⟩
          · rintro ⟨l1, ⟨rfl, rfl⟩, l', h1, h2⟩
            exact ⟨l', by
              have : drawGroups ({ seed := fun _ => [],
                                   draw := fun max l => (l.headD 0 % (max + 1), l.tail),
                                   inRange := dice.inRange } : Rng (List ℕ)) original
                  (original.length - 1) ss.length g = .ok (ss, l') := h1
              rw [this], h2⟩
    rw [probability_congr step]
    have hpos : 0 < original.length := List.length_pos_iff.2 hne
    have hlen : original.length - 1 + 1 = original.length := by omega
    have hL : L + drawsOf (s :: ss) = (L + drawsOf ss + s.length) + 1 := by
      simp only [drawsOf, List.map_cons, List.sum_cons]; omega
    rw [hlen, hL, probability_draw hN (hn hne) (L + drawsOf ss + s.length) (fun (b : ℕ) t =>
      match original[b]? with
      | none => False
      | some o => ∃ l1, drawN dice o (o.length - 1) o.length t = .ok (s, l1) ∧
          ∃ l', drawGroups dice original (original.length - 1) ss.length l1 = .ok (ss, l') ∧ Q l')]
    have : ∀ b : ℕ, probability N (L + drawsOf ss + s.length) (fun t => match original[b]? with
          | none => False
          | some o => ∃ l1, drawN dice o (o.length - 1) o.length t = .ok (s, l1) ∧
              ∃ l', drawGroups dice original (original.length - 1) ss.length l1 = .ok (ss, l') ∧
                Q l') =
        (original[b]?).elim 0 (fun o => (if o.length = s.length then drawLaw o s else 0) *
            (resampleLaw original ss * probability N L Q)) := by
      intro b
      cases hb : original[b]? with
      | none => exact probability_false (by simp)
      | some o =>
        simp only [Option.elim_some]
        split
        · rename_i hl
          rw [← ih, hl, ← drawN_probability hN o (ho o (List.mem_of_getElem? hb)), hl]
        · rename_i hl
          rw [zero_mul]
          refine probability_false ?_
          rintro t ⟨l1, h1, _⟩
          exact hl (drawN_length _ _ _ _ _ _ _ h1).symm
    simp only [this]
    rw [sum_members original (fun o => (if o.length = s.length then drawLaw o s else 0) *
            (resampleLaw original ss * probability N L Q))]
    rw [List.sum_map_mul_right]
    simp only [resampleLaw, groupLaw, List.map_cons, List.prod_cons]
    ring

end

end Kws
