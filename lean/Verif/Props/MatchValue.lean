import Verif.Props.Order
import Verif.Model.Match
import Mathlib.Algebra.BigOperators.Group.List.Basic

/-!
# C08: matches as values; C13: error counts
-/

namespace Kws
open Spec

/-! ## C08

Full statement (false): copying or assigning a match, including to itself, yields a match equal to
the source; `==` and `!=` are opposite and always return. -/

/-- C08: the copy constructor yields the source. -/
theorem C08_copy {RE HE : Type} (m : Match RE HE) : Match.copy m = m := by
  obtain ⟨r, h, e⟩ := m
  cases r <;> cases h <;> rfl

/-- C08, assignment between different objects: the destination becomes the source, every other
object (also the source) is unchanged. Missing: self-assignment (`C08_self_assign_refuted`). -/
theorem C08_assign_partial {RE HE : Type} {n : Nat} (v : Fin n → Match RE HE) (i j : Fin n)
    (hij : i ≠ j) :
    Match.assign v i j i = v j ∧ ∀ k, k ≠ i → Match.assign v i j k = v k := by
  have hji : j ≠ i := fun h => hij h.symm
  rcases hv : v j with ⟨r, h, e⟩
  constructor
  · cases r <;> cases h <;>
      simp [Match.assign, hv, hji, Function.update_of_ne, Match.hasRef, Match.hasHyp]
  · intro k hk
    cases r <;> cases h <;>
      simp [Match.assign, hv, hji, hk, Function.update_of_ne, Match.hasRef, Match.hasHyp]

/-- C08 is false: assigning a match to itself erases its reference and hypothesis, whatever they
are. -/
theorem C08_self_assign {RE HE : Type} {n : Nat} (v : Fin n → Match RE HE) (i : Fin n) :
    Match.assign v i i i = ⟨none, none, (v i).error⟩ := by
  simp [Match.assign, Match.hasRef, Match.hasHyp]

theorem C08_self_assign_refuted :
    ∃ (v : Fin 1 → Match Nat Nat), Match.assign v 0 0 0 ≠ v 0 :=
  ⟨fun _ => ⟨some 1, some 2, ⟨0, 0⟩⟩, by rw [C08_self_assign]; simp⟩

/-- C08: move assignment transfers the value and leaves other objects unchanged. -/
theorem C08_move_assign {RE HE : Type} {n : Nat} (v : Fin n → Match RE HE) (i j : Fin n) :
    Match.moveAssign v i j i = v j ∧ ∀ k, k ≠ i → k ≠ j → Match.moveAssign v i j k = v k := by
  unfold Match.moveAssign
  by_cases h : i = j
  · subst h; simp
  · constructor
    · simp [h, Function.update_of_ne]
    · intro k hki hkj; simp [h, hki, hkj, Function.update_of_ne]

/-- C08: `==` is equality of matches, as long as no score is NaN. -/
theorem C08_eq_partial {Q L : Type} [Cmp Q] [LawfulCmp Q] [Cmp L] [LawfulCmp L]
    (a b : Match (Event Q L) (ScoredEvent Q L))
    (ha : ∀ h, a.hyp = some h → h.score ≠ .nan) (hb : ∀ h, b.hyp = some h → h.score ≠ .nan) :
    Match.eq a b = true ↔ a = b := by
  obtain ⟨ar, ah, ae⟩ := a
  obtain ⟨br, bh, be⟩ := b
  obtain ⟨f1, f2⟩ := ae
  obtain ⟨g1, g2⟩ := be
  have hev := (C06_event_order Q L).eq_iff
  have hsc := (C07_scored_order_partial Q L).eq_iff
  simp only [Match.eq, MatchError.eq, Match.hasRef, Match.hasHyp, Match.mk.injEq,
    MatchError.mk.injEq, Bool.and_eq_true, decide_eq_true_eq, beq_iff_eq, Bool.or_eq_true,
    Bool.not_eq_true']
  cases ar with
  | none =>
    cases br with
    | none =>
      cases ah with
      | none => cases bh with
        | none => simp [Match.optEq]
        | some y => simp
      | some x => cases bh with
        | none => simp
        | some y =>
          have := hsc x y (ha x rfl) (hb y rfl)
          simp only [Match.optEq, Cmp.eq]
          simp [this]; tauto
    | some y => simp
  | some r =>
    cases br with
    | none => simp
    | some r' =>
      have hr := hev r r' trivial trivial
      cases ah with
      | none => cases bh with
        | none => simp [Match.optEq, Cmp.eq, hr]; tauto
        | some y => simp
      | some x => cases bh with
        | none => simp
        | some y =>
          have := hsc x y (ha x rfl) (hb y rfl)
          simp only [Match.optEq, Cmp.eq]
          simp [this, hr]; tauto

/-- C08 is false: `operator!=` never returns, for any two matches and any call-stack depth. -/
theorem C08_ne_refuted {RE HE : Type} (a b : Match RE HE) (fuel : Nat) :
    Match.ne fuel a b = .error .diverge := by
  induction fuel with
  | zero => rfl
  | succ n ih => simp [Match.ne, ih, bind, Except.bind]

/-- Matches meeting the hypotheses of `C08_eq_partial`. -/
example : ∃ a b : Match (Event Nat Nat) (ScoredEvent Nat Nat),
    (∀ h, a.hyp = some h → h.score ≠ .nan) ∧ (∀ h, b.hyp = some h → h.score ≠ .nan) ∧
    Match.eq a b = false :=
  ⟨⟨some ⟨1, 2⟩, some ⟨⟨1, 2⟩, .fin 3⟩, ⟨0, 0⟩⟩, ⟨some ⟨1, 2⟩, none, ⟨0, 1⟩⟩,
    by simp, by simp, by decide +kernel⟩

/-! ## C13 -/

/-- C13: the three kinds of hard errors. A hit counts one hypothesis and one reference, a false
positive one hypothesis, a false negative one reference. -/
theorem C13_kinds (RE HE : Type) (r : RE) (h : HE) :
    (let m : Match RE HE := Match.make r h ⟨0, 0⟩;
      m.error.nh = 1 ∧ m.error.nr = 1 ∧ m.error.fp = 0 ∧ m.error.fn = 0) ∧
    (let m : Match RE HE := Match.makeFalsePositive h;
      m.error.nh = 1 ∧ m.error.nr = 0 ∧ m.error.fp = 1 ∧ m.error.fn = 0) ∧
    (let m : Match RE HE := Match.makeFalseNegative r;
      m.error.nh = 0 ∧ m.error.nr = 1 ∧ m.error.fp = 0 ∧ m.error.fn = 1) := by
  simp [Match.make, Match.makeFalsePositive, Match.makeFalseNegative, MatchError.nh,
    MatchError.nr]

/-- C13: the counts of an error with rates in [0,1] are 0 or 1, bound the masses from above, and
the hypothesis (reference) is not counted exactly for a pure false negative (positive). -/
theorem C13_counts (e : MatchError) (hfp : 0 ≤ e.fp ∧ e.fp ≤ 1) (hfn : 0 ≤ e.fn ∧ e.fn ≤ 1) :
    e.nh ≤ 1 ∧ e.nr ≤ 1 ∧ e.fp ≤ e.nh ∧ e.fn ≤ e.nr ∧
    (e.nh = 0 ↔ e.fp = 0 ∧ e.fn = 1) ∧ (e.nr = 0 ↔ e.fp = 1 ∧ e.fn = 0) := by
  obtain ⟨fp, fn⟩ := e
  simp only [MatchError.nh, MatchError.nr] at *
  have e1 : fp = 0 ↔ ¬ 0 < fp := ⟨fun h => by rw [h]; simp, fun h => le_antisymm (not_lt.1 h) hfp.1⟩
  have e2 : fn = 1 ↔ ¬ fn < 1 := ⟨fun h => by rw [h]; simp, fun h => le_antisymm hfn.2 (not_lt.1 h)⟩
  have e3 : fp = 1 ↔ ¬ fp < 1 := ⟨fun h => by rw [h]; simp, fun h => le_antisymm hfp.2 (not_lt.1 h)⟩
  have e4 : fn = 0 ↔ ¬ 0 < fn := ⟨fun h => by rw [h]; simp, fun h => le_antisymm (not_lt.1 h) hfn.1⟩
  rw [e1, e2, e3, e4]
  by_cases h1 : (0 : ℚ) < fp <;> by_cases h2 : fn < 1 <;> by_cases h3 : fp < 1 <;>
    by_cases h4 : (0 : ℚ) < fn <;> simp [h1, h2, h3, h4] <;>
    first | exact ⟨hfp.2, hfn.2⟩ | (constructor <;> linarith)

/-- C13: accumulating errors adds up each component (exact arithmetic). -/
theorem C13_accumulate (c : MatchErrorCounts) (es : List MatchError) :
    es.foldl (MatchErrorCounts.addError Rnd.exact) c =
      ⟨c.fp + (es.map MatchError.fp).sum, c.fn + (es.map MatchError.fn).sum,
       c.nh + (es.map MatchError.nh).sum, c.nr + (es.map MatchError.nr).sum⟩ := by
  induction es generalizing c with
  | nil => simp
  | cons e es ih =>
    rw [List.foldl_cons, ih]
    simp only [List.map_cons, List.sum_cons, MatchErrorCounts.addError, Rnd.exact, id]
    congr 1 <;> ring

/-- C13: the order of accumulation is irrelevant (exact arithmetic). -/
theorem C13_order_irrelevant (c : MatchErrorCounts) (es es' : List MatchError)
    (h : es.Perm es') :
    es.foldl (MatchErrorCounts.addError Rnd.exact) c =
      es'.foldl (MatchErrorCounts.addError Rnd.exact) c := by
  rw [C13_accumulate, C13_accumulate, (h.map _).sum_eq, (h.map _).sum_eq, (h.map _).sum_eq,
    (h.map _).sum_eq]

/-- C13: `+` of accumulated counts is also component-wise, commutative and associative, and
starting from a single error is the same as adding it to zero (exact arithmetic). -/
theorem C13_add (a b c : MatchErrorCounts) (e : MatchError) :
    MatchErrorCounts.add Rnd.exact a b = ⟨a.fp + b.fp, a.fn + b.fn, a.nh + b.nh, a.nr + b.nr⟩ ∧
    MatchErrorCounts.add Rnd.exact a b = MatchErrorCounts.add Rnd.exact b a ∧
    MatchErrorCounts.add Rnd.exact (MatchErrorCounts.add Rnd.exact a b) c =
      MatchErrorCounts.add Rnd.exact a (MatchErrorCounts.add Rnd.exact b c) ∧
    MatchErrorCounts.addError Rnd.exact MatchErrorCounts.default e = MatchErrorCounts.ofError e ∧
    MatchErrorCounts.addError Rnd.exact a e =
      MatchErrorCounts.add Rnd.exact a (MatchErrorCounts.ofError e) := by
  refine ⟨rfl, ?_, ?_, ?_, rfl⟩
  · simp only [MatchErrorCounts.add, Rnd.exact, id]
    congr 1 <;> ring
  · simp only [MatchErrorCounts.add, Rnd.exact, id]
    congr 1 <;> ring
  · simp [MatchErrorCounts.addError, MatchErrorCounts.default, MatchErrorCounts.ofError,
      Rnd.exact]

/-- Errors meeting the hypotheses of C13: a soft match. -/
example : let e : MatchError := ⟨1 / 4, 1 / 2⟩
    (0 ≤ e.fp ∧ e.fp ≤ 1) ∧ (0 ≤ e.fn ∧ e.fn ≤ 1) ∧ e.nh = 1 ∧ e.nr = 1 := by
  norm_num [MatchError.nh, MatchError.nr]

end Kws
