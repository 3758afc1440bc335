import Verif.Model.Output
import Verif.Props.MatchValue

/-!
# C100: error values
-/

namespace Kws

/-- C100: errors are equal if both rates are, and different otherwise. -/
theorem C100_error (a b : MatchError) :
    (MatchError.eq a b = true ↔ a.fp = b.fp ∧ a.fn = b.fn) ∧ MatchError.ne a b = !MatchError.eq a b := by
  constructor
  · simp [MatchError.eq]
  · rw [Bool.eq_iff_iff]
    simp only [MatchError.eq, MatchError.ne, Bool.or_eq_true, Bool.not_eq_true', Bool.and_eq_false_iff,
      decide_eq_true_eq, decide_eq_false_iff_not]

/-- C100: counts are equal if all four components are, and different otherwise. -/
theorem C100_counts (a b : MatchErrorCounts) :
    (MatchErrorCounts.eq a b = true ↔ a.fp = b.fp ∧ a.fn = b.fn ∧ a.nh = b.nh ∧ a.nr = b.nr) ∧
    MatchErrorCounts.ne a b = !MatchErrorCounts.eq a b := by
  constructor
  · simp [MatchErrorCounts.eq, and_assoc]
  · rw [Bool.eq_iff_iff]
    simp only [MatchErrorCounts.eq, MatchErrorCounts.ne, Bool.or_eq_true, Bool.not_eq_true',
      Bool.and_eq_false_iff, decide_eq_true_eq, decide_eq_false_iff_not]

/-- C100: counts made from errors are equal if the errors are. -/
theorem C100_of_errors (a b : MatchError) :
    MatchErrorCounts.eq (.ofError a) (.ofError b) = MatchError.eq a b := by
  rw [Bool.eq_iff_iff, (C100_counts _ _).1, (C100_error a b).1]
  constructor
  · rintro ⟨h1, h2, _, _⟩
    exact ⟨h1, h2⟩
  · rintro ⟨h1, h2⟩
    obtain ⟨_, _⟩ := a
    obtain ⟨_, _⟩ := b
    simp only at h1 h2
    subst h1 h2
    exact ⟨rfl, rfl, rfl, rfl⟩

/-- C100: counts that are compared as errors can be equal although they are different counts; the rates
decide. -/
theorem C100_base (a b : MatchErrorCounts) :
    MatchError.eq a.base b.base = true ↔ a.fp = b.fp ∧ a.fn = b.fn := (C100_error _ _).1

/-- C100: accumulating the errors of matches gives, compared with `==`, the counts of their sums
whatever the order. -/
theorem C100_accumulated (es es' : List MatchError) (h : es.Perm es') :
    MatchErrorCounts.eq (es.foldl (MatchErrorCounts.addError Rnd.exact) .default)
      (es'.foldl (MatchErrorCounts.addError Rnd.exact) .default) = true := by
  rw [C13_order_irrelevant _ _ _ h, (C100_counts _ _).1]
  exact ⟨rfl, rfl, rfl, rfl⟩

/-- C100: the counts of a single error are printed like the error, under another name. -/
theorem C100_print (e : MatchError) : ∃ t, showError e = "MatchError".toList ++ t ∧
    showCounts (.ofError e) = "MatchErrorCounts".toList ++ t :=
  ⟨"[fp=".toList ++ (showGeneral e.fp ++ (", fn=".toList ++ (showGeneral e.fn ++
    (", nh=".toList ++ (showNat e.nh ++ (", nr=".toList ++ (showNat e.nr ++ "]".toList))))))), by
    unfold showError
    rw [show "MatchError[fp=".toList = "MatchError".toList ++ "[fp=".toList by decide]
    simp only [List.append_assoc], by
    unfold showCounts MatchErrorCounts.ofError
    rw [show "MatchErrorCounts[fp=".toList = "MatchErrorCounts".toList ++ "[fp=".toList by decide]
    simp only [List.append_assoc]⟩

/-- Two hits have the same rates as one, but other counts. -/
example :
    let one := MatchErrorCounts.ofError ⟨0, 0⟩
    let two := MatchErrorCounts.addError Rnd.exact one ⟨0, 0⟩
    MatchErrorCounts.eq one two = false ∧ MatchErrorCounts.ne one two = true ∧
    MatchError.eq one.base two.base = true := by
  decide +kernel

end Kws
