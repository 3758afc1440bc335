import Verif.Lemmas.Order

/-!
Facts about `StdSort`, and an instance (so that theorems quantifying over `StdSort` are not vacuous).
-/

namespace Kws

/-! ## Strict total orders -/

structure StrictTotal {α : Type} (lt : α → α → Bool) : Prop where
  irrefl : ∀ a, lt a a = false
  trans : ∀ a b c, lt a b = true → lt b c = true → lt a c = true
  tri : ∀ a b, lt a b = true ∨ a = b ∨ lt b a = true

namespace StrictTotal
variable {α : Type} {lt : α → α → Bool}

theorem asymm (h : StrictTotal lt) {a b : α} (hab : lt a b = true) : lt b a = false := by
  by_contra h'
  rw [Bool.not_eq_false] at h'
  have := h.trans a b a hab h'
  rw [h.irrefl] at this
  exact absurd this (by decide)

theorem eq_of_not (h : StrictTotal lt) {a b : α} (h1 : lt a b = false) (h2 : lt b a = false) :
    a = b := by
  rcases h.tri a b with h' | h' | h'
  · rw [h1] at h'; exact absurd h' (by decide)
  · exact h'
  · rw [h2] at h'; exact absurd h' (by decide)

theorem strictWeak (h : StrictTotal lt) (l : List α) : StrictWeakOn lt l where
  irrefl := fun a _ => h.irrefl a
  trans := fun a _ b _ c _ => h.trans a b c
  incomp := fun a _ b _ c _ h1 h2 h3 h4 => by
    have e1 := h.eq_of_not h1 h2
    have e2 := h.eq_of_not h3 h4
    subst e1; subst e2
    exact ⟨h.irrefl a, h.irrefl a⟩

theorem flip (h : StrictTotal lt) : StrictTotal (fun a b => lt b a) where
  irrefl := h.irrefl
  trans := fun a b c h1 h2 => h.trans c b a h2 h1
  tri := fun a b => by
    rcases h.tri a b with h' | h' | h'
    · exact Or.inr (Or.inr h')
    · exact Or.inr (Or.inl h')
    · exact Or.inl h'

/-- Sorting by a strict total order has only one possible result. -/
theorem sortedPerm_unique (h : StrictTotal lt) {l l' s s' : List α} (hl : l.Perm l')
    (hs : SortedPerm lt l s) (hs' : SortedPerm lt l' s') : s = s' := by
  have hp : s.Perm s' := hs.perm.trans (hl.trans hs'.perm.symm)
  exact hp.eq_of_pairwise (fun a b _ _ h1 h2 => h.eq_of_not h2 h1) hs.sorted hs'.sorted

end StrictTotal

theorem lawful_strictTotal (α : Type) [Cmp α] [LawfulCmp α] :
    StrictTotal (Cmp.lt : α → α → Bool) :=
  ⟨LawfulCmp.irrefl, LawfulCmp.trans, LawfulCmp.tri⟩

theorem pairLt_strictTotal (α β : Type) [Cmp α] [LawfulCmp α] [Cmp β] [LawfulCmp β]
    (pairLt : α × β → α × β → Bool)
    (hdef : ∀ a b, pairLt a b = (Cmp.lt a.1 b.1 || (!Cmp.lt b.1 a.1 && Cmp.lt a.2 b.2))) :
    StrictTotal pairLt := by
  have h1 := lawful_strictTotal α
  have h2 := lawful_strictTotal β
  have key : ∀ a b, pairLt a b = true ↔ Cmp.lt a.1 b.1 = true ∨ a.1 = b.1 ∧ Cmp.lt a.2 b.2 = true := by
    intro a b
    rw [hdef]
    simp only [Bool.or_eq_true, Bool.and_eq_true, Bool.not_eq_true']
    rcases h1.tri a.1 b.1 with h | h | h
    · simp [h]
    · simp [h, h1.irrefl]
    · have hn : a.1 ≠ b.1 := (LawfulCmp.ne_of_lt h).symm
      simp [h, h1.asymm h, hn]
  refine ⟨?_, ?_, ?_⟩
  · intro a
    rw [← Bool.not_eq_true, key]
    simp [h1.irrefl, h2.irrefl]
  · intro a b c
    rw [key, key, key]
    have t1 := h1.trans a.1 b.1 c.1
    have t2 := h2.trans a.2 b.2 c.2
    grind
  · intro a b
    rw [key, key]
    obtain ⟨a1, a2⟩ := a
    obtain ⟨b1, b2⟩ := b
    have t1 := h1.tri a1 b1
    have t2 := h2.tri a2 b2
    simp only [Prod.mk.injEq]
    grind

/-! ## An instance of `StdSort` -/

section Insertion
variable {α : Type} (lt : α → α → Bool)

def insOrd (x : α) : List α → List α
  | [] => [x]
  | y :: ys => if lt y x then y :: insOrd x ys else x :: y :: ys

def insSort : List α → List α
  | [] => []
  | x :: xs => insOrd lt x (insSort xs)

theorem insOrd_perm (x : α) (l : List α) : (insOrd lt x l).Perm (x :: l) := by
  induction l with
  | nil => exact List.Perm.refl _
  | cons y ys ih =>
    unfold insOrd
    split
    · exact (List.Perm.cons y ih).trans (List.Perm.swap x y ys)
    · exact List.Perm.refl _

theorem insSort_perm (l : List α) : (insSort lt l).Perm l := by
  induction l with
  | nil => exact List.Perm.refl _
  | cons x xs ih => exact (insOrd_perm lt x _).trans (List.Perm.cons x ih)

/-- negative transitivity of a strict weak order -/
theorem strictWeak_negTrans {lt : α → α → Bool} {l : List α} (h : StrictWeakOn lt l) {z y x : α}
    (hz : z ∈ l) (hy : y ∈ l) (hx : x ∈ l) (h1 : lt z y = false) (h2 : lt y x = false) :
    lt z x = false := by
  by_contra h3
  rw [Bool.not_eq_false] at h3
  have h4 : lt y z = false := by
    by_contra h4
    rw [Bool.not_eq_false] at h4
    have := h.trans y hy z hz x hx h4 h3
    rw [h2] at this
    exact absurd this (by decide)
  have h5 : lt x y = false := by
    by_contra h5
    rw [Bool.not_eq_false] at h5
    have := h.trans z hz x hx y hy h3 h5
    rw [h1] at this
    exact absurd this (by decide)
  have := (h.incomp z hz y hy x hx h1 h4 h2 h5).1
  rw [h3] at this
  exact absurd this (by decide)

theorem insOrd_sorted (x : α) (l : List α) (big : List α) (h : StrictWeakOn lt big)
    (hx : x ∈ big) (hl : ∀ y ∈ l, y ∈ big) (hs : l.Pairwise (fun a b => lt b a = false)) :
    (insOrd lt x l).Pairwise (fun a b => lt b a = false) := by
  induction l with
  | nil => simp [insOrd]
  | cons y ys ih =>
    rw [List.pairwise_cons] at hs
    unfold insOrd
    by_cases hyx : lt y x = true
    · rw [if_pos hyx, List.pairwise_cons]
      refine ⟨fun z hz => ?_, ih (fun z hz => hl z (List.mem_cons_of_mem _ hz)) hs.2⟩
      rcases List.mem_cons.1 ((insOrd_perm lt x ys).mem_iff.1 hz) with rfl | hz
      · by_contra h'
        rw [Bool.not_eq_false] at h'
        have hy := hl y List.mem_cons_self
        have := h.trans y hy z hx y hy hyx h'
        rw [h.irrefl y hy] at this
        exact absurd this (by decide)
      · exact hs.1 z hz
    · rw [if_neg hyx, List.pairwise_cons, List.pairwise_cons]
      refine ⟨fun z hz => ?_, hs⟩
      have hy := hl y List.mem_cons_self
      rw [Bool.not_eq_true] at hyx
      rcases List.mem_cons.1 hz with rfl | hz'
      · exact hyx
      · exact strictWeak_negTrans h (hl z hz) hy hx (hs.1 z hz') hyx

theorem insSort_sorted (l : List α) (big : List α) (h : StrictWeakOn lt big)
    (hl : ∀ y ∈ l, y ∈ big) : (insSort lt l).Pairwise (fun a b => lt b a = false) := by
  induction l with
  | nil => simp [insSort]
  | cons x xs ih =>
    refine insOrd_sorted lt x _ big h (hl x List.mem_cons_self) ?_
      (ih (fun y hy => hl y (List.mem_cons_of_mem _ hy)))
    intro y hy
    exact hl y (List.mem_cons_of_mem _ ((insSort_perm lt xs).mem_iff.1 hy))

end Insertion

open Classical in
/-- Insertion sort is an implementation of `std::sort`. -/
noncomputable def insertionStdSort : StdSort where
  sort := fun lt l => if StrictWeakOn lt l then .ok (insSort lt l) else .error .ub
  ok := fun lt l h => ⟨insSort lt l, by simp [h],
    ⟨insSort_perm lt l, insSort_sorted lt l l h (fun _ hy => hy)⟩⟩
  bad := fun lt l h => by simp [h]

end Kws
