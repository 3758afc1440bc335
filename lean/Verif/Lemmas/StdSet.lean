import Verif.Lemmas.Order

/-!
Facts about the `std::set` and `std::map` models for lawful comparisons.
-/

namespace Kws

/-- strictly increasing -/
def Sorted {α : Type} [Cmp α] (l : List α) : Prop := l.Pairwise (fun a b => Cmp.lt a b = true)

namespace StdSet
variable {α : Type} [Cmp α] [LawfulCmp α]

theorem mem_insert (x y : α) (l : List α) :
    y ∈ (insert Cmp.lt x l).1 ↔ y = x ∨ y ∈ l := by
  induction l with
  | nil => simp [insert]
  | cons z l ih =>
    unfold insert
    by_cases h1 : Cmp.lt x z = true
    · simp [h1]
    · rw [if_neg h1]
      by_cases h2 : Cmp.lt z x = true
      · simp [h2, ih]; tauto
      · rw [if_neg h2]
        have : x = z := LawfulCmp.eq_of_not_lt (by simpa using h1) (by simpa using h2)
        simp [this]

theorem sorted_insert (x : α) (l : List α) (h : Sorted l) : Sorted (insert Cmp.lt x l).1 := by
  induction l with
  | nil => simp [insert, Sorted]
  | cons z l ih =>
    unfold Sorted at *
    rw [List.pairwise_cons] at h
    unfold insert
    by_cases h1 : Cmp.lt x z = true
    · rw [if_pos h1, List.pairwise_cons, List.pairwise_cons]
      refine ⟨fun y hy => ?_, h⟩
      rcases List.mem_cons.1 hy with rfl | hy
      · exact h1
      · exact LawfulCmp.trans _ _ _ h1 (h.1 y hy)
    · rw [if_neg h1]
      by_cases h2 : Cmp.lt z x = true
      · rw [if_pos h2, List.pairwise_cons]
        refine ⟨fun y hy => ?_, ih h.2⟩
        rcases (mem_insert x y l).1 hy with rfl | hy
        · exact h2
        · exact h.1 y hy
      · rw [if_neg h2, List.pairwise_cons]; exact h

theorem sorted_nodup {l : List α} (h : Sorted l) : l.Nodup :=
  List.Pairwise.imp (fun h => LawfulCmp.ne_of_lt h) h

/-- The insertion takes place exactly if the element is new; otherwise nothing changes. -/
theorem insert_flag (x : α) (l : List α) (h : Sorted l) :
    ((insert Cmp.lt x l).2 = true ↔ x ∉ l) ∧
    (x ∈ l → (insert Cmp.lt x l).1 = l) ∧
    (x ∉ l → (insert Cmp.lt x l).1.length = l.length + 1) := by
  induction l with
  | nil => simp [insert]
  | cons z l ih =>
    unfold Sorted at *
    rw [List.pairwise_cons] at h
    obtain ⟨i1, i2, i3⟩ := ih h.2
    unfold insert
    by_cases h1 : Cmp.lt x z = true
    · have hx : x ∉ z :: l := by
        intro hx
        rcases List.mem_cons.1 hx with rfl | hx
        · exact LawfulCmp.ne_of_lt h1 rfl
        · have := LawfulCmp.trans _ _ _ h1 (h.1 x hx)
          exact LawfulCmp.ne_of_lt this rfl
      rw [if_pos h1]
      exact ⟨by simpa using hx, fun h => absurd h hx, fun _ => rfl⟩
    · rw [if_neg h1]
      by_cases h2 : Cmp.lt z x = true
      · have hz : x ≠ z := (LawfulCmp.ne_of_lt h2).symm
        rw [if_pos h2]
        simp only [List.mem_cons, hz, false_or, List.length_cons]
        exact ⟨i1, fun hx => by rw [i2 hx], fun hx => by rw [i3 hx]⟩
      · have : x = z := LawfulCmp.eq_of_not_lt (by simpa using h1) (by simpa using h2)
        rw [if_neg h2]
        simp [this]

theorem find?_eq [DecidableEq α] (x : α) (l : List α) :
    find? Cmp.lt x l = if x ∈ l then some x else none := by
  induction l with
  | nil => simp [find?]
  | cons z l ih =>
    unfold find?
    by_cases hz : x = z
    · subst hz; simp [LawfulCmp.irrefl]
    · have : ¬ ((!Cmp.lt x z && !Cmp.lt z x) = true) := by
        intro h
        simp only [Bool.and_eq_true, Bool.not_eq_true'] at h
        exact hz (LawfulCmp.eq_of_not_lt h.1 h.2)
      rw [if_neg this]
      classical
      rw [ih]
      simp [hz]

theorem find?_isSome (x : α) (l : List α) : (find? Cmp.lt x l).isSome = true ↔ x ∈ l := by
  classical
  rw [find?_eq]
  split <;> simp_all

theorem erase_eq (x : α) (l : List α) [DecidableEq α] :
    erase Cmp.lt x l = (l.erase x, if x ∈ l then 1 else 0) := by
  induction l with
  | nil => simp [erase]
  | cons z l ih =>
    unfold erase
    by_cases hz : x = z
    · subst hz; simp [LawfulCmp.irrefl]
    · have : ¬ ((!Cmp.lt x z && !Cmp.lt z x) = true) := by
        intro h
        simp only [Bool.and_eq_true, Bool.not_eq_true'] at h
        exact hz (LawfulCmp.eq_of_not_lt h.1 h.2)
      rw [if_neg this, ih]
      have hz' : ¬ z = x := fun h => hz h.symm
      simp [hz, hz']

theorem sorted_erase (x : α) (l : List α) (h : Sorted l) : Sorted (erase Cmp.lt x l).1 := by
  classical
  rw [erase_eq]
  exact h.sublist List.erase_sublist

theorem mem_erase (x y : α) (l : List α) (h : Sorted l) :
    y ∈ (erase Cmp.lt x l).1 ↔ y ≠ x ∧ y ∈ l := by
  classical
  rw [erase_eq]
  exact (sorted_nodup h).mem_erase_iff

theorem foldl_insert (l s : List α) (hs : Sorted s) :
    Sorted (l.foldl (fun s x => (insert Cmp.lt x s).1) s) ∧
    ∀ y, y ∈ l.foldl (fun s x => (insert Cmp.lt x s).1) s ↔ y ∈ l ∨ y ∈ s := by
  induction l generalizing s with
  | nil => simp [hs]
  | cons x l ih =>
    obtain ⟨h1, h2⟩ := ih _ (sorted_insert x s hs)
    refine ⟨h1, fun y => ?_⟩
    rw [List.foldl_cons, h2, mem_insert, List.mem_cons]
    tauto

theorem ofList_sorted (l : List α) : Sorted (ofList Cmp.lt l) :=
  (foldl_insert l [] (by simp [Sorted])).1

theorem mem_ofList (l : List α) (y : α) : y ∈ ofList Cmp.lt l ↔ y ∈ l := by
  simpa [ofList] using (foldl_insert l [] (by simp [Sorted])).2 y

/-- A strictly sorted list is determined by its elements. -/
theorem sorted_ext {l l' : List α} (h : Sorted l) (h' : Sorted l') (he : ∀ x, x ∈ l ↔ x ∈ l') :
    l = l' := by
  have hp : l.Perm l' := (List.perm_ext_iff_of_nodup (sorted_nodup h) (sorted_nodup h')).2 he
  exact hp.eq_of_pairwise (fun a b _ _ h1 h2 => by
    have := LawfulCmp.asymm h1
    rw [h2] at this
    exact absurd this (by decide)) h h'

end StdSet

namespace AMap
variable {κ ν : Type} [DecidableEq κ]

theorem find?_set (k k' : κ) (v : ν) (m : List (κ × ν)) :
    find? k' (set k v m) = if k' = k then some v else find? k' m := by
  induction m with
  | nil => simp [set, find?]
  | cons a m ih =>
    obtain ⟨a, w⟩ := a
    unfold set
    by_cases h : k = a
    · subst h
      by_cases h' : k' = k <;> simp [find?, h']
    · by_cases h' : k' = a
      · subst h'
        have : ¬ k' = k := fun e => h e.symm
        simp [h, find?, this]
      · simp [h, find?, h', ih]

theorem emplace_snd (k : κ) (v : ν) (m : List (κ × ν)) :
    (emplace k v m).2 = (find? k m).getD v := by
  unfold emplace
  cases find? k m <;> rfl

theorem find?_append (k : κ) (m m' : List (κ × ν)) :
    find? k (m ++ m') = (find? k m).or (find? k m') := by
  induction m with
  | nil => simp [find?]
  | cons a m ih =>
    obtain ⟨a, w⟩ := a
    by_cases h : k = a <;> simp [find?, h, ih]

theorem find?_emplace (k k' : κ) (v : ν) (m : List (κ × ν)) :
    find? k' (emplace k v m).1 = if k' = k then some ((find? k m).getD v) else find? k' m := by
  unfold emplace
  cases h : find? k m with
  | some w =>
    by_cases h' : k' = k
    · subst h'; simp [h]
    · simp [h']
  | none =>
    rw [find?_append]
    by_cases h' : k' = k
    · subst h'; simp [h, find?]
    · simp [h', find?]

theorem mem_of_find? (k : κ) (v : ν) (m : List (κ × ν)) (h : find? k m = some v) : (k, v) ∈ m := by
  induction m with
  | nil => simp [find?] at h
  | cons a m ih =>
    obtain ⟨a, w⟩ := a
    unfold find? at h
    by_cases h' : k = a
    · subst h'; simp at h; simp [h]
    · simp only [h', if_false] at h
      exact List.mem_cons_of_mem _ (ih h)

end AMap

end Kws
