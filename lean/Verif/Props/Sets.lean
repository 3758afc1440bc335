import Verif.Lemmas.Sets
import Verif.Lemmas.Coord

/-!
# C09 - C12: event sets

`Spec.Present ops e` says that the history `ops` leaves `e` in the set. `step` performs one call.
-/

namespace Kws
open Spec

/-! ## C09 -/

/-- C09: after any history a plain set has as many elements as events are present, and searching
an event finds it exactly if it is present. -/
theorem C09_plain_set {E : Type} [Cmp E] [LawfulCmp E] (ops : List (SetOp E)) :
    HasCount (Present ops) (ops.foldl EventSet.step EventSet.new).size ∧
    ∀ e, (Present ops e → (ops.foldl EventSet.step EventSet.new).findOverlapping e = [e]) ∧
      (¬ Present ops e → (ops.foldl EventSet.step EventSet.new).findOverlapping e = []) := by
  classical
  obtain ⟨h1, h2⟩ := EventSet.run_inv ops
  refine ⟨hasCount_of_nodup _ (StdSet.sorted_nodup h1) h2, fun e => ⟨fun h => ?_, fun h => ?_⟩⟩
  · unfold EventSet.findOverlapping
    rw [StdSet.find?_eq, if_pos ((h2 e).2 h)]
  · unfold EventSet.findOverlapping
    rw [StdSet.find?_eq, if_neg (fun h' => h ((h2 e).1 h'))]

/-- C09 for the range constructor. -/
theorem C09_plain_set_of_range {E : Type} [Cmp E] [LawfulCmp E] (l : List E) :
    HasCount (· ∈ l) (EventSet.ofRange l).size ∧
    ∀ e, (e ∈ l → (EventSet.ofRange l).findOverlapping e = [e]) ∧
      (e ∉ l → (EventSet.ofRange l).findOverlapping e = []) := by
  have hrun : EventSet.ofRange l = (l.map SetOp.insert).foldl EventSet.step EventSet.new := by
    unfold EventSet.ofRange
    rw [List.foldl_map]
    rfl
  have hp : ∀ e, Present (l.map SetOp.insert) e ↔ e ∈ l := by
    intro e
    induction l using List.reverseRecOn with
    | nil => simp [present_nil]
    | append_singleton l x ih =>
      rw [List.map_append, List.map_singleton, present_insert, ih]
      · simp [or_comm]
      · unfold EventSet.ofRange
        rw [List.foldl_map]
        rfl
  have h := C09_plain_set (l.map SetOp.insert)
  rw [← hrun] at h
  refine ⟨?_, fun e => ⟨fun he => (h.2 e).1 ((hp e).2 he), fun he => (h.2 e).2 (fun h' => he ((hp e).1 h'))⟩⟩
  obtain ⟨F, hF, hc⟩ := h.1
  exact ⟨F, fun e => (hF e).trans (hp e), hc⟩

/-- A history with a repetition, a removal and a search. -/
example :
    (([.insert 3, .insert 5, .insert 3, .remove 5, .remove 9] : List (SetOp Nat)).foldl
      EventSet.step EventSet.new).size = 1 ∧
    (([.insert 3, .insert 5, .insert 3, .remove 5, .remove 9] : List (SetOp Nat)).foldl
      EventSet.step EventSet.new).findOverlapping 3 = [3] := by decide

/-! ## C10 -/

/-- C10: after any history `Size()` of a default-constructed document set is the number of events
present. -/
theorem C10_doc_set_size {Q D T : Type} [DecidableEq Q] [DecidableEq D] [Cmp Q] [LawfulCmp Q]
    [Cmp D] [LawfulCmp D] [Coord T] [LawfulCmp T] (ops : List (SetOp (Event Q (DocBox D T)))) :
    ∃ n, (ops.foldl DocEventSet.step DocEventSet.new).size = .ok n ∧
      HasCount (Present ops) n := by
  obtain ⟨n, hn, hc⟩ := DocEventSet.run_size ops
  exact ⟨n, by unfold DocEventSet.size; rw [hn], hc⟩

/-- Same box twice, another document, a removal of something absent. -/
example :
    (([.insert ⟨1, ⟨⟨0, 0, 2, 2⟩, 7⟩⟩, .insert ⟨1, ⟨⟨0, 0, 2, 2⟩, 7⟩⟩, .insert ⟨1, ⟨⟨0, 0, 2, 2⟩, 8⟩⟩,
      .remove ⟨2, ⟨⟨0, 0, 2, 2⟩, 7⟩⟩] : List (SetOp (Event Nat (DocBox Nat UInt32)))).foldl
      DocEventSet.step DocEventSet.new).size = .ok 2 := by decide

/-! ## C11 -/

/-- C11 for any coordinate type: if no intersection area overflows, the search returns without
duplicates exactly the events present with the same query, the same document and a positive
intersection area, by decreasing area and then by decreasing event. -/
theorem C11_overlap_search {Q D T : Type} [DecidableEq Q] [DecidableEq D] [Cmp Q] [LawfulCmp Q]
    [Cmp D] [LawfulCmp D] [Coord T] [LawfulCmp T] (S : StdSort)
    (ops : List (SetOp (Event Q (DocBox D T)))) (e : Event Q (DocBox D T))
    (area : Event Q (DocBox D T) → T)
    (h : ∀ x, Present ops x → x.query = e.query → x.location.document = e.location.document →
      x.location.intersectionArea e.location = .ok (area x)) :
    ∃ l, (ops.foldl DocEventSet.step DocEventSet.new).findOverlapping S e = .ok l ∧ l.Nodup ∧
      (∀ x, x ∈ l ↔ Present ops x ∧ x.query = e.query ∧
        x.location.document = e.location.document ∧ Cmp.lt Coord.zero (area x) = true) ∧
      l.Pairwise (OverlapBefore (fun a b => Cmp.lt a b = true)
        (EventLt (fun a b => Cmp.lt a b = true)
          (DocBoxLt (fun a b => Cmp.lt a b = true) (fun a b => Cmp.lt a b = true))) area) := by
  obtain ⟨l, h1, h2, h3, h4⟩ := DocEventSet.find_spec S _ _ (DocEventSet.run_holds ops) e area h
  refine ⟨l, h1, h2, h3, h4.imp ?_⟩
  intro x y hxy
  unfold OverlapBefore at *
  rcases hxy with hxy | ⟨ha, hxy⟩
  · exact Or.inl hxy
  · refine Or.inr ⟨ha, ?_⟩
    have hxy' := (event_lt_iff y x).1 hxy
    unfold EventLt at *
    rcases hxy' with h' | ⟨h', h''⟩
    · exact Or.inl h'
    · exact Or.inr ⟨h', (docbox_lt_iff _ _).1 h''⟩

/-- C11 for the ICDAR tool (`uint32_t`): no assumption is needed for the search to succeed, and
when no edge or area wraps around the areas are the numbers of common cells. -/
theorem C11_overlap_search_uint32 {Q D : Type} [DecidableEq Q] [DecidableEq D] [Cmp Q]
    [LawfulCmp Q] [Cmp D] [LawfulCmp D] (S : StdSort)
    (ops : List (SetOp (Event Q (DocBox D UInt32)))) (e : Event Q (DocBox D UInt32)) :
    ∃ l, (ops.foldl DocEventSet.step DocEventSet.new).findOverlapping S e = .ok l ∧ l.Nodup ∧
      (∀ x, x ∈ l ↔ Present ops x ∧ x.query = e.query ∧
        x.location.document = e.location.document ∧
        ∃ a, x.location.toBBox.intersectionArea e.location.toBBox = .ok a ∧ 0 < a) ∧
      ((∀ x, Present ops x → EdgesOkU x.location.toBBox ∧
          (cellsU x.location.toBBox).card < 2 ^ 32) → EdgesOkU e.location.toBBox →
        (∀ x, x ∈ l ↔ Present ops x ∧ x.query = e.query ∧
          x.location.document = e.location.document ∧
          (cellsU x.location.toBBox ∩ cellsU e.location.toBBox).Nonempty) ∧
        l.Pairwise (OverlapBefore (· < ·)
          (EventLt (fun a b => Cmp.lt a b = true) (DocBoxLt (fun a b => Cmp.lt a b = true) (· < ·)))
          (fun x => (cellsU x.location.toBBox ∩ cellsU e.location.toBBox).card))) := by
  have hex : ∀ x : Event Q (DocBox D UInt32), ∃ a,
      x.location.toBBox.intersectionArea e.location.toBBox = .ok a := fun x => u32_inter_ok _ _
  choose area harea using hex
  have hsame : ∀ x : Event Q (DocBox D UInt32), x.location.document = e.location.document →
      x.location.intersectionArea e.location = .ok (area x) := by
    intro x hx
    unfold DocBox.intersectionArea
    rw [if_pos ((LawfulCmp.eq_iff _ _).2 hx), harea]
  obtain ⟨l, h1, h2, h3, h4⟩ := C11_overlap_search S ops e area (fun x _ _ hd => hsame x hd)
  have hpos : ∀ a : UInt32, Cmp.lt (Coord.zero : UInt32) a = true ↔ 0 < a := by
    intro a; simp [Cmp.lt, Coord.zero]
  refine ⟨l, h1, h2, ?_, ?_⟩
  · intro x
    rw [h3, hpos]
    constructor
    · rintro ⟨a, b, c, d⟩; exact ⟨a, b, c, area x, harea x, d⟩
    · rintro ⟨a, b, c, a', ha', d⟩
      rw [harea, Except.ok.injEq] at ha'
      subst ha'
      exact ⟨a, b, c, d⟩
  · intro hall he
    have hval : ∀ x, Present ops x → (area x).toNat =
        (cellsU x.location.toBBox ∩ cellsU e.location.toBBox).card := by
      intro x hx
      obtain ⟨h5, h6⟩ := hall x hx
      rw [u32_inter_val _ _ h5 he _ (harea x), ← cellsU_inter_card]
      exact Nat.mod_eq_of_lt (lt_of_le_of_lt (Finset.card_le_card Finset.inter_subset_left) h6)
    constructor
    · intro x
      rw [h3, hpos]
      have key : Present ops x → (0 < area x ↔
          (cellsU x.location.toBBox ∩ cellsU e.location.toBBox).Nonempty) := by
        intro hx
        rw [← Finset.card_pos, ← hval x hx, UInt32.lt_iff_toNat_lt]
        rfl
      constructor
      · rintro ⟨a, b, c, d⟩; exact ⟨a, b, c, (key a).1 d⟩
      · rintro ⟨a, b, c, d⟩; exact ⟨a, b, c, (key a).2 d⟩
    · refine h4.imp_of_mem ?_
      intro x y hx hy hxy
      have hx' := ((h3 x).1 hx).1
      have hy' := ((h3 y).1 hy).1
      have hu : (fun a b : UInt32 => Cmp.lt a b = true) = (· < ·) := by
        funext a b; simp [Cmp.lt]
      rw [hu] at hxy
      unfold OverlapBefore at *
      beta_reduce at hxy ⊢
      rw [← hval x hx', ← hval y hy']
      rcases hxy with h' | ⟨h', h''⟩
      · exact Or.inl (UInt32.lt_iff_toNat_lt.1 h')
      · exact Or.inr ⟨by rw [h'], h''⟩

/-- Three stored boxes, one on another document: the search box overlaps the first by 1 cell and
the second by 4. -/
example :
    let e : Event Nat (DocBox Nat UInt32) := ⟨1, ⟨⟨1, 1, 4, 4⟩, 7⟩⟩
    ∃ l, (([.insert ⟨1, ⟨⟨0, 0, 2, 2⟩, 7⟩⟩, .insert ⟨1, ⟨⟨2, 2, 2, 2⟩, 7⟩⟩,
      .insert ⟨1, ⟨⟨0, 0, 9, 9⟩, 8⟩⟩] : List (SetOp (Event Nat (DocBox Nat UInt32)))).foldl
      DocEventSet.step DocEventSet.new).findOverlapping insertionStdSort e = .ok l ∧
      l = [⟨1, ⟨⟨2, 2, 2, 2⟩, 7⟩⟩, ⟨1, ⟨⟨0, 0, 2, 2⟩, 7⟩⟩] := by
  refine ⟨_, ?_, rfl⟩
  unfold DocEventSet.findOverlapping insertionStdSort
  simp only [(pairLt_strictTotal UInt32 (Event Nat (DocBox Nat UInt32))
    DocEventSet.pairLt (fun _ _ => rfl)).flip.strictWeak, if_true]
  decide

/-! ## C12

Full statement (false): `∃ n, (DocEventSet.ofRange l).size = .ok n ∧ HasCount (· ∈ l) n`. -/

/-- C12 is false for every range: the constructor leaves `size_` uninitialised. -/
theorem C12_size_refuted {Q D T : Type} [DecidableEq Q] [DecidableEq D] [Cmp Q]
    [Cmp D] [Coord T] (l : List (Event Q (DocBox D T))) :
    (DocEventSet.ofRange l).size = .error .ub := by
  have h : ∀ (l : List (Event Q (DocBox D T))) (s : DocEventSet Q D T), s.size? = none →
      (l.foldl DocEventSet.insert s).size? = none := by
    intro l
    induction l with
    | nil => intro s hs; exact hs
    | cons x l ih =>
      intro s hs
      refine ih _ ?_
      rw [DocEventSet.insert_size, hs]
      split <;> rfl
  unfold DocEventSet.size DocEventSet.ofRange
  rw [h l _ rfl]

/-- C12, what holds: apart from its size, a set built from a range has the right contents (its
searches are those of C11 with the events of the range). Missing: `Size()`. -/
theorem C12_contents_partial {Q D T : Type} [DecidableEq Q] [DecidableEq D] [Cmp Q] [LawfulCmp Q]
    [Cmp D] [LawfulCmp D] [Coord T] [LawfulCmp T] (S : StdSort)
    (range : List (Event Q (DocBox D T))) (e : Event Q (DocBox D T))
    (area : Event Q (DocBox D T) → T)
    (h : ∀ x ∈ range, x.query = e.query → x.location.document = e.location.document →
      x.location.intersectionArea e.location = .ok (area x)) :
    ∃ l, (DocEventSet.ofRange range).findOverlapping S e = .ok l ∧ l.Nodup ∧
      (∀ x, x ∈ l ↔ x ∈ range ∧ x.query = e.query ∧
        x.location.document = e.location.document ∧ Cmp.lt Coord.zero (area x) = true) := by
  have hh := DocEventSet.foldl_insert_holds range _ _ (DocEventSet.holds_empty none)
  obtain ⟨l, h1, h2, h3, _⟩ := DocEventSet.find_spec S _ (· ∈ range)
    (DocEventSet.holds_congr hh (fun e => by simp)) e area h
  exact ⟨l, h1, h2, h3⟩

end Kws
