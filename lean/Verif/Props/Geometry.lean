import Verif.Lemmas.Coord
import Verif.Lemmas.Order

/-!
# C01–C05: box geometry
-/

namespace Kws
open Spec

/-! ## C01 -/

/-- C01 for `uint32_t`: if the edges and the overlap are representable, `IntersectionArea` is the
number of common unit cells. -/
theorem C01_intersection_uint32 (a b : BBox UInt32) (ha : EdgesOkU a) (hb : EdgesOkU b)
    (h : (cellsU a ∩ cellsU b).card < 2 ^ 32) :
    ∃ r, a.intersectionArea b = .ok r ∧ r.toNat = (cellsU a ∩ cellsU b).card := by
  obtain ⟨r, hr⟩ := u32_inter_ok a b
  refine ⟨r, hr, ?_⟩
  rw [u32_inter_val a b ha hb r hr, ← cellsU_inter_card, Nat.mod_eq_of_lt h]

/-- C01 for `int`: the same with signed coordinates. -/
theorem C01_intersection_int (a b : BBox Int32) (ha : EdgesOkI a) (hb : EdgesOkI b)
    (h : (cellsI a ∩ cellsI b).card < 2 ^ 31) :
    ∃ r, a.intersectionArea b = .ok r ∧ r.toInt = (cellsI a ∩ cellsI b).card := by
  have hf : FitsInt ((cellsI a ∩ cellsI b).card : ℤ) := by
    unfold FitsInt; omega
  exact ⟨_, by rw [i32_inter_eq a b ha hb, checked_ok hf], ofInt_toInt hf⟩

/-- Two 10x10 boxes overlapping in a 4x3 rectangle meet the hypotheses of C01. -/
example : EdgesOkU ⟨0, 0, 10, 10⟩ ∧ EdgesOkU ⟨6, 7, 10, 10⟩ ∧
    (cellsU ⟨0, 0, 10, 10⟩ ∩ cellsU ⟨6, 7, 10, 10⟩).card = 12 ∧
    BBox.intersectionArea (⟨0, 0, 10, 10⟩ : BBox UInt32) ⟨6, 7, 10, 10⟩ = .ok 12 := by
  refine ⟨by unfold EdgesOkU; decide, by unfold EdgesOkU; decide, ?_, by rfl⟩
  rw [cellsU_inter_card]; decide

example : EdgesOkI ⟨-5, 0, 10, 10⟩ ∧ EdgesOkI ⟨-20, 7, 17, 10⟩ ∧
    BBox.intersectionArea (⟨-5, 0, 10, 10⟩ : BBox Int32) ⟨-20, 7, 17, 10⟩ = .ok 6 := by
  refine ⟨by unfold EdgesOkI FitsInt; decide, by unfold EdgesOkI FitsInt; decide, by rfl⟩

/-! ## C02 -/

/-- C02: symmetry, for all coordinates, even when edges wrap around. -/
theorem C02_symmetric (a b : BBox UInt32) : a.intersectionArea b = b.intersectionArea a := by
  have hmax : ∀ u v : UInt32, Cmp.max u v = Cmp.max v u := fun u v =>
    UInt32.toNat_inj.1 (by rw [u32_max, u32_max]; omega)
  have hmin : ∀ u v : UInt32, Cmp.min u v = Cmp.min v u := fun u v =>
    UInt32.toNat_inj.1 (by rw [u32_min, u32_min]; omega)
  unfold BBox.intersectionArea
  simp only [Coord.add, Coord.sub, Coord.mul, bind, Except.bind]
  rw [hmax a.x, hmax a.y, hmin (a.x + a.w), hmin (a.y + a.h)]

/-- C02, `int`: symmetry, including the undefined cases. -/
theorem C02_symmetric_int (a b : BBox Int32) : a.intersectionArea b = b.intersectionArea a := by
  by_cases h : EdgesOkI a ∧ EdgesOkI b
  · rw [i32_inter_eq a b h.1 h.2, i32_inter_eq b a h.2 h.1, Finset.inter_comm]
  · rw [i32_inter_ub a b h, i32_inter_ub b a (fun h' => h h'.symm)]

/-- C02: within range the intersection area is at most both areas. -/
theorem C02_bounded (a b : BBox UInt32) (ha : EdgesOkU a) (hb : EdgesOkU b)
    (ha2 : a.w.toNat * a.h.toNat < 2 ^ 32) (hb2 : b.w.toNat * b.h.toNat < 2 ^ 32)
    (r aa ab : UInt32) (hr : a.intersectionArea b = .ok r) (haa : a.area = .ok aa)
    (hab : b.area = .ok ab) : r ≤ aa ∧ r ≤ ab := by
  have h1 : (cellsU a ∩ cellsU b).card ≤ a.w.toNat * a.h.toNat := by
    rw [← cellsU_card]; exact Finset.card_le_card Finset.inter_subset_left
  have h2 : (cellsU a ∩ cellsU b).card ≤ b.w.toNat * b.h.toNat := by
    rw [← cellsU_card]; exact Finset.card_le_card Finset.inter_subset_right
  obtain ⟨r', hr', hv⟩ := C01_intersection_uint32 a b ha hb (lt_of_le_of_lt h1 ha2)
  rw [hr] at hr'
  cases hr'
  cases haa
  cases hab
  simp only [UInt32.le_iff_toNat_le, UInt32.toNat_mul, Nat.mod_eq_of_lt ha2,
    Nat.mod_eq_of_lt hb2, hv]
  exact ⟨h1, h2⟩

/-- C02: a box with representable edges intersects itself in its own area. -/
theorem C02_self (a : BBox UInt32) (ha : EdgesOkU a) : a.intersectionArea a = a.area := by
  obtain ⟨r, hr⟩ := u32_inter_ok a a
  have hv := u32_inter_val a a ha ha r hr
  rw [hr]
  unfold BBox.area
  simp only [Coord.mul, Except.ok.injEq]
  apply UInt32.toNat_inj.1
  rw [hv, UInt32.toNat_mul]
  simp

example : EdgesOkU ⟨3, 4, 5, 6⟩ ∧ (5 : UInt32).toNat * (6 : UInt32).toNat < 2 ^ 32 ∧
    BBox.intersectionArea (⟨3, 4, 5, 6⟩ : BBox UInt32) ⟨3, 4, 5, 6⟩ = .ok 30 := by
  refine ⟨by unfold EdgesOkU; decide, by decide, by rfl⟩

/-- C02 is sharp: without representable edges a box need not intersect itself at all. -/
theorem C02_self_needs_range :
    ∃ a : BBox UInt32, a.area = .ok 2 ∧ a.intersectionArea a = .ok 0 :=
  ⟨⟨4294967295, 0, 2, 1⟩, by rfl, by rfl⟩

/-! ## C03 -/

/-- C03: `UnionArea` is the number of covered cells modulo 2^32, whether or not intermediate sums
wrap. -/
theorem C03_union_modular (a b : BBox UInt32) (ha : EdgesOkU a) (hb : EdgesOkU b) :
    ∃ r, a.unionArea b = .ok r ∧ r.toNat = (cellsU a ∪ cellsU b).card % 2 ^ 32 := by
  obtain ⟨r, hr⟩ := u32_inter_ok a b
  have hv := u32_inter_val a b ha hb r hr
  rw [← cellsU_inter_card] at hv
  refine ⟨a.w * a.h + b.w * b.h - r, ?_, ?_⟩
  · unfold BBox.unionArea BBox.area
    simp only [Coord.mul, Coord.add, Coord.sub, hr, bind, Except.bind]
  · have hc := Finset.card_union_add_card_inter (cellsU a) (cellsU b)
    rw [cellsU_card, cellsU_card] at hc
    rw [UInt32.toNat_sub, UInt32.toNat_add, UInt32.toNat_mul, UInt32.toNat_mul, hv]
    omega

/-- C03: `UnionArea` is the number of covered cells whenever that number is representable. -/
theorem C03_union (a b : BBox UInt32) (ha : EdgesOkU a) (hb : EdgesOkU b)
    (h : (cellsU a ∪ cellsU b).card < 2 ^ 32) :
    ∃ r, a.unionArea b = .ok r ∧ r.toNat = (cellsU a ∪ cellsU b).card := by
  obtain ⟨r, hr, hv⟩ := C03_union_modular a b ha hb
  exact ⟨r, hr, by rw [hv, Nat.mod_eq_of_lt h]⟩

/-- Two boxes whose areas add up to more than 2^32 but whose union is representable: the
intermediate sum wraps and the result is right. -/
example : EdgesOkU ⟨0, 0, 65535, 65535⟩ ∧
    BBox.unionArea (⟨0, 0, 65535, 65535⟩ : BBox UInt32) ⟨0, 0, 65535, 65535⟩ =
      .ok 4294836225 ∧
    (cellsU ⟨0, 0, 65535, 65535⟩ ∪ cellsU ⟨0, 0, 65535, 65535⟩).card = 4294836225 := by
  refine ⟨by unfold EdgesOkU; decide, by rfl, ?_⟩
  rw [Finset.union_self, cellsU_card]; decide

/-! ## C04 -/

/-- C04: boxes on different documents do not intersect, and their union is the sum of the areas. -/
theorem C04_different_documents {D : Type} [Cmp D] [LawfulCmp D] (a b : DocBox D UInt32)
    (h : a.document ≠ b.document) :
    a.intersectionArea b = .ok 0 ∧
    ∃ aa ab, a.toBBox.area = .ok aa ∧ b.toBBox.area = .ok ab ∧ a.unionArea b = .ok (aa + ab) := by
  have he : Cmp.eq a.document b.document = false := by
    rw [← Bool.not_eq_true, LawfulCmp.eq_iff]; exact h
  have hi : a.intersectionArea b = .ok 0 := by
    unfold DocBox.intersectionArea; rw [he]; rfl
  refine ⟨hi, _, _, rfl, rfl, ?_⟩
  unfold DocBox.unionArea BBox.area
  simp only [hi, Coord.mul, Coord.add, Coord.sub, bind, Except.bind]
  simp

/-- C04: on the same document the results are those of the plain boxes. -/
theorem C04_same_document {D : Type} [Cmp D] [LawfulCmp D] (a b : DocBox D UInt32)
    (h : a.document = b.document) :
    a.intersectionArea b = a.toBBox.intersectionArea b.toBBox ∧
    a.unionArea b = a.toBBox.unionArea b.toBBox := by
  have he : Cmp.eq a.document b.document = true := (LawfulCmp.eq_iff _ _).2 h
  have hi : a.intersectionArea b = a.toBBox.intersectionArea b.toBBox := by
    unfold DocBox.intersectionArea; rw [he]; rfl
  refine ⟨hi, ?_⟩
  unfold DocBox.unionArea BBox.unionArea
  rw [hi]

/-- The same two boxes on different pages and on the same page. -/
example :
    DocBox.intersectionArea (⟨⟨0, 0, 10, 10⟩, "p1".toList⟩ : DocBox Str UInt32)
      ⟨⟨6, 7, 10, 10⟩, "p2".toList⟩ = .ok 0 ∧
    DocBox.intersectionArea (⟨⟨0, 0, 10, 10⟩, "p1".toList⟩ : DocBox Str UInt32)
      ⟨⟨6, 7, 10, 10⟩, "p1".toList⟩ = .ok 12 := by
  constructor
  · exact (C04_different_documents _ _ (by decide)).1
  · refine (C04_same_document _ _ ?_).1.trans ?_ <;> rfl

/-! ## C05

Full statement (false): for every box read from a file `Area()` and `IntersectionArea()` equal the
mathematical values. -/

/-- C05 is false: the area of a 65536 x 65536 box is computed as 0. -/
theorem C05_area_refuted :
    ∃ a : BBox UInt32, a.area = .ok 0 ∧ (cellsU a).card = 2 ^ 32 :=
  ⟨⟨0, 0, 65536, 65536⟩, by rfl, by rw [cellsU_card]; decide⟩

/-- C05 is false for intersections, even of boxes with tiny areas: the right edge wraps. -/
theorem C05_intersection_refuted :
    ∃ a b : BBox UInt32, a.intersectionArea b = .ok 0 ∧ (cellsU a ∩ cellsU b).card = 2 :=
  ⟨⟨4294967295, 0, 2, 1⟩, ⟨4294967295, 0, 2, 1⟩, by rfl, by rw [cellsU_inter_card]; decide⟩

/-- C05 is false for `int` too: computing an area can overflow, which is undefined behaviour. -/
theorem C05_int_area_refuted :
    ∃ a : BBox Int32, a.area = .error .ub :=
  ⟨⟨0, 0, 65536, 65536⟩, by rfl⟩

/-- C05, what holds for `uint32_t` (the full statement lacks the two hypotheses): `Area` is the
number of cells modulo 2^32, so it is right exactly when that number is representable; the same
holds for `IntersectionArea` when the edges are representable. -/
theorem C05_no_wrap_uint32_partial (a b : BBox UInt32) :
    (∃ r, a.area = .ok r ∧ r.toNat = (cellsU a).card % 2 ^ 32 ∧
      (r.toNat = (cellsU a).card ↔ (cellsU a).card < 2 ^ 32)) ∧
    (EdgesOkU a → EdgesOkU b → ∃ r, a.intersectionArea b = .ok r ∧
      r.toNat = (cellsU a ∩ cellsU b).card % 2 ^ 32 ∧
      (r.toNat = (cellsU a ∩ cellsU b).card ↔ (cellsU a ∩ cellsU b).card < 2 ^ 32)) := by
  constructor
  · refine ⟨a.w * a.h, rfl, ?_, ?_⟩
    · rw [UInt32.toNat_mul, cellsU_card]
    · rw [UInt32.toNat_mul, cellsU_card]; omega
  · intro ha hb
    obtain ⟨r, hr⟩ := u32_inter_ok a b
    have hv := u32_inter_val a b ha hb r hr
    rw [← cellsU_inter_card] at hv
    exact ⟨r, hr, hv, by rw [hv]; omega⟩

/-- C05, what holds for `int`: no *silent* wrap-around. Whenever the operations return at all, they
return the mathematical value; otherwise the behaviour is undefined, which happens exactly when an
edge or the result is not representable. -/
theorem C05_no_wrap_int_partial (a b : BBox Int32) :
    (∀ r, a.area = .ok r → r.toInt = a.w.toInt * a.h.toInt) ∧
    (a.area = .error .ub ↔ ¬ FitsInt (a.w.toInt * a.h.toInt)) ∧
    (∀ r, a.intersectionArea b = .ok r → r.toInt = (cellsI a ∩ cellsI b).card) ∧
    (a.intersectionArea b = .error .ub ↔
      ¬ (EdgesOkI a ∧ EdgesOkI b ∧ FitsInt ((cellsI a ∩ cellsI b).card : ℤ))) := by
  refine ⟨?_, ?_, ?_, ?_⟩
  · intro r hr
    by_cases h : FitsInt (a.w.toInt * a.h.toInt)
    · simp only [BBox.area, Coord.mul, checked_ok h] at hr
      cases hr; exact ofInt_toInt h
    · simp only [BBox.area, Coord.mul, checked_bad h] at hr
      cases hr
  · by_cases h : FitsInt (a.w.toInt * a.h.toInt)
    · simp [BBox.area, Coord.mul, checked_ok h, h]
    · simp [BBox.area, Coord.mul, checked_bad h, h]
  · intro r hr
    by_cases h : EdgesOkI a ∧ EdgesOkI b
    · rw [i32_inter_eq a b h.1 h.2] at hr
      by_cases hf : FitsInt ((cellsI a ∩ cellsI b).card : ℤ)
      · rw [checked_ok hf] at hr; cases hr; exact ofInt_toInt hf
      · rw [checked_bad hf] at hr; cases hr
    · rw [i32_inter_ub a b h] at hr; cases hr
  · by_cases h : EdgesOkI a ∧ EdgesOkI b
    · rw [i32_inter_eq a b h.1 h.2]
      by_cases hf : FitsInt ((cellsI a ∩ cellsI b).card : ℤ)
      · rw [checked_ok hf]; simp [h.1, h.2, hf]
      · rw [checked_bad hf]; simp [hf]
    · rw [i32_inter_ub a b h]
      simp only [true_iff]
      exact fun h' => h ⟨h'.1, h'.2.1⟩

end Kws
