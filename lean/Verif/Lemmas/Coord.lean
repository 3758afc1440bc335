import Verif.Spec.Geometry
import Verif.Lemmas.Tactics

namespace Kws

theorem u32_lt_iff (a b : UInt32) : Cmp.lt a b = true ↔ a.toNat < b.toNat := by
  simp [Cmp.lt, UInt32.lt_iff_toNat_lt]

theorem u32_max (a b : UInt32) : (Cmp.max a b).toNat = max a.toNat b.toNat := by
  unfold Cmp.max
  by_cases h : Cmp.lt a b = true
  · have := (u32_lt_iff a b).1 h; simp [h]; omega
  · have h' := mt (u32_lt_iff a b).2 h; simp [h]; omega

theorem u32_min (a b : UInt32) : (Cmp.min a b).toNat = min a.toNat b.toNat := by
  unfold Cmp.min
  by_cases h : Cmp.lt b a = true
  · have := (u32_lt_iff b a).1 h; simp [h]; omega
  · have h' := mt (u32_lt_iff b a).2 h; simp [h]; omega

/-- Intersection of unsigned boxes, unfolded. -/
theorem u32_inter_ok (a b : BBox UInt32) :
    ∃ r, a.intersectionArea b = .ok r := by
  unfold BBox.intersectionArea
  simp only [Coord.add, Coord.sub, Coord.mul, bind, Except.bind, pure, Except.pure]
  split <;> exact ⟨_, rfl⟩

theorem u32_inter_val (a b : BBox UInt32) (ha : Spec.EdgesOkU a) (hb : Spec.EdgesOkU b)
    (r : UInt32) (hr : a.intersectionArea b = .ok r) :
    r.toNat = ((min (a.x.toNat + a.w.toNat) (b.x.toNat + b.w.toNat) - max a.x.toNat b.x.toNat) *
      (min (a.y.toNat + a.h.toNat) (b.y.toNat + b.h.toNat) - max a.y.toNat b.y.toNat)) % 2 ^ 32 := by
  obtain ⟨ha1, ha2⟩ := ha
  obtain ⟨hb1, hb2⟩ := hb
  unfold BBox.intersectionArea at hr
  simp only [Coord.add, Coord.sub, Coord.mul, bind, Except.bind, pure, Except.pure] at hr
  have x1 := u32_max a.x b.x
  have y1 := u32_max a.y b.y
  have x2 := u32_min (a.x + a.w) (b.x + b.w)
  have y2 := u32_min (a.y + a.h) (b.y + b.h)
  rw [UInt32.toNat_add, UInt32.toNat_add, Nat.mod_eq_of_lt ha1, Nat.mod_eq_of_lt hb1] at x2
  rw [UInt32.toNat_add, UInt32.toNat_add, Nat.mod_eq_of_lt ha2, Nat.mod_eq_of_lt hb2] at y2
  generalize Cmp.max a.x b.x = X1 at *
  generalize Cmp.max a.y b.y = Y1 at *
  generalize Cmp.min (a.x + a.w) (b.x + b.w) = X2 at *
  generalize Cmp.min (a.y + a.h) (b.y + b.h) = Y2 at *
  rw [← x1, ← x2, ← y1, ← y2]
  split at hr
  · rename_i h
    simp only [Bool.or_eq_true, u32_lt_iff] at h
    cases hr
    rcases h with h | h
    · rw [show X2.toNat - X1.toNat = 0 by omega]; simp [Coord.zero]
    · rw [show Y2.toNat - Y1.toNat = 0 by omega]; simp [Coord.zero]
  · rename_i h
    simp only [Bool.or_eq_true, u32_lt_iff, not_or, not_lt] at h
    cases hr
    rw [UInt32.toNat_mul, UInt32.toNat_sub_of_le _ _ (UInt32.le_iff_toNat_le.2 h.1),
      UInt32.toNat_sub_of_le _ _ (UInt32.le_iff_toNat_le.2 h.2)]

theorem cellsU_inter_card (a b : BBox UInt32) :
    (Spec.cellsU a ∩ Spec.cellsU b).card =
      (min (a.x.toNat + a.w.toNat) (b.x.toNat + b.w.toNat) - max a.x.toNat b.x.toNat) *
      (min (a.y.toNat + a.h.toNat) (b.y.toNat + b.h.toNat) - max a.y.toNat b.y.toNat) := by
  unfold Spec.cellsU
  rw [Finset.product_inter_product, Finset.Ico_inter_Ico, Finset.Ico_inter_Ico,
    Finset.card_product, Nat.card_Ico, Nat.card_Ico]

theorem cellsU_card (a : BBox UInt32) :
    (Spec.cellsU a).card = a.w.toNat * a.h.toNat := by
  unfold Spec.cellsU
  rw [Finset.card_product, Nat.card_Ico, Nat.card_Ico]; simp

end Kws

namespace Kws

theorem i32_lt_iff (a b : Int32) : Cmp.lt a b = true ↔ a.toInt < b.toInt := by
  simp [Cmp.lt, Int32.lt_iff_toInt_lt]

theorem i32_max (a b : Int32) : (Cmp.max a b).toInt = max a.toInt b.toInt := by
  unfold Cmp.max
  by_cases h : Cmp.lt a b = true
  · have := (i32_lt_iff a b).1 h; simp [h]; omega
  · have h' := mt (i32_lt_iff a b).2 h; simp [h]; omega

theorem i32_min (a b : Int32) : (Cmp.min a b).toInt = min a.toInt b.toInt := by
  unfold Cmp.min
  by_cases h : Cmp.lt b a = true
  · have := (i32_lt_iff b a).1 h; simp [h]; omega
  · have h' := mt (i32_lt_iff b a).2 h; simp [h]; omega

theorem checked_ok {z : ℤ} (h : Spec.FitsInt z) : Int32.checked z = .ok (Int32.ofInt z) := by
  unfold Int32.checked; exact if_pos h

theorem checked_bad {z : ℤ} (h : ¬ Spec.FitsInt z) : Int32.checked z = .error .ub := by
  unfold Int32.checked; exact if_neg h

theorem ofInt_toInt {z : ℤ} (h : Spec.FitsInt z) : (Int32.ofInt z).toInt = z :=
  Int32.toInt_ofInt_of_le h.1 h.2

theorem fits_toInt (a : Int32) : Spec.FitsInt a.toInt := ⟨Int32.le_toInt a, Int32.toInt_lt a⟩

theorem cellsI_inter_card (a b : BBox Int32) :
    ((Spec.cellsI a ∩ Spec.cellsI b).card : ℤ) =
      (min (a.x.toInt + a.w.toInt) (b.x.toInt + b.w.toInt) - max a.x.toInt b.x.toInt).toNat *
      (min (a.y.toInt + a.h.toInt) (b.y.toInt + b.h.toInt) - max a.y.toInt b.y.toInt).toNat := by
  unfold Spec.cellsI
  rw [Finset.product_inter_product, Finset.Ico_inter_Ico, Finset.Ico_inter_Ico,
    Finset.card_product, Int.card_Ico, Int.card_Ico]
  push_cast
  rfl

theorem i32_inter_eq (a b : BBox Int32) (ha : Spec.EdgesOkI a) (hb : Spec.EdgesOkI b) :
    a.intersectionArea b = Int32.checked ((Spec.cellsI a ∩ Spec.cellsI b).card : ℤ) := by
  rw [cellsI_inter_card]
  obtain ⟨ha1, ha2⟩ := ha
  obtain ⟨hb1, hb2⟩ := hb
  unfold BBox.intersectionArea
  simp only [Coord.add, Coord.sub, Coord.mul, checked_ok ha1, checked_ok ha2, checked_ok hb1,
    checked_ok hb2, bind, Except.bind, pure, Except.pure]
  have x1 := i32_max a.x b.x
  have y1 := i32_max a.y b.y
  have x2 := i32_min (Int32.ofInt (a.x.toInt + a.w.toInt)) (Int32.ofInt (b.x.toInt + b.w.toInt))
  have y2 := i32_min (Int32.ofInt (a.y.toInt + a.h.toInt)) (Int32.ofInt (b.y.toInt + b.h.toInt))
  rw [ofInt_toInt ha1, ofInt_toInt hb1] at x2
  rw [ofInt_toInt ha2, ofInt_toInt hb2] at y2
  generalize Cmp.max a.x b.x = X1 at *
  generalize Cmp.max a.y b.y = Y1 at *
  generalize Cmp.min (Int32.ofInt (a.x.toInt + a.w.toInt)) (Int32.ofInt (b.x.toInt + b.w.toInt)) = X2 at *
  generalize Cmp.min (Int32.ofInt (a.y.toInt + a.h.toInt)) (Int32.ofInt (b.y.toInt + b.h.toInt)) = Y2 at *
  have hw := fits_toInt a.w
  have hh := fits_toInt a.h
  rw [← x2, ← x1, ← y2, ← y1]
  have zok : Int32.checked 0 = .ok (0 : Int32) := checked_ok (by unfold Spec.FitsInt; norm_num)
  split
  · rename_i h
    simp only [Bool.or_eq_true, i32_lt_iff] at h
    rcases h with h | h
    · rw [Int.toNat_of_nonpos (show X2.toInt - X1.toInt ≤ 0 by omega)]
      rw [show (((0 : ℕ) : ℤ) * ((Y2.toInt - Y1.toInt).toNat : ℤ)) = 0 by simp, zok]; rfl
    · rw [Int.toNat_of_nonpos (show Y2.toInt - Y1.toInt ≤ 0 by omega)]
      rw [show (((X2.toInt - X1.toInt).toNat : ℤ) * ((0 : ℕ) : ℤ)) = 0 by simp, zok]; rfl
  · rename_i h
    simp only [Bool.or_eq_true, i32_lt_iff, not_or, not_lt] at h
    have fx : Spec.FitsInt (X2.toInt - X1.toInt) := by
      unfold Spec.FitsInt at *; omega
    have fy : Spec.FitsInt (Y2.toInt - Y1.toInt) := by
      unfold Spec.FitsInt at *; omega
    rw [checked_ok fx, checked_ok fy]
    simp only []
    rw [ofInt_toInt fx, ofInt_toInt fy, Int.toNat_of_nonneg (by omega),
      Int.toNat_of_nonneg (by omega)]

theorem i32_inter_ub (a b : BBox Int32) (h : ¬ (Spec.EdgesOkI a ∧ Spec.EdgesOkI b)) :
    a.intersectionArea b = .error .ub := by
  unfold BBox.intersectionArea
  simp only [Coord.add, bind, Except.bind]
  by_cases h1 : Spec.FitsInt (a.x.toInt + a.w.toInt)
  · by_cases h2 : Spec.FitsInt (b.x.toInt + b.w.toInt)
    · by_cases h3 : Spec.FitsInt (a.y.toInt + a.h.toInt)
      · by_cases h4 : Spec.FitsInt (b.y.toInt + b.h.toInt)
        · exact absurd ⟨⟨h1, h3⟩, h2, h4⟩ h
        · simp [checked_ok h1, checked_ok h2, checked_ok h3, checked_bad h4]
      · simp [checked_ok h1, checked_ok h2, checked_bad h3]
    · simp [checked_ok h1, checked_bad h2]
  · simp [checked_bad h1]

end Kws
