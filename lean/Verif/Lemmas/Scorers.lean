import Verif.Lemmas.Coord
import Verif.Lemmas.Order
import Verif.Lemmas.Ieee
import Verif.Spec.Scoring
import Verif.Model.Scorers

set_option linter.unusedSectionVars false

namespace Kws
open Spec

section
variable {Q D : Type} [DecidableEq Q] [DecidableEq D] [Cmp Q] [LawfulCmp Q] [Cmp D] [LawfulCmp D]

theorem area_ok (e : Event Q (DocBox D UInt32)) :
    e.area = .ok (e.location.w * e.location.h) := rfl

theorem area_val (e : Event Q (DocBox D UInt32)) (h : areaU e < 2 ^ 32) :
    (e.location.w * e.location.h).toNat = areaU e := by
  unfold areaU at *
  rw [cellsU_card] at *
  rw [UInt32.toNat_mul, Nat.mod_eq_of_lt h]

theorem inter_ok (a b : Event Q (DocBox D UInt32)) : ∃ r, Event.intersectionArea a b = .ok r := by
  unfold Event.intersectionArea DocBox.intersectionArea
  split
  · exact u32_inter_ok _ _
  · exact ⟨_, rfl⟩

theorem common_le_left (a b : Event Q (DocBox D UInt32)) : commonU a b ≤ areaU a := by
  unfold commonU areaU
  split
  · exact Finset.card_le_card Finset.inter_subset_left
  · exact Nat.zero_le _

theorem common_le_right (a b : Event Q (DocBox D UInt32)) : commonU a b ≤ areaU b := by
  unfold commonU areaU
  split
  · exact Finset.card_le_card Finset.inter_subset_right
  · exact Nat.zero_le _

theorem common_comm (a b : Event Q (DocBox D UInt32)) : commonU a b = commonU b a := by
  unfold commonU
  rw [Finset.inter_comm]; simp only [eq_comm]

theorem covered_comm (a b : Event Q (DocBox D UInt32)) : coveredU a b = coveredU b a := by
  unfold coveredU
  rw [Finset.union_comm, add_comm]; simp only [eq_comm]

theorem area_le_covered (a b : Event Q (DocBox D UInt32)) : areaU b ≤ coveredU a b := by
  unfold coveredU areaU
  split
  · exact Finset.card_le_card Finset.subset_union_right
  · omega

theorem common_le_covered (a b : Event Q (DocBox D UInt32)) : commonU a b ≤ coveredU a b :=
  (common_le_right a b).trans (area_le_covered a b)

theorem covered_add_common (a b : Event Q (DocBox D UInt32)) :
    coveredU a b + commonU a b = areaU a + areaU b := by
  unfold coveredU commonU areaU
  split
  · exact Finset.card_union_add_card_inter _ _
  · omega

theorem inter_val (a b : Event Q (DocBox D UInt32)) (ha : EdgesOkU a.location.toBBox)
    (hb : EdgesOkU b.location.toBBox) (h : commonU a b < 2 ^ 32) (r : UInt32)
    (hr : Event.intersectionArea a b = .ok r) : r.toNat = commonU a b := by
  unfold Event.intersectionArea DocBox.intersectionArea at hr
  unfold commonU at *
  by_cases hd : a.location.document = b.location.document
  · rw [if_pos ((LawfulCmp.eq_iff _ _).2 hd)] at hr
    rw [if_pos hd] at h ⊢
    rw [u32_inter_val _ _ ha hb _ hr, ← cellsU_inter_card, Nat.mod_eq_of_lt h]
  · rw [if_neg (mt (LawfulCmp.eq_iff _ _).1 hd)] at hr
    rw [if_neg hd]
    cases hr
    rfl

theorem union_ok (a b : Event Q (DocBox D UInt32)) : ∃ r, Event.unionArea a b = .ok r := by
  obtain ⟨r, hr⟩ := inter_ok a b
  unfold Event.unionArea DocBox.unionArea
  unfold Event.intersectionArea at hr
  rw [hr]
  exact ⟨_, rfl⟩

theorem union_val (a b : Event Q (DocBox D UInt32)) (ha : EdgesOkU a.location.toBBox)
    (hb : EdgesOkU b.location.toBBox) (h : coveredU a b < 2 ^ 32) (r : UInt32)
    (hr : Event.unionArea a b = .ok r) : r.toNat = coveredU a b := by
  obtain ⟨i, hi⟩ := inter_ok a b
  have h1 := inter_val a b ha hb (lt_of_le_of_lt (common_le_covered a b) h) i hi
  have h2 := covered_add_common a b
  have hA : (a.location.w * a.location.h).toNat = areaU a :=
    area_val a (lt_of_le_of_lt (by rw [covered_comm]; exact area_le_covered b a) h)
  have hB : (b.location.w * b.location.h).toNat = areaU b :=
    area_val b (lt_of_le_of_lt (area_le_covered a b) h)
  unfold Event.unionArea DocBox.unionArea at hr
  unfold Event.intersectionArea at hi
  rw [hi] at hr
  simp only [BBox.area, Coord.mul, Coord.add, Coord.sub, bind, Except.bind, Except.ok.injEq] at hr
  rw [← hr, UInt32.toNat_sub, UInt32.toNat_add, hA, hB, h1]
  have := common_le_right a b
  have := common_le_left a b
  omega

theorem pos_iff (a : UInt32) : Cmp.lt (Coord.zero : UInt32) a = true ↔ 0 < a.toNat := by
  rw [u32_lt_iff]; rfl

theorem ratio_eq (R : Rnd) (num den : UInt32) (t : ℚ)
    (hR : R.f32 (R.f32 (den.toNat : ℚ)) ≠ 0) :
    ratioAtLeast R num den t =
      decide (R.f32 (R.f32 (num.toNat : ℚ) / R.f32 (R.f32 (den.toNat : ℚ))) ≥ t) := by
  unfold ratioAtLeast
  simp only [CoordVal.val]
  rw [if_neg hR]

theorem ratio_exact (num den : UInt32) (t : ℚ) (hd : 0 < den.toNat) :
    ratioAtLeast Rnd.exact num den t = decide (t ≤ (num.toNat : ℚ) / den.toNat) := by
  rw [ratio_eq]
  · rfl
  · change (den.toNat : ℚ) ≠ 0
    exact_mod_cast hd.ne'

/-- Single precision decides a threshold `m/2^j` exactly if the areas are small enough. -/
theorem ratio_rounded (R : Rnd) (hR : R.Faithful) (num den : UInt32) (m j i : ℕ)
    (hd : 0 < den.toNat) (hnd : num.toNat ≤ den.toNat) (hm : m * 2 ^ i ≤ 2 ^ j)
    (hj : j ≤ 24 + i) (hi : i ≤ 125)
    (hb : den.toNat * 2 ^ j ≤ 2 ^ (24 + i)) (hd24 : den.toNat ≤ 2 ^ 24) :
    ratioAtLeast R num den (m / 2 ^ j) = ratioAtLeast Rnd.exact num den (m / 2 ^ j) := by
  have hn24 : num.toNat ≤ 2 ^ 24 := hnd.trans hd24
  have e1 : R.f32 (num.toNat : ℚ) = num.toNat := hR.nat32 _ hn24
  have e2 : R.f32 (den.toNat : ℚ) = den.toNat := hR.nat32 _ hd24
  have hdq : (0 : ℚ) < den.toNat := by exact_mod_cast hd
  rw [ratio_exact _ _ _ hd, ratio_eq _ _ _ _ (by rw [e2, e2]; exact hdq.ne'), e1, e2, e2]
  rw [decide_eq_decide]
  have h2j : (0 : ℚ) < 2 ^ j := by positivity
  -- the threshold is representable
  have hM : m * 2 ^ (24 + i - j) ≤ 2 ^ 24 := by
    have h1 : (m * 2 ^ (24 + i - j)) * 2 ^ j = m * 2 ^ i * 2 ^ 24 := by
      rw [mul_assoc, ← pow_add, mul_assoc, ← pow_add]
      congr 2; omega
    have h3 : (m * 2 ^ (24 + i - j)) * 2 ^ j ≤ 2 ^ 24 * 2 ^ j := by
      rw [h1, mul_comm (2 ^ 24)]
      exact Nat.mul_le_mul_right _ hm
    exact Nat.le_of_mul_le_mul_right h3 (by positivity)
  have hpow : (2 : ℚ) ^ (24 + i) = 2 ^ (24 + i - j) * 2 ^ j := by
    rw [← pow_add]; congr 1; omega
  have ht : (m : ℚ) / 2 ^ j = ((m * 2 ^ (24 + i - j) : ℕ) : ℚ) / 2 ^ (24 + i) := by
    rw [hpow]; push_cast; field_simp
  have htR : R.f32 ((m : ℚ) / 2 ^ j) = m / 2 ^ j := by
    rw [ht]; exact hR.dyadic32 _ _ hM (by omega)
  constructor
  · intro h
    by_contra hlt
    rw [not_le] at hlt
    -- the quotient is at most the next representable number below the threshold
    have hint : num.toNat * 2 ^ j + 1 ≤ m * den.toNat := by
      rw [div_lt_div_iff₀ hdq h2j] at hlt
      exact_mod_cast hlt
    have hpos : 1 ≤ m * 2 ^ (24 + i - j) := by
      rcases Nat.eq_zero_or_pos m with rfl | hm0
      · omega
      · exact Nat.mul_pos hm0 (by positivity)
    have hle : (num.toNat : ℚ) / den.toNat ≤ ((m * 2 ^ (24 + i - j) - 1 : ℕ) : ℚ) / 2 ^ (24 + i) := by
      rw [div_le_div_iff₀ hdq (by positivity)]
      push_cast [hpos]
      have h1 : (num.toNat : ℚ) * 2 ^ j + 1 ≤ m * den.toNat := by exact_mod_cast hint
      have h2 : (den.toNat : ℚ) * 2 ^ j ≤ 2 ^ (24 + i - j) * 2 ^ j := by
        rw [← hpow]; exact_mod_cast hb
      have h3 : (den.toNat : ℚ) ≤ 2 ^ (24 + i - j) := le_of_mul_le_mul_right h2 h2j
      have h4 := mul_le_mul_of_nonneg_right h1 (show (0 : ℚ) ≤ 2 ^ (24 + i - j) by positivity)
      rw [hpow]
      nlinarith
    have h5 := hR.mono32 _ _ hle
    rw [hR.dyadic32 _ _ (by omega) (by omega)] at h5
    have h6 : ((m * 2 ^ (24 + i - j) - 1 : ℕ) : ℚ) / 2 ^ (24 + i) < m / 2 ^ j := by
      rw [ht]
      refine div_lt_div_of_pos_right ?_ (by positivity)
      exact_mod_cast Nat.sub_lt hpos Nat.one_pos
    linarith
  · intro h
    have := hR.mono32 _ _ h
    rwa [htR] at this

theorem ioh_eq (R : Rnd) (t : ℚ) (ref : Event Q (DocBox D UInt32))
    (hyp : ScoredEvent Q (DocBox D UInt32)) (i : UInt32)
    (hi : Event.intersectionArea ref hyp.base = .ok i) :
    iohScorer R t ref hyp = .ok (verdict (ref.query = hyp.base.query ∧
      0 < (hyp.base.location.w * hyp.base.location.h).toNat ∧
      ratioAtLeast R i (hyp.base.location.w * hyp.base.location.h) t = true)) := by
  unfold iohScorer verdict
  rw [area_ok, hi]
  simp only [bind, Except.bind, pure, Except.pure, pos_iff, LawfulCmp.eq_iff]
  generalize hyp.base.location.w * hyp.base.location.h = A
  by_cases h1 : ref.query = hyp.base.query
  · by_cases h2 : 0 < A.toNat
    · by_cases h3 : ratioAtLeast R i A t = true
      · simp [h1, h2, h3]
      · simp [h1, h2, h3]
    · simp [h1, h2]
  · simp [h1]

theorem iou_eq (R : Rnd) (t : ℚ) (ref : Event Q (DocBox D UInt32))
    (hyp : ScoredEvent Q (DocBox D UInt32)) (i u : UInt32)
    (hi : Event.intersectionArea ref hyp.base = .ok i)
    (hu : Event.unionArea ref hyp.base = .ok u) :
    iouScorer R t ref hyp = .ok (verdict (ref.query = hyp.base.query ∧
      0 < (hyp.base.location.w * hyp.base.location.h).toNat ∧
      ratioAtLeast R i u t = true)) := by
  unfold iouScorer verdict
  rw [area_ok, hi, hu]
  simp only [bind, Except.bind, pure, Except.pure, pos_iff, LawfulCmp.eq_iff]
  generalize hyp.base.location.w * hyp.base.location.h = A
  by_cases h1 : ref.query = hyp.base.query
  · by_cases h2 : 0 < A.toNat
    · by_cases h3 : ratioAtLeast R i u t = true
      · simp [h1, h2, h3]
      · simp [h1, h2, h3]
    · simp [h1, h2]
  · simp [h1]

end

end Kws
