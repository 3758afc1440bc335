import Verif.Lemmas.Scorers
import Verif.Lemmas.Matcher

/-!
# C21 - C24: the scorers

`areaU`, `commonU` and `coveredU` count unit cells; `verdict p` is `(0, 0)` if `p` holds and
`(1, 1)` otherwise.
-/

set_option linter.unusedSectionVars false

namespace Kws
open Spec

section
variable {Q D : Type} [DecidableEq Q] [DecidableEq D] [Cmp Q] [LawfulCmp Q] [Cmp D] [LawfulCmp D]

/-! ## C21 -/

/-- C21: in exact arithmetic the ICDAR scorer decides `common / hypothesis area >= threshold`. -/
theorem C21_ioh_decision (t : ℚ) (ref : Event Q (DocBox D UInt32))
    (hyp : ScoredEvent Q (DocBox D UInt32)) (hr : EdgesOkU ref.location.toBBox)
    (hh : InRangeU hyp.base) :
    iohScorer Rnd.exact t ref hyp = .ok (verdict (ref.query = hyp.base.query ∧
      0 < areaU hyp.base ∧ t ≤ (commonU ref hyp.base : ℚ) / areaU hyp.base)) := by
  obtain ⟨i, hi⟩ := inter_ok ref hyp.base
  have hv := inter_val ref hyp.base hr hh.1
    (lt_of_le_of_lt (common_le_right _ _) hh.2) i hi
  have ha := area_val hyp.base hh.2
  rw [ioh_eq _ _ _ _ i hi]
  unfold verdict
  congr 1
  refine if_congr ?_ rfl rfl
  rw [ha]
  refine and_congr_right fun _ => and_congr_right fun hpos => ?_
  rw [ratio_exact _ _ _ (by rw [ha]; exact hpos), decide_eq_true_iff, hv, ha]

/-- C21 with threshold 0.5: at least half of the hypothesis lies on the reference. -/
theorem C21_ioh_half (ref : Event Q (DocBox D UInt32))
    (hyp : ScoredEvent Q (DocBox D UInt32)) (hr : EdgesOkU ref.location.toBBox)
    (hh : InRangeU hyp.base) :
    iohScorer Rnd.exact (1 / 2) ref hyp = .ok (verdict (ref.query = hyp.base.query ∧
      0 < areaU hyp.base ∧ areaU hyp.base ≤ 2 * commonU ref hyp.base)) := by
  rw [C21_ioh_decision _ _ _ hr hh]
  unfold verdict
  congr 1
  refine if_congr ?_ rfl rfl
  refine and_congr_right fun _ => and_congr_right fun hpos => ?_
  have hq : (0 : ℚ) < areaU hyp.base := by exact_mod_cast hpos
  rw [div_le_div_iff₀ (by norm_num) hq, one_mul, mul_comm]
  exact_mod_cast Iff.rfl

/-- C21: single-precision rounding does not change the decision for a threshold `m/2^j` when
`area * 2^j <= 2^(24+i)`, where `2^-i` bounds the threshold. -/
theorem C21_ioh_rounded (R : Rnd) (hR : R.Faithful) (m j i : ℕ) (hm : m * 2 ^ i ≤ 2 ^ j)
    (hj : j ≤ 24 + i) (hi : i ≤ 125) (ref : Event Q (DocBox D UInt32))
    (hyp : ScoredEvent Q (DocBox D UInt32))
    (hr : EdgesOkU ref.location.toBBox) (hh : EdgesOkU hyp.base.location.toBBox)
    (hb : areaU hyp.base * 2 ^ j ≤ 2 ^ (24 + i)) (h24 : areaU hyp.base ≤ 2 ^ 24) :
    iohScorer R (m / 2 ^ j) ref hyp = iohScorer Rnd.exact (m / 2 ^ j) ref hyp := by
  have h32 : areaU hyp.base < 2 ^ 32 := lt_of_le_of_lt h24 (by norm_num)
  obtain ⟨a, ha'⟩ := inter_ok ref hyp.base
  have hv := inter_val ref hyp.base hr hh (lt_of_le_of_lt (common_le_right _ _) h32) a ha'
  have ha := area_val hyp.base h32
  rw [ioh_eq _ _ _ _ a ha', ioh_eq _ _ _ _ a ha']
  unfold verdict
  congr 1
  refine if_congr ?_ rfl rfl
  refine and_congr_right fun _ => and_congr_right fun hpos => ?_
  rw [ratio_rounded R hR a _ m j i hpos (by rw [hv, ha]; exact common_le_right _ _) hm hj hi
    (by rw [ha]; exact hb) (by rw [ha]; exact h24)]

/-- C21: with the threshold 0.5, single precision decides exactly for all areas up to 2^24. -/
theorem C21_ioh_half_rounded (R : Rnd) (hR : R.Faithful) (ref : Event Q (DocBox D UInt32))
    (hyp : ScoredEvent Q (DocBox D UInt32))
    (hr : EdgesOkU ref.location.toBBox) (hh : EdgesOkU hyp.base.location.toBBox)
    (h24 : areaU hyp.base ≤ 2 ^ 24) :
    iohScorer R (1 / 2) ref hyp = iohScorer Rnd.exact (1 / 2) ref hyp := by
  have := C21_ioh_rounded R hR 1 1 1 (by norm_num) (by norm_num) (by norm_num) ref hyp hr hh
    (by omega) h24
  simpa using this

/-! ## C22 -/

/-- C22: in exact arithmetic the IoU scorer decides `common / covered >= threshold`. -/
theorem C22_iou_decision (t : ℚ) (ref : Event Q (DocBox D UInt32))
    (hyp : ScoredEvent Q (DocBox D UInt32)) (hr : EdgesOkU ref.location.toBBox)
    (hh : EdgesOkU hyp.base.location.toBBox) (hc : coveredU ref hyp.base < 2 ^ 32) :
    iouScorer Rnd.exact t ref hyp = .ok (verdict (ref.query = hyp.base.query ∧
      0 < areaU hyp.base ∧ t ≤ (commonU ref hyp.base : ℚ) / coveredU ref hyp.base)) := by
  obtain ⟨i, hi⟩ := inter_ok ref hyp.base
  obtain ⟨u, hu⟩ := union_ok ref hyp.base
  have hv := inter_val ref hyp.base hr hh (lt_of_le_of_lt (common_le_covered _ _) hc) i hi
  have hw := union_val ref hyp.base hr hh hc u hu
  have ha := area_val hyp.base (lt_of_le_of_lt (area_le_covered ref _) hc)
  rw [iou_eq _ _ _ _ i u hi hu]
  unfold verdict
  congr 1
  refine if_congr ?_ rfl rfl
  rw [ha]
  refine and_congr_right fun _ => and_congr_right fun hpos => ?_
  rw [ratio_exact _ _ _ (by rw [hw]; exact lt_of_lt_of_le hpos (area_le_covered _ _)),
    decide_eq_true_iff, hv, hw]

/-- C22: the decision is symmetric in the two events if both areas are positive. -/
theorem C22_iou_symmetric (t : ℚ) (a b : Event Q (DocBox D UInt32)) (sa sb : Flt)
    (ha : EdgesOkU a.location.toBBox) (hb : EdgesOkU b.location.toBBox)
    (hc : coveredU a b < 2 ^ 32) (pa : 0 < areaU a) (pb : 0 < areaU b) :
    iouScorer Rnd.exact t a ⟨b, sb⟩ = iouScorer Rnd.exact t b ⟨a, sa⟩ := by
  rw [C22_iou_decision t a ⟨b, sb⟩ ha hb hc,
    C22_iou_decision t b ⟨a, sa⟩ hb ha (by rw [covered_comm]; exact hc)]
  unfold verdict
  congr 1
  refine if_congr ?_ rfl rfl
  rw [common_comm, covered_comm]
  simp only [pa, pb, true_and]
  exact and_congr_left fun _ => eq_comm

/-- C22: raising the threshold never turns a rejection into an acceptance; for all boxes and any
rounding. -/
theorem C22_iou_monotone (R : Rnd) (t t' : ℚ) (htt : t ≤ t') (ref : Event Q (DocBox D UInt32))
    (hyp : ScoredEvent Q (DocBox D UInt32)) (h : iouScorer R t' ref hyp = .ok ⟨0, 0⟩) :
    iouScorer R t ref hyp = .ok ⟨0, 0⟩ := by
  obtain ⟨i, hi⟩ := inter_ok ref hyp.base
  obtain ⟨u, hu⟩ := union_ok ref hyp.base
  rw [iou_eq _ _ _ _ i u hi hu] at h ⊢
  unfold verdict at *
  rw [Except.ok.injEq] at h ⊢
  by_cases hc : ref.query = hyp.base.query ∧
      0 < (hyp.base.location.w * hyp.base.location.h).toNat ∧ ratioAtLeast R i u t' = true
  · refine if_pos ⟨hc.1, hc.2.1, ?_⟩
    have h3 := hc.2.2
    unfold ratioAtLeast at *
    simp only at *
    split_ifs at h3 ⊢ with hz
    · exact h3
    · rw [decide_eq_true_iff] at *
      exact le_trans htt h3
  · rw [if_neg hc] at h
    simp at h

/-- C22: single-precision rounding does not change the decision for a threshold `m/2^j` when
`covered * 2^j <= 2^(24+i)`, where `2^-i` bounds the threshold. -/
theorem C22_iou_rounded (R : Rnd) (hR : R.Faithful) (m j i : ℕ) (hm : m * 2 ^ i ≤ 2 ^ j)
    (hj : j ≤ 24 + i) (hi : i ≤ 125) (ref : Event Q (DocBox D UInt32))
    (hyp : ScoredEvent Q (DocBox D UInt32))
    (hr : EdgesOkU ref.location.toBBox) (hh : EdgesOkU hyp.base.location.toBBox)
    (hb : coveredU ref hyp.base * 2 ^ j ≤ 2 ^ (24 + i)) (h24 : coveredU ref hyp.base ≤ 2 ^ 24) :
    iouScorer R (m / 2 ^ j) ref hyp = iouScorer Rnd.exact (m / 2 ^ j) ref hyp := by
  have h32 : coveredU ref hyp.base < 2 ^ 32 := lt_of_le_of_lt h24 (by norm_num)
  obtain ⟨a, ha'⟩ := inter_ok ref hyp.base
  obtain ⟨u, hu⟩ := union_ok ref hyp.base
  have hv := inter_val ref hyp.base hr hh (lt_of_le_of_lt (common_le_covered _ _) h32) a ha'
  have hw := union_val ref hyp.base hr hh h32 u hu
  have ha := area_val hyp.base (lt_of_le_of_lt (area_le_covered ref _) h32)
  rw [iou_eq _ _ _ _ a u ha' hu, iou_eq _ _ _ _ a u ha' hu]
  unfold verdict
  congr 1
  refine if_congr ?_ rfl rfl
  refine and_congr_right fun _ => and_congr_right fun hpos => ?_
  rw [ha] at hpos
  rw [ratio_rounded R hR a _ m j i (by rw [hw]; exact lt_of_lt_of_le hpos (area_le_covered _ _))
    (by rw [hv, hw]; exact common_le_covered _ _) hm hj hi
    (by rw [hw]; exact hb) (by rw [hw]; exact h24)]

/-! ## C23 -/

/-- C23: different queries are completely wrong. -/
theorem C23_soft_other_query (R : Rnd) (ref : Event Q (DocBox D UInt32))
    (hyp : ScoredEvent Q (DocBox D UInt32)) (hq : ref.query ≠ hyp.base.query) :
    softScorer R ref hyp = .ok ⟨1, 1⟩ := by
  unfold softScorer
  rw [if_pos ((LawfulCmp.ne_iff _ _).2 hq)]
  rfl

/-- C23: the value of the soft scorer for equal queries, in any arithmetic. -/
theorem soft_eq (R : Rnd) (ref : Event Q (DocBox D UInt32))
    (hyp : ScoredEvent Q (DocBox D UInt32)) (hr : InRangeU ref) (hh : InRangeU hyp.base)
    (hq : ref.query = hyp.base.query) :
    softScorer R ref hyp = .ok
      ⟨R.f32 (1 - if 0 < R.f32 (areaU hyp.base) then
          R.f32 (R.f32 (commonU ref hyp.base) / R.f32 (areaU hyp.base)) else 0),
        R.f32 (1 - if 0 < R.f32 (areaU ref) then
          R.f32 (R.f32 (commonU ref hyp.base) / R.f32 (areaU ref)) else 0)⟩ := by
  obtain ⟨i, hi⟩ := inter_ok ref hyp.base
  have hv := inter_val ref hyp.base hr.1 hh.1 (lt_of_le_of_lt (common_le_right _ _) hh.2) i hi
  unfold softScorer
  rw [if_neg (by rw [LawfulCmp.ne_iff]; simpa using hq), hi, area_ok, area_ok]
  simp only [bind, Except.bind, pure, Except.pure, softRate, CoordVal.val, hv, area_val _ hh.2,
    area_val _ hr.2]

/-- C23: in exact arithmetic the rates are one minus the covered fraction of the hypothesis and of
the reference (an empty box counts as not covered). -/
theorem C23_soft_value (ref : Event Q (DocBox D UInt32))
    (hyp : ScoredEvent Q (DocBox D UInt32)) (hr : InRangeU ref) (hh : InRangeU hyp.base)
    (hq : ref.query = hyp.base.query) :
    softScorer Rnd.exact ref hyp = .ok
      ⟨if areaU hyp.base = 0 then 1 else 1 - (commonU ref hyp.base : ℚ) / areaU hyp.base,
        if areaU ref = 0 then 1 else 1 - (commonU ref hyp.base : ℚ) / areaU ref⟩ := by
  rw [soft_eq _ _ _ hr hh hq]
  have key : ∀ a c : ℕ, (1 - if (0 : ℚ) < a then (c : ℚ) / a else 0) =
      if a = 0 then 1 else 1 - (c : ℚ) / a := by
    intro a c
    rcases Nat.eq_zero_or_pos a with rfl | h
    · simp
    · have : (0 : ℚ) < a := by exact_mod_cast h
      rw [if_pos this, if_neg h.ne']
  refine congrArg Except.ok (congrArg₂ MatchError.mk ?_ ?_)
  · exact key _ _
  · exact key _ _

/-- C23: the rates are in [0,1] in every faithful arithmetic, for all boxes in range. -/
theorem C23_soft_in_unit (R : Rnd) (hR : R.Faithful) (ref : Event Q (DocBox D UInt32))
    (hyp : ScoredEvent Q (DocBox D UInt32)) (hr : InRangeU ref) (hh : InRangeU hyp.base) :
    ∃ e, softScorer R ref hyp = .ok e ∧ 0 ≤ e.fp ∧ e.fp ≤ 1 ∧ 0 ≤ e.fn ∧ e.fn ≤ 1 := by
  by_cases hq : ref.query = hyp.base.query
  · refine ⟨_, soft_eq _ _ _ hr hh hq, ?_⟩
    have key : ∀ a c : ℕ, c ≤ a →
        0 ≤ R.f32 (1 - if 0 < R.f32 a then R.f32 (R.f32 c / R.f32 a) else 0) ∧
        R.f32 (1 - if 0 < R.f32 a then R.f32 (R.f32 c / R.f32 a) else 0) ≤ 1 := by
      intro a c hc
      split_ifs with ha
      · have h1 : R.f32 (c : ℚ) ≤ R.f32 a := hR.mono32 _ _ (by exact_mod_cast hc)
        have h0 : 0 ≤ R.f32 (c : ℚ) := hR.nonneg32 (by positivity)
        have h2 : R.f32 (R.f32 (c : ℚ) / R.f32 a) ≤ 1 :=
          hR.le_one32 (by rw [div_le_one ha]; exact h1)
        have h3 : 0 ≤ R.f32 (R.f32 (c : ℚ) / R.f32 a) := hR.nonneg32 (div_nonneg h0 ha.le)
        exact ⟨hR.nonneg32 (by linarith), hR.le_one32 (by linarith)⟩
      · exact ⟨hR.nonneg32 (by norm_num), hR.le_one32 (by norm_num)⟩
    exact ⟨(key _ _ (common_le_right _ _)).1, (key _ _ (common_le_right _ _)).2,
      (key _ _ (common_le_left _ _)).1, (key _ _ (common_le_left _ _)).2⟩
  · exact ⟨_, C23_soft_other_query R ref hyp hq, by norm_num⟩

/-- C23: the false-positive rate is 0 exactly if the hypothesis has the same query and document, is
not empty and lies inside the reference. -/
theorem C23_soft_fp_zero (ref : Event Q (DocBox D UInt32))
    (hyp : ScoredEvent Q (DocBox D UInt32)) (hr : InRangeU ref) (hh : InRangeU hyp.base)
    (e : MatchError) (he : softScorer Rnd.exact ref hyp = .ok e) :
    e.fp = 0 ↔ ref.query = hyp.base.query ∧
      ref.location.document = hyp.base.location.document ∧
      (cellsU hyp.base.location.toBBox).Nonempty ∧
      cellsU hyp.base.location.toBBox ⊆ cellsU ref.location.toBBox := by
  by_cases hq : ref.query = hyp.base.query
  · rw [C23_soft_value _ _ hr hh hq, Except.ok.injEq] at he
    subst he
    simp only
    rcases Nat.eq_zero_or_pos (areaU hyp.base) with h0 | h0
    · rw [if_pos h0]
      have : cellsU hyp.base.location.toBBox = ∅ := Finset.card_eq_zero.1 h0
      simp [this]
    · rw [if_neg h0.ne']
      have hA : (0 : ℚ) < areaU hyp.base := by exact_mod_cast h0
      rw [sub_eq_zero, eq_comm, div_eq_one_iff_eq hA.ne']
      have hne : (cellsU hyp.base.location.toBBox).Nonempty := Finset.card_pos.1 h0
      simp only [hq, hne, true_and]
      rw [Nat.cast_inj]
      unfold commonU areaU
      by_cases hd : ref.location.document = hyp.base.location.document
      · rw [if_pos hd]
        simp only [hd, true_and]
        constructor
        · intro h
          have := Finset.eq_of_subset_of_card_le
            (Finset.inter_subset_right (s₁ := cellsU ref.location.toBBox)) h.ge
          rw [← this]
          exact Finset.inter_subset_left
        · intro h
          rw [Finset.inter_eq_right.2 h]
      · rw [if_neg hd]
        simp only [hd, false_and, iff_false]
        exact fun h => h0.ne h
  · rw [C23_soft_other_query _ _ _ hq, Except.ok.injEq] at he
    subst he
    simp [hq]

end

/-- C21: for other thresholds rounding can change the decision: the single-precision number next to
1/3 is larger than 1/3, yet one third of the hypothesis is accepted. -/
theorem C21_ioh_rounding_matters :
    ∃ (t : ℚ) (ref : Event Nat (DocBox Nat UInt32)) (hyp : ScoredEvent Nat (DocBox Nat UInt32)),
      Rnd.ieee.f32 t = t ∧ areaU hyp.base = 3 ∧
      iohScorer Rnd.ieee t ref hyp = .ok ⟨0, 0⟩ ∧ iohScorer Rnd.exact t ref hyp = .ok ⟨1, 1⟩ :=
  ⟨11184811 / 2 ^ 25, ⟨1, ⟨⟨0, 0, 1, 1⟩, 1⟩⟩, ⟨⟨1, ⟨⟨0, 0, 3, 1⟩, 1⟩⟩, .fin 0⟩,
    by decide +kernel, by unfold areaU; rw [cellsU_card]; rfl, by decide +kernel,
    by decide +kernel⟩

/-- Half of the hypothesis is covered, in range: the hypotheses of C21 - C23 hold. -/
example :
    let ref : Event Nat (DocBox Nat UInt32) := ⟨1, ⟨⟨0, 0, 2, 2⟩, 7⟩⟩
    let hyp : ScoredEvent Nat (DocBox Nat UInt32) := ⟨⟨1, ⟨⟨1, 0, 2, 2⟩, 7⟩⟩, .fin 0⟩
    EdgesOkU ref.location.toBBox ∧ EdgesOkU hyp.base.location.toBBox ∧
    iohScorer Rnd.exact (1 / 2) ref hyp = .ok ⟨0, 0⟩ ∧
    iouScorer Rnd.exact (1 / 2) ref hyp = .ok ⟨1, 1⟩ ∧
    softScorer Rnd.exact ref hyp = .ok ⟨1 / 2, 1 / 2⟩ := by
  refine ⟨by unfold EdgesOkU; decide, by unfold EdgesOkU; decide, by decide +kernel,
    by decide +kernel, by decide +kernel⟩

/-! ## C24 -/

section
variable {Q L : Type} [DecidableEq Q] [DecidableEq L] [Cmp Q] [LawfulCmp Q] [Cmp L] [LawfulCmp L]

/-- C24: the trivial scorer accepts exactly equal events. -/
theorem C24_trivial_scorer (ref : Event Q L) (hyp : ScoredEvent Q L) :
    trivialScorer ref hyp = .ok (verdict (ref = hyp.base)) := by
  unfold trivialScorer verdict
  have h1 : (Cmp.eq ref.location hyp.base.location && Cmp.eq ref.query hyp.base.query) = true ↔
      ref = hyp.base := by
    rw [Bool.and_eq_true, LawfulCmp.eq_iff, LawfulCmp.eq_iff]
    obtain ⟨q, l⟩ := ref
    obtain ⟨⟨q', l'⟩, sc⟩ := hyp
    simp only [Event.mk.injEq]
    exact and_comm
  by_cases h : ref = hyp.base
  · rw [if_pos (h1.2 h), if_pos h]
  · rw [if_neg (mt h1.1 h), if_neg h]

/-- C24: the segmentation-based matching in closed form: a hit for the first hypothesis of each
referenced event, nothing for its repetitions, a false positive for each hypothesis of an
unreferenced event, then the referenced events never hypothesised, in increasing order. -/
theorem C24_segmentation_result (s : EventSet (Event Q L)) (refs : List (Event Q L))
    (hyps : List (ScoredEvent Q L)) :
    ∃ (s' : EventSet (Event Q L)) (missed : List (Event Q L))
        (rep : List (Match (Event Q L) (ScoredEvent Q L))), SimpleMatcher.run (plainIndex Q L) trivialScorer s refs hyps =
        .ok (s', segEntries refs [] hyps ++ missed.map (fun r => ⟨some r, none, ⟨0, 1⟩⟩), rep) ∧
      missed.Pairwise (fun a b => Cmp.lt a b = true) ∧
      (∀ r, r ∈ missed ↔ r ∈ refs ∧ ∀ h ∈ hyps, h.base ≠ r) := by
  set overl : ScoredEvent Q L → List (Event Q L) :=
    fun h => if h.base ∈ refs then [h.base] else [] with hoverl
  set score : Event Q L → ScoredEvent Q L → MatchError := fun r h => verdict (r = h.base) with hscore
  obtain ⟨entries, missed, rep, h1, h2, h3, h4⟩ := run_spec (plainIndex Q L) trivialScorer s overl
    score refs hyps (fun h _ => plain_find refs s h)
    (fun h _ r hr => by
      simp only [hoverl] at hr
      split at hr
      · rename_i hm; simp only [List.mem_singleton] at hr; rw [hr]; exact hm
      · simp at hr)
    (fun h _ r _ => C24_trivial_scorer r h)
  have key : ∀ (hyps : List (ScoredEvent Q L)) (earlier : List (Match (Event Q L) (ScoredEvent Q L)))
      (seen : List (Event Q L)), (∀ r, Taken earlier r ↔ r ∈ seen ∧ r ∈ refs) →
      (∃ rep, Greedy overl score earlier hyps (segEntries refs seen hyps) rep) ∧
      (∀ r, Taken (segEntries refs seen hyps) r ∨ (r ∈ seen ∧ r ∈ refs) ↔
        r ∈ refs ∧ (r ∈ seen ∨ ∃ h ∈ hyps, h.base = r)) := by
    intro hyps
    induction hyps with
    | nil =>
      intro earlier seen _
      refine ⟨⟨[], Greedy.nil _⟩, fun r => ?_⟩
      simp [segEntries, Taken, and_comm]
    | cons h hs ih =>
      intro earlier seen hinv
      set entry : List (Match (Event Q L) (ScoredEvent Q L)) :=
        (if h.base ∉ refs then [⟨none, some h, ⟨1, 0⟩⟩]
         else if h.base ∈ seen then []
         else [⟨some h.base, some h, ⟨0, 0⟩⟩]) with hentry
      have hte : ∀ r, Taken entry r ↔ r = h.base ∧ r ∈ refs ∧ r ∉ seen := by
        intro r
        rw [hentry]
        by_cases hr : h.base ∈ refs
        · by_cases hs : h.base ∈ seen
          · rw [if_neg (not_not.2 hr), if_pos hs]
            simp only [Taken, List.not_mem_nil, false_and, exists_false, false_iff]
            rintro ⟨rfl, _, h'⟩
            exact h' hs
          · rw [if_neg (not_not.2 hr), if_neg hs]
            simp only [Taken, List.mem_singleton, exists_eq_left, Option.some.injEq]
            constructor
            · rintro rfl; exact ⟨rfl, hr, hs⟩
            · rintro ⟨rfl, _⟩; rfl
        · rw [if_pos hr]
          simp only [Taken, List.mem_singleton, exists_eq_left]
          constructor
          · intro h'; cases h'
          · rintro ⟨rfl, h', _⟩
            exact absurd h' hr
      have hinv' : ∀ r, Taken (earlier ++ entry) r ↔ r ∈ h.base :: seen ∧ r ∈ refs := by
        intro r
        rw [taken_append, hinv, hte, List.mem_cons]
        by_cases h' : r ∈ seen <;> tauto
      obtain ⟨⟨rep', g1⟩, g2⟩ := ih (earlier ++ entry) (h.base :: seen) hinv'
      constructor
      · by_cases hr : h.base ∈ refs
        · have hov : overl h = [h.base] := by simp [hoverl, hr]
          have hsc : score h.base h = ⟨0, 0⟩ := by simp [hscore, verdict]
          by_cases hs' : h.base ∈ seen
          · have htk : Taken earlier h.base := (hinv _).2 ⟨hs', hr⟩
            refine ⟨[⟨some h.base, some h, ⟨0, 0⟩⟩] ++ rep', Greedy.cons _ _ _ entry _ _ _ ?_ ?_ g1⟩
            · refine Or.inr (Or.inr ⟨⟨h.base, by rw [hov]; simp, by beta_reduce; rw [hsc]; norm_num⟩, ?_, ?_⟩)
              · intro r hr' _
                rw [hov, List.mem_singleton] at hr'
                rw [hr']; exact htk
              · rw [hentry, if_neg (not_not.2 hr), if_pos hs']
            · refine ⟨[h.base], [], by rw [hov]; rfl, ?_, by simp, ?_⟩
              · intro r hr' _
                rw [List.mem_singleton] at hr'
                rw [hr']; exact htk
              · simp [hsc]
          · have htk : ¬ Taken earlier h.base := fun h' => hs' ((hinv _).1 h').1
            refine ⟨[] ++ rep', Greedy.cons _ _ _ entry _ _ _ ?_ ?_ g1⟩
            · refine Or.inr (Or.inl ⟨[], h.base, [], by rw [hov]; rfl, by beta_reduce; rw [hsc]; norm_num, htk,
                by simp, ?_⟩)
              beta_reduce
              rw [hentry, if_neg (not_not.2 hr), if_neg hs', hsc]
            · refine ⟨[], [h.base], by rw [hov]; rfl, by simp, ?_, by simp⟩
              intro r hr'
              simp only [List.head?_cons, Option.some.injEq] at hr'
              subst hr'
              exact ⟨by beta_reduce; rw [hsc]; norm_num, htk⟩
        · have hov : overl h = [] := by simp [hoverl, hr]
          refine ⟨[] ++ rep', Greedy.cons _ _ _ entry _ _ _ ?_ ?_ g1⟩
          · refine Or.inl ⟨by simp [hov], ?_⟩
            rw [hentry, if_pos hr]
          · exact ⟨[], [], by rw [hov]; rfl, by simp, by simp, by simp⟩
      · intro r
        have hseg : segEntries refs seen (h :: hs) =
            entry ++ segEntries refs (h.base :: seen) hs := rfl
        have h5 := g2 r
        rw [hseg, taken_append, hte]
        simp only [List.mem_cons] at h5 ⊢
        constructor
        · intro h6
          have h7 : r ∈ refs ∧ ((r = h.base ∨ r ∈ seen) ∨ ∃ h ∈ hs, h.base = r) := by
            by_cases h8 : r ∈ seen
            · rcases h6 with (h6 | h6) | h6
              · exact absurd h8 h6.2.2
              · exact h5.1 (Or.inl h6)
              · exact ⟨h6.2, Or.inl (Or.inr h6.1)⟩
            · rcases h6 with (h6 | h6) | h6
              · exact ⟨h6.2.1, Or.inl (Or.inl h6.1)⟩
              · exact h5.1 (Or.inl h6)
              · exact absurd h6.1 h8
          refine ⟨h7.1, ?_⟩
          rcases h7.2 with (h8 | h8) | ⟨x, hx, h8⟩
          · exact Or.inr ⟨h, Or.inl rfl, h8.symm⟩
          · exact Or.inl h8
          · exact Or.inr ⟨x, Or.inr hx, h8⟩
        · rintro ⟨h6, h7⟩
          by_cases h8 : r ∈ seen
          · exact Or.inr ⟨h8, h6⟩
          · left
            by_cases h9 : r = h.base
            · exact Or.inl ⟨h9, h6, h8⟩
            · right
              have := h5.2 ⟨h6, by
                rcases h7 with h7 | ⟨x, rfl | hx, hx'⟩
                · exact absurd h7 h8
                · exact absurd hx'.symm h9
                · exact Or.inr ⟨x, hx, hx'⟩⟩
              rcases this with h10 | ⟨h10 | h10, _⟩
              · exact h10
              · exact absurd h10 h9
              · exact absurd h10 h8
  obtain ⟨⟨rep', g1⟩, g2⟩ := key hyps [] [] (by simp [Taken])
  obtain ⟨rfl, rfl⟩ := h2.unique g1
  refine ⟨_, missed, rep, h1, h3, fun r => ?_⟩
  rw [h4]
  have h5 := g2 r
  simp only [List.not_mem_nil, false_and, or_false, false_or] at h5
  rw [h5]
  constructor
  · rintro ⟨a, b⟩
    exact ⟨a, fun h hh he => b ⟨a, h, hh, he⟩⟩
  · rintro ⟨a, b⟩
    exact ⟨a, fun ⟨_, h, hh, he⟩ => b h hh he⟩

end

/-- A hit, a repetition, a false positive: the closed form on a concrete list. -/
example : segEntries (Q := Nat) (L := Nat) [⟨1, 1⟩, ⟨2, 2⟩] []
    [⟨⟨1, 1⟩, .fin 3⟩, ⟨⟨1, 1⟩, .fin 2⟩, ⟨⟨5, 5⟩, .fin 1⟩] =
    [⟨some ⟨1, 1⟩, some ⟨⟨1, 1⟩, .fin 3⟩, ⟨0, 0⟩⟩, ⟨none, some ⟨⟨5, 5⟩, .fin 1⟩, ⟨1, 0⟩⟩] := by
  decide

end Kws
