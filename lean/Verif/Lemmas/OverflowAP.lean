import Verif.Lemmas.OverflowArith
import Verif.Lemmas.Sort

/-!
# Lemmas about overflow: core/Assessment.h
-/

namespace Kws
open Spec

/-- Errors with weights between 0 and 1. -/
def UnitErrors {Q L : Type} (ms : List (KwsMatch Q L)) : Prop :=
  ∀ m ∈ ms, (0 ≤ m.error.fp ∧ m.error.fp ≤ 1) ∧ 0 ≤ m.error.fn ∧ m.error.fn ≤ 1

/-- Errors with small weights and not too many events. -/
structure SmallErrors {ε : Type} [IsError ε] (es : List ε) : Prop where
  fp : ∀ e ∈ es, |IsError.fp e| ≤ 2 ^ 25
  fn : ∀ e ∈ es, |IsError.fn e| ≤ 2 ^ 25
  nh : (es.map IsError.nh).sum ≤ 2 ^ 124
  nr : (es.map IsError.nr).sum ≤ 2 ^ 124

theorem error_nh_le (e : MatchError) : e.nh ≤ 1 := by unfold MatchError.nh; split <;> omega
theorem error_nr_le (e : MatchError) : e.nr ≤ 1 := by unfold MatchError.nr; split <;> omega

theorem abs_le_of_unit {x : ℚ} (h : 0 ≤ x ∧ x ≤ 1) (k : ℕ) : |x| ≤ 2 ^ k := by
  rw [abs_of_nonneg h.1]
  exact h.2.trans (one_le_pow₀ (by norm_num))

section
variable {Q L : Type} {R : Rnd} (h : Overflowing R)

theorem sum_map_le {α : Type} (f : α → ℕ) (hf : ∀ a, f a ≤ 1) (l : List α) : (l.map f).sum ≤ l.length := by
  induction l with
  | nil => simp
  | cons a l ih =>
    simp only [List.map_cons, List.sum_cons, List.length_cons]
    have := hf a
    omega

theorem smallErrors_get {ms : List (KwsMatch Q L)} (hu : UnitErrors ms) (hn : ms.length ≤ 2 ^ 124) :
    SmallErrors (getMatchErrors ms) := by
  unfold getMatchErrors
  refine ⟨?_, ?_, ?_, ?_⟩
  · intro e he
    obtain ⟨m, hm, rfl⟩ := List.mem_map.1 he
    exact abs_le_of_unit (hu m hm).1 25
  · intro e he
    obtain ⟨m, hm, rfl⟩ := List.mem_map.1 he
    exact abs_le_of_unit (hu m hm).2 25
  · rw [List.map_map]
    exact (sum_map_le _ (fun m => error_nh_le _) ms).trans hn
  · rw [List.map_map]
    exact (sum_map_le _ (fun m => error_nr_le _) ms).trans hn

/-- What the collapsing loop has so far. -/
structure SmallAcc (acc : List (MatchErrorCounts × Flt)) (n : ℕ) : Prop where
  fp : ∀ c ∈ acc, |c.1.fp| ≤ 2 ^ 25
  fn : ∀ c ∈ acc, |c.1.fn| ≤ 2 ^ 25
  nh : (acc.map (·.1.nh)).sum ≤ n
  nr : (acc.map (·.1.nr)).sum ≤ n

theorem collapseStep_small {acc : List (MatchErrorCounts × Flt)} {n : ℕ} (ha : SmallAcc acc n)
    (m : KwsMatch Q L) (hm : (0 ≤ m.error.fp ∧ m.error.fp ≤ 1) ∧ 0 ≤ m.error.fn ∧ m.error.fn ≤ 1) :
    SmallAcc (collapseStep Rnd.ieee acc m) (n + 1) := by
  have e1 := error_nh_le m.error
  have e2 := error_nr_le m.error
  have f1 := abs_le_of_unit hm.1 25
  have f2 := abs_le_of_unit hm.2 25
  obtain ⟨a1, a2, a3, a4⟩ := ha
  unfold collapseStep
  cases acc with
  | nil =>
    refine ⟨?_, ?_, ?_, ?_⟩ <;> simp [MatchErrorCounts.ofError, f1, f2] <;> omega
  | cons c rest =>
    obtain ⟨c, s⟩ := c
    simp only [List.mem_cons, forall_eq_or_imp, List.map_cons, List.sum_cons] at a1 a2 a3 a4
    dsimp only
    split
    · refine ⟨?_, ?_, ?_, ?_⟩ <;>
        simp only [List.mem_cons, forall_eq_or_imp, List.map_cons, List.sum_cons, MatchErrorCounts.ofError]
      · exact ⟨f1, a1⟩
      · exact ⟨f2, a2⟩
      · omega
      · omega
    · refine ⟨?_, ?_, ?_, ?_⟩ <;>
        simp only [List.mem_cons, forall_eq_or_imp, List.map_cons, List.sum_cons, MatchErrorCounts.addError]
      · exact ⟨ieee_sum32 0 a1.1 (abs_le_of_unit hm.1 0), a1.2⟩
      · exact ⟨ieee_sum32 0 a2.1 (abs_le_of_unit hm.2 0), a2.2⟩
      · omega
      · omega

include h in
theorem collapseStep_over {acc : List (MatchErrorCounts × Flt)} {n : ℕ} (ha : SmallAcc acc n)
    (m : KwsMatch Q L) (hm : (0 ≤ m.error.fp ∧ m.error.fp ≤ 1) ∧ 0 ≤ m.error.fn ∧ m.error.fn ≤ 1) :
    collapseStep R acc m = collapseStep Rnd.ieee acc m := by
  unfold collapseStep
  cases acc with
  | nil => rfl
  | cons c rest =>
    obtain ⟨c, s⟩ := c
    have a1 := ha.fp _ (List.mem_cons_self ..)
    have a2 := ha.fn _ (List.mem_cons_self ..)
    dsimp only at a1 a2 ⊢
    split
    · rfl
    · simp only [MatchErrorCounts.addError]
      rw [h.sum32 (k := 0) a1 (abs_le_of_unit hm.1 0) (by norm_num),
        h.sum32 (k := 0) a2 (abs_le_of_unit hm.2 0) (by norm_num)]

theorem collapseFold_small (ms : List (KwsMatch Q L)) (hu : UnitErrors ms)
    (acc : List (MatchErrorCounts × Flt)) (n : ℕ) (ha : SmallAcc acc n) :
    SmallAcc (ms.foldl (collapseStep Rnd.ieee) acc) (n + ms.length) := by
  induction ms generalizing acc n with
  | nil => exact ha
  | cons m ms ih =>
    rw [List.foldl_cons, List.length_cons, show n + (ms.length + 1) = n + 1 + ms.length by omega]
    exact ih (fun x hx => hu x (List.mem_cons_of_mem _ hx)) _ _
      (collapseStep_small ha m (hu m (List.mem_cons_self ..)))

include h in
theorem collapseFold_over (ms : List (KwsMatch Q L)) (hu : UnitErrors ms)
    (acc : List (MatchErrorCounts × Flt)) (n : ℕ) (ha : SmallAcc acc n) :
    ms.foldl (collapseStep R) acc = ms.foldl (collapseStep Rnd.ieee) acc := by
  induction ms generalizing acc n with
  | nil => rfl
  | cons m ms ih =>
    have hm := hu m (List.mem_cons_self ..)
    rw [List.foldl_cons, List.foldl_cons, collapseStep_over h ha m hm]
    exact ih (fun x hx => hu x (List.mem_cons_of_mem _ hx)) _ _ (collapseStep_small ha m hm)

theorem smallAcc_nil : SmallAcc [] 0 :=
  ⟨fun _ h => absurd h List.not_mem_nil, fun _ h => absurd h List.not_mem_nil, le_rfl, le_rfl⟩

include h in
theorem collapse_over {ms : List (KwsMatch Q L)} (hu : UnitErrors ms) :
    collapseMatches R ms = collapseMatches Rnd.ieee ms := by
  unfold collapseMatches
  rw [collapseFold_over h ms hu [] 0 smallAcc_nil]

theorem smallErrors_collapse {ms : List (KwsMatch Q L)} (hu : UnitErrors ms) (hn : ms.length ≤ 2 ^ 124) :
    SmallErrors (collapseMatches Rnd.ieee ms) := by
  have ha := collapseFold_small ms hu [] 0 smallAcc_nil
  unfold collapseMatches
  refine ⟨?_, ?_, ?_, ?_⟩
  · intro e he
    obtain ⟨c, hc, rfl⟩ := List.mem_map.1 he
    exact ha.fp c (List.mem_reverse.1 hc)
  · intro e he
    obtain ⟨c, hc, rfl⟩ := List.mem_map.1 he
    exact ha.fn c (List.mem_reverse.1 hc)
  · rw [List.map_map, List.map_reverse, List.sum_reverse]
    exact ha.nh.trans (by omega)
  · rw [List.map_map, List.map_reverse, List.sum_reverse]
    exact ha.nr.trans (by omega)

/-! ## Precision and recall -/

section PR
variable {ε : Type} [IsError ε]

/-- The running sums are small. -/
structure SmallSums (s : PRSums) (es : List ε) : Prop where
  fp : |s.sumFP| ≤ 2 ^ 79
  fn : |s.sumFN| ≤ 2 ^ 79
  nh : s.sumNH + (es.map IsError.nh).sum ≤ 2 ^ 124
  nr : s.sumNR + (es.map IsError.nr).sum ≤ 2 ^ 124

theorem SmallErrors.tail {e : ε} {es : List ε} (he : SmallErrors (e :: es)) : SmallErrors es := by
  obtain ⟨a, b, c, d⟩ := he
  rw [List.map_cons, List.sum_cons] at c d
  exact ⟨fun x hx => a x (List.mem_cons_of_mem _ hx), fun x hx => b x (List.mem_cons_of_mem _ hx),
    by omega, by omega⟩

theorem step_small {s : PRSums} {e : ε} {es : List ε} (hs : SmallSums s (e :: es)) (he : SmallErrors (e :: es)) :
    SmallSums (s.step Rnd.ieee e) es := by
  obtain ⟨a, b, c, d⟩ := hs
  rw [List.map_cons, List.sum_cons] at c d
  refine ⟨ieee_sum64 25 a (he.fp e (List.mem_cons_self ..)), ieee_sum64 25 b (he.fn e (List.mem_cons_self ..)), ?_, ?_⟩
  · show s.sumNH + IsError.nh e + _ ≤ _
    omega
  · show s.sumNR + IsError.nr e + _ ≤ _
    omega

include h in
theorem step_over {s : PRSums} {e : ε} {es : List ε} (hs : SmallSums s (e :: es)) (he : SmallErrors (e :: es)) :
    s.step R e = s.step Rnd.ieee e := by
  unfold PRSums.step
  rw [h.sum64 (k := 25) hs.fp (he.fp e (List.mem_cons_self ..)) (by norm_num),
    h.sum64 (k := 25) hs.fn (he.fn e (List.mem_cons_self ..)) (by norm_num)]

theorem abs_sub_pow {a b : ℚ} {k : ℕ} (ha : |a| ≤ 2 ^ k) (hb : |b| ≤ 2 ^ k) : |a - b| ≤ 2 ^ (k + 1) := by
  refine (abs_sub a b).trans ?_
  rw [pow_succ]
  linarith

theorem abs_add_pow {a b : ℚ} {k : ℕ} (ha : |a| ≤ 2 ^ k) (hb : |b| ≤ 2 ^ k) : |a + b| ≤ 2 ^ (k + 1) := by
  refine (abs_add_le a b).trans ?_
  rw [pow_succ]
  linarith

theorem abs_one_le (k : ℕ) : |(1 : ℚ)| ≤ 2 ^ k := by
  rw [abs_one]
  exact one_le_pow₀ (by norm_num)

theorem abs_mul_pow {a b : ℚ} {k l : ℕ} (ha : |a| ≤ 2 ^ k) (hb : |b| ≤ 2 ^ l) : |a * b| ≤ 2 ^ (k + l) := by
  rw [abs_mul, pow_add]
  exact mul_le_mul ha hb (abs_nonneg _) (by positivity)

theorem quotient_small {s : PRSums} {es : List ε} (hs : SmallSums s es) (h0 : s.sumNH > 0) :
    |s.sumFP / Rnd.ieee.f64 s.sumNH| ≤ 2 ^ 79 := div_bound hs.fp (ieee_one_le h0)

theorem precision_small {s : PRSums} {es : List ε} (hs : SmallSums s es) : |s.precision Rnd.ieee| ≤ 2 ^ 125 := by
  unfold PRSums.precision
  split
  · rename_i h0
    have := ieee_bound64 80 (abs_sub_pow (abs_one_le 79) (ieee_bound64 79 (quotient_small hs h0)))
    exact this.trans (pow_le_pow_right₀ (by norm_num) (by norm_num))
  · exact abs_one_le 125

include h in
theorem precision_over {s : PRSums} {es : List ε} (hs : SmallSums s es) :
    s.precision R = s.precision Rnd.ieee := by
  unfold PRSums.precision
  split
  · rename_i h0
    have hn : s.sumNH ≤ 2 ^ 124 := by have := hs.nh; omega
    rw [h.nat64 hn (by norm_num), h.eq64 (quotient_small hs h0) (by norm_num),
      h.eq64 (abs_sub_pow (abs_one_le 79) (ieee_bound64 79 (quotient_small hs h0))) (by norm_num)]
  · rfl

theorem difference_small {s : PRSums} {es : List ε} (hs : SmallSums s es) :
    |Rnd.ieee.f64 s.sumNR - s.sumFN| ≤ 2 ^ 125 := by
  have hn : s.sumNR ≤ 2 ^ 124 := by have := hs.nr; omega
  exact abs_sub_pow (ieee_abs_nat hn) (hs.fn.trans (pow_le_pow_right₀ (by norm_num) (by norm_num)))

theorem recall_small {s : PRSums} {es : List ε} (hs : SmallSums s es) (TR : ℕ) :
    |s.recall Rnd.ieee TR| ≤ 2 ^ 125 := by
  unfold PRSums.recall
  split
  · rename_i h0
    exact ieee_bound64 125 (div_bound (ieee_bound64 125 (difference_small hs)) (ieee_one_le h0))
  · exact abs_one_le 125

include h in
theorem recall_over {s : PRSums} {es : List ε} (hs : SmallSums s es) {TR : ℕ} (ht : TR ≤ 2 ^ 124) :
    s.recall R TR = s.recall Rnd.ieee TR := by
  unfold PRSums.recall
  split
  · rename_i h0
    have hn : s.sumNR ≤ 2 ^ 124 := by have := hs.nr; omega
    rw [h.nat64 hn (by norm_num), h.nat64 ht (by norm_num), h.eq64 (difference_small hs) (by norm_num),
      h.eq64 (div_bound (ieee_bound64 125 (difference_small hs)) (ieee_one_le h0)) (by norm_num)]
  · rfl

theorem prLoop_small (TR : ℕ) (es : List ε) (he : SmallErrors es) (s : PRSums) (hs : SmallSums s es) :
    ∀ p ∈ prLoop Rnd.ieee TR s es, |p.1| ≤ 2 ^ 125 ∧ |p.2| ≤ 2 ^ 125 := by
  induction es generalizing s with
  | nil => exact fun _ h => absurd h List.not_mem_nil
  | cons e es ih =>
    have hs' := step_small hs he
    intro p hp
    rw [prLoop] at hp
    rcases List.mem_cons.1 hp with rfl | hp
    · exact ⟨precision_small hs', recall_small hs' TR⟩
    · exact ih he.tail _ hs' p hp

include h in
theorem prLoop_over {TR : ℕ} (ht : TR ≤ 2 ^ 124) (es : List ε) (he : SmallErrors es) (s : PRSums)
    (hs : SmallSums s es) : prLoop R TR s es = prLoop Rnd.ieee TR s es := by
  induction es generalizing s with
  | nil => rfl
  | cons e es ih =>
    have hs' := step_small hs he
    rw [prLoop, prLoop, step_over h hs he, precision_over h hs', recall_over h hs' ht, ih he.tail _ hs']

theorem numTotalReferences_sum (es : List ε) : numTotalReferences es = (es.map IsError.nr).sum := by
  unfold numTotalReferences
  have : ∀ (es : List ε) (a : ℕ), es.foldl (fun a e => a + IsError.nr e) a = a + (es.map IsError.nr).sum := by
    intro es
    induction es with
    | nil => intro a; simp
    | cons e es ih => intro a; simp [ih, Nat.add_assoc]
  simpa using this es 0

theorem smallSums_start {es : List ε} (he : SmallErrors es) : SmallSums {} es :=
  ⟨by norm_num, by norm_num, by simpa using he.nh, by simpa using he.nr⟩

theorem interpolate_small {b : ℚ} (l : List ℚ) (hl : ∀ p ∈ l, |p| ≤ b) : ∀ p ∈ interpolate l, |p| ≤ b := by
  induction l with
  | nil => exact hl
  | cons p ps ih =>
    have := ih fun x hx => hl x (List.mem_cons_of_mem _ hx)
    have hp := hl p (List.mem_cons_self ..)
    rw [interpolate]
    cases hq : interpolate ps with
    | nil => simpa using hp
    | cons q qs =>
      rw [hq] at this
      intro x hx
      dsimp only at hx
      rcases List.mem_cons.1 hx with rfl | hx
      · split
        · exact this q (List.mem_cons_self ..)
        · exact hp
      · exact this x hx

/-- The curves are small. -/
def SmallCurves (c : List ℚ × List ℚ) : Prop := (∀ p ∈ c.1, |p| ≤ 2 ^ 125) ∧ ∀ p ∈ c.2, |p| ≤ 2 ^ 125

theorem computePR_small {es : List ε} (he : SmallErrors es) (interp : Bool) :
    SmallCurves (computePR Rnd.ieee es interp) := by
  have hp := prLoop_small (numTotalReferences es) es he {} (smallSums_start he)
  have h1 : ∀ p ∈ (prLoop Rnd.ieee (numTotalReferences es) {} es).map (·.1), |p| ≤ 2 ^ 125 := by
    intro p h
    obtain ⟨x, hx, rfl⟩ := List.mem_map.1 h
    exact (hp x hx).1
  refine ⟨?_, fun p h => ?_⟩
  · unfold computePR
    dsimp only
    split
    · exact interpolate_small _ h1
    · exact h1
  · obtain ⟨x, hx, rfl⟩ := List.mem_map.1 h
    exact (hp x hx).2

include h in
theorem computePR_over {es : List ε} (he : SmallErrors es) (interp : Bool) :
    computePR R es interp = computePR Rnd.ieee es interp := by
  unfold computePR
  rw [prLoop_over h (by rw [numTotalReferences_sum]; exact he.nr) es he {} (smallSums_start he)]

end PR

/-- The matches of a run: weights between 0 and 1, and not too many of them. -/
structure SmallMatches (ms : List (KwsMatch Q L)) : Prop where
  unit : UnitErrors ms
  few : ms.length ≤ 2 ^ 124

theorem SmallMatches.perm {ms ms' : List (KwsMatch Q L)} (hm : SmallMatches ms) (hp : ms'.Perm ms) :
    SmallMatches ms' :=
  ⟨fun m h => hm.unit m (hp.subset h), hp.length_eq ▸ hm.few⟩

theorem matchesPR_small {ms : List (KwsMatch Q L)} (hm : SmallMatches ms) (collapse interp : Bool) :
    SmallCurves (matchesPR Rnd.ieee ms collapse interp) := by
  unfold matchesPR
  split
  · exact computePR_small (smallErrors_collapse hm.unit hm.few) interp
  · exact computePR_small (smallErrors_get hm.unit hm.few) interp

include h in
theorem matchesPR_over {ms : List (KwsMatch Q L)} (hm : SmallMatches ms) (collapse interp : Bool) :
    matchesPR R ms collapse interp = matchesPR Rnd.ieee ms collapse interp := by
  unfold matchesPR
  rw [collapse_over h hm.unit, computePR_over h (smallErrors_collapse hm.unit hm.few),
    computePR_over h (smallErrors_get hm.unit hm.few)]

/-! ## Average precision -/

theorem heights_step (R : Rnd) (trapezoid : Bool) (prev : Option ℚ) (p : ℚ) (ps : List ℚ) :
    heights R trapezoid prev (p :: ps) =
      (match trapezoid, prev with
        | true, some q => R.f64 (1 / 2 * R.f64 (p + q))
        | _, _ => p) :: heights R trapezoid (some p) ps := by
  cases trapezoid <;> cases prev <;> simp [heights]

theorem heights_small (trapezoid : Bool) (prev : Option ℚ) (pr : List ℚ) (hp : ∀ p ∈ prev, |p| ≤ 2 ^ 125)
    (hl : ∀ p ∈ pr, |p| ≤ 2 ^ 125) : ∀ p ∈ heights Rnd.ieee trapezoid prev pr, |p| ≤ 2 ^ 126 := by
  induction pr generalizing prev with
  | nil => exact fun _ h => absurd h List.not_mem_nil
  | cons p ps ih =>
    have h1 := hl p (List.mem_cons_self ..)
    intro x hx
    rw [heights_step] at hx
    rcases List.mem_cons.1 hx with rfl | hx
    · split
      · rename_i q
        have h2 := ieee_bound64 126 (abs_add_pow h1 (hp q rfl))
        refine ieee_bound64 126 ?_
        rw [abs_mul]
        refine le_trans ?_ h2
        rw [show |(1 / 2 : ℚ)| = 1 / 2 by norm_num]
        have := abs_nonneg (Rnd.ieee.f64 (p + q))
        linarith
      · exact h1.trans (pow_le_pow_right₀ (by norm_num) (by norm_num))
    · exact ih (some p) (by simpa using h1) (fun y hy => hl y (List.mem_cons_of_mem _ hy)) x hx

include h in
theorem heights_over (trapezoid : Bool) (prev : Option ℚ) (pr : List ℚ) (hp : ∀ p ∈ prev, |p| ≤ 2 ^ 125)
    (hl : ∀ p ∈ pr, |p| ≤ 2 ^ 125) : heights R trapezoid prev pr = heights Rnd.ieee trapezoid prev pr := by
  induction pr generalizing prev with
  | nil => rfl
  | cons p ps ih =>
    have h1 := hl p (List.mem_cons_self ..)
    rw [heights_step, heights_step, ih (some p) (by simpa using h1) (fun y hy => hl y (List.mem_cons_of_mem _ hy))]
    congr 1
    split
    · rename_i q
      have h2 := ieee_bound64 126 (abs_add_pow h1 (hp q rfl))
      rw [h.eq64 (abs_add_pow h1 (hp q rfl)) (by norm_num), h.eq64 (k := 126) _ (by norm_num)]
      rw [abs_mul]
      refine le_trans ?_ h2
      rw [show |(1 / 2 : ℚ)| = 1 / 2 by norm_num]
      have := abs_nonneg (Rnd.ieee.f64 (p + q))
      linarith
    · rfl

theorem dotFrom_small (l : List (ℚ × ℚ)) (hl : ∀ x ∈ l, |x.1| ≤ 2 ^ 126 ∧ |x.2| ≤ 2 ^ 126) (acc : ℚ)
    (ha : |acc| ≤ 2 ^ 306) : |dotFrom Rnd.ieee acc l| ≤ 2 ^ 306 := by
  unfold dotFrom
  induction l generalizing acc with
  | nil => exact ha
  | cons x l ih =>
    have hx := hl x (List.mem_cons_self ..)
    rw [List.foldl_cons]
    refine ih (fun y hy => hl y (List.mem_cons_of_mem _ hy)) _ (ieee_sum64 252 ha ?_)
    exact ieee_bound64 252 (abs_mul_pow hx.1 hx.2)

include h in
theorem dotFrom_over (l : List (ℚ × ℚ)) (hl : ∀ x ∈ l, |x.1| ≤ 2 ^ 126 ∧ |x.2| ≤ 2 ^ 126) (acc : ℚ)
    (ha : |acc| ≤ 2 ^ 306) : dotFrom R acc l = dotFrom Rnd.ieee acc l := by
  unfold dotFrom
  induction l generalizing acc with
  | nil => rfl
  | cons x l ih =>
    have hx := hl x (List.mem_cons_self ..)
    have hp := abs_mul_pow hx.1 hx.2
    have hp' : |Rnd.ieee.f64 (x.1 * x.2)| ≤ 2 ^ 252 := ieee_bound64 252 hp
    rw [List.foldl_cons, List.foldl_cons, h.eq64 hp (by norm_num), h.sum64 (k := 252) ha hp' (by norm_num)]
    exact ih (fun y hy => hl y (List.mem_cons_of_mem _ hy)) _ (ieee_sum64 252 ha hp')

theorem zip_small {a b : List ℚ} {k : ℚ} (ha : ∀ x ∈ a, |x| ≤ k) (hb : ∀ x ∈ b, |x| ≤ k) :
    ∀ x ∈ a.zip b, |x.1| ≤ k ∧ |x.2| ≤ k := fun _ hx =>
  ⟨ha _ (List.of_mem_zip hx).1, hb _ (List.of_mem_zip hx).2⟩

theorem computeAP_small {c : List ℚ × List ℚ} (hc : SmallCurves c) (trapezoid : Bool) {v : ℚ}
    (hv : computeAP Rnd.ieee c.1 c.2 trapezoid = .ok v) : |v| ≤ 2 ^ 307 := by
  have h1 := heights_small trapezoid none c.1 (by simp) hc.1
  have h2 : ∀ x ∈ c.2, |x| ≤ 2 ^ 126 := fun x hx =>
    (hc.2 x hx).trans (pow_le_pow_right₀ (by norm_num) (by norm_num))
  unfold computeAP at hv
  split at hv
  · cases hv
    refine ieee_bound64 307 (abs_sub_pow ?_ ?_)
    · exact dotFrom_small _ (zip_small h2 h1) 0 (by norm_num)
    · exact dotFrom_small _ (zip_small h2 fun _ hx => h1 _ (List.mem_of_mem_tail hx)) 0 (by norm_num)
  · cases hv

include h in
theorem computeAP_over {c : List ℚ × List ℚ} (hc : SmallCurves c) (trapezoid : Bool) :
    computeAP R c.1 c.2 trapezoid = computeAP Rnd.ieee c.1 c.2 trapezoid := by
  have h1 := heights_small trapezoid none c.1 (by simp) hc.1
  have h2 : ∀ x ∈ c.2, |x| ≤ 2 ^ 126 := fun x hx =>
    (hc.2 x hx).trans (pow_le_pow_right₀ (by norm_num) (by norm_num))
  unfold computeAP
  split
  · rw [heights_over h trapezoid none c.1 (by simp) hc.1]
    dsimp only
    have z1 := zip_small h2 h1
    have z2 := zip_small h2 fun _ hx => h1 _ (List.mem_of_mem_tail hx)
    rw [dotFrom_over h _ z1 0 (by norm_num), dotFrom_over h _ z2 0 (by norm_num),
      h.eq64 (abs_sub_pow (dotFrom_small _ z1 0 (by norm_num)) (dotFrom_small _ z2 0 (by norm_num))) (by norm_num)]
  · rfl

theorem globalAP_small {ms : List (KwsMatch Q L)} (hm : SmallMatches ms) {collapse interp trapezoid : Bool} {v : ℚ}
    (hv : globalAP Rnd.ieee ms collapse interp trapezoid = .ok v) : |v| ≤ 2 ^ 307 :=
  computeAP_small (matchesPR_small hm collapse interp) trapezoid hv

include h in
theorem globalAP_over {ms : List (KwsMatch Q L)} (hm : SmallMatches ms) (collapse interp trapezoid : Bool) :
    globalAP R ms collapse interp trapezoid = globalAP Rnd.ieee ms collapse interp trapezoid := by
  unfold globalAP
  rw [matchesPR_over h hm]
  exact computeAP_over h (matchesPR_small hm collapse interp) trapezoid

/-- Grouped matches of a run. -/
def SmallGroups (gs : List (List (KwsMatch Q L))) : Prop := SmallMatches gs.flatten ∧ gs.length ≤ 2 ^ 124

theorem SmallGroups.mem {gs : List (List (KwsMatch Q L))} (hg : SmallGroups gs) {g : List (KwsMatch Q L)}
    (h : g ∈ gs) : SmallMatches g := by
  refine ⟨fun m hm => hg.1.unit m (List.mem_flatten.2 ⟨g, h, hm⟩), ?_⟩
  have := List.Sublist.length_le (List.sublist_flatten_of_mem h)
  exact this.trans hg.1.few

/-- Sorting if asked for. -/
def sortIf (S : StdSort) (sort : Bool) (ms : List (KwsMatch Q L)) : Cpp (List (KwsMatch Q L)) :=
  if sort then sortMatches S ms else .ok ms

theorem sort_perm_of (S : StdSort) {α : Type} {lt : α → α → Bool} {l l' : List α} (hs : S.sort lt l = .ok l') :
    l'.Perm l := by
  by_cases hw : StrictWeakOn lt l
  · obtain ⟨l'', e, hp⟩ := S.ok lt l hw
    rw [hs] at e
    cases e
    exact hp.perm
  · rw [S.bad lt l hw] at hs
    cases hs

theorem sorted_small (S : StdSort) (sort : Bool) {ms ms' : List (KwsMatch Q L)} (hm : SmallMatches ms)
    (hs : sortIf S sort ms = .ok ms') : SmallMatches ms' := by
  cases sort with
  | true => exact hm.perm (sort_perm_of S (show sortMatches S ms = .ok ms' from hs))
  | false =>
    cases hs
    exact hm

theorem globalAPGrouped_eq (R : Rnd) (S : StdSort) (gs : List (List (KwsMatch Q L)))
    (collapse interp trapezoid sort : Bool) :
    globalAPGrouped R S gs collapse interp trapezoid sort =
      (sortIf S sort gs.flatten).bind fun ms => globalAP R ms collapse interp trapezoid := by
  cases sort <;> rfl

theorem meanAPLoop_eq (R : Rnd) (S : StdSort) (collapse interp trapezoid sort : Bool) (acc : ℚ)
    (g : List (KwsMatch Q L)) (gs : List (List (KwsMatch Q L))) :
    meanAPLoop R S collapse interp trapezoid sort acc (g :: gs) =
      (sortIf S sort g).bind fun ms => (globalAP R ms collapse interp trapezoid).bind fun ap =>
        meanAPLoop R S collapse interp trapezoid sort (R.f64 (acc + ap)) gs := by
  cases sort <;> rfl

theorem globalNDCGGrouped_eq (R : Rnd) (S : StdSort) (gs : List (List (KwsMatch Q L))) (collapse sort : Bool) :
    globalNDCGGrouped R S gs collapse sort =
      (sortIf S sort gs.flatten).bind fun ms => .ok (globalNDCG R ms collapse) := by
  cases sort <;> rfl

theorem meanNDCGLoop_eq (R : Rnd) (S : StdSort) (collapse sort : Bool) (acc : ℝ)
    (g : List (KwsMatch Q L)) (gs : List (List (KwsMatch Q L))) :
    meanNDCGLoop R S collapse sort acc (g :: gs) =
      (sortIf S sort g).bind fun ms => meanNDCGLoop R S collapse sort (acc + globalNDCG R ms collapse) gs := by
  cases sort <;> rfl

include h in
theorem globalAPGrouped_over (S : StdSort) {gs : List (List (KwsMatch Q L))} (hg : SmallGroups gs)
    (collapse interp trapezoid sort : Bool) :
    globalAPGrouped R S gs collapse interp trapezoid sort =
      globalAPGrouped Rnd.ieee S gs collapse interp trapezoid sort := by
  rw [globalAPGrouped_eq, globalAPGrouped_eq]
  cases hs : sortIf S sort gs.flatten with
  | error f => rfl
  | ok ms =>
    exact globalAP_over h (sorted_small S sort hg.1 hs) collapse interp trapezoid

theorem globalAPGrouped_small (S : StdSort) {gs : List (List (KwsMatch Q L))} (hg : SmallGroups gs)
    {collapse interp trapezoid sort : Bool} {v : ℚ}
    (hv : globalAPGrouped Rnd.ieee S gs collapse interp trapezoid sort = .ok v) : |v| ≤ 2 ^ 400 := by
  rw [globalAPGrouped_eq] at hv
  cases hs : sortIf S sort gs.flatten with
  | error f => rw [hs] at hv; cases hv
  | ok ms =>
    rw [hs] at hv
    exact (globalAP_small (sorted_small S sort hg.1 hs) hv).trans (pow_le_pow_right₀ (by norm_num) (by norm_num))

theorem meanAPLoop_small (S : StdSort) (collapse interp trapezoid sort : Bool) (gs : List (List (KwsMatch Q L)))
    (hg : ∀ g ∈ gs, SmallMatches g) (acc : ℚ) (ha : |acc| ≤ 2 ^ 361) {v : ℚ}
    (hv : meanAPLoop Rnd.ieee S collapse interp trapezoid sort acc gs = .ok v) : |v| ≤ 2 ^ 361 := by
  induction gs generalizing acc with
  | nil => cases hv; exact ha
  | cons g gs ih =>
    rw [meanAPLoop_eq] at hv
    cases hs : sortIf S sort g with
    | error f => rw [hs] at hv; cases hv
    | ok ms =>
      rw [hs] at hv
      have hm := sorted_small S sort (hg g (List.mem_cons_self ..)) hs
      cases hp : globalAP Rnd.ieee ms collapse interp trapezoid with
      | error f => simp only [Except.bind, hp] at hv; cases hv
      | ok ap =>
        simp only [Except.bind, hp] at hv
        exact ih (fun x hx => hg x (List.mem_cons_of_mem _ hx)) _ (ieee_sum64 307 ha (globalAP_small hm hp)) hv

include h in
theorem meanAPLoop_over (S : StdSort) (collapse interp trapezoid sort : Bool) (gs : List (List (KwsMatch Q L)))
    (hg : ∀ g ∈ gs, SmallMatches g) (acc : ℚ) (ha : |acc| ≤ 2 ^ 361) :
    meanAPLoop R S collapse interp trapezoid sort acc gs =
      meanAPLoop Rnd.ieee S collapse interp trapezoid sort acc gs := by
  induction gs generalizing acc with
  | nil => rfl
  | cons g gs ih =>
    rw [meanAPLoop_eq, meanAPLoop_eq]
    cases hs : sortIf S sort g with
    | error f => rfl
    | ok ms =>
      have hm := sorted_small S sort (hg g (List.mem_cons_self ..)) hs
      simp only [Except.bind]
      rw [globalAP_over h hm]
      cases hp : globalAP Rnd.ieee ms collapse interp trapezoid with
      | error f => rfl
      | ok ap =>
        dsimp only
        have h1 := globalAP_small hm hp
        rw [h.sum64 (k := 307) ha h1 (by norm_num)]
        exact ih (fun x hx => hg x (List.mem_cons_of_mem _ hx)) _ (ieee_sum64 307 ha h1)

include h in
theorem meanAP_over (S : StdSort) {gs : List (List (KwsMatch Q L))} (hg : SmallGroups gs)
    (collapse interp trapezoid sort : Bool) :
    meanAP R S gs collapse interp trapezoid sort = meanAP Rnd.ieee S gs collapse interp trapezoid sort := by
  unfold meanAP
  rw [meanAPLoop_over h S collapse interp trapezoid sort gs (fun g hx => hg.mem hx) 0 (by norm_num)]
  cases hl : meanAPLoop Rnd.ieee S collapse interp trapezoid sort 0 gs with
  | error f => rfl
  | ok s =>
    have h1 := meanAPLoop_small S collapse interp trapezoid sort gs (fun g hx => hg.mem hx) 0 (by norm_num) hl
    simp only [bind, Except.bind]
    split
    · rename_i h0
      rw [h.nat64 hg.2 (by norm_num), h.eq64 (div_bound h1 (ieee_one_le h0)) (by norm_num)]
    · rfl

theorem meanAP_small (S : StdSort) {gs : List (List (KwsMatch Q L))} (hg : SmallGroups gs)
    {collapse interp trapezoid sort : Bool} {v : ℚ}
    (hv : meanAP Rnd.ieee S gs collapse interp trapezoid sort = .ok v) : |v| ≤ 2 ^ 400 := by
  unfold meanAP at hv
  cases hl : meanAPLoop Rnd.ieee S collapse interp trapezoid sort 0 gs with
  | error f => rw [hl] at hv; cases hv
  | ok s =>
    have h1 := meanAPLoop_small S collapse interp trapezoid sort gs (fun g hx => hg.mem hx) 0 (by norm_num) hl
    rw [hl] at hv
    simp only [bind, Except.bind] at hv
    split at hv
    · rename_i h0
      cases hv
      exact (ieee_bound64 361 (div_bound h1 (ieee_one_le h0))).trans (pow_le_pow_right₀ (by norm_num) (by norm_num))
    · cases hv
      norm_num

/-! ## NDCG over the reals -/

include h in
theorem globalNDCG_over {ms : List (KwsMatch Q L)} (hm : SmallMatches ms) (collapse : Bool) :
    globalNDCG R ms collapse = globalNDCG Rnd.ieee ms collapse := by
  unfold globalNDCG
  rw [collapse_over h hm.unit]

include h in
theorem globalNDCGGrouped_over (S : StdSort) {gs : List (List (KwsMatch Q L))} (hg : SmallGroups gs)
    (collapse sort : Bool) :
    globalNDCGGrouped R S gs collapse sort = globalNDCGGrouped Rnd.ieee S gs collapse sort := by
  rw [globalNDCGGrouped_eq, globalNDCGGrouped_eq]
  cases hs : sortIf S sort gs.flatten with
  | error f => rfl
  | ok ms =>
    simp only [Except.bind]
    rw [globalNDCG_over h (sorted_small S sort hg.1 hs)]

include h in
theorem meanNDCGLoop_over (S : StdSort) (collapse sort : Bool) (gs : List (List (KwsMatch Q L)))
    (hg : ∀ g ∈ gs, SmallMatches g) (acc : ℝ) :
    meanNDCGLoop R S collapse sort acc gs = meanNDCGLoop Rnd.ieee S collapse sort acc gs := by
  induction gs generalizing acc with
  | nil => rfl
  | cons g gs ih =>
    rw [meanNDCGLoop_eq, meanNDCGLoop_eq]
    cases hs : sortIf S sort g with
    | error f => rfl
    | ok ms =>
      have hm := sorted_small S sort (hg g (List.mem_cons_self ..)) hs
      simp only [Except.bind]
      rw [globalNDCG_over h hm]
      exact ih (fun x hx => hg x (List.mem_cons_of_mem _ hx)) _

include h in
theorem meanNDCG_over (S : StdSort) {gs : List (List (KwsMatch Q L))} (hg : SmallGroups gs)
    (collapse sort : Bool) : meanNDCG R S gs collapse sort = meanNDCG Rnd.ieee S gs collapse sort := by
  unfold meanNDCG
  rw [meanNDCGLoop_over h S collapse sort gs (fun g hx => hg.mem hx)]

end

end Kws
