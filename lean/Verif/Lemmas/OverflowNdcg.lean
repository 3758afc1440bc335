import Verif.Lemmas.OverflowAP

/-!
# Overflow: NDCG in `double`
-/

namespace Kws
open Spec

section
variable {Q L : Type}

theorem collapseStep_nonneg {acc : List (MatchErrorCounts × Flt)} (ha : ∀ c ∈ acc, 0 ≤ c.1.fp)
    (m : KwsMatch Q L) (hm : 0 ≤ m.error.fp) : ∀ c ∈ collapseStep Rnd.ieee acc m, 0 ≤ c.1.fp := by
  unfold collapseStep
  cases acc with
  | nil => simpa [MatchErrorCounts.ofError] using hm
  | cons c rest =>
    obtain ⟨c, s⟩ := c
    simp only [List.mem_cons, forall_eq_or_imp] at ha
    dsimp only
    split
    · simp only [List.mem_cons, forall_eq_or_imp, MatchErrorCounts.ofError]
      exact ⟨hm, ha⟩
    · simp only [List.mem_cons, forall_eq_or_imp, MatchErrorCounts.addError]
      exact ⟨ieee_faithful.nonneg32 (by linarith [ha.1]), ha.2⟩

theorem collapse_nonneg {ms : List (KwsMatch Q L)} (hu : UnitErrors ms) :
    ∀ e ∈ collapseMatches Rnd.ieee ms, 0 ≤ IsError.fp e := by
  have key : ∀ (ms : List (KwsMatch Q L)), UnitErrors ms → ∀ acc : List (MatchErrorCounts × Flt),
      (∀ c ∈ acc, 0 ≤ c.1.fp) → ∀ c ∈ ms.foldl (collapseStep Rnd.ieee) acc, 0 ≤ c.1.fp := by
    intro ms
    induction ms with
    | nil => intro _ acc ha; exact ha
    | cons m ms ih =>
      intro hu acc ha
      exact ih (fun x hx => hu x (List.mem_cons_of_mem _ hx)) _
        (collapseStep_nonneg ha m (hu m (List.mem_cons_self ..)).1.1)
  intro e he
  unfold collapseMatches at he
  obtain ⟨c, hc, rfl⟩ := List.mem_map.1 he
  exact key ms hu [] (by simp) c (List.mem_reverse.1 hc)

end

section
variable {R : Rnd} (h : Overflowing R) {lm : Libm} (hl : lm.Sane)
include hl

theorem rank_log {i : ℕ} (hi : 1 ≤ i) : 1 / 2 ≤ lm.log2 (Rnd.ieee.f64 ((i + 1 : ℕ) : ℚ)) := by
  refine (hl.log2 _ ?_).1
  have h1 : ((2 : ℕ) : ℚ) ≤ ((i + 1 : ℕ) : ℚ) := by exact_mod_cast Nat.succ_le_succ hi
  have := ieee_faithful.mono64 _ _ h1
  rwa [ieee_faithful.nat64 2 (by norm_num)] at this

theorem fdiv_rank {x : ℚ} {k : ℕ} (hx : |x| ≤ 2 ^ k) {i : ℕ} (hi : 1 ≤ i) :
    |x / lm.log2 (Rnd.ieee.f64 ((i + 1 : ℕ) : ℚ))| ≤ 2 ^ (k + 1) := by
  have h1 := rank_log hl hi
  rw [abs_div, abs_of_pos (show 0 < lm.log2 (Rnd.ieee.f64 ((i + 1 : ℕ) : ℚ)) by linarith), pow_succ,
    div_le_iff₀ (by linarith)]
  have : (0 : ℚ) ≤ 2 ^ k := by positivity
  nlinarith

include h in
theorem fdiv_over {x : ℚ} {k : ℕ} (hk : k ≤ 1000) (hx : |x| ≤ 2 ^ k) {i : ℕ} (hi : 1 ≤ i) (hn : i ≤ 2 ^ 125) :
    fdiv R x (lm.log2 (R.f64 ((i + 1 : ℕ) : ℚ))) =
      .ok (Rnd.ieee.f64 (x / lm.log2 (Rnd.ieee.f64 ((i + 1 : ℕ) : ℚ)))) := by
  have h1 := rank_log hl hi
  rw [h.nat64 (n := i + 1) (k := 126) (by have : (2:ℕ) ^ 126 = 2 ^ 125 + 2 ^ 125 := by norm_num
                                          omega) (by norm_num)]
  unfold fdiv
  rw [if_neg (by intro hc; rw [hc] at h1; norm_num at h1), h.eq64 (fdiv_rank hl hx hi) (by omega)]

omit h hl in
theorem gain_small (hl : lm.Sane) {r : ℚ} (hr : r ≤ 1) : |lm.exp2 r - 1| ≤ 2 ^ 2 := by
  have := hl.exp2 r hr
  rw [abs_le]
  constructor <;> norm_num <;> linarith

include h in
theorem dcgRunD_over {r : ℚ} (hr : r ≤ 1) (n i : ℕ) (hi : 1 ≤ i) (hn : i + n ≤ 2 ^ 125) (acc : ℚ)
    (ha : |acc| ≤ 2 ^ (3 + 54)) :
    dcgRunD R lm r n i acc = dcgRunD Rnd.ieee lm r n i acc ∧
      ∀ v, dcgRunD Rnd.ieee lm r n i acc = .ok v → |v| ≤ 2 ^ (3 + 54) := by
  induction n generalizing i acc with
  | zero =>
    refine ⟨rfl, fun v hv => ?_⟩
    injection hv with hv
    rwa [← hv]
  | succ n ih =>
    have h1 := gain_small hl hr
    have h2 := ieee_bound64 2 h1
    unfold dcgRunD
    rw [h.eq64 h1 (by norm_num), fdiv_over h hl (k := 2) (by norm_num) h2 hi (by omega),
      fdiv_over overflowing_ieee hl (k := 2) (by norm_num) h2 hi (by omega)]
    simp only [bind, Except.bind]
    have h3 := ieee_bound64 3 (fdiv_rank hl h2 hi)
    rw [h.sum64 ha h3 (by norm_num)]
    exact ih (i + 1) (by omega) (by omega) _ (ieee_sum64 3 ha h3)

section
variable {ε : Type} [IsError ε]

omit h hl in
theorem relevance_le {fp : ℚ} (hf : 0 ≤ fp) {n : ℕ} :
    Rnd.ieee.f32 (1 - Rnd.ieee.f32 (fp / Rnd.ieee.f32 (n : ℚ))) ≤ 1 := by
  have h1 : 0 ≤ Rnd.ieee.f32 (n : ℚ) := ieee_faithful.nonneg32 (by positivity)
  have h2 : 0 ≤ Rnd.ieee.f32 (fp / Rnd.ieee.f32 (n : ℚ)) := ieee_faithful.nonneg32 (by positivity)
  exact ieee_faithful.le_one32 (by linarith)

omit hl in
include h in
theorem relevance_over {fp : ℚ} (hf : |fp| ≤ 2 ^ 25) {n : ℕ} (h0 : 0 < n) (hn : n ≤ 2 ^ 125) :
    R.f32 (1 - R.f32 (fp / R.f32 (n : ℚ))) = Rnd.ieee.f32 (1 - Rnd.ieee.f32 (fp / Rnd.ieee.f32 (n : ℚ))) := by
  have h1 : |(n : ℚ)| ≤ 2 ^ 125 := by rw [abs_of_nonneg (by positivity)]; exact_mod_cast hn
  have h2 : 1 ≤ Rnd.ieee.f32 (n : ℚ) := by
    have := ieee_faithful.mono32 1 n (by exact_mod_cast h0)
    rwa [ieee_faithful.one32] at this
  have h3 := div_bound hf h2
  have h4 : |1 - Rnd.ieee.f32 (fp / Rnd.ieee.f32 (n : ℚ))| ≤ 2 ^ 26 :=
    abs_sub_pow (k := 25) (abs_one_le 25) (ieee_bound32 25 h3)
  rw [h.eq32 h1 (by norm_num), h.eq32 h3 (by norm_num), h.eq32 h4 (by norm_num)]

include h in
theorem dcgLoopD_over (es : List ε) (hf : ∀ e ∈ es, 0 ≤ IsError.fp e) (hf' : ∀ e ∈ es, |IsError.fp e| ≤ 2 ^ 25)
    (i : ℕ) (hi : 1 ≤ i) (hn : i + (es.map IsError.nh).sum ≤ 2 ^ 125) (acc : ℚ) (ha : |acc| ≤ 2 ^ (3 + 54)) :
    dcgLoopD R lm i acc es = dcgLoopD Rnd.ieee lm i acc es ∧
      ∀ v, dcgLoopD Rnd.ieee lm i acc es = .ok v → |v| ≤ 2 ^ (3 + 54) := by
  induction es generalizing i acc with
  | nil =>
    refine ⟨rfl, fun v hv => ?_⟩
    injection hv with hv
    rwa [← hv]
  | cons e es ih =>
    rw [List.map_cons, List.sum_cons] at hn
    unfold dcgLoopD
    by_cases h0 : IsError.nh e > 0
    · rw [if_pos h0, if_pos h0, relevance_over h (hf' e (by simp)) h0 (by omega)]
      obtain ⟨d1, d2⟩ := dcgRunD_over h hl (relevance_le (hf e (by simp)) (n := IsError.nh e)) (IsError.nh e) i hi
        (by omega) acc ha
      simp only
      rw [d1]
      cases hv : dcgRunD Rnd.ieee lm
          (Rnd.ieee.f32 (1 - Rnd.ieee.f32 (IsError.fp e / Rnd.ieee.f32 (IsError.nh e : ℚ)))) (IsError.nh e) i acc with
      | error e => exact ⟨rfl, fun v hv => by cases hv⟩
      | ok d =>
        exact ih (fun x hx => hf x (by simp [hx])) (fun x hx => hf' x (by simp [hx])) _ (by omega) (by omega) d
          (d2 d hv)
    · rw [if_neg h0, if_neg h0]
      exact ih (fun x hx => hf x (by simp [hx])) (fun x hx => hf' x (by simp [hx])) _ (by omega) (by omega) acc ha

include h in
theorem idealDcgD_over (n j : ℕ) (hj : 1 ≤ j) (hn : j + n ≤ 2 ^ 125) (z : ℚ) (hz : |z| ≤ 2 ^ (1 + 54)) :
    idealDcgD R lm n j z = idealDcgD Rnd.ieee lm n j z := by
  induction n generalizing j z with
  | zero => rfl
  | succ n ih =>
    unfold idealDcgD
    rw [fdiv_over h hl (k := 0) (by norm_num) (abs_one_le 0) hj (by omega),
      fdiv_over overflowing_ieee hl (k := 0) (by norm_num) (abs_one_le 0) hj (by omega)]
    simp only [bind, Except.bind]
    have h3 := ieee_bound64 1 (fdiv_rank hl (abs_one_le 0) hj)
    rw [h.sum64 hz h3 (by norm_num)]
    exact ih (j + 1) (by omega) (by omega) _ (ieee_sum64 1 hz h3)

/-- The normalisation factor is at least a half. -/
theorem idealDcgD_large (n j : ℕ) (hj : 1 ≤ j) (hn : j + n ≤ 2 ^ 125) (z : ℚ) (hz : 1 / 2 ≤ z)
    (hi : Rnd.ieee.f64 z = z) {v : ℚ} (hv : idealDcgD Rnd.ieee lm n j z = .ok v) : 1 / 2 ≤ v := by
  induction n generalizing j z with
  | zero =>
    injection hv with hv
    rwa [← hv]
  | succ n ih =>
    unfold idealDcgD at hv
    rw [fdiv_over overflowing_ieee hl (k := 0) (by norm_num) (abs_one_le 0) hj (by omega)] at hv
    simp only [bind, Except.bind] at hv
    refine ih (j + 1) (by omega) (by omega) _ ?_ (ieee_precise.idem64 _) hv
    have h1 := rank_log hl hj
    have h2 : 0 ≤ Rnd.ieee.f64 (1 / lm.log2 (Rnd.ieee.f64 ((j + 1 : ℕ) : ℚ))) :=
      ieee_faithful.nonneg64 (by have : 0 < lm.log2 (Rnd.ieee.f64 ((j + 1 : ℕ) : ℚ)) := by linarith
                                 positivity)
    have h3 := ieee_faithful.mono64 z (z + Rnd.ieee.f64 (1 / lm.log2 (Rnd.ieee.f64 ((j + 1 : ℕ) : ℚ)))) (by linarith)
    rw [hi] at h3
    linarith

theorem idealDcgD_half (n : ℕ) (h0 : 0 < n) (hn : n < 2 ^ 125) {v : ℚ} (hv : idealDcgD Rnd.ieee lm n 1 0 = .ok v) :
    1 / 2 ≤ v := by
  obtain ⟨n, rfl⟩ : ∃ k, n = k + 1 := ⟨n - 1, by omega⟩
  unfold idealDcgD at hv
  rw [fdiv_over overflowing_ieee hl (k := 0) (by norm_num) (abs_one_le 0) le_rfl (by norm_num)] at hv
  simp only [bind, Except.bind] at hv
  have e2 : Rnd.ieee.f64 ((1 + 1 : ℕ) : ℚ) = 2 := by
    rw [ieee_faithful.nat64 (1 + 1) (by norm_num)]
    norm_num
  rw [e2, zero_add] at hv
  have h1 := hl.log2 2 le_rfl
  have hh : Rnd.ieee.f64 (1 / 2) = 1 / 2 := by
    have := ieee_faithful.dyadic64 1 1 (by norm_num) (by norm_num)
    norm_num at this ⊢
    exact this
  have h2 : (1 / 2 : ℚ) ≤ Rnd.ieee.f64 (1 / lm.log2 2) := by
    have := ieee_faithful.mono64 (1 / 2) (1 / lm.log2 2) (one_div_le_one_div_of_le (by linarith) h1.2)
    rwa [hh] at this
  refine idealDcgD_large hl n 2 (by norm_num) (by omega) _ ?_ (ieee_precise.idem64 _) hv
  have := ieee_faithful.mono64 _ _ h2
  rwa [hh] at this

include h in
theorem computeNDCGD_over {es : List ε} (he : SmallErrors es) (hf : ∀ e ∈ es, 0 ≤ IsError.fp e) :
    computeNDCGD R lm es = computeNDCGD Rnd.ieee lm es ∧
      ∀ v, computeNDCGD Rnd.ieee lm es = .ok v → |v| ≤ 2 ^ 58 := by
  have hp : (2 : ℕ) ^ 125 = 2 ^ 124 + 2 ^ 124 := by norm_num
  have h1 : (1 : ℕ) < 2 ^ 124 := by norm_num
  have hnh := he.nh
  have hTR : numTotalReferences es ≤ 2 ^ 124 := by rw [numTotalReferences_sum]; exact he.nr
  unfold computeNDCGD
  simp only
  split
  · rename_i h0
    obtain ⟨d1, d2⟩ := dcgLoopD_over h hl es hf he.fp 1 le_rfl (by omega) 0 (by norm_num)
    rw [d1]
    simp only [bind, Except.bind]
    cases hd : dcgLoopD Rnd.ieee lm 1 0 es with
    | error e => exact ⟨rfl, fun v hv => by cases hv⟩
    | ok d =>
      simp only
      rw [idealDcgD_over h hl _ 1 le_rfl (by omega) 0 (by norm_num)]
      cases hz : idealDcgD Rnd.ieee lm (numTotalReferences es) 1 0 with
      | error e => exact ⟨rfl, fun v hv => by cases hv⟩
      | ok z =>
        have hz' := idealDcgD_half hl _ h0 (by omega) hz
        have hb : |d / z| ≤ 2 ^ 58 := by
          have := d2 d hd
          rw [abs_div, abs_of_pos (show 0 < z by linarith), div_le_iff₀ (by linarith)]
          norm_num at this ⊢
          linarith
        simp only [fdiv]
        rw [if_neg (by intro hc; rw [hc] at hz'; norm_num at hz'),
          if_neg (by intro hc; rw [hc] at hz'; norm_num at hz'), h.eq64 hb (by norm_num)]
        refine ⟨rfl, fun v hv => ?_⟩
        injection hv with hv
        rw [← hv]
        exact ieee_bound64 58 hb
  · refine ⟨rfl, fun v hv => ?_⟩
    injection hv with hv
    rw [← hv]
    norm_num

end

variable {Q L : Type}

include h in
theorem globalNDCGD_over {ms : List (KwsMatch Q L)} (hm : SmallMatches ms) (collapse : Bool) :
    globalNDCGD R lm ms collapse = globalNDCGD Rnd.ieee lm ms collapse ∧
      ∀ v, globalNDCGD Rnd.ieee lm ms collapse = .ok v → |v| ≤ 2 ^ 58 := by
  unfold globalNDCGD
  cases collapse with
  | true =>
    simp only [if_true]
    rw [collapse_over h hm.unit]
    exact computeNDCGD_over h hl (smallErrors_collapse hm.unit hm.few) (collapse_nonneg hm.unit)
  | false =>
    simp only [Bool.false_eq_true, if_false]
    refine computeNDCGD_over h hl (smallErrors_get hm.unit hm.few) fun e he => ?_
    obtain ⟨m, hx, rfl⟩ := List.mem_map.1 he
    exact (hm.unit m hx).1.1

omit hl in
theorem globalNDCGGroupedD_eq (R : Rnd) (lm : Libm) (S : StdSort) (gs : List (List (KwsMatch Q L)))
    (collapse sort : Bool) :
    globalNDCGGroupedD R lm S gs collapse sort =
      (sortIf S sort gs.flatten).bind fun ms => globalNDCGD R lm ms collapse := by
  cases sort <;> rfl

omit hl in
theorem meanNDCGLoopD_eq (R : Rnd) (lm : Libm) (S : StdSort) (collapse sort : Bool) (acc : ℚ)
    (g : List (KwsMatch Q L)) (gs : List (List (KwsMatch Q L))) :
    meanNDCGLoopD R lm S collapse sort acc (g :: gs) =
      (sortIf S sort g).bind fun ms => (globalNDCGD R lm ms collapse).bind fun v =>
        meanNDCGLoopD R lm S collapse sort (R.f64 (acc + v)) gs := by
  cases sort <;> rfl

include h in
theorem globalNDCGGroupedD_over (S : StdSort) {gs : List (List (KwsMatch Q L))} (hg : SmallGroups gs)
    (collapse sort : Bool) :
    globalNDCGGroupedD R lm S gs collapse sort = globalNDCGGroupedD Rnd.ieee lm S gs collapse sort ∧
      ∀ v, globalNDCGGroupedD Rnd.ieee lm S gs collapse sort = .ok v → |v| ≤ 2 ^ 400 := by
  rw [globalNDCGGroupedD_eq, globalNDCGGroupedD_eq]
  cases hs : sortIf S sort gs.flatten with
  | error f => exact ⟨rfl, fun v hv => by cases hv⟩
  | ok ms =>
    obtain ⟨g1, g2⟩ := globalNDCGD_over h hl (sorted_small S sort hg.1 hs) collapse
    exact ⟨g1, fun v hv => (g2 v hv).trans (pow_le_pow_right₀ (by norm_num) (by norm_num))⟩

include h in
theorem meanNDCGLoopD_over (S : StdSort) (collapse sort : Bool) (gs : List (List (KwsMatch Q L)))
    (hg : ∀ g ∈ gs, SmallMatches g) (acc : ℚ) (ha : |acc| ≤ 2 ^ (58 + 54)) :
    meanNDCGLoopD R lm S collapse sort acc gs = meanNDCGLoopD Rnd.ieee lm S collapse sort acc gs ∧
      ∀ v, meanNDCGLoopD Rnd.ieee lm S collapse sort acc gs = .ok v → |v| ≤ 2 ^ (58 + 54) := by
  induction gs generalizing acc with
  | nil =>
    refine ⟨rfl, fun v hv => ?_⟩
    injection hv with hv
    rwa [← hv]
  | cons g gs ih =>
    rw [meanNDCGLoopD_eq, meanNDCGLoopD_eq]
    cases hs : sortIf S sort g with
    | error f => exact ⟨rfl, fun v hv => by cases hv⟩
    | ok ms =>
      have hm := sorted_small S sort (hg g (List.mem_cons_self ..)) hs
      obtain ⟨g1, g2⟩ := globalNDCGD_over h hl hm collapse
      simp only [Except.bind]
      rw [g1]
      cases hp : globalNDCGD Rnd.ieee lm ms collapse with
      | error f => exact ⟨rfl, fun v hv => by cases hv⟩
      | ok v =>
        dsimp only
        rw [h.sum64 ha (g2 v hp) (by norm_num)]
        exact ih (fun x hx => hg x (List.mem_cons_of_mem _ hx)) _ (ieee_sum64 58 ha (g2 v hp))

include h in
theorem meanNDCGD_over (S : StdSort) {gs : List (List (KwsMatch Q L))} (hg : SmallGroups gs)
    (collapse sort : Bool) :
    meanNDCGD R lm S gs collapse sort = meanNDCGD Rnd.ieee lm S gs collapse sort ∧
      ∀ v, meanNDCGD Rnd.ieee lm S gs collapse sort = .ok v → |v| ≤ 2 ^ 400 := by
  obtain ⟨l1, l2⟩ := meanNDCGLoopD_over h hl S collapse sort gs (fun g hx => hg.mem hx) 0 (by norm_num)
  unfold meanNDCGD
  rw [l1]
  cases hs : meanNDCGLoopD Rnd.ieee lm S collapse sort 0 gs with
  | error f => exact ⟨rfl, fun v hv => by cases hv⟩
  | ok s =>
    have h1 := l2 s hs
    simp only [bind, Except.bind]
    split
    · rename_i h0
      rw [h.nat64 hg.2 (by norm_num), h.eq64 (div_bound h1 (ieee_one_le h0)) (by norm_num)]
      refine ⟨rfl, fun v hv => ?_⟩
      injection hv with hv
      rw [← hv]
      exact (ieee_bound64 (58 + 54) (div_bound h1 (ieee_one_le h0))).trans
        (pow_le_pow_right₀ (by norm_num) (by norm_num))
    · refine ⟨rfl, fun v hv => ?_⟩
      injection hv with hv
      rw [← hv]
      norm_num

end

end Kws
