import Verif.Lemmas.OverflowAP
import Verif.Lemmas.Sample
import Verif.Props.Bootstrap

/-!
# Overflow: bootstrapping and curves
-/

namespace Kws
open Spec

/-! ## Indices of the percentiles -/

section
variable {R : Rnd} (h : Overflowing R)
include h

theorem dbl_half {alpha : ℚ} (ha : |alpha| ≤ dblMax) : R.f64 (alpha * (1 / 2)) = Rnd.ieee.f64 (alpha * (1 / 2)) := by
  refine h.fits64 _ (Ieee.round_bound 53 (-1074) (by norm_num) ieee_dblMax ?_)
  rw [abs_mul, abs_of_pos (show (0 : ℚ) < 1 / 2 by norm_num)]
  linarith [abs_nonneg alpha]

/-- Numbers beyond the largest `double` do not fit in `size_t`, whatever stands for them. -/
theorem toSize_over (x : ℚ) : toSize (R.f64 x) = toSize (Rnd.ieee.f64 x) := by
  by_cases hx : |Rnd.ieee.f64 x| ≤ dblMax
  · rw [h.fits64 x hx]
  · have hb : (2 : ℚ) ^ 64 ≤ dblMax := pow_le_dblMax (by norm_num)
    have h1 : (1 : ℚ) ≤ 2 ^ 64 := by norm_num
    have key : ∀ y : ℚ, dblMax < y ∨ y < -dblMax → toSize y = .error .ub := by
      intro y hy
      unfold toSize
      rw [if_neg]
      rintro ⟨a, b⟩
      rcases hy with hy | hy <;> linarith
    have hx' : dblMax < Rnd.ieee.f64 x ∨ Rnd.ieee.f64 x < -dblMax := by
      by_contra hc
      push Not at hc
      exact hx (abs_le.2 ⟨hc.2, hc.1⟩)
    rw [key _ hx', key]
    exact hx'.imp (h.over64 x) (h.under64 x)

theorem upperIndex_over {alpha : ℚ} (ha : |alpha| ≤ dblMax) {reps : ℕ} (hr : reps ≤ 2 ^ 64) :
    upperIndex R alpha reps = upperIndex Rnd.ieee alpha reps := by
  unfold upperIndex
  rw [dbl_half h ha, h.nat64 hr (by norm_num), toSize_over h]

omit h in
theorem abs_half_le {alpha : ℚ} (ha : |alpha| ≤ dblMax) : |1 - Rnd.ieee.f64 (alpha * (1 / 2))| ≤ dblMax := by
  obtain ⟨q, hq⟩ : ∃ q : ℚ, q = 2 ^ 971 := ⟨_, rfl⟩
  obtain ⟨p, hp⟩ : ∃ p : ℚ, p = 2 ^ 1023 := ⟨_, rfl⟩
  have e : p = 4503599627370496 * q := by
    rw [hp, hq, show 1023 = 52 + 971 from rfl, pow_add 2 52 971]
    norm_num only
  have hd : dblMax = 9007199254740991 * q := by
    unfold dblMax
    rw [← hq]
    norm_num
  have h3 : (1 : ℚ) ≤ q := by rw [hq]; exact one_le_pow₀ (by norm_num)
  have h1 : |Rnd.ieee.f64 (alpha * (1 / 2))| ≤ p := by
    rw [hp]
    apply ieee_bound64
    rw [← hp, abs_mul, abs_of_pos (show (0 : ℚ) < 1 / 2 by norm_num)]
    clear hp hq
    linarith
  have := abs_sub (1 : ℚ) (Rnd.ieee.f64 (alpha * (1 / 2)))
  rw [abs_one] at this
  clear hp hq
  linarith

theorem lowerIndex_over {alpha : ℚ} (ha : |alpha| ≤ dblMax) {reps : ℕ} (hr : reps ≤ 2 ^ 64) :
    lowerIndex R alpha reps = lowerIndex Rnd.ieee alpha reps := by
  unfold lowerIndex
  rw [dbl_half h ha, h.nat64 hr (by norm_num),
    h.fits64 _ (Ieee.round_bound 53 (-1074) (by norm_num) ieee_dblMax (abs_half_le ha)), toSize_over h]

end

/-! ## Bootstrapping -/

section
variable {C G K : Type} [LinearOrder K] [Sub K]

omit [LinearOrder K] in
/-- Two statistics that agree on the samples give the same deviations. -/
theorem bootstrapLoop_over (rd rd' : K → K) (stat stat' : C → Cpp K) (sampler : G → Cpp (C × G)) (P : C → Prop)
    (B : K → Prop) (hs : ∀ g c g', sampler g = .ok (c, g') → P c) (he : ∀ c, P c → stat c = stat' c)
    (hb : ∀ c v, P c → stat' c = .ok v → B v) (hrd : ∀ v w, B v → B w → rd (v - w) = rd' (v - w)) {obs : K}
    (ho : B obs) (n : ℕ) (g : G) :
    bootstrapLoop rd stat sampler obs n g = bootstrapLoop rd' stat' sampler obs n g := by
  induction n generalizing g with
  | zero => rfl
  | succ n ih =>
    unfold bootstrapLoop
    simp only [bind, Except.bind]
    cases hg : sampler g with
    | error e => rfl
    | ok cg =>
      obtain ⟨c, g'⟩ := cg
      have hP := hs g c g' hg
      simp only
      rw [he c hP]
      cases hv : stat' c with
      | error e => rfl
      | ok v =>
        simp only
        rw [ih g', hrd v obs (hb c v hP hv) ho]

omit [LinearOrder K] in
theorem bootstrapLoop_mem_over (rd : K → K) (stat : C → Cpp K) (sampler : G → Cpp (C × G)) (P : C → Prop)
    (B D : K → Prop) (hs : ∀ g c g', sampler g = .ok (c, g') → P c)
    (hb : ∀ c v, P c → stat c = .ok v → B v) {obs : K} (hd : ∀ v, B v → D (rd (v - obs)))
    (n : ℕ) (g : G) {l : List K} (hl : bootstrapLoop rd stat sampler obs n g = .ok l) : ∀ d ∈ l, D d := by
  induction n generalizing g l with
  | zero =>
    injection hl with hl
    subst hl
    simp
  | succ n ih =>
    unfold bootstrapLoop at hl
    simp only [bind, Except.bind] at hl
    cases hg : sampler g with
    | error e => rw [hg] at hl; cases hl
    | ok cg =>
      obtain ⟨c, g'⟩ := cg
      rw [hg] at hl
      simp only at hl
      cases hv : stat c with
      | error e => rw [hv] at hl; cases hl
      | ok v =>
        rw [hv] at hl
        simp only at hl
        cases hr : bootstrapLoop rd stat sampler obs n g' with
        | error e => rw [hr] at hl; cases hl
        | ok rest =>
          rw [hr] at hl
          simp only [pure, Except.pure, Except.ok.injEq] at hl
          subst hl
          intro d hd'
          rcases List.mem_cons.1 hd' with rfl | hd'
          · exact hd v (hb c v (hs g c g' hg) hv)
          · exact ih g' hr d hd'

theorem vecAt_mem {α : Type} {l : List α} {i : ℕ} {a : α} (h : vecAt l i = .ok a) : a ∈ l := by
  unfold vecAt at h
  split at h
  · injection h with h
    subst h
    exact List.mem_of_getElem? (by assumption)
  · cases h

/-- Two statistics that agree on the samples give the same interval. -/
theorem percentileCI_over (S : StdSort) (R R' : Rnd) (rd rd' : K → K) (original : C) (reps : ℕ) (alpha : ℚ)
    (stat stat' : C → Cpp K) (sampler : G → Cpp (C × G)) (P : C → Prop) (B D : K → Prop)
    (hP : P original) (hs : ∀ g c g', sampler g = .ok (c, g') → P c) (he : ∀ c, P c → stat c = stat' c)
    (hb : ∀ c v, P c → stat' c = .ok v → B v) (hrd : ∀ v w, B v → B w → rd (v - w) = rd' (v - w))
    (hD : ∀ v w, B v → B w → D (rd' (v - w))) (hrd' : ∀ v d, B v → D d → rd (v - d) = rd' (v - d))
    (hl : lowerIndex R alpha reps = lowerIndex R' alpha reps)
    (hu : upperIndex R alpha reps = upperIndex R' alpha reps) (g : G) :
    percentileCI R S rd original reps alpha stat sampler g =
      percentileCI R' S rd' original reps alpha stat' sampler g := by
  unfold percentileCI
  simp only [bind, Except.bind]
  rw [he _ hP]
  cases hv : stat' original with
  | error e => rfl
  | ok obs =>
    have ho := hb _ _ hP hv
    simp only
    rw [bootstrapLoop_over rd rd' stat stat' sampler P B hs he hb hrd ho]
    cases hd : bootstrapLoop rd' stat' sampler obs reps g with
    | error e => rfl
    | ok diffs =>
      have hm := bootstrapLoop_mem_over rd' stat' sampler P B D hs hb (fun v h => hD v obs h ho) reps g hd
      simp only
      cases hsrt : S.sort (fun a b => decide (a < b)) diffs with
      | error e => rfl
      | ok diffs' =>
        have hperm := sort_perm_of S hsrt
        simp only
        rw [hl, hu]
        cases hi : lowerIndex R' alpha reps with
        | error e => rfl
        | ok li =>
          simp only
          cases hj : upperIndex R' alpha reps with
          | error e => rfl
          | ok ui =>
            simp only
            cases hdl : vecAt diffs' li with
            | error e => rfl
            | ok dl =>
              simp only
              cases hdu : vecAt diffs' ui with
              | error e => rfl
              | ok du =>
                simp only
                rw [hrd' obs dl ho (hm dl (hperm.mem_iff.1 (vecAt_mem hdl))),
                  hrd' obs du ho (hm du (hperm.mem_iff.1 (vecAt_mem hdu)))]

end

section
variable {Q L G : Type}

/-- Groups so few and so small that samples of them are few, too. -/
structure TinyGroups (gs : List (List (KwsMatch Q L))) : Prop where
  unit : UnitErrors gs.flatten
  few : gs.flatten.length ≤ 2 ^ 62
  groups : gs.length ≤ 2 ^ 62

theorem TinyGroups.small {gs : List (List (KwsMatch Q L))} (hg : TinyGroups gs) : SmallGroups gs :=
  ⟨⟨hg.unit, hg.few.trans (by norm_num)⟩, hg.groups.trans (by norm_num)⟩

theorem TinyGroups.sample {gs s : List (List (KwsMatch Q L))} (hg : TinyGroups gs) (hs : Resample gs s) :
    SmallGroups s := by
  have hl : ∀ x ∈ s, x.length ≤ 2 ^ 62 := by
    intro x hx
    obtain ⟨o, ho, h1, _⟩ := hs.2 x hx
    rw [h1]
    exact (List.sublist_flatten_of_mem ho).length_le.trans hg.few
  refine ⟨⟨fun m hm => ?_, ?_⟩, ?_⟩
  · obtain ⟨x, hx, hmx⟩ := List.mem_flatten.1 hm
    obtain ⟨o, ho, _, h2⟩ := hs.2 x hx
    exact hg.unit m (List.mem_flatten.2 ⟨o, ho, h2 m hmx⟩)
  · have : ∀ t : List (List (KwsMatch Q L)), (∀ x ∈ t, x.length ≤ 2 ^ 62) → t.flatten.length ≤ t.length * 2 ^ 62 := by
      intro t
      induction t with
      | nil => simp
      | cons a t ih =>
        intro ht
        have h1 := ih fun x hx => ht x (by simp [hx])
        have h2 := ht a (by simp)
        simp only [List.flatten_cons, List.length_append, List.length_cons]
        omega
    refine (this s hl).trans ?_
    rw [hs.1]
    calc gs.length * 2 ^ 62 ≤ 2 ^ 62 * 2 ^ 62 := Nat.mul_le_mul_right _ hg.groups
      _ = 2 ^ 124 := by norm_num
  · rw [hs.1]
    exact hg.groups.trans (by norm_num)

theorem sampler_resample (rng : Rng G) {M : Type} (gs : List (List M)) (g : G) (c : List (List M)) (g' : G)
    (h : matchesByQuerySampler rng gs g = .ok (c, g')) : Resample gs c := by
  obtain ⟨s, g'', h', hs⟩ := C40_shape rng gs g
  rw [h] at h'
  injection h' with h'
  rw [Prod.mk.injEq] at h'
  obtain ⟨rfl, _⟩ := h'
  exact hs

variable {R : Rnd} (h : Overflowing R)
include h

theorem percentileCIGrouped_over (S : StdSort) (rng : Rng G) {gs : List (List (KwsMatch Q L))} (hg : TinyGroups gs)
    {reps : ℕ} (hr : reps ≤ 2 ^ 64) {alpha : ℚ} (ha : |alpha| ≤ dblMax) (seed : ℕ)
    {stat stat' : List (List (KwsMatch Q L)) → Cpp ℚ} (he : ∀ c, SmallGroups c → stat c = stat' c)
    (hb : ∀ c v, SmallGroups c → stat' c = .ok v → |v| ≤ 2 ^ 400) :
    percentileCIGrouped R S R.f64 rng gs reps alpha seed stat =
      percentileCIGrouped Rnd.ieee S Rnd.ieee.f64 rng gs reps alpha seed stat' := by
  have e1 : ∀ v w : ℚ, |v| ≤ 2 ^ 400 → |w| ≤ 2 ^ 400 → |v - w| ≤ 2 ^ 401 := fun v w hv hw =>
    abs_sub_pow (k := 400) hv hw
  have e2 : ∀ v w : ℚ, |v| ≤ 2 ^ 400 → |w| ≤ 2 ^ 401 → |v - w| ≤ 2 ^ 402 := fun v w hv hw =>
    abs_sub_pow (k := 401) (hv.trans (pow_le_pow_right₀ (by norm_num) (by norm_num))) hw
  exact percentileCI_over S R Rnd.ieee R.f64 Rnd.ieee.f64 gs reps alpha stat stat' _ SmallGroups
    (fun v => |v| ≤ 2 ^ 400) (fun v => |v| ≤ 2 ^ 401) hg.small
    (fun g c g' hc => hg.sample (sampler_resample rng gs g c g' hc)) he hb
    (fun v w hv hw => h.eq64 (e1 v w hv hw) (by norm_num))
    (fun v w hv hw => ieee_bound64 401 (e1 v w hv hw))
    (fun v w hv hw => h.eq64 (e2 v w hv hw) (by norm_num)) (lowerIndex_over h ha hr) (upperIndex_over h ha hr) _

theorem percentileCIGrouped_over_real (S : StdSort) (rng : Rng G) {gs : List (List (KwsMatch Q L))}
    (hg : TinyGroups gs) {reps : ℕ} (hr : reps ≤ 2 ^ 64) {alpha : ℚ} (ha : |alpha| ≤ dblMax) (seed : ℕ)
    {stat stat' : List (List (KwsMatch Q L)) → Cpp ℝ} (he : ∀ c, SmallGroups c → stat c = stat' c) :
    percentileCIGrouped R S id rng gs reps alpha seed stat =
      percentileCIGrouped Rnd.ieee S id rng gs reps alpha seed stat' :=
  percentileCI_over S R Rnd.ieee id id gs reps alpha stat stat' _ SmallGroups (fun _ => True) (fun _ => True) hg.small
    (fun g c g' hc => hg.sample (sampler_resample rng gs g c g' hc)) he (fun _ _ _ _ => trivial)
    (fun _ _ _ _ => rfl) (fun _ _ _ _ => trivial) (fun _ _ _ _ => rfl) (lowerIndex_over h ha hr)
    (upperIndex_over h ha hr) _

/-! ## Curves -/

theorem evenPoints_over {n : ℕ} (hn : n ≤ 2 ^ 64) : evenPoints R n = evenPoints Rnd.ieee n := by
  unfold evenPoints
  split
  · rename_i h1
    refine List.map_congr_left fun k hk => ?_
    have hk' := List.mem_range.1 hk
    have hk64 : k ≤ 2 ^ 64 := by omega
    rw [h.nat64 (n := k) (k := 64) hk64 (by norm_num), h.nat64 (n := n - 1) (k := 64) (by omega) (by norm_num),
      h.eq64 (k := 64) (div_bound (ieee_abs_nat hk64) (ieee_one_le (by omega))) (by norm_num)]
  · rfl

omit h in
theorem evenPoints_small {n : ℕ} (hn : n ≤ 2 ^ 64) : ∀ x ∈ evenPoints Rnd.ieee n, |x| ≤ 2 ^ 64 := by
  intro x hx
  unfold evenPoints at hx
  split at hx
  · rename_i h1
    obtain ⟨k, hk, rfl⟩ := List.mem_map.1 hx
    have hk' := List.mem_range.1 hk
    exact ieee_bound64 64 (div_bound (ieee_abs_nat (by omega)) (ieee_one_le (by omega)))
  · simp at hx

omit h in
theorem ieee_weight {w0 w1 : ℚ} (h0 : Rnd.ieee.f64 w0 = w0) (p0 : 0 ≤ w0) (p1 : 0 ≤ w1)
    (hne : Rnd.ieee.f64 (w0 + w1) ≠ 0) :
    0 ≤ w0 / Rnd.ieee.f64 (w0 + w1) ∧ w0 / Rnd.ieee.f64 (w0 + w1) ≤ 1 := by
  have h1 : w0 ≤ Rnd.ieee.f64 (w0 + w1) := by
    have := ieee_faithful.mono64 w0 (w0 + w1) (by linarith)
    rwa [h0] at this
  have h2 : 0 < Rnd.ieee.f64 (w0 + w1) := lt_of_le_of_ne (p0.trans h1) (Ne.symm hne)
  exact ⟨by positivity, (div_le_one h2).2 h1⟩

/-- The values between two points of a curve. -/
theorem sampleAt_over (linear : Bool) {prev : Option (ℚ × ℚ)} {sx sy x : ℚ}
    (hp : ∀ p ∈ prev, p.1 < x ∧ |p.1| ≤ 2 ^ 125 ∧ |p.2| ≤ 2 ^ 125) (hx : x ≤ sx) (bx : |x| ≤ 2 ^ 125)
    (bsx : |sx| ≤ 2 ^ 125) (bsy : |sy| ≤ 2 ^ 125) :
    sampleAt R linear prev sx sy x = sampleAt Rnd.ieee linear prev sx sy x ∧
      ∀ y, sampleAt Rnd.ieee linear prev sx sy x = .ok y → |y| ≤ 2 ^ 127 := by
  have hsy : |sy| ≤ 2 ^ 127 := bsy.trans (pow_le_pow_right₀ (by norm_num) (by norm_num))
  cases linear with
  | false =>
    refine ⟨by cases prev <;> rfl, fun y hy => ?_⟩
    have : sy = y := by cases prev <;> (injection hy)
    rwa [← this]
  | true =>
    cases prev with
    | none =>
      refine ⟨rfl, fun y hy => ?_⟩
      have : sy = y := by injection hy
      rwa [← this]
    | some p =>
      obtain ⟨px, py⟩ := p
      obtain ⟨h1, h2, h3⟩ := hp (px, py) rfl
      simp only at h1 h2 h3
      have b0 : |sx - x| ≤ 2 ^ 126 := abs_sub_pow (k := 125) bsx bx
      have b1 : |x - px| ≤ 2 ^ 126 := abs_sub_pow (k := 125) bx h2
      have c0 := ieee_bound64 126 b0
      have c1 := ieee_bound64 126 b1
      have b2 : |Rnd.ieee.f64 (sx - x) + Rnd.ieee.f64 (x - px)| ≤ 2 ^ 127 := abs_add_pow (k := 126) c0 c1
      have n0 : 0 ≤ Rnd.ieee.f64 (sx - x) := ieee_faithful.nonneg64 (by linarith)
      have n1 : 0 ≤ Rnd.ieee.f64 (x - px) := ieee_faithful.nonneg64 (by linarith)
      unfold sampleAt
      simp only [bind, Except.bind]
      rw [h.eq64 b0 (by norm_num), h.eq64 b1 (by norm_num), h.eq64 b2 (by norm_num)]
      unfold fdiv
      by_cases hz : Rnd.ieee.f64 (Rnd.ieee.f64 (sx - x) + Rnd.ieee.f64 (x - px)) = 0
      · rw [if_pos hz, if_pos hz]
        exact ⟨rfl, fun y hy => by cases hy⟩
      · rw [if_neg hz, if_neg hz]
        obtain ⟨t0, t1⟩ := ieee_weight (ieee_precise.idem64 _) n0 n1 hz
        have bt := abs_le_of_unit ⟨t0, t1⟩ 0
        have ct := ieee_bound64 0 bt
        rw [h.eq64 bt (by norm_num)]
        simp only [pure, Except.pure]
        generalize Rnd.ieee.f64 (Rnd.ieee.f64 (sx - x) /
          Rnd.ieee.f64 (Rnd.ieee.f64 (sx - x) + Rnd.ieee.f64 (x - px))) = t at ct ⊢
        have d1 : |1 - t| ≤ 2 ^ 1 := abs_sub_pow (k := 0) (by norm_num) ct
        have d2 : |t * py| ≤ 2 ^ 126 :=
          (abs_mul_pow (k := 0) (l := 125) ct h3).trans (pow_le_pow_right₀ (by norm_num) (by norm_num))
        have d3 : |Rnd.ieee.f64 (1 - t) * sy| ≤ 2 ^ 126 := abs_mul_pow (k := 1) (l := 125) (ieee_bound64 1 d1) bsy
        have d4 : |Rnd.ieee.f64 (t * py) + Rnd.ieee.f64 (Rnd.ieee.f64 (1 - t) * sy)| ≤ 2 ^ 127 :=
          abs_add_pow (k := 126) (ieee_bound64 126 d2) (ieee_bound64 126 d3)
        rw [h.eq64 d1 (by norm_num), h.eq64 d2 (by norm_num), h.eq64 d3 (by norm_num), h.eq64 d4 (by norm_num)]
        refine ⟨rfl, fun y hy => ?_⟩
        injection hy with hy
        subst hy
        exact ieee_bound64 127 d4

omit h in
theorem skipTo_facts (x : ℚ) (P : ℚ × ℚ → Prop) (prev : Option (ℚ × ℚ)) (src : List (ℚ × ℚ))
    (hp : ∀ p ∈ prev, p.1 < x ∧ P p) (hs : ∀ p ∈ src, P p) :
    (∀ p ∈ (skipTo x prev src).1, p.1 < x ∧ P p) ∧ (∀ p ∈ (skipTo x prev src).2, P p) ∧
      ∀ p ∈ (skipTo x prev src).2.head?, x ≤ p.1 := by
  induction src generalizing prev with
  | nil => exact ⟨hp, by simp [skipTo], by simp [skipTo]⟩
  | cons s src ih =>
    unfold skipTo
    split
    · rename_i hlt
      exact ih (some s) (fun p hq => by
        rw [Option.mem_some_iff] at hq
        subst hq
        exact ⟨hlt, hs _ (by simp)⟩) (fun p hq => hs p (by simp [hq]))
    · rename_i hlt
      refine ⟨hp, hs, fun p hq => ?_⟩
      simp only [List.head?_cons, Option.mem_some_iff] at hq
      subst hq
      exact not_lt.1 hlt

/-- The loop over the points at which a curve is sampled. -/
theorem sampleLoop_over (linear : Bool) (xs : List ℚ) (hxs : xs.Pairwise (· ≤ ·)) (bxs : ∀ x ∈ xs, |x| ≤ 2 ^ 125)
    (prev : Option (ℚ × ℚ)) (src : List (ℚ × ℚ))
    (hp : ∀ p ∈ prev, (∀ x ∈ xs, p.1 < x) ∧ |p.1| ≤ 2 ^ 125 ∧ |p.2| ≤ 2 ^ 125)
    (hs : ∀ p ∈ src, |p.1| ≤ 2 ^ 125 ∧ |p.2| ≤ 2 ^ 125) :
    sampleLoop R linear prev src xs = sampleLoop Rnd.ieee linear prev src xs ∧
      ∀ ys, sampleLoop Rnd.ieee linear prev src xs = .ok ys → ∀ y ∈ ys, |y| ≤ 2 ^ 127 := by
  induction xs generalizing prev src with
  | nil =>
    refine ⟨rfl, fun ys hy => ?_⟩
    injection hy with hy
    subst hy
    simp
  | cons x xs ih =>
    obtain ⟨hx, hxs⟩ := List.pairwise_cons.1 hxs
    obtain ⟨f1, f2, f3⟩ := skipTo_facts x (fun p => |p.1| ≤ 2 ^ 125 ∧ |p.2| ≤ 2 ^ 125) prev src
      (fun p hq => ⟨(hp p hq).1 x (by simp), (hp p hq).2⟩) hs
    unfold sampleLoop
    cases hk : skipTo x prev src with
    | mk prev' src' =>
      rw [hk] at f1 f2 f3
      simp only at f1 f2 f3
      obtain ⟨i1, i2⟩ := ih hxs (fun y hy => bxs y (by simp [hy])) prev' src'
        (fun p hq => ⟨fun y hy => lt_of_lt_of_le (f1 p hq).1 (hx y hy), (f1 p hq).2⟩) f2
      simp only
      rw [i1]
      cases src' with
      | nil =>
        refine ⟨rfl, fun ys hy => ?_⟩
        simp only [bind, Except.bind, pure, Except.pure] at hy
        cases hl : sampleLoop Rnd.ieee linear prev' [] xs with
        | error e => rw [hl] at hy; cases hy
        | ok ys' =>
          rw [hl] at hy
          injection hy with hy
          subst hy
          intro y hy
          rcases List.mem_cons.1 hy with rfl | hy
          · simp
          · exact i2 ys' hl y hy
      | cons s rest =>
        obtain ⟨sx, sy⟩ := s
        have hb := f2 (sx, sy) (by simp)
        obtain ⟨s1, s2⟩ := sampleAt_over h linear (prev := prev') (sx := sx) (sy := sy) (x := x) f1
          (f3 (sx, sy) rfl) (bxs x (by simp)) hb.1 hb.2
        simp only [bind, Except.bind, pure, Except.pure]
        rw [s1]
        refine ⟨rfl, fun ys hy => ?_⟩
        cases hv : sampleAt Rnd.ieee linear prev' sx sy x with
        | error e => rw [hv] at hy; cases hy
        | ok v =>
          rw [hv] at hy
          simp only at hy
          cases hl : sampleLoop Rnd.ieee linear prev' ((sx, sy) :: rest) xs with
          | error e => rw [hl] at hy; cases hy
          | ok ys' =>
            rw [hl] at hy
            injection hy with hy
            subst hy
            intro y hy
            rcases List.mem_cons.1 hy with rfl | hy
            · exact s2 _ hv
            · exact i2 ys' hl y hy

theorem sampleCurve_over {c : List ℚ × List ℚ} (hc : SmallCurves c) (linear : Bool) {n : ℕ} (hn : n ≤ 2 ^ 64) :
    sampleCurve R c.2 c.1 (evenPoints Rnd.ieee n) linear = sampleCurve Rnd.ieee c.2 c.1 (evenPoints Rnd.ieee n) linear ∧
      ∀ ys, sampleCurve Rnd.ieee c.2 c.1 (evenPoints Rnd.ieee n) linear = .ok ys → ∀ y ∈ ys, |y| ≤ 2 ^ 127 := by
  unfold sampleCurve
  split
  · exact sampleLoop_over h linear _ (evenPoints_sorted Rnd.ieee ieee_faithful n)
      (fun x hx => (evenPoints_small hn x hx).trans (pow_le_pow_right₀ (by norm_num) (by norm_num))) none _ (by simp)
      fun p hp => ⟨hc.2 _ (List.of_mem_zip hp).1, hc.1 _ (List.of_mem_zip hp).2⟩
  · exact ⟨rfl, fun ys hy => by cases hy⟩

theorem globalRPCurve_over (w : World) (f : Str) {ms : List (KwsMatch Q L)} (hm : SmallMatches ms) {n : ℕ}
    (hn : n ≤ 2 ^ 64) (collapse interp linear : Bool) :
    globalRPCurve R w f ms n collapse interp linear = globalRPCurve Rnd.ieee w f ms n collapse interp linear := by
  unfold globalRPCurve
  rw [matchesPR_over h hm, evenPoints_over h hn]
  have := (sampleCurve_over h (matchesPR_small hm collapse interp) linear hn).1
  simp only at this ⊢
  rw [this]

theorem groupCurves_over {n : ℕ} (hn : n ≤ 2 ^ 64) (collapse interp linear : Bool) (gs : List (List (KwsMatch Q L)))
    (hg : ∀ g ∈ gs, SmallMatches g) :
    groupCurves R (evenPoints Rnd.ieee n) collapse interp linear gs =
      groupCurves Rnd.ieee (evenPoints Rnd.ieee n) collapse interp linear gs ∧
      ∀ yss, groupCurves Rnd.ieee (evenPoints Rnd.ieee n) collapse interp linear gs = .ok yss →
        yss.length = gs.length ∧ ∀ ys ∈ yss, ∀ y ∈ ys, |y| ≤ 2 ^ 127 := by
  induction gs with
  | nil =>
    refine ⟨rfl, fun yss hy => ?_⟩
    injection hy with hy
    subst hy
    simp
  | cons g gs ih =>
    obtain ⟨i1, i2⟩ := ih fun x hx => hg x (by simp [hx])
    have hm := hg g (by simp)
    obtain ⟨s1, s2⟩ := sampleCurve_over h (matchesPR_small hm collapse interp) linear hn
    unfold groupCurves
    rw [matchesPR_over h hm, i1]
    cases hpr : matchesPR Rnd.ieee g collapse interp with
    | mk pr rc =>
      rw [hpr] at s1 s2
      simp only at s1 s2 ⊢
      rw [s1]
      refine ⟨rfl, fun yss hy => ?_⟩
      simp only [bind, Except.bind, pure, Except.pure] at hy
      cases hv : sampleCurve Rnd.ieee rc pr (evenPoints Rnd.ieee n) linear with
      | error e => rw [hv] at hy; cases hy
      | ok ys =>
        rw [hv] at hy
        simp only at hy
        cases hl : groupCurves Rnd.ieee (evenPoints Rnd.ieee n) collapse interp linear gs with
        | error e => rw [hl] at hy; cases hy
        | ok yss' =>
          rw [hl] at hy
          injection hy with hy
          subst hy
          obtain ⟨j1, j2⟩ := i2 yss' hl
          refine ⟨by simp [j1], fun zs hz => ?_⟩
          rcases List.mem_cons.1 hz with rfl | hz
          · exact s2 _ hv
          · exact j2 zs hz

theorem columnSum_over (i : ℕ) (yss : List (List ℚ)) (hy : ∀ ys ∈ yss, ∀ y ∈ ys, |y| ≤ 2 ^ 127) (s : ℚ)
    (hs : |s| ≤ 2 ^ (127 + 54)) :
    columnSum R i s yss = columnSum Rnd.ieee i s yss ∧
      ∀ v, columnSum Rnd.ieee i s yss = .ok v → |v| ≤ 2 ^ (127 + 54) := by
  induction yss generalizing s with
  | nil =>
    refine ⟨rfl, fun v hv => ?_⟩
    injection hv with hv
    rwa [← hv]
  | cons ys yss ih =>
    unfold columnSum
    simp only [bind, Except.bind]
    cases hv : vecAt ys i with
    | error e => exact ⟨rfl, fun v hv => by cases hv⟩
    | ok y =>
      have hb := hy ys (by simp) y (vecAt_mem hv)
      simp only
      rw [h.sum64 hs hb (by norm_num)]
      exact ih (fun zs hz => hy zs (by simp [hz])) _ (ieee_sum64 127 hs hb)

theorem meanOf_over {s : ℚ} (hs : |s| ≤ 2 ^ (127 + 54)) {n : ℕ} (hn : n ≤ 2 ^ 124) :
    meanOf R s n = meanOf Rnd.ieee s n := by
  unfold meanOf
  split
  · rfl
  · rename_i h0
    rw [h.nat64 hn (by norm_num), h.eq64 (div_bound hs (ieee_one_le (Nat.pos_of_ne_zero h0))) (by norm_num)]

theorem meanColumns_over (yss : List (List ℚ)) (hy : ∀ ys ∈ yss, ∀ y ∈ ys, |y| ≤ 2 ^ 127)
    (hl : yss.length ≤ 2 ^ 124) (i n : ℕ) : meanColumns R yss i n = meanColumns Rnd.ieee yss i n := by
  induction n generalizing i with
  | zero => rfl
  | succ n ih =>
    obtain ⟨c1, c2⟩ := columnSum_over h i yss hy 0 (by simp)
    unfold meanColumns
    rw [c1, ih]
    cases hv : columnSum Rnd.ieee i 0 yss with
    | error e => rfl
    | ok v =>
      simp only [bind, Except.bind]
      rw [meanOf_over h (c2 v hv) hl]

theorem meanRPCurve_over (w : World) (f : Str) {gs : List (List (KwsMatch Q L))} (hg : SmallGroups gs) {n : ℕ}
    (hn : n ≤ 2 ^ 64) (collapse interp linear : Bool) :
    meanRPCurve R w f gs n collapse interp linear = meanRPCurve Rnd.ieee w f gs n collapse interp linear := by
  obtain ⟨g1, g2⟩ := groupCurves_over h hn collapse interp linear gs fun g hm => hg.mem hm
  unfold meanRPCurve
  rw [evenPoints_over h hn]
  simp only
  rw [g1]
  cases hv : groupCurves Rnd.ieee (evenPoints Rnd.ieee n) collapse interp linear gs with
  | error e => rfl
  | ok yss =>
    obtain ⟨j1, j2⟩ := g2 yss hv
    simp only [bind, Except.bind]
    rw [meanColumns_over h yss j2 (by rw [j1]; exact hg.2)]

end

end Kws
