import Verif.Lemmas.Bootstrap
import Verif.Props.Curves
import Verif.Lemmas.Tool

/-!
# C40 - C43: bootstrapping

`Resample original sample`: the sample has as many groups as the original, each drawn with
replacement from some original group. `Successive sampler g cs`: the sampler started in state `g`
produces the samples `cs` one after the other.
-/

set_option linter.unusedSectionVars false

namespace Kws
open Spec

section
variable {G M : Type}

/-! ## C40 -/

/-- C40: with any generator that honours its range, sampling by query never goes out of range and
returns a resample. -/
theorem C40_shape (rng : Rng G) (original : List (List M)) (g : G) :
    ∃ sample g', matchesByQuerySampler rng original g = .ok (sample, g') ∧
      Resample original sample := by
  obtain ⟨ss, g', h1, h2, h3⟩ := drawGroups_ok rng original (original.length - 1) original.length
    (by omega) g
  exact ⟨ss, g', h1, h2, h3⟩

/-- C40: every resample is the outcome of some generator: the sampler is not restricted to some
groups or matches. -/
theorem C40_every_sample (original sample : List (List M)) (h : Resample original sample) :
    ∃ (rng : Rng (List Nat)) (g g' : List Nat),
      matchesByQuerySampler rng original g = .ok (sample, g') := by
  obtain ⟨script, hs⟩ := drawGroups_script original sample h.2
  refine ⟨scripted, script ++ [], [], ?_⟩
  have := hs []
  rw [h.1] at this
  exact this

example : Resample [[1, 2, 3], [4]] [[4], [2, 2, 1]] :=
  ⟨rfl, by
    intro s hs
    simp only [List.mem_cons, List.not_mem_nil, or_false] at hs
    rcases hs with rfl | rfl
    · exact ⟨[4], by simp, rfl, by simp⟩
    · exact ⟨[1, 2, 3], by simp, rfl, by simp⟩⟩

/-! ## C41 -/

/-- C41 is false: a flat sample of a single match has two elements, one of which is a default
constructed match that was not in the original. -/
theorem C41_flat_refuted (rng : Rng G) (g : G) :
    ∃ (original : List (KwsMatch Nat Nat)) (dflt : KwsMatch Nat Nat) (sample : List (KwsMatch Nat Nat))
      (g' : G), dflt = ⟨none, none, ⟨1, 1⟩⟩ ∧
      matchesSampler rng dflt original [] g = .ok (sample, g') ∧
      sample.length = 2 * original.length ∧ sample.length ≠ original.length ∧
      ∃ m ∈ sample, m ∉ original := by
  obtain ⟨ms, g', h1, h2, h3⟩ := drawN_ok rng
    [(⟨some ⟨1, 1⟩, none, ⟨0, 1⟩⟩ : KwsMatch Nat Nat)] 0 1 (by simp) g
  refine ⟨[⟨some ⟨1, 1⟩, none, ⟨0, 1⟩⟩], ⟨none, none, ⟨1, 1⟩⟩, [⟨none, none, ⟨1, 1⟩⟩] ++ ms, g', rfl, ?_, ?_, ?_,
    ⟨none, none, ⟨1, 1⟩⟩, by simp, by simp⟩
  · unfold matchesSampler
    simp only [List.length_cons, List.length_nil, zero_add, Nat.sub_self, h1, bind, Except.bind, pure,
      Except.pure]
    rfl
  · simp [h2]
  · simp [h2]

/-- C41, what holds instead: the output vector is first resized to the size of the original, then the
sample is appended. Missing for C41: the output vector should have been cleared. -/
theorem C41_flat_partial (rng : Rng G) (dflt : M) (original sampled : List M) (g : G) :
    ∃ sample g', matchesSampler rng dflt original sampled g =
        .ok ((sampled ++ List.replicate original.length dflt).take original.length ++ sample, g') ∧
      DrawnFrom original sample := by
  obtain ⟨ms, g', h1, h2, h3⟩ := drawN_ok rng original (original.length - 1) original.length
    (by omega) g
  refine ⟨ms, g', ?_, h2, h3⟩
  unfold matchesSampler
  simp only [h1, bind, Except.bind, pure, Except.pure, resize]
  congr 3
  rw [List.take_append, List.take_replicate]
  congr 2
  omega

end

/-! ## C42 -/

section
variable {C G K : Type} [LinearOrder K] [AddCommGroup K] [IsOrderedAddMonoid K]

/-- The result of the computation, given the two positions. -/
theorem percentileCI_eq (R : Rnd) (S : StdSort) (rd : K → K) (original : C) (n : Nat) (alpha : ℚ)
    (statistic : C → Cpp K) (sampler : G → Cpp (C × G)) (g : G) (v : K) (stat : C → K) (li ui : Nat)
    (hv : statistic original = .ok v) (hs : ∀ g, ∃ c g', sampler g = .ok (c, g'))
    (hstat : ∀ g c g', sampler g = .ok (c, g') → statistic c = .ok (stat c))
    (hli : lowerIndex R alpha n = .ok li) (hui : upperIndex R alpha n = .ok ui) (h1 : li < n)
    (h2 : ui < n) :
    ∃ (cs : List C) (devs : List K) (dl du : K), Successive sampler g cs ∧ cs.length = n ∧
      devs.Perm (cs.map (fun c => rd (stat c - v))) ∧ devs.Pairwise (· ≤ ·) ∧
      devs[li]? = some dl ∧ devs[ui]? = some du ∧
      percentileCI R S rd original n alpha statistic sampler g =
        .ok (v, rd (v - dl), rd (v - du)) := by
  obtain ⟨cs, a1, a2, a3⟩ := bootstrapLoop_ok rd statistic sampler v hs stat hstat n g
  obtain ⟨devs, b1, b2, b3⟩ := sort_lt S (cs.map (fun c => rd (stat c - v)))
  have hlen : devs.length = n := by rw [b2.length_eq, List.length_map, a2]
  refine ⟨cs, devs, devs[li], devs[ui], a1, a2, b2, b3, List.getElem?_eq_getElem _,
    List.getElem?_eq_getElem _, ?_⟩
  unfold percentileCI vecAt
  simp only [hv, a3, b1, hli, hui, bind, Except.bind, pure, Except.pure,
    List.getElem?_eq_getElem (show li < devs.length by omega),
    List.getElem?_eq_getElem (show ui < devs.length by omega)]

theorem bounds_ordered (rd : K → K) (hrd : Monotone rd) (devs : List K) (hs : devs.Pairwise (· ≤ ·))
    (li ui : Nat) (dl du v : K) (h : ui ≤ li) (h1 : devs[li]? = some dl) (h2 : devs[ui]? = some du) :
    rd (v - dl) ≤ rd (v - du) := by
  apply hrd
  have hl : li < devs.length := (List.getElem?_eq_some_iff.1 h1).1
  have e1 := (List.getElem?_eq_some_iff.1 h1).2
  have e2 := (List.getElem?_eq_some_iff.1 h2).2
  have : du ≤ dl := by
    rw [← e1, ← e2]
    rcases eq_or_lt_of_le h with rfl | hlt
    · exact le_rfl
    · exact List.pairwise_iff_getElem.1 hs ui li _ hl hlt
  exact sub_le_sub_left this v

/-- C42: for `repetitions > 0` and `0 < alpha < 2`, in exact arithmetic, the computation reads
existing elements; the bounds are the observed value minus order statistics of the deviations; for
`alpha ≤ 1` they are ordered. `rd` is the rounding of the deviations and bounds. -/
theorem C42_bounds_partial (S : StdSort) (rd : K → K) (hrd : Monotone rd) (original : C) (n : Nat)
    (alpha : ℚ) (statistic : C → Cpp K) (sampler : G → Cpp (C × G)) (g : G) (v : K) (stat : C → K)
    (hv : statistic original = .ok v) (hs : ∀ g, ∃ c g', sampler g = .ok (c, g'))
    (hstat : ∀ g c g', sampler g = .ok (c, g') → statistic c = .ok (stat c))
    (hn : 0 < n) (hn' : n < 2 ^ 64) (h0 : 0 < alpha) (h2 : alpha < 2) :
    ∃ (cs : List C) (devs : List K) (dl du : K), Successive sampler g cs ∧ cs.length = n ∧
      devs.Perm (cs.map (fun c => rd (stat c - v))) ∧ devs.Pairwise (· ≤ ·) ∧
      devs[⌊(1 - alpha / 2) * n⌋.toNat]? = some dl ∧ devs[⌊alpha / 2 * n⌋.toNat]? = some du ∧
      percentileCI Rnd.exact S rd original n alpha statistic sampler g =
        .ok (v, rd (v - dl), rd (v - du)) ∧
      (alpha ≤ 1 → rd (v - dl) ≤ rd (v - du)) := by
  have hnq : (0 : ℚ) < n := by exact_mod_cast hn
  have hnq' : (n : ℚ) < 2 ^ 64 := by exact_mod_cast hn'
  have l0 : 0 ≤ (1 - alpha / 2) * n := mul_nonneg (by linarith) hnq.le
  have l1 : (1 - alpha / 2) * n < n := by nlinarith
  have u0 : 0 ≤ alpha / 2 * n := by positivity
  have u1 : alpha / 2 * n < n := by nlinarith
  have hli : lowerIndex Rnd.exact alpha n = .ok ⌊(1 - alpha / 2) * n⌋.toNat := by
    have : lowerIndex Rnd.exact alpha n = toSize ((1 - alpha * (1 / 2)) * n) := rfl
    rw [this, mul_one_div]
    exact toSize_ok _ l0 (by linarith)
  have hui : upperIndex Rnd.exact alpha n = .ok ⌊alpha / 2 * n⌋.toNat := by
    have : upperIndex Rnd.exact alpha n = toSize (alpha * (1 / 2) * n) := rfl
    rw [this, mul_one_div]
    exact toSize_ok _ u0 (by linarith)
  obtain ⟨cs, devs, dl, du, a1, a2, a3, a4, a5, a6, a7⟩ := percentileCI_eq Rnd.exact S rd original n
    alpha statistic sampler g v stat _ _ hv hs hstat hli hui (floor_toNat_lt _ _ l0 l1)
    (floor_toNat_lt _ _ u0 u1)
  refine ⟨cs, devs, dl, du, a1, a2, a3, a4, a5, a6, a7, fun h1 => ?_⟩
  exact bounds_ordered rd hrd devs a4 _ _ dl du v
    (floor_toNat_mono (mul_le_mul_of_nonneg_right (by linarith) hnq.le)) a5 a6

/-- C42 in floating-point arithmetic: the same for `2^-19 ≤ alpha ≤ 2 - 2^-19` and up to `2^32`
repetitions. Missing for C42: alphas that are closer to 0 or 2, see `C42_tiny_alpha_refuted`. -/
theorem C42_bounds_rounded_partial (R : Rnd) (hR : R.Faithful) (S : StdSort) (rd : K → K)
    (hrd : Monotone rd) (original : C) (n : Nat) (alpha : ℚ) (statistic : C → Cpp K)
    (sampler : G → Cpp (C × G)) (g : G) (v : K) (stat : C → K)
    (hv : statistic original = .ok v) (hs : ∀ g, ∃ c g', sampler g = .ok (c, g'))
    (hstat : ∀ g c g', sampler g = .ok (c, g') → statistic c = .ok (stat c))
    (hn : 0 < n) (hn' : n ≤ 2 ^ 32) (h0 : 1 / 2 ^ 19 ≤ alpha) (h2 : alpha ≤ 2 - 1 / 2 ^ 19) :
    ∃ (li ui : Nat) (cs : List C) (devs : List K) (dl du : K), li < n ∧ ui < n ∧
      Successive sampler g cs ∧ cs.length = n ∧
      devs.Perm (cs.map (fun c => rd (stat c - v))) ∧ devs.Pairwise (· ≤ ·) ∧
      devs[li]? = some dl ∧ devs[ui]? = some du ∧
      percentileCI R S rd original n alpha statistic sampler g =
        .ok (v, rd (v - dl), rd (v - du)) ∧
      (alpha ≤ 1 → rd (v - dl) ≤ rd (v - du)) := by
  have hnq : (1 : ℚ) ≤ n := by exact_mod_cast hn
  have hnq' : (n : ℚ) ≤ 2 ^ 32 := by exact_mod_cast hn'
  have hfn : R.f64 n = n := hR.nat64 n (le_trans hn' (by norm_num))
  -- dyadic bounds survive rounding
  have e1 : R.f64 (1 / 2 ^ 20) = 1 / 2 ^ 20 := by
    have := hR.dyadic64 1 20 (by norm_num) (by norm_num)
    simpa using this
  have e2 : R.f64 (1 - 1 / 2 ^ 20) = 1 - 1 / 2 ^ 20 := by
    have := hR.dyadic64 (2 ^ 20 - 1) 20 (by norm_num) (by norm_num)
    have hq : (((2 ^ 20 - 1 : ℕ) : ℚ) / 2 ^ 20) = 1 - 1 / 2 ^ 20 := by norm_num
    rwa [hq] at this
  have e3 : R.f64 (n - 1 / 2 ^ 20) = n - 1 / 2 ^ 20 := by
    have := hR.dyadic64 (n * 2 ^ 20 - 1) 20 (by omega) (by norm_num)
    have hq : (((n * 2 ^ 20 - 1 : ℕ) : ℚ) / 2 ^ 20) = n - 1 / 2 ^ 20 := by
      rw [Nat.cast_sub (by omega)]
      push_cast
      field_simp
      norm_num
    rwa [hq] at this
  set a := R.f64 (alpha * (1 / 2)) with ha
  have a1 : 1 / 2 ^ 20 ≤ a := by
    rw [← e1, ha]; exact hR.mono64 _ _ (by linarith)
  have a2 : a ≤ 1 - 1 / 2 ^ 20 := by
    rw [← e2, ha]; exact hR.mono64 _ _ (by linarith)
  set b := R.f64 (1 - a) with hb
  have b1 : 1 / 2 ^ 20 ≤ b := by
    rw [← e1, hb]; exact hR.mono64 _ _ (by linarith)
  have b2 : b ≤ 1 - 1 / 2 ^ 20 := by
    rw [← e2, hb]; exact hR.mono64 _ _ (by linarith)
  have bound : ∀ c : ℚ, 1 / 2 ^ 20 ≤ c → c ≤ 1 - 1 / 2 ^ 20 →
      0 ≤ R.f64 (c * n) ∧ R.f64 (c * n) < n := by
    intro c c1 c2
    refine ⟨hR.nonneg64 (mul_nonneg (le_trans (by positivity) c1) (by linarith)), ?_⟩
    have : R.f64 (c * n) ≤ R.f64 (n - 1 / 2 ^ 20) := hR.mono64 _ _ (by nlinarith)
    rw [e3] at this
    have : (0 : ℚ) < 1 / 2 ^ 20 := by positivity
    linarith
  obtain ⟨l0, l1⟩ := bound b b1 b2
  obtain ⟨u0, u1⟩ := bound a a1 a2
  have hli : lowerIndex R alpha n = .ok ⌊R.f64 (b * n)⌋.toNat := by
    unfold lowerIndex
    rw [hfn, ← ha, ← hb]
    exact toSize_ok _ l0 (by linarith)
  have hui : upperIndex R alpha n = .ok ⌊R.f64 (a * n)⌋.toNat := by
    unfold upperIndex
    rw [hfn, ← ha]
    exact toSize_ok _ u0 (by linarith)
  obtain ⟨cs, devs, dl, du, c1, c2, c3, c4, c5, c6, c7⟩ := percentileCI_eq R S rd original n
    alpha statistic sampler g v stat _ _ hv hs hstat hli hui (floor_toNat_lt _ _ l0 l1)
    (floor_toNat_lt _ _ u0 u1)
  refine ⟨_, _, cs, devs, dl, du, floor_toNat_lt _ _ l0 l1, floor_toNat_lt _ _ u0 u1, c1, c2, c3, c4,
    c5, c6, c7, fun h1 => ?_⟩
  refine bounds_ordered rd hrd devs c4 _ _ dl du v (floor_toNat_mono (hR.mono64 _ _ ?_)) c5 c6
  have e4 : R.f64 (1 / 2) = 1 / 2 := by
    have := hR.dyadic64 1 1 (by norm_num) (by norm_num)
    simpa using this
  have a3 : a ≤ 1 / 2 := by rw [← e4, ha]; exact hR.mono64 _ _ (by linarith)
  have b3 : 1 / 2 ≤ b := by rw [← e4, hb]; exact hR.mono64 _ _ (by linarith)
  exact mul_le_mul_of_nonneg_right (a3.trans b3) (by linarith)

theorem bootstrapLoop_length (rd : K → K) (statistic : C → Cpp K) (sampler : G → Cpp (C × G)) (v : K)
    (n : Nat) : ∀ g l, bootstrapLoop rd statistic sampler v n g = .ok l → l.length = n := by
  induction n with
  | zero => intro g l h; injection h with h; subst h; rfl
  | succ n ih =>
    intro g l h
    unfold bootstrapLoop at h
    simp only [bind, Except.bind, pure, Except.pure] at h
    cases h1 : sampler g with
    | error e => rw [h1] at h; cases h
    | ok cg =>
      rw [h1] at h
      simp only at h
      cases h2 : statistic cg.1 with
      | error e => rw [h2] at h; cases h
      | ok x =>
        rw [h2] at h
        simp only at h
        cases h3 : bootstrapLoop rd statistic sampler v n cg.2 with
        | error e => rw [h3] at h; cases h
        | ok rest =>
          rw [h3] at h
          injection h with h
          subst h
          simp [ih _ _ h3]

theorem percentileCI_inv (R : Rnd) (S : StdSort) (rd : K → K) (original : C) (n : Nat) (alpha : ℚ)
    (statistic : C → Cpp K) (sampler : G → Cpp (C × G)) (g : G) (v lo hi : K)
    (h : percentileCI R S rd original n alpha statistic sampler g = .ok (v, lo, hi)) :
    statistic original = .ok v ∧ ∃ li ui, lowerIndex R alpha n = .ok li ∧
      upperIndex R alpha n = .ok ui ∧ li < n ∧ ui < n := by
  unfold percentileCI at h
  simp only [bind, Except.bind, pure, Except.pure] at h
  cases h1 : statistic original with
  | error e => rw [h1] at h; cases h
  | ok v' =>
    rw [h1] at h
    simp only at h
    cases h2 : bootstrapLoop rd statistic sampler v' n g with
    | error e => rw [h2] at h; cases h
    | ok diffs =>
      rw [h2] at h
      simp only at h
      obtain ⟨devs, b1, b2, _⟩ := sort_lt S diffs
      rw [b1] at h
      simp only at h
      have hlen : devs.length = n := by rw [b2.length_eq]; exact bootstrapLoop_length _ _ _ _ _ _ _ h2
      cases h3 : lowerIndex R alpha n with
      | error e => rw [h3] at h; cases h
      | ok li =>
        rw [h3] at h
        simp only at h
        cases h4 : upperIndex R alpha n with
        | error e => rw [h4] at h; cases h
        | ok ui =>
          rw [h4] at h
          simp only [vecAt] at h
          cases h5 : devs[li]? with
          | none => rw [h5] at h; cases h
          | some dl =>
            rw [h5] at h
            simp only at h
            cases h6 : devs[ui]? with
            | none => rw [h6] at h; cases h
            | some du =>
              rw [h6] at h
              injection h with h
              rw [Prod.mk.injEq] at h
              obtain ⟨rfl, _⟩ := h
              refine ⟨rfl, li, ui, rfl, rfl, ?_, ?_⟩
              · rw [← hlen]; exact (List.getElem?_eq_some_iff.1 h5).1
              · rw [← hlen]; exact (List.getElem?_eq_some_iff.1 h6).1

/-- C42: the conditions on repetitions and alpha are necessary (already in exact arithmetic). -/
theorem C42_needed (S : StdSort) (rd : K → K) (original : C) (n : Nat) (alpha : ℚ)
    (statistic : C → Cpp K) (sampler : G → Cpp (C × G)) (g : G) (v lo hi : K)
    (h : percentileCI Rnd.exact S rd original n alpha statistic sampler g = .ok (v, lo, hi)) :
    0 < n ∧ 0 < alpha ∧ alpha < 2 := by
  obtain ⟨_, li, ui, h1, h2, h3, h4⟩ := percentileCI_inv _ _ _ _ _ _ _ _ _ _ _ _ h
  have hn : 0 < n := by omega
  have hnq : (0 : ℚ) < n := by exact_mod_cast hn
  have key : ∀ (x : ℚ) (i : Nat), toSize x = .ok i → i < n → x < n := by
    intro x i hx hi
    unfold toSize at hx
    split at hx
    · injection hx with hx
      subst hx
      have : ⌊x⌋ < n := by omega
      rw [Int.floor_lt] at this
      exact_mod_cast this
    · cases hx
  have k1 := key ((1 - alpha * (1 / 2)) * n) li h1 h3
  have k2 := key (alpha * (1 / 2) * n) ui h2 h4
  refine ⟨hn, ?_, ?_⟩
  · by_contra hc
    nlinarith
  · by_contra hc
    nlinarith

/-- C42 is false in double arithmetic: with one repetition and the (positive, below 2) alpha `2^-54`
the lower bound is read out of range, whatever the statistic. -/
theorem C42_tiny_alpha_refuted (S : StdSort) (rd : K → K) (original : C)
    (statistic : C → Cpp K) (sampler : G → Cpp (C × G)) (g : G) :
    let alpha : ℚ := 1 / 2 ^ 54
    0 < alpha ∧ alpha < 2 ∧ Rnd.ieee.f64 alpha = alpha ∧
    ∀ r, percentileCI Rnd.ieee S rd original 1 alpha statistic sampler g ≠ .ok r := by
  refine ⟨by norm_num, by norm_num, ?_, ?_⟩
  · have := ieee_faithful.dyadic64 1 54 (by norm_num) (by norm_num)
    simpa using this
  · rintro ⟨v, lo, hi⟩ h
    obtain ⟨_, li, ui, h1, _, h3, _⟩ := percentileCI_inv _ _ _ _ _ _ _ _ _ _ _ _ h
    have : lowerIndex Rnd.ieee (1 / 2 ^ 54) 1 = .ok 1 := by decide +kernel
    rw [this] at h1
    injection h1 with h1
    omega

end

/-- Two repetitions of a sampler that alternates between 1 and 5; the statistic is the identity. -/
example : ∃ (devs : List ℚ) (dl du : ℚ), percentileCI (K := ℚ) (G := Bool) Rnd.exact insertionStdSort id 3 2 (1 / 2)
      (fun c : ℚ => .ok c) (fun b => .ok (if b then 1 else 5, !b)) true = .ok (3, 3 - dl, 3 - du) ∧
      List.Perm devs [-2, 2] ∧ devs[1]? = some dl ∧ devs[0]? = some du := by
  obtain ⟨cs, devs, dl, du, h1, h2, h3, h4, h5, h6, h7, h8⟩ := C42_bounds_partial (K := ℚ) (G := Bool)
    insertionStdSort id monotone_id 3 2 (1 / 2) (fun c : ℚ => .ok c)
    (fun b => .ok (if b then 1 else 5, !b)) true 3 id rfl (fun g => ⟨_, _, rfl⟩)
    (fun _ _ _ _ => rfl) (by norm_num) (by norm_num) (by norm_num) (by norm_num)
  refine ⟨devs, dl, du, h7, ?_, ?_, ?_⟩
  · have : cs = [1, 5] := by
      cases h1 with
      | nil => simp at h2
      | cons _ g' c cs a b =>
        injection a with a
        cases b with
        | nil => simp at h2
        | cons _ g'' c' cs' a' b' =>
          injection a' with a'
          simp only [if_true, Prod.mk.injEq, Bool.not_true] at a
          obtain ⟨rfl, rfl⟩ := a
          simp at a'
          obtain ⟨rfl, rfl⟩ := a'
          simp at h2
          subst h2
          rfl
    subst this
    norm_num at h3
    exact h3
  · norm_num at h5; exact h5
  · norm_num at h6; exact h6

/-! ## C42 for the statistics of the tools -/

section
variable {G Q L : Type}

/-- C42 for the four printed intervals: with at least one repetition and `0 < alpha < 2`, if the
statistic is defined on every resample, the interval is computed. -/
theorem C42_grouped {M K : Type} [LinearOrder K] [AddCommGroup K] [IsOrderedAddMonoid K]
    (S : StdSort) (rd : K → K) (hrd : Monotone rd) (rng : Rng G) (groups : List (List M)) (n seed : Nat)
    (alpha : ℚ) (statistic : List (List M) → Cpp K)
    (htot : ∀ sample, Resample groups sample → ∃ v, statistic sample = .ok v) (hself : Resample groups groups)
    (hn : 0 < n) (hn' : n < 2 ^ 64) (h0 : 0 < alpha) (h2 : alpha < 2) :
    ∃ v lo hi, percentileCIGrouped Rnd.exact S rd rng groups n alpha seed statistic = .ok (v, lo, hi) ∧
      statistic groups = .ok v ∧ (alpha ≤ 1 → lo ≤ hi) := by
  classical
  obtain ⟨v, hv⟩ := htot groups hself
  let stat : List (List M) → K := fun s =>
    match statistic s with
    | .ok v => v
    | .error _ => v
  obtain ⟨cs, devs, dl, du, _, _, _, _, _, _, h7, h8⟩ := C42_bounds_partial S rd hrd groups n alpha
    statistic (matchesByQuerySampler rng groups) (rng.seed seed) v stat hv
    (fun g => by
      obtain ⟨s, g', h, _⟩ := C40_shape rng groups g
      exact ⟨s, g', h⟩)
    (fun g c g' h => by
      obtain ⟨s, g'', h', hs⟩ := C40_shape rng groups g
      rw [h] at h'
      injection h' with h'
      rw [Prod.mk.injEq] at h'
      obtain ⟨rfl, _⟩ := h'
      obtain ⟨x, hx⟩ := htot c hs
      simp only [stat, hx]) hn hn' h0 h2
  exact ⟨v, _, _, h7, hv, h8⟩

theorem resample_self {M : Type} (groups : List (List M)) : Resample groups groups :=
  ⟨rfl, fun s hs => ⟨s, hs, rfl, fun _ h => h⟩⟩

theorem resample_all {M : Type} {groups sample : List (List M)} (h : Resample groups sample)
    (P : M → Prop) (hP : ∀ g ∈ groups, ∀ m ∈ g, P m) : ∀ g ∈ sample, ∀ m ∈ g, P m := by
  intro g hg m hm
  obtain ⟨o, ho, _, h2⟩ := h.2 g hg
  exact hP o ho m (h2 m hm)

/-- C42: the interval of the global average precision is computed, and ordered. -/
theorem C42_gap (S : StdSort) (rng : Rng G) (o : ToolOptions) (ms : List (KwsMatch Q L))
    (groups : List (List (KwsMatch Q L))) (hr : ∀ g ∈ groups, ∀ m ∈ g, Rates m.error)
    (hnan : ∀ g ∈ groups, ∀ m ∈ g, rank m ≠ .nan)
    (hn : 0 < o.samples) (hn' : o.samples < 2 ^ 64) (h0 : 0 < o.alpha) (h2 : o.alpha < 2) :
    ∃ m lo hi, globalStatistic Rnd.exact S id rng true o ms groups
        (fun ms => globalAP Rnd.exact ms o.collapse o.interp o.trapezoid)
        (fun gs b => globalAPGrouped Rnd.exact S gs o.collapse o.interp o.trapezoid b) = .ok m ∧
      m.ci = some (lo, hi) ∧ (o.alpha ≤ 1 → lo ≤ hi) := by
  obtain ⟨v, lo, hi, h, _, h'⟩ := C42_grouped S id monotone_id rng groups o.samples o.seed o.alpha
    (fun s => globalAPGrouped Rnd.exact S s o.collapse o.interp o.trapezoid true)
    (fun s hs => by
      obtain ⟨ap, h, _⟩ := C29_global_ap_grouped_partial S s o.collapse o.interp o.trapezoid true
        (resample_all hs _ hr) (fun _ => resample_all hs _ hnan)
      exact ⟨ap, h⟩) (resample_self _) hn hn' h0 h2
  refine ⟨⟨v, some (lo, hi)⟩, lo, hi, ?_, rfl, h'⟩
  unfold globalStatistic
  simp only [if_true, h, bind, Except.bind, pure, Except.pure]

/-! ## C43 -/

/-- With bootstrapping the value is that of the statistic on the grouped matches, sorted. -/
theorem global_value {K : Type} [LinearOrder K] [AddCommGroup K] [IsOrderedAddMonoid K] (R : Rnd)
    (S : StdSort) (rd : K → K) (rng : Rng G) (o : ToolOptions) (b : Bool) (ms : List (KwsMatch Q L))
    (groups : List (List (KwsMatch Q L))) (plain : List (KwsMatch Q L) → Cpp K)
    (grouped : List (List (KwsMatch Q L)) → Bool → Cpp K) (m : Metric K)
    (h : globalStatistic R S rd rng b o ms groups plain grouped = .ok m) :
    (if b then grouped groups true else plain ms) = .ok m.value := by
  unfold globalStatistic at h
  cases b with
  | false =>
    simp only [Bool.false_eq_true, if_false, bind, Except.bind, pure, Except.pure] at h
    cases hp : plain ms with
    | error e => rw [hp] at h; cases h
    | ok v =>
      rw [hp] at h
      injection h with h
      subst h
      rfl
  | true =>
    simp only [if_true, bind, Except.bind, pure, Except.pure] at h
    cases hp : percentileCIGrouped R S rd rng groups o.samples o.alpha o.seed
        (fun sample => grouped sample true) with
    | error e => rw [hp] at h; cases h
    | ok t =>
      obtain ⟨v, lo, hi⟩ := t
      rw [hp] at h
      injection h with h
      subst h
      rw [if_pos rfl]
      exact (percentileCI_inv _ _ _ _ _ _ _ _ _ _ _ _ hp).1

theorem mean_value {K : Type} [LinearOrder K] [AddCommGroup K] [IsOrderedAddMonoid K] (R : Rnd)
    (S : StdSort) (rd : K → K) (rng : Rng G) (o : ToolOptions) (b : Bool)
    (groups : List (List (KwsMatch Q L)))
    (grouped : List (List (KwsMatch Q L)) → Bool → Cpp K) (m : Metric K)
    (h : meanStatistic R S rd rng b o groups grouped = .ok m) :
    grouped groups b = .ok m.value := by
  have := global_value R S rd rng o b [] groups (fun _ => grouped groups false) grouped m h
  cases b <;> simpa using this

/-- Collapsing a list in decreasing order of score equals collapsing any rearrangement of it after
sorting. -/
theorem collapse_resort (R : Rnd) (S : StdSort) (ms ms' : List (KwsMatch Q L)) (hp : ms'.Perm ms)
    (hn : NoNaN ms) (hb : ByRank ms) (hR : R = Rnd.exact ∨ R.Faithful ∧ ms.length ≤ 2 ^ 24 ∧
      ∀ m ∈ ms, (m.error.fp = 0 ∨ m.error.fp = 1) ∧ (m.error.fn = 0 ∨ m.error.fn = 1)) :
    ∃ l, sortMatches S ms' = .ok l ∧ collapseMatches R l = collapseMatches R ms := by
  obtain ⟨l, a1, a2, a3, a4, _⟩ := sortMatches_spec S ms' (fun m hm => hn m (hp.mem_iff.1 hm))
  have hll : ms.Perm l := (a2.trans hp).symm
  refine ⟨l, a1, ?_⟩
  rcases hR with rfl | ⟨hR, hlen, hh⟩
  · exact (collapse_perm ms l hll hn hb a3).symm
  · exact (C33_collapse_ties_rounded R hR ms l hll hn hb a3 hh hlen).symm

/-- Sorting groups that are already in decreasing order of score does not change the means. -/
theorem mean_resort (R : Rnd) (S : StdSort) (groups : List (List (KwsMatch Q L)))
    (hg : ∀ g ∈ groups, NoNaN g ∧ ByRank g ∧ (R = Rnd.exact ∨ R.Faithful ∧ g.length ≤ 2 ^ 24 ∧
      ∀ m ∈ g, (m.error.fp = 0 ∨ m.error.fp = 1) ∧ (m.error.fn = 0 ∨ m.error.fn = 1)))
    (interp trapezoid b b' : Bool) :
    meanAP R S groups true interp trapezoid b = meanAP R S groups true interp trapezoid b' ∧
    meanNDCG R S groups true b = meanNDCG R S groups true b' := by
  have key : ∀ groups : List (List (KwsMatch Q L)),
      (∀ g ∈ groups, NoNaN g ∧ ByRank g ∧ (R = Rnd.exact ∨ R.Faithful ∧ g.length ≤ 2 ^ 24 ∧
        ∀ m ∈ g, (m.error.fp = 0 ∨ m.error.fp = 1) ∧ (m.error.fn = 0 ∨ m.error.fn = 1))) →
      (∀ acc, meanAPLoop R S true interp trapezoid true acc groups =
        meanAPLoop R S true interp trapezoid false acc groups) ∧
      (∀ acc, meanNDCGLoop R S true true acc groups = meanNDCGLoop R S true false acc groups) := by
    intro groups
    induction groups with
    | nil => intro _; exact ⟨fun _ => rfl, fun _ => rfl⟩
    | cons g gs ih =>
      intro hg
      obtain ⟨i1, i2⟩ := ih (fun x hx => hg x (by simp [hx]))
      obtain ⟨n1, n2, n3⟩ := hg g (by simp)
      obtain ⟨l, h1, h3⟩ := collapse_resort R S g g (List.Perm.refl _) n1 n2 n3
      constructor
      · intro acc
        simp only [meanAPLoop, if_true, Bool.false_eq_true, if_false, h1, bind, Except.bind, pure,
          Except.pure, globalAP, matchesPR, h3]
        cases computeAP R (computePR R (collapseMatches R g) interp).1
          (computePR R (collapseMatches R g) interp).2 trapezoid with
        | error e => rfl
        | ok v => exact i1 _
      · intro acc
        simp only [meanNDCGLoop, if_true, Bool.false_eq_true, if_false, h1, bind, Except.bind, pure,
          Except.pure, globalNDCG, h3]
        exact i2 _
  obtain ⟨k1, k2⟩ := key groups hg
  have e1 : ∀ b, meanAP R S groups true interp trapezoid b =
      meanAP R S groups true interp trapezoid false := by
    intro b
    cases b
    · rfl
    · unfold meanAP; rw [k1]
  have e2 : ∀ b, meanNDCG R S groups true b = meanNDCG R S groups true false := by
    intro b
    cases b
    · rfl
    · unfold meanNDCG; rw [k2]
  exact ⟨(e1 b).trans (e1 b').symm, (e2 b).trans (e2 b').symm⟩

/-- C43, with collapsing (the default): if the matches are in decreasing order of score, the four
reported values do not depend on the bootstrapping options (in exact arithmetic, or in
floating-point arithmetic for at most 2^24 hard matches). `groups` is any partition of the matches
into subsequences. Missing for C43: other orders and `--nocollapse_matches`, see the
refutations. -/
theorem C43_values_partial (R : Rnd) (S : StdSort) (rng rng' : Rng G) (w w' : World) (o o' : ToolOptions)
    (ms : List (KwsMatch Q L)) (groups : List (List (KwsMatch Q L)))
    (dump dump' : Option (List (KwsMatch Q L) × List (KwsMatch Q L))) (r r' : Report Q L)
    (hperm : groups.flatten.Perm ms) (hsub : ∀ g ∈ groups, g.Sublist ms)
    (hn : ∀ m ∈ ms, rank m ≠ .nan)
    (hs : ms.Pairwise (fun a b => Flt.lt (rank a) (rank b) = false))
    (hR : R = Rnd.exact ∨ R.Faithful ∧ ms.length ≤ 2 ^ 24 ∧
      ∀ m ∈ ms, (m.error.fp = 0 ∨ m.error.fp = 1) ∧ (m.error.fn = 0 ∨ m.error.fn = 1))
    (hc : o.collapse = true) (hc' : o'.collapse = true) (hi : o'.interp = o.interp)
    (ht : o'.trapezoid = o.trapezoid)
    (h : assess R S rng w o ms groups dump = .ok r)
    (h' : assess R S rng' w' o' ms groups dump' = .ok r') :
    r.gAP.value = r'.gAP.value ∧ r.mAP.value = r'.mAP.value ∧ r.gNDCG.value = r'.gNDCG.value ∧
      r.mNDCG.value = r'.mNDCG.value := by
  obtain ⟨a1, a2, a3, a4, _⟩ := assess_ok _ _ _ _ _ _ _ _ _ h
  obtain ⟨b1, b2, b3, b4, _⟩ := assess_ok _ _ _ _ _ _ _ _ _ h'
  have A1 := global_value _ _ _ _ _ _ _ _ _ _ _ a1
  have A2 := mean_value _ _ _ _ _ _ _ _ _ a2
  have A3 := global_value _ _ _ _ _ _ _ _ _ _ _ a3
  have A4 := mean_value _ _ _ _ _ _ _ _ _ a4
  have B1 := global_value _ _ _ _ _ _ _ _ _ _ _ b1
  have B2 := mean_value _ _ _ _ _ _ _ _ _ b2
  have B3 := global_value _ _ _ _ _ _ _ _ _ _ _ b3
  have B4 := mean_value _ _ _ _ _ _ _ _ _ b4
  rw [hc] at A1 A2 A3 A4
  rw [hc'] at B1 B2 B3 B4
  rw [hi, ht] at B1 B2
  obtain ⟨l, l1, l2⟩ := collapse_resort R S ms groups.flatten hperm hn hs hR
  have hgl : globalAPGrouped R S groups true o.interp o.trapezoid true =
      globalAP R ms true o.interp o.trapezoid := by
    unfold globalAPGrouped
    simp only [if_true, l1, bind, Except.bind, globalAP, matchesPR, l2]
  have hgn : globalNDCGGrouped R S groups true true = .ok (globalNDCG R ms true) := by
    unfold globalNDCGGrouped
    simp only [if_true, l1, bind, Except.bind, pure, Except.pure, globalNDCG, l2]
  have hgr : ∀ g ∈ groups, NoNaN g ∧ ByRank g ∧ (R = Rnd.exact ∨ R.Faithful ∧ g.length ≤ 2 ^ 24 ∧
      ∀ m ∈ g, (m.error.fp = 0 ∨ m.error.fp = 1) ∧ (m.error.fn = 0 ∨ m.error.fn = 1)) := by
    intro g hg
    have hsg := hsub g hg
    refine ⟨fun m hm => hn m (hsg.subset hm), hs.sublist hsg, ?_⟩
    rcases hR with h | ⟨h, hl, hh⟩
    · exact Or.inl h
    · exact Or.inr ⟨h, le_trans hsg.length_le hl, fun m hm => hh m (hsg.subset hm)⟩
  have fin : ∀ {K : Type} {x y : K} {c : Cpp K}, c = .ok x → c = .ok y → x = y := by
    intro K x y c h1 h2
    rw [h1] at h2
    injection h2
  refine ⟨?_, ?_, ?_, ?_⟩
  · have e1 : globalAP R ms true o.interp o.trapezoid = .ok r.gAP.value := by
      rw [← A1, hgl]; simp
    have e2 : globalAP R ms true o.interp o.trapezoid = .ok r'.gAP.value := by
      rw [← B1, hgl]; simp
    exact fin e1 e2
  · rw [(mean_resort R S groups hgr o.interp o.trapezoid o.ciMap o'.ciMap).1] at A2
    exact fin A2 B2
  · have e1 : (Except.ok (globalNDCG R ms true) : Cpp ℝ) = .ok r.gNDCG.value := by
      rw [← A3, hgn]; simp
    have e2 : (Except.ok (globalNDCG R ms true) : Cpp ℝ) = .ok r'.gNDCG.value := by
      rw [← B3, hgn]; simp
    exact fin e1 e2
  · rw [(mean_resort R S groups hgr o.interp o.trapezoid o.ciMndcg o'.ciMndcg).2] at A4
    exact fin A4 B4

/-- C43 for a whole evaluation: two runs on the same inputs with `--sort=desc` (the default) and
collapsing, and options that differ only in bootstrapping and output files, report the same
values. -/
theorem C43_tool_partial {μ σ : Type} [DecidableEq Q] [Cmp Q] [LawfulCmp Q] [Cmp L] [LawfulCmp L]
    (R : Rnd) (S : StdSort) (rng rng' : Rng G) (kit : ToolKit μ σ Q L) (w w' : World)
    (o o' : ToolOptions) (q2g : List (Q × Q)) (refs : List (Event Q L)) (hyps : List (ScoredEvent Q L))
    (hnan : ∀ h ∈ hyps, h.score ≠ .nan)
    (hR : R = Rnd.exact ∨ R.Faithful ∧ refs.length + hyps.length ≤ 2 ^ 24 ∧
      ∀ r x e, kit.scorer r x = .ok e → (e.fp = 0 ∨ e.fp = 1) ∧ (e.fn = 0 ∨ e.fn = 1))
    (hd : o.sort = "desc".toList) (hd' : o'.sort = "desc".toList)
    (hc : o.collapse = true) (hc' : o'.collapse = true) (hi : o'.interp = o.interp)
    (ht : o'.trapezoid = o.trapezoid) (r r' : Report Q L)
    (h : evaluate R S rng kit w o q2g refs hyps = .ok (.done r))
    (h' : evaluate R S rng' kit w' o' q2g refs hyps = .ok (.done r')) :
    r.gAP.value = r'.gAP.value ∧ r.mAP.value = r'.mAP.value ∧ r.gNDCG.value = r'.gNDCG.value ∧
      r.mNDCG.value = r'.mNDCG.value := by
  obtain ⟨l, s1, ms, rep, groups, a1, a2, a3, a4⟩ := evaluate_done _ _ _ _ _ _ _ _ _ _ h
  obtain ⟨l', s1', ms', rep', groups', b1, b2, b3, b4⟩ := evaluate_done _ _ _ _ _ _ _ _ _ _ h'
  rw [hd] at a1
  rw [hd', a1] at b1
  injection b1 with b1
  subst b1
  rw [a2, Except.ok.injEq, Prod.mk.injEq, Prod.mk.injEq] at b2
  obtain ⟨_, rfl, rfl⟩ := b2
  rw [a3] at b3
  injection b3 with b3
  subst b3
  obtain ⟨l2, c1, c2, c3⟩ := sortHyps_desc S (usedHyps q2g hyps)
    (fun x hx => hnan x (usedHyps_mem q2g hyps x hx))
  rw [a1] at c1
  injection c1 with c1
  subst c1
  obtain ⟨d1, d2⟩ := run_ranks _ _ _ _ _ _ _ _ a2
    (fun x hx => hnan x (usedHyps_mem q2g hyps x (c2.mem_iff.1 hx)))
  obtain ⟨e1, e2, _⟩ := groupMatches_facts _ _ _ a3
  refine C43_values_partial R S rng rng' w w' o o' ms groups _ _ r r' e1 e2 d1 (d2 c3) ?_ hc hc' hi ht a4 b4
  rcases hR with hR | ⟨hR, hl, hh⟩
  · exact Or.inl hR
  · refine Or.inr ⟨hR, ?_, run_hard _ _ _ _ _ _ _ _ a2 hh⟩
    have f1 := run_length _ _ _ _ _ _ _ _ a2
    have f2 := used_length q2g refs hyps
    have f3 := c2.length_eq
    omega

/-- C43 is false for `--sort=asc` (with the default collapsing, interpolation and integration): a
false positive with score 1 followed by a hit with score 2. Without bootstrapping the reported
global average precision is 1/2, with it 1. -/
theorem C43_ascending_refuted (S : StdSort) (rng : Rng G) :
    ∃ (fp hit : KwsMatch Nat Nat) (m m' : Metric ℚ), rank fp = .fin 1 ∧ rank hit = .fin 2 ∧
      (let o : ToolOptions := { alpha := 1 / 20, sort := "asc".toList }
       groupMatches [] [fp, hit] = .ok [[fp, hit]] ∧
       globalStatistic Rnd.exact S id rng false o [fp, hit] [[fp, hit]]
        (fun ms => globalAP Rnd.exact ms o.collapse o.interp o.trapezoid)
        (fun gs b => globalAPGrouped Rnd.exact S gs o.collapse o.interp o.trapezoid b) = .ok m ∧
       globalStatistic Rnd.exact S id rng true o [fp, hit] [[fp, hit]]
        (fun ms => globalAP Rnd.exact ms o.collapse o.interp o.trapezoid)
        (fun gs b => globalAPGrouped Rnd.exact S gs o.collapse o.interp o.trapezoid b) = .ok m' ∧
       m.value = 1 / 2 ∧ m'.value = 1) := by
  set fp : KwsMatch Nat Nat := ⟨none, some ⟨⟨1, 2⟩, .fin 1⟩, ⟨1, 0⟩⟩ with hfp
  set hit : KwsMatch Nat Nat := ⟨some ⟨1, 1⟩, some ⟨⟨1, 1⟩, .fin 2⟩, ⟨0, 0⟩⟩ with hhit
  have hmem : ∀ g ∈ [[fp, hit]], ∀ m ∈ g, m = fp ∨ m = hit := by
    intro g hg m hm
    simp only [List.mem_cons, List.not_mem_nil, or_false] at hg
    subst hg
    simpa using hm
  obtain ⟨m', lo, hi, h1, _⟩ := C42_gap S rng { alpha := 1 / 20, sort := "asc".toList } [fp, hit]
    [[fp, hit]] (by
      intro g hg m hm
      rcases hmem g hg m hm with rfl | rfl <;> simp [hfp, hhit, Rates])
    (by
      intro g hg m hm
      rcases hmem g hg m hm with rfl | rfl <;> simp [hfp, hhit, rank])
    (by norm_num) (by norm_num) (by norm_num) (by norm_num)
  refine ⟨fp, hit, ⟨1 / 2, none⟩, m', rfl, rfl, rfl, ?_, h1, rfl, ?_⟩
  · unfold globalStatistic
    have : globalAP Rnd.exact [fp, hit] true true true = .ok (1 / 2) := by decide +kernel
    simp only [Bool.false_eq_true, if_false, this]
    rfl
  · have hv := global_value _ _ _ _ _ _ _ _ _ _ _ h1
    obtain ⟨l, l1, l2, l3, _⟩ := sortMatches_spec S [fp, hit] (by
      intro m hm
      rcases hmem [fp, hit] (by simp) m hm with rfl | rfl <;> simp [hfp, hhit, rank])
    have hl : l = [hit, fp] := by
      refine (l2.trans (List.Perm.swap _ _ _)).eq_of_pairwise ?_ l3 (by
        simp [hfp, hhit, rank, Flt.lt])
      intro a b ha hb e1 e2
      have ha' := hmem [fp, hit] (by simp) a (l2.mem_iff.1 ha)
      have hb' : b = fp ∨ b = hit := by
        simp only [List.mem_cons, List.not_mem_nil, or_false] at hb
        exact hb.symm
      rcases ha' with rfl | rfl <;> rcases hb' with rfl | rfl <;>
        simp [hfp, hhit, rank, Flt.lt] at e1 e2 ⊢
    have hval : globalAPGrouped Rnd.exact S [[fp, hit]] true true true true = .ok 1 := by
      unfold globalAPGrouped
      have : ([[fp, hit]] : List (List (KwsMatch Nat Nat))).flatten = [fp, hit] := rfl
      simp only [this, if_true, l1, hl, bind, Except.bind]
      decide +kernel
    simp only [if_true, hval] at hv
    injection hv with hv
    exact hv.symm

/-- C43 is false without collapsing, even for `--sort=desc`: three matches with equal scores, the
first and the last of one query. Grouping moves the hit to the end, and a sorting algorithm may
leave it there. -/
theorem C43_ties_refuted (rng : Rng G) :
    ∃ (S : StdSort) (a b c : KwsMatch Nat Nat) (m m' : Metric ℚ),
      rank a = .fin 1 ∧ rank b = .fin 1 ∧ rank c = .fin 1 ∧
      (let o : ToolOptions := { alpha := 1 / 20, collapse := false }
       groupMatches [] [a, b, c] = .ok [[a, c], [b]] ∧
       globalStatistic Rnd.exact S id rng false o [a, b, c] [[a, c], [b]]
        (fun ms => globalAP Rnd.exact ms o.collapse o.interp o.trapezoid)
        (fun gs b => globalAPGrouped Rnd.exact S gs o.collapse o.interp o.trapezoid b) = .ok m ∧
       globalStatistic Rnd.exact S id rng true o [a, b, c] [[a, c], [b]]
        (fun ms => globalAP Rnd.exact ms o.collapse o.interp o.trapezoid)
        (fun gs b => globalAPGrouped Rnd.exact S gs o.collapse o.interp o.trapezoid b) = .ok m' ∧
       m.value = 1 / 2 ∧ m'.value = 1 / 3) := by
  set a : KwsMatch Nat Nat := ⟨none, some ⟨⟨1, 3⟩, .fin 1⟩, ⟨1, 0⟩⟩ with ha
  set b : KwsMatch Nat Nat := ⟨some ⟨2, 1⟩, some ⟨⟨2, 1⟩, .fin 1⟩, ⟨0, 0⟩⟩ with hb
  set c : KwsMatch Nat Nat := ⟨none, some ⟨⟨1, 2⟩, .fin 1⟩, ⟨1, 0⟩⟩ with hc
  have hmem : ∀ g ∈ [[a, c], [b]], ∀ m ∈ g, m = a ∨ m = b ∨ m = c := by
    intro g hg m hm
    simp only [List.mem_cons, List.not_mem_nil, or_false] at hg
    rcases hg with rfl | rfl
    · simp only [List.mem_cons, List.not_mem_nil, or_false] at hm
      rcases hm with rfl | rfl <;> simp
    · simp only [List.mem_cons, List.not_mem_nil, or_false] at hm
      subst hm; simp
  have hnn : ∀ m : KwsMatch Nat Nat, m = a ∨ m = b ∨ m = c → rank m ≠ .nan := by
    rintro m (rfl | rfl | rfl) <;> simp [ha, hb, hc, rank]
  obtain ⟨m', lo, hi, h1, _⟩ := C42_gap insertionStdSort rng { alpha := 1 / 20, collapse := false }
    [a, b, c] [[a, c], [b]] (by
      intro g hg m hm
      rcases hmem g hg m hm with rfl | rfl | rfl <;> simp [ha, hb, hc, Rates])
    (fun g hg m hm => hnn m (hmem g hg m hm))
    (by norm_num) (by norm_num) (by norm_num) (by norm_num)
  refine ⟨insertionStdSort, a, b, c, ⟨1 / 2, none⟩, m', rfl, rfl, rfl, rfl, ?_, h1, rfl, ?_⟩
  · unfold globalStatistic
    have : globalAP Rnd.exact [a, b, c] false true true = .ok (1 / 2) := by decide +kernel
    simp only [Bool.false_eq_true, if_false, this]
    rfl
  · have hv := global_value _ _ _ _ _ _ _ _ _ _ _ h1
    have hw : StrictWeakOn scoreGreater [a, c, b] := by
      refine (C34_comparator _).2 (Or.inl fun m hm => hnn m ?_)
      simp only [List.mem_cons, List.not_mem_nil, or_false] at hm
      tauto
    have hsort : sortMatches insertionStdSort [a, c, b] = .ok (insSort scoreGreater [a, c, b]) := by
      unfold sortMatches insertionStdSort
      exact if_pos hw
    have hval : globalAPGrouped Rnd.exact insertionStdSort [[a, c], [b]] false true true true =
        .ok (1 / 3) := by
      unfold globalAPGrouped
      have : ([[a, c], [b]] : List (List (KwsMatch Nat Nat))).flatten = [a, c, b] := rfl
      simp only [this, if_true, hsort, bind, Except.bind]
      decide +kernel
    simp only [if_true, hval] at hv
    injection hv with hv
    exact hv.symm

end

end Kws
