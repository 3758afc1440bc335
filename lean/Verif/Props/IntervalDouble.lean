import Verif.Props.Endings
import Verif.Props.Bootstrap

/-!
# C42, C90: when intervals are defined in double arithmetic
-/

namespace Kws
open Spec Ieee

/-! ## Doubles below 1 and their products -/

/-- There is no `double` between `1 - 2^-53` and 1. -/
theorem double_below_one {x : ℚ} (hx : Rnd.ieee.f64 x = x) (h : x < 1) : x ≤ 1 - 1 / 2 ^ 53 := by
  by_contra hc
  push Not at hc
  have h0 : 0 < x := lt_trans (by norm_num) hc
  have hl : Int.log 2 x = -1 := by
    have h1 : (2 : ℚ) ^ Int.log 2 x < 2 ^ (0 : ℤ) := lt_of_le_of_lt (log_le h0) (by simpa using h)
    have h2 := (zpow_lt_zpow_iff_right₀ (by norm_num : (1 : ℚ) < 2)).1 h1
    have h3 : (2 : ℚ) ^ (-1 : ℤ) < 2 ^ (Int.log 2 x + 1) :=
      lt_trans (by norm_num; linarith) (lt_log x)
    have h4 := (zpow_lt_zpow_iff_right₀ (by norm_num : (1 : ℚ) < 2)).1 h3
    omega
  have hq : quantum 53 (-1074) x = -53 := by
    unfold quantum
    rw [hl]
    norm_num
  obtain ⟨m, _, e⟩ := roundPos_form 53 (-1074) h0
  have e2 : x = roundPos 53 (-1074) x := by
    have : Ieee.round 53 (-1074) x = x := hx
    unfold Ieee.round at this
    rw [if_pos h0] at this
    exact this.symm
  rw [hq] at e
  rw [e2, e, zpow_neg] at h hc
  have hm : (m : ℚ) < 2 ^ 53 := by
    have := (mul_inv_lt_iff₀ (by positivity)).1 h
    rw [one_mul] at this
    exact_mod_cast this
  have hm' : (2 : ℚ) ^ 53 - 1 < m := by
    have := (lt_mul_inv_iff₀ (by positivity)).1 hc
    norm_num at this ⊢
    linarith
  have a1 : m < 2 ^ 53 := by exact_mod_cast hm
  have a2 : 2 ^ 53 < m + 1 := by
    have : (2 : ℚ) ^ 53 < m + 1 := by linarith
    exact_mod_cast this
  omega

/-- The product of a `double` below 1 and a whole number is rounded to less than the number. -/
theorem product_below {x : ℚ} (hx : Rnd.ieee.f64 x = x) (h : x < 1) (n : ℕ) (hn : 0 < n) :
    Rnd.ieee.f64 (x * n) < n := by
  have hnq : (0 : ℚ) < n := by exact_mod_cast hn
  have hle := double_below_one hx h
  rcases le_or_gt (x * n) 0 with h0 | h0
  · have := ieee_faithful.mono64 _ _ h0
    rw [ieee_faithful.zero64] at this
    linarith
  set y := x * n with hy
  have hyn : y ≤ n - n / 2 ^ 53 := by
    rw [hy]
    calc x * n ≤ (1 - 1 / 2 ^ 53) * n := mul_le_mul_of_nonneg_right hle hnq.le
      _ = _ := by ring
  obtain ⟨k, k1, k2⟩ : ∃ k : ℤ, (2 : ℚ) ^ k < n ∧ (n : ℚ) ≤ 2 ^ (k + 1) := by
    refine ⟨Int.clog 2 (n : ℚ) - 1, ?_, ?_⟩
    · have := Int.zpow_pred_clog_lt_self (b := 2) (by norm_num) hnq
      exact_mod_cast this
    · have := Int.self_le_zpow_clog (b := 2) (by norm_num) (n : ℚ)
      rw [sub_add_cancel]
      exact_mod_cast this
  have hk : -1 ≤ k := by
    have : (1 : ℚ) ≤ 2 ^ (k + 1) := le_trans (by exact_mod_cast hn) k2
    rw [← zpow_zero (2 : ℚ)] at this
    have := (zpow_le_zpow_iff_right₀ (by norm_num : (1 : ℚ) < 2)).1 this
    omega
  have hq := quantum_le 53 (-1074) k h0 (lt_of_lt_of_le (lt_of_le_of_lt hyn
    (sub_lt_self _ (by positivity))) k2) (by omega)
  have hr := two_zpow_le hq
  have herr := roundPos_err 53 (-1074) (x := y)
  have e : Rnd.ieee.f64 y = roundPos 53 (-1074) y := by
    show Ieee.round 53 (-1074) y = _
    unfold Ieee.round
    rw [if_pos h0]
  rw [e]
  have h3 := (abs_le.1 herr).2
  have h4 : (2 : ℚ) ^ (k - ((53 : ℕ) - 1)) = 2 ^ k / 2 ^ 52 := by
    rw [zpow_sub₀ (by norm_num)]
    norm_num
  rw [h4] at hr
  have h5 : (2 : ℚ) ^ k / 2 ^ 53 < n / 2 ^ 53 := by
    exact div_lt_div_of_pos_right k1 (by positivity)
  have h6 : 1 / 2 * ((2 : ℚ) ^ k / 2 ^ 52) = 2 ^ k / 2 ^ 53 := by ring
  linarith

/-- Half of a `double` that is not tiny is a `double`. -/
theorem half_double {x : ℚ} (hx : Rnd.ieee.f64 x = x) (h : 1 / 2 ^ 53 ≤ x) :
    Rnd.ieee.f64 (x * (1 / 2)) = x * (1 / 2) := by
  have h0 : 0 < x := lt_of_lt_of_le (by positivity) h
  obtain ⟨m, hm, e⟩ := roundPos_form 53 (-1074) h0
  have e2 : x = roundPos 53 (-1074) x := by
    have : Ieee.round 53 (-1074) x = x := hx
    unfold Ieee.round at this
    rw [if_pos h0] at this
    exact this.symm
  have hl : -54 ≤ Int.log 2 x := by
    have h3 : (2 : ℚ) ^ (-53 : ℤ) < 2 ^ (Int.log 2 x + 1) :=
      lt_of_le_of_lt (by norm_num at h ⊢; linarith) (lt_log x)
    have h4 := (zpow_lt_zpow_iff_right₀ (by norm_num : (1 : ℚ) < 2)).1 h3
    omega
  have hq : -1074 ≤ quantum 53 (-1074) x - 1 := by
    unfold quantum
    omega
  have e3 : x * (1 / 2) = m * 2 ^ (quantum 53 (-1074) x - 1) := by
    rw [zpow_sub₀ (by norm_num), zpow_one]
    nth_rw 1 [e2]
    rw [e]
    ring
  rw [e3]
  exact round_form_exact 53 (-1074) (by norm_num) m _ hm hq

/-- `1 - x` is rounded to less than 1 exactly if `x` is more than `2^-54`. -/
theorem complement_below {x : ℚ} (h1 : x ≤ 1) : Rnd.ieee.f64 (1 - x) < 1 ↔ 1 / 2 ^ 54 < x := by
  constructor
  · intro h
    by_contra hc
    push Not at hc
    have e : Rnd.ieee.f64 (1 - 1 / 2 ^ 54) = 1 := by decide +kernel
    have := ieee_faithful.mono64 (1 - 1 / 2 ^ 54) (1 - x) (by linarith)
    rw [e] at this
    linarith
  · intro h
    have := (abs_le.1 (ieee_precise.err64 (1 - x) (by linarith) (by
      have : (0 : ℚ) < 1 / 2 ^ 54 := by positivity
      linarith))).2
    linarith

/-! ## Intervals -/

theorem positions_double (n : ℕ) (hn : 0 < n) (hn' : n ≤ 2 ^ 53) (alpha : ℚ)
    (ha : Rnd.ieee.f64 alpha = alpha) :
    (Rnd.ieee.f64 (Rnd.ieee.f64 (1 - Rnd.ieee.f64 (alpha * (1 / 2))) * n) < n ∧
      Rnd.ieee.f64 (Rnd.ieee.f64 (alpha * (1 / 2)) * n) < n) ↔ 1 / 2 ^ 53 < alpha ∧ alpha < 2 := by
  have hfn := ieee_faithful.nat64 n hn'
  have hnq : (0 : ℚ) < n := by exact_mod_cast hn
  have big : ∀ c : ℚ, 1 ≤ c → ¬ Rnd.ieee.f64 (c * n) < n := by
    intro c hc h
    have := ieee_faithful.mono64 n (c * n) (le_mul_of_one_le_left hnq.le hc)
    rw [hfn] at this
    linarith
  constructor
  · rintro ⟨h1, h2⟩
    constructor
    · by_contra hc
      push Not at hc
      have e : Rnd.ieee.f64 (1 / 2 ^ 54) = 1 / 2 ^ 54 := by decide +kernel
      have hb := ieee_faithful.mono64 (alpha * (1 / 2)) (1 / 2 ^ 54) (by linarith)
      rw [e] at hb
      refine big _ ?_ h1
      have := (complement_below (hb.trans (by norm_num))).not.2 (not_lt.2 hb)
      exact not_lt.1 this
    · by_contra hc
      push Not at hc
      have hb := ieee_faithful.mono64 1 (alpha * (1 / 2)) (by linarith)
      rw [ieee_faithful.one64] at hb
      exact big _ hb h2
  · rintro ⟨h1, h2⟩
    have hb := half_double ha h1.le
    rw [hb]
    refine ⟨product_below (ieee_precise.idem64 _) ((complement_below (by linarith)).2 (by linarith)) n hn,
      product_below hb (by linarith) n hn⟩

/-- C90: in double arithmetic intervals can be read exactly if there are samples and `alpha` is more than `2^-53`
and less than 2. -/
theorem C90_interval_double (o : ToolOptions) (ha : Rnd.ieee.f64 o.alpha = o.alpha) (hn : o.samples ≤ 2 ^ 53) :
    IntervalDefined Rnd.ieee o ↔ 0 < o.samples ∧ 1 / 2 ^ 53 < o.alpha ∧ o.alpha < 2 := by
  unfold IntervalDefined lowerPosition upperPosition
  rw [ieee_faithful.nat64 _ hn]
  constructor
  · rintro ⟨h0, _, h2, _, h4⟩
    have := (positions_double _ h0 hn _ ha).1 ⟨h2, h4⟩
    exact ⟨h0, this⟩
  · rintro ⟨h0, h1, h2⟩
    have hq : (0 : ℚ) ≤ o.samples := Nat.cast_nonneg _
    have h3 : (0 : ℚ) < 1 / 2 ^ 53 := by positivity
    obtain ⟨a, b⟩ := (positions_double _ h0 hn _ ha).2 ⟨h1, h2⟩
    have hb := half_double ha h1.le
    refine ⟨h0, lt_of_lt_of_le (by norm_num) (ieee_faithful.nonneg64 (mul_nonneg (ieee_faithful.nonneg64 ?_) hq)),
      a, lt_of_lt_of_le (by norm_num) (ieee_faithful.nonneg64 (mul_nonneg (ieee_faithful.nonneg64 ?_) hq)), b⟩
    · rw [hb]; linarith
    · linarith

theorem double_value (d : ℚ) (hd : Rnd.ieee.f64 d = d) (t : Option Str) :
    Rnd.ieee.f64 (asRat (some (valueAfter Rnd.ieee (.double d) t))) =
      asRat (some (valueAfter Rnd.ieee (.double d) t)) := by
  have hmax : Rnd.ieee.f64 dblMax = dblMax := by decide +kernel
  have hmin : Rnd.ieee.f64 (-dblMax) = -dblMax := by decide +kernel
  cases t with
  | none => exact hd
  | some s =>
    simp only [valueAfter, OptVal.parseOpt, OptVal.parseOther, asRat]
    cases h : ((IStream.ofStr s).getFloat Rnd.ieee.f64 dblMax false).2 with
    | none => exact hd
    | some q =>
      rw [Option.getD_some]
      unfold IStream.getFloat at h
      dsimp only at h
      (repeat' split at h) <;> simp only [Option.some.injEq, reduceCtorEq] at h <;> subst h
      · exact ieee_faithful.zero64
      · exact hmax
      · exact hmin
      · exact ieee_precise.idem64 _

/-- C90: the `alpha` of every accepted command line is a `double`, so that `C90_interval_double` applies. -/
theorem C90_alpha (argv : List Str) (p : Parser)
    (h : (toolParser Rnd.ieee).parse Rnd.ieee argv = (.accepted, p)) :
    Rnd.ieee.f64 (ToolOptions.ofParser p).alpha = (ToolOptions.ofParser p).alpha := by
  obtain ⟨items, tail, pos, e, h1, h2, h3, h4, h5, h6, h7, hp⟩ :=
    (C52_accepts Rnd.ieee (toolParser Rnd.ieee) p (C54_tool Rnd.ieee) argv).1 h
  have hf : AMap.find? "bootstrap_alpha".toList (toolParser Rnd.ieee).opts =
      some (OptVal.double (Rnd.ieee.f64 (5 / 100))) := by
    rw [toolParser_opts]
    simp [AMap.find?]
  change Rnd.ieee.f64 (asRat (AMap.find? "bootstrap_alpha".toList p.opts)) =
    asRat (AMap.find? "bootstrap_alpha".toList p.opts)
  rw [hp]
  dsimp only
  rw [Parser.find?_optsAfter, hf]
  exact double_value _ (ieee_precise.idem64 _) _

section
variable {C G K : Type} [LinearOrder K] [AddCommGroup K] [IsOrderedAddMonoid K]

/-- C42 in double arithmetic, for at most `2^53` samples and every `double` for which the claim is true: the
interval is defined if there are samples and `2^-53 < alpha < 2`, and the bounds are the observed value minus
order statistics of the deviations, in the right order for `alpha ≤ 1`. -/
theorem C42_bounds_double_partial (S : StdSort) (rd : K → K)
    (hrd : Monotone rd) (original : C) (n : Nat) (alpha : ℚ) (statistic : C → Cpp K)
    (sampler : G → Cpp (C × G)) (g : G) (v : K) (stat : C → K)
    (hv : statistic original = .ok v) (hs : ∀ g, ∃ c g', sampler g = .ok (c, g'))
    (hstat : ∀ g c g', sampler g = .ok (c, g') → statistic c = .ok (stat c))
    (hn : 0 < n) (hn' : n ≤ 2 ^ 53) (ha : Rnd.ieee.f64 alpha = alpha) (h0 : 1 / 2 ^ 53 < alpha)
    (h2 : alpha < 2) :
    ∃ (li ui : Nat) (cs : List C) (devs : List K) (dl du : K), li < n ∧ ui < n ∧
      Successive sampler g cs ∧ cs.length = n ∧
      devs.Perm (cs.map (fun c => rd (stat c - v))) ∧ devs.Pairwise (· ≤ ·) ∧
      devs[li]? = some dl ∧ devs[ui]? = some du ∧
      percentileCI Rnd.ieee S rd original n alpha statistic sampler g =
        .ok (v, rd (v - dl), rd (v - du)) ∧
      (alpha ≤ 1 → rd (v - dl) ≤ rd (v - du)) := by
  have hR := ieee_faithful
  have hnq : (0 : ℚ) ≤ n := Nat.cast_nonneg _
  have hnb : (n : ℚ) ≤ 2 ^ 53 := by exact_mod_cast hn'
  have hpos : (0 : ℚ) < 1 / 2 ^ 53 := by positivity
  obtain ⟨l1, u1⟩ := (positions_double n hn hn' alpha ha).2 ⟨h0, h2⟩
  have hhalf := half_double ha h0.le
  have l0 : 0 ≤ Rnd.ieee.f64 (Rnd.ieee.f64 (1 - Rnd.ieee.f64 (alpha * (1 / 2))) * n) :=
    hR.nonneg64 (mul_nonneg (hR.nonneg64 (by rw [hhalf]; linarith)) hnq)
  have u0 : 0 ≤ Rnd.ieee.f64 (Rnd.ieee.f64 (alpha * (1 / 2)) * n) :=
    hR.nonneg64 (mul_nonneg (hR.nonneg64 (by linarith)) hnq)
  have hli : lowerIndex Rnd.ieee alpha n =
      .ok ⌊Rnd.ieee.f64 (Rnd.ieee.f64 (1 - Rnd.ieee.f64 (alpha * (1 / 2))) * n)⌋.toNat := by
    unfold lowerIndex
    rw [hR.nat64 n hn']
    exact toSize_ok _ l0 (by linarith)
  have hui : upperIndex Rnd.ieee alpha n = .ok ⌊Rnd.ieee.f64 (Rnd.ieee.f64 (alpha * (1 / 2)) * n)⌋.toNat := by
    unfold upperIndex
    rw [hR.nat64 n hn']
    exact toSize_ok _ u0 (by linarith)
  obtain ⟨cs, devs, dl, du, c1, c2, c3, c4, c5, c6, c7⟩ := percentileCI_eq Rnd.ieee S rd original n
    alpha statistic sampler g v stat _ _ hv hs hstat hli hui (floor_toNat_lt _ _ l0 l1)
    (floor_toNat_lt _ _ u0 u1)
  refine ⟨_, _, cs, devs, dl, du, floor_toNat_lt _ _ l0 l1, floor_toNat_lt _ _ u0 u1, c1, c2, c3, c4,
    c5, c6, c7, fun h1 => ?_⟩
  refine bounds_ordered rd hrd devs c4 _ _ dl du v (floor_toNat_mono (hR.mono64 _ _ ?_)) c5 c6
  have e4 : Rnd.ieee.f64 (1 / 2) = 1 / 2 := by
    have := hR.dyadic64 1 1 (by norm_num) (by norm_num)
    simpa using this
  have a3 : Rnd.ieee.f64 (alpha * (1 / 2)) ≤ 1 / 2 := by
    rw [hhalf]; linarith
  have b3 : 1 / 2 ≤ Rnd.ieee.f64 (1 - Rnd.ieee.f64 (alpha * (1 / 2))) := by
    have := hR.mono64 (1 / 2) (1 - Rnd.ieee.f64 (alpha * (1 / 2))) (by linarith)
    rwa [e4] at this
  exact mul_le_mul_of_nonneg_right (a3.trans b3) hnq

/-- C42: in double arithmetic, for at most `2^53` samples, these are all the cases in which the interval is
defined. -/
theorem C42_exact (S : StdSort) (rd : K → K) (hrd : Monotone rd) (original : C) (n : Nat) (alpha : ℚ)
    (statistic : C → Cpp K) (sampler : G → Cpp (C × G)) (g : G) (v : K) (stat : C → K)
    (hv : statistic original = .ok v) (hs : ∀ g, ∃ c g', sampler g = .ok (c, g'))
    (hstat : ∀ g c g', sampler g = .ok (c, g') → statistic c = .ok (stat c))
    (hn : n ≤ 2 ^ 53) (ha : Rnd.ieee.f64 alpha = alpha) :
    (∃ lo hi, percentileCI Rnd.ieee S rd original n alpha statistic sampler g = .ok (v, lo, hi)) ↔
      0 < n ∧ 1 / 2 ^ 53 < alpha ∧ alpha < 2 := by
  constructor
  · rintro ⟨lo, hi, h⟩
    obtain ⟨_, li, ui, h1, h2, h3, h4⟩ := percentileCI_inv _ _ _ _ _ _ _ _ _ _ _ _ h
    have key : ∀ (x : ℚ) (i : Nat), toSize x = .ok i → i < n → x < n := by
      intro x i hx hi
      unfold toSize at hx
      split at hx
      · injection hx with hx
        subst hx
        have : ⌊x⌋ < n := by omega
        rw [Int.floor_lt] at this
        exact_mod_cast this
      · cases hx
    have l1 := key _ _ h1 h3
    have l2 := key _ _ h2 h4
    rw [ieee_faithful.nat64 n hn] at l1 l2
    exact ⟨by omega, (positions_double n (by omega) hn alpha ha).1 ⟨l1, l2⟩⟩
  · rintro ⟨h0, h1, h2⟩
    obtain ⟨_, _, _, _, _, _, _, _, _, _, _, _, _, _, h, _⟩ := C42_bounds_double_partial S rd hrd original n alpha
      statistic sampler g v stat hv hs hstat h0 hn ha h1 h2
    exact ⟨_, _, h⟩

end

/-- The smallest `alpha` that works, the next `double` after `2^-53`, and the largest one -/
example : Rnd.ieee.f64 (1 / 2 ^ 53 + 1 / 2 ^ 105) = 1 / 2 ^ 53 + 1 / 2 ^ 105 ∧
    Rnd.ieee.f64 (2 - 1 / 2 ^ 52) = 2 - 1 / 2 ^ 52 := by decide +kernel

end Kws
