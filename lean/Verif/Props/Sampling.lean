import Verif.Lemmas.Sample

/-!
# C37 - C39: sampled recall-precision curves

`OnCurve` says what the value of a sampled curve is; `mean` is the arithmetic mean.
-/

set_option linter.unusedSectionVars false

namespace Kws
open Spec

/-! ## C37 -/

/-- C37: sampling at non-decreasing abscissae never faults (no division by zero) and gives the value
of the curve at each abscissa. -/
theorem C37_interpolation (linear : Bool) (srcX srcY dstX : List ℚ)
    (hl : srcX.length = srcY.length) (hs : dstX.Pairwise (· ≤ ·)) :
    ∃ ys, sampleCurve Rnd.exact srcX srcY dstX linear = .ok ys ∧
      List.Forall₂ (OnCurve linear (srcX.zip srcY)) dstX ys :=
  sampleCurve_exact linear srcX srcY dstX hl hs

/-- C37: the curve has exactly one value at each abscissa. -/
theorem C37_unique (linear : Bool) (src : List (ℚ × ℚ)) (x y y' : ℚ) (h : OnCurve linear src x y)
    (h' : OnCurve linear src x y') : y = y' := by
  rcases h with ⟨h, rfl⟩ | ⟨pre, sx, sy, post, he, hp, hx, hy⟩
  · rcases h' with ⟨_, rfl⟩ | ⟨pre', sx', sy', post', he', hp', hx', hy'⟩
    · rfl
    · exact absurd (h (sx', sy') (by rw [he']; simp)) (not_lt.2 hx')
  · rcases h' with ⟨h', rfl⟩ | ⟨pre', sx', sy', post', he', hp', hx', hy'⟩
    · exact absurd (h' (sx, sy) (by rw [he]; simp)) (not_lt.2 hx)
    · have hpre : pre = pre' ∧ (sx, sy) = (sx', sy') := by
        rw [he, List.append_eq_append_iff] at he'
        rcases he' with ⟨as, h1, h2⟩ | ⟨as, h1, h2⟩
        · cases as with
          | nil => simp at h1 h2; exact ⟨h1.symm, by rw [Prod.mk.injEq]; exact h2.1⟩
          | cons a as =>
            simp at h2
            exfalso
            have := hp' (sx, sy) (by rw [h1, h2.1]; simp)
            exact absurd hx (not_le.2 this)
        · cases as with
          | nil => simp at h1 h2; exact ⟨h1, by rw [Prod.mk.injEq]; exact ⟨h2.1.1.symm, h2.1.2.symm⟩⟩
          | cons a as =>
            simp at h2
            exfalso
            have := hp (sx', sy') (by rw [h1, h2.1]; simp)
            exact absurd hx' (not_le.2 this)
      obtain ⟨rfl, hss⟩ := hpre
      rw [Prod.mk.injEq] at hss
      obtain ⟨rfl, rfl⟩ := hss
      split at hy
      · rename_i hc
        rw [if_pos hc] at hy'
        obtain ⟨px, py, hl, hlt, heq⟩ := hy
        obtain ⟨px', py', hl', hlt', heq'⟩ := hy'
        rw [hl] at hl'
        injection hl' with hl'
        rw [Prod.mk.injEq] at hl'
        obtain ⟨rfl, rfl⟩ := hl'
        have hd : sx - px ≠ 0 := by intro h; linarith
        have := mul_right_cancel₀ hd (heq.trans heq'.symm)
        linarith
      · rename_i hc
        rw [if_neg hc] at hy'
        rw [hy, hy']

/-- C37: sampled values are 0 or within the range of the source ordinates. -/
theorem C37_range (linear : Bool) (srcX srcY dstX ys : List ℚ) (lo hi : ℚ)
    (hs : dstX.Pairwise (· ≤ ·)) (hr : ∀ y ∈ srcY, lo ≤ y ∧ y ≤ hi)
    (h : sampleCurve Rnd.exact srcX srcY dstX linear = .ok ys) :
    ∀ y ∈ ys, y = 0 ∨ (lo ≤ y ∧ y ≤ hi) := by
  have hl : srcX.length = srcY.length := by
    by_contra hne
    unfold sampleCurve at h
    rw [if_neg hne] at h
    cases h
  obtain ⟨ys', h1, h2⟩ := sampleCurve_exact linear srcX srcY dstX hl hs
  rw [h] at h1
  injection h1 with h1
  subst h1
  intro y hy
  obtain ⟨i, hi, rfl⟩ := List.mem_iff_getElem.1 hy
  have hi' : i < dstX.length := by rw [h2.length_eq]; exact hi
  have hS := List.Forall₂.get h2 hi' hi
  simp only [List.get_eq_getElem] at hS
  exact onCurve_range linear _ _ _ lo _ hS (fun p hp => hr p.2 (List.of_mem_zip hp).2)

/-- C37 in floating-point arithmetic: when the source abscissae and the sample points are `double`s
and the ordinates are in [0,1], no division by zero happens and all samples are in [0,1]. -/
theorem C37_rounded (R : Rnd) (hR : R.Precise) (linear : Bool) (srcX srcY dstX : List ℚ)
    (hl : srcX.length = srcY.length) (hs : dstX.Pairwise (· ≤ ·))
    (hxr : ∀ x ∈ srcX, R.f64 x = x) (hdr : ∀ x ∈ dstX, R.f64 x = x)
    (hy : ∀ y ∈ srcY, 0 ≤ y ∧ y ≤ 1) :
    ∃ ys, sampleCurve R srcX srcY dstX linear = .ok ys ∧ ys.length = dstX.length ∧
      ∀ y ∈ ys, 0 ≤ y ∧ y ≤ 1 :=
  sampleCurve_rounded R hR linear srcX srcY dstX hl hs hxr hdr hy

/-- C37: source vectors of different lengths are an out-of-range access. -/
theorem C37_lengths (R : Rnd) (linear : Bool) (srcX srcY dstX : List ℚ)
    (h : srcX.length ≠ srcY.length) : sampleCurve R srcX srcY dstX linear = .error .ub :=
  if_neg h

/-- Three source points and four sample points: before, on, between and after the source. -/
example : sampleCurve Rnd.exact [1 / 4, 1 / 2, 3 / 4] [1, 1 / 2, 1 / 4] [0, 1 / 4, 5 / 8, 1] true =
    .ok [1, 1, 3 / 8, 0] ∧
    ([0, 1 / 4, 5 / 8, 1] : List ℚ).Pairwise (· ≤ ·) := by
  refine ⟨by decide +kernel, by decide +kernel⟩

/-! ## C38 -/

/-- C38: the sample points are `k/(n-1)` for `k = 0, ..., n-1`. -/
theorem C38_grid (n : Nat) (hn : 2 ≤ n) :
    (evenPoints Rnd.exact n).length = n ∧
    ∀ k, k < n → (evenPoints Rnd.exact n)[k]? = some ((k : ℚ) / ((n : ℚ) - 1)) := by
  refine ⟨by rw [evenPoints_length, if_pos (by omega)], ?_⟩
  intro k hk
  unfold evenPoints
  rw [if_pos (by omega), List.getElem?_map, List.getElem?_range hk]
  simp only [Option.map_some, Rnd.exact, id]
  rw [Nat.cast_sub (by omega), Nat.cast_one]

/-- C38: fewer than two points give an empty list. -/
theorem C38_none (R : Rnd) (n : Nat) (hn : n < 2) : evenPoints R n = [] := by
  unfold evenPoints
  rw [if_neg (by omega)]

/-- C38: for up to 2^53 sample points, also the rounded points are strictly increasing from 0 to 1,
and each one is the correctly rounded `k/(n-1)`. -/
theorem C38_rounded (R : Rnd) (hR : R.Precise) (n : Nat) (hn : 2 ≤ n) (hn' : n ≤ 2 ^ 53) :
    (∀ k, k < n → (evenPoints R n)[k]? = some (R.f64 ((k : ℚ) / ((n : ℚ) - 1)))) ∧
    (evenPoints R n).head? = some 0 ∧ (evenPoints R n).getLast? = some 1 ∧
    (evenPoints R n).Pairwise (· < ·) := by
  have hget : ∀ k, k < n → (evenPoints R n)[k]? = some (R.f64 ((k : ℚ) / ((n : ℚ) - 1))) := by
    intro k hk
    unfold evenPoints
    rw [if_pos (by omega), List.getElem?_map, List.getElem?_range hk]
    simp only [Option.map_some]
    rw [hR.nat64 k (by omega), hR.nat64 (n - 1) (by omega), Nat.cast_sub (by omega), Nat.cast_one]
  have hlen : (evenPoints R n).length = n := by rw [evenPoints_length, if_pos (by omega)]
  have hn1 : (1 : ℚ) ≤ (n : ℚ) - 1 := by
    have : (2 : ℚ) ≤ n := by exact_mod_cast hn
    linarith
  refine ⟨hget, ?_, ?_, ?_⟩
  · rw [List.head?_eq_getElem?, hget 0 (by omega)]
    simp [hR.zero64]
  · rw [List.getLast?_eq_getElem?, hlen, hget (n - 1) (by omega), Nat.cast_sub (by omega),
      Nat.cast_one, div_self (by linarith), hR.one64]
  · rw [List.pairwise_iff_getElem]
    intro i j hi hj hij
    rw [hlen] at hi hj
    have h1 := hget i hi
    have h2 := hget j hj
    rw [List.getElem?_eq_getElem (by rw [hlen]; exact hi)] at h1
    rw [List.getElem?_eq_getElem (by rw [hlen]; exact hj)] at h2
    injection h1 with h1
    injection h2 with h2
    rw [h1, h2]
    have hb : ∀ k, k < n → 0 ≤ (k : ℚ) / ((n : ℚ) - 1) ∧ (k : ℚ) / ((n : ℚ) - 1) ≤ 1 := by
      intro k hk
      refine ⟨div_nonneg (by positivity) (by linarith), ?_⟩
      rw [div_le_one (by linarith)]
      have : (k : ℚ) + 1 ≤ n := by exact_mod_cast hk
      linarith
    have e1 := (abs_le.1 (hR.err64 _ (hb i hi).1 (hb i hi).2)).2
    have e2 := (abs_le.1 (hR.err64 _ (hb j hj).1 (hb j hj).2)).1
    have hgap : 1 / 2 ^ 53 < (j : ℚ) / ((n : ℚ) - 1) - (i : ℚ) / ((n : ℚ) - 1) := by
      rw [← sub_div]
      have hji : (1 : ℚ) ≤ (j : ℚ) - i := by
        have : (i : ℚ) + 1 ≤ j := by exact_mod_cast hij
        linarith
      have hnn : (n : ℚ) - 1 < 2 ^ 53 := by
        have : (n : ℚ) ≤ 2 ^ 53 := by exact_mod_cast hn'
        linarith
      calc (1 : ℚ) / 2 ^ 53 < 1 / ((n : ℚ) - 1) :=
            one_div_lt_one_div_of_lt (by linarith) hnn
        _ ≤ _ := div_le_div_of_nonneg_right hji (by linarith)
    have : (1 : ℚ) / 2 ^ 53 = 1 / 2 ^ 54 + 1 / 2 ^ 54 := by norm_num
    linarith

example : evenPoints Rnd.exact 5 = [0, 1 / 4, 1 / 2, 3 / 4, 1] := by decide +kernel

/-! ## C39 -/

section
variable {Q L : Type}

theorem writeCurveFile_ok {K K' : Type} (w : World) (f : Str) (x : List K) (y : List K') (hf : f ≠ [])
    (hw : w.writable f = true) (hl : x.length = y.length) :
    writeCurveFile w f x y = .ok (x.zip y) := by
  unfold writeCurveFile writeCurve
  rw [if_neg hf, if_neg (by simpa using hl)]
  simp only [bind, Except.bind, hw, if_true, pure, Except.pure]

/-- C39: writing the global curve succeeds for a writable file with a non-empty name. The abscissae
are the grid, the ordinates are values of the recall-precision curve, and they are in [0,1]. -/
theorem C39_global (w : World) (f : Str) (ms : List (KwsMatch Q L)) (n : Nat)
    (collapse interp linear : Bool) (hf : f ≠ []) (hw : w.writable f = true)
    (hr : ∀ m ∈ ms, Rates m.error) :
    ∃ pts, globalRPCurve Rnd.exact w f ms n collapse interp linear = .ok pts ∧
      pts.map Prod.fst = evenPoints Rnd.exact n ∧
      ∀ p ∈ pts, OnCurve linear ((matchesPR Rnd.exact ms collapse interp).2.zip
        (matchesPR Rnd.exact ms collapse interp).1) p.1 p.2 ∧ 0 ≤ p.2 ∧ p.2 ≤ 1 := by
  obtain ⟨ys, h1, h2⟩ := sampleCurve_exact linear (matchesPR Rnd.exact ms collapse interp).2
    (matchesPR Rnd.exact ms collapse interp).1 (evenPoints Rnd.exact n)
    (matchesPR_len_eq _ _ _ _) (evenPoints_sorted _ exact_faithful n)
  refine ⟨(evenPoints Rnd.exact n).zip ys, ?_, ?_, ?_⟩
  · unfold globalRPCurve
    simp only [h1, bind, Except.bind]
    exact writeCurveFile_ok w f _ _ hf hw h2.length_eq
  · rw [List.map_fst_zip]
    exact h2.length_eq.le
  · intro p hp
    have hon : OnCurve linear ((matchesPR Rnd.exact ms collapse interp).2.zip
        (matchesPR Rnd.exact ms collapse interp).1) p.1 p.2 :=
      (List.forall₂_iff_zip.1 h2).2 hp
    refine ⟨hon, ?_⟩
    have hb := matchesPR_bounds Rnd.exact exact_faithful ms collapse interp hr (fits64_exact _)
      (fun _ => fits32_exact _)
    rcases onCurve_range linear _ _ _ 0 1 hon (fun q hq => hb.1 q.2 (List.of_mem_zip hq).2) with h | h
    · rw [h]; norm_num
    · exact h

/-- C39: also in floating-point arithmetic writing succeeds and the ordinates are in [0,1]. -/
theorem C39_global_rounded (R : Rnd) (hR : R.Precise) (w : World) (f : Str)
    (ms : List (KwsMatch Q L)) (n : Nat) (collapse interp linear : Bool) (hf : f ≠ [])
    (hw : w.writable f = true) (hr : ∀ m ∈ ms, Rates m.error)
    (hl : ms.length ≤ if collapse then 2 ^ 24 else 2 ^ 53) :
    ∃ pts, globalRPCurve R w f ms n collapse interp linear = .ok pts ∧
      pts.map Prod.fst = evenPoints R n ∧ ∀ p ∈ pts, 0 ≤ p.2 ∧ p.2 ≤ 1 := by
  have hb := matchesPR_bounds R hR.toFaithful ms collapse interp hr
    (fits64_of R hR.toFaithful _ (le_trans hl (by split <;> norm_num)))
    (fun hc => fits32_of R hR.toFaithful _ (by rw [hc, if_pos rfl] at hl; exact hl))
  obtain ⟨ys, h1, h2, h3⟩ := sampleCurve_rounded R hR linear (matchesPR R ms collapse interp).2
    (matchesPR R ms collapse interp).1 (evenPoints R n) (matchesPR_len_eq _ _ _ _)
    (evenPoints_sorted _ hR.toFaithful n) (matchesPR_repr R hR ms collapse interp)
    (evenPoints_repr R hR n) hb.1
  refine ⟨(evenPoints R n).zip ys, ?_, ?_, fun p hp => h3 p.2 (List.of_mem_zip hp).2⟩
  · unfold globalRPCurve
    simp only [h1, bind, Except.bind]
    exact writeCurveFile_ok w f _ _ hf hw h2.symm
  · rw [List.map_fst_zip]
    exact h2.symm.le

theorem columnSum_exact (i : Nat) (yss : List (List ℚ)) : ∀ s, (∀ ys ∈ yss, i < ys.length) →
    columnSum Rnd.exact i s yss = .ok (s + (yss.map (fun ys => ys.getD i 0)).sum) := by
  induction yss with
  | nil => intro s _; simp [columnSum, pure, Except.pure]
  | cons ys yss ih =>
    intro s h
    have hi : i < ys.length := h ys (by simp)
    unfold columnSum vecAt
    rw [List.getElem?_eq_getElem hi]
    simp only [bind, Except.bind]
    rw [ih _ (fun y hy => h y (by simp [hy]))]
    simp only [Rnd.exact, id, List.map_cons, List.sum_cons]
    rw [List.getD_eq_getElem?_getD, List.getElem?_eq_getElem hi, Option.getD_some, add_assoc]

theorem columnSum_rounded (R : Rnd) (hR : R.Faithful) (i : Nat) (yss : List (List ℚ)) :
    ∀ (s : ℚ) (k : Nat), 0 ≤ s → s ≤ k → k + yss.length ≤ 2 ^ 53 → (∀ ys ∈ yss, i < ys.length) →
    (∀ ys ∈ yss, ∀ y ∈ ys, 0 ≤ y ∧ y ≤ 1) →
    ∃ t, columnSum R i s yss = .ok t ∧ 0 ≤ t ∧ t ≤ (k + yss.length : ℕ) := by
  induction yss with
  | nil => intro s k h0 h1 _ _ _; exact ⟨s, rfl, h0, by simpa using h1⟩
  | cons ys yss ih =>
    intro s k h0 h1 hk h hu
    have hi : i < ys.length := h ys (by simp)
    have hy := hu ys (by simp) _ (List.getElem_mem hi)
    rw [List.length_cons] at hk
    obtain ⟨t, h2, h3, h4⟩ := ih (R.f64 (s + ys[i])) (k + 1) (hR.nonneg64 (by linarith))
      (by
        have := hR.mono64 (s + ys[i]) ((k + 1 : ℕ) : ℚ) (by push_cast; linarith)
        rwa [hR.nat64 (k + 1) (by omega)] at this) (by omega)
      (fun y hy => h y (by simp [hy])) (fun y hy => hu y (by simp [hy]))
    refine ⟨t, ?_, h3, ?_⟩
    · unfold columnSum vecAt
      rw [List.getElem?_eq_getElem hi]
      simpa only [bind, Except.bind] using h2
    · rw [List.length_cons]
      have : k + (yss.length + 1) = k + 1 + yss.length := by omega
      rw [this]; exact h4

theorem meanColumns_spec (R : Rnd) (yss : List (List ℚ)) (P : Nat → ℚ → Prop) (N : Nat) :
    ∀ n i, i + n = N → (∀ j, j < N → ∃ s, columnSum R j 0 yss = .ok s ∧ P j s) →
    ∃ ms, meanColumns R yss i n = .ok ms ∧ ms.length = n ∧
      ∀ k, k < n → ∃ s, P (i + k) s ∧ ms[k]? = some (meanOf R s yss.length) := by
  intro n
  induction n with
  | zero => intro i _ _; exact ⟨[], rfl, rfl, fun k hk => absurd hk (by omega)⟩
  | succ n ih =>
    intro i hi h
    obtain ⟨s, h1, h2⟩ := h i (by omega)
    obtain ⟨ms, h3, h4, h5⟩ := ih (i + 1) (by omega) h
    refine ⟨meanOf R s yss.length :: ms, ?_, by simp [h4], ?_⟩
    · unfold meanColumns
      simp only [h1, h3, bind, Except.bind, pure, Except.pure]
    · intro k hk
      cases k with
      | zero => exact ⟨s, h2, rfl⟩
      | succ k =>
        obtain ⟨s', h6, h7⟩ := h5 k (by omega)
        exact ⟨s', by rw [show i + (k + 1) = i + 1 + k by omega]; exact h6, by simpa using h7⟩

/-- C39: writing the mean curve succeeds for a writable file with a non-empty name. Its abscissae are
the grid; when there are groups, the ordinate at the `k`-th abscissa is the mean over the groups of
the values of their recall-precision curves there, and it is in [0,1]; without groups it is NaN. -/
theorem C39_mean (w : World) (f : Str) (groups : List (List (KwsMatch Q L))) (n : Nat)
    (collapse interp linear : Bool) (hf : f ≠ []) (hw : w.writable f = true)
    (hr : ∀ ms ∈ groups, ∀ m ∈ ms, Rates m.error) :
    ∃ pts, meanRPCurve Rnd.exact w f groups n collapse interp linear = .ok pts ∧
      pts.map Prod.fst = evenPoints Rnd.exact n ∧
      ∀ p ∈ pts, (groups = [] → p.2 = .nan) ∧
        (groups ≠ [] → ∃ ys, List.Forall₂ (fun ms y => OnCurve linear
            ((matchesPR Rnd.exact ms collapse interp).2.zip
              (matchesPR Rnd.exact ms collapse interp).1) p.1 y) groups ys ∧
          p.2 = .fin (mean ys) ∧ 0 ≤ mean ys ∧ mean ys ≤ 1) := by
  -- the sampled curve of every group
  obtain ⟨yss, h1, h2⟩ : ∃ yss, groupCurves Rnd.exact (evenPoints Rnd.exact n) collapse interp linear
      groups = .ok yss ∧ List.Forall₂ (fun ms ys => List.Forall₂ (OnCurve linear
        ((matchesPR Rnd.exact ms collapse interp).2.zip
          (matchesPR Rnd.exact ms collapse interp).1)) (evenPoints Rnd.exact n) ys) groups yss := by
    clear hr
    induction groups with
    | nil => exact ⟨[], rfl, List.Forall₂.nil⟩
    | cons ms groups ih =>
      obtain ⟨yss, h1, h2⟩ := ih
      obtain ⟨ys, h3, h4⟩ := sampleCurve_exact linear (matchesPR Rnd.exact ms collapse interp).2
        (matchesPR Rnd.exact ms collapse interp).1 (evenPoints Rnd.exact n)
        (matchesPR_len_eq _ _ _ _) (evenPoints_sorted _ exact_faithful n)
      refine ⟨ys :: yss, ?_, List.Forall₂.cons h4 h2⟩
      unfold groupCurves
      simp only [h3, h1, bind, Except.bind, pure, Except.pure]
  set xs := evenPoints Rnd.exact n with hxs
  have hlen : ∀ ys ∈ yss, ys.length = xs.length := by
    intro ys hys
    obtain ⟨i, hi, rfl⟩ := List.mem_iff_getElem.1 hys
    have := List.Forall₂.get h2 (by rw [h2.length_eq]; exact hi) hi
    simp only [List.get_eq_getElem] at this
    exact this.length_eq.symm
  obtain ⟨ms, h3, h4, h5⟩ := meanColumns_spec Rnd.exact yss
    (fun j s => s = (yss.map (fun ys => ys.getD j 0)).sum) xs.length xs.length 0 (by omega)
    (fun j hj => ⟨_, by rw [columnSum_exact j yss 0 (fun ys hys => by rw [hlen ys hys]; exact hj),
      zero_add], rfl⟩)
  refine ⟨xs.zip ms, ?_, ?_, ?_⟩
  · unfold meanRPCurve
    simp only [← hxs, h1, h3, bind, Except.bind]
    exact writeCurveFile_ok w f _ _ hf hw h4.symm
  · rw [List.map_fst_zip]
    exact h4.symm.le
  · intro p hp
    obtain ⟨k, hk, rfl⟩ := List.mem_iff_getElem.1 hp
    rw [List.length_zip] at hk
    have hkx : k < xs.length := by omega
    have hkm : k < ms.length := by omega
    obtain ⟨s, hs, hg⟩ := h5 k hkx
    rw [List.getElem?_eq_getElem hkm] at hg
    injection hg with hg
    rw [List.getElem_zip]
    simp only [hg]
    rw [zero_add] at hs
    refine ⟨?_, ?_⟩
    · rintro rfl
      cases h2
      rfl
    · intro hne
      have hyl : yss.length = groups.length := h2.length_eq.symm
      have hpos : 0 < groups.length := List.length_pos_of_ne_nil hne
      have hF : List.Forall₂ (fun ms y => OnCurve linear ((matchesPR Rnd.exact ms collapse interp).2.zip
          (matchesPR Rnd.exact ms collapse interp).1) xs[k] y) groups
          (yss.map (fun ys => ys.getD k 0)) := by
        rw [List.forall₂_map_right_iff]
        refine h2.imp ?_
        intro ms ys hF
        have hk' : k < ys.length := by rw [← hF.length_eq]; exact hkx
        have := List.Forall₂.get hF hkx hk'
        simp only [List.get_eq_getElem] at this
        rwa [List.getD_eq_getElem?_getD, List.getElem?_eq_getElem hk', Option.getD_some]
      have hunit : ∀ y ∈ yss.map (fun ys => ys.getD k 0), 0 ≤ y ∧ y ≤ 1 := by
        intro y hy
        obtain ⟨i, hi, rfl⟩ := List.mem_iff_getElem.1 hy
        have hi' : i < groups.length := by rw [hF.length_eq]; exact hi
        have hon := List.Forall₂.get hF hi' hi
        simp only [List.get_eq_getElem] at hon
        have hb := matchesPR_bounds Rnd.exact exact_faithful groups[i] collapse interp
          (hr _ (List.getElem_mem hi')) (fits64_exact _) (fun _ => fits32_exact _)
        rcases onCurve_range linear _ _ _ 0 1 hon
          (fun q hq => hb.1 q.2 (List.of_mem_zip hq).2) with h | h
        · rw [h]; norm_num
        · exact h
      have hsum : ∀ l : List ℚ, (∀ y ∈ l, 0 ≤ y ∧ y ≤ 1) → 0 ≤ l.sum ∧ l.sum ≤ l.length := by
        intro l
        induction l with
        | nil => simp
        | cons a l ih =>
          intro h
          have h1 := ih (fun y hy => h y (by simp [hy]))
          have h2 := h a (by simp)
          simp only [List.sum_cons, List.length_cons]
          push_cast
          exact ⟨by linarith, by linarith⟩
      have hs2 := hsum _ hunit
      refine ⟨yss.map (fun ys => ys.getD k 0), hF, ?_, ?_, ?_⟩
      · unfold meanOf mean
        rw [if_neg (by omega), hs]
        simp [Rnd.exact]
      · unfold mean
        exact div_nonneg hs2.1 (by positivity)
      · unfold mean
        refine div_le_one_of_le₀ hs2.2 (by positivity)

/-- C39: also in floating-point arithmetic writing the mean curve succeeds and the ordinates are in
[0,1] when there is at least one group. -/
theorem C39_mean_rounded (R : Rnd) (hR : R.Precise) (w : World) (f : Str)
    (groups : List (List (KwsMatch Q L))) (n : Nat) (collapse interp linear : Bool) (hf : f ≠ [])
    (hw : w.writable f = true) (hr : ∀ ms ∈ groups, ∀ m ∈ ms, Rates m.error)
    (hl : ∀ ms ∈ groups, ms.length ≤ if collapse then 2 ^ 24 else 2 ^ 53)
    (hg : groups.length ≤ 2 ^ 53) :
    ∃ pts, meanRPCurve R w f groups n collapse interp linear = .ok pts ∧
      pts.map Prod.fst = evenPoints R n ∧
      (groups ≠ [] → ∀ p ∈ pts, ∃ y, p.2 = .fin y ∧ 0 ≤ y ∧ y ≤ 1) := by
  obtain ⟨yss, h1, h2, h3, h4⟩ : ∃ yss, groupCurves R (evenPoints R n) collapse interp linear
      groups = .ok yss ∧ yss.length = groups.length ∧
      (∀ ys ∈ yss, ys.length = (evenPoints R n).length) ∧
      ∀ ys ∈ yss, ∀ y ∈ ys, 0 ≤ y ∧ y ≤ 1 := by
    clear hg
    induction groups with
    | nil => exact ⟨[], rfl, rfl, by simp, by simp⟩
    | cons ms groups ih =>
      obtain ⟨yss, h1, h2, h3, h4⟩ := ih (fun g hg => hr g (by simp [hg]))
        (fun g hg => hl g (by simp [hg]))
      have hlm := hl ms (by simp)
      have hb := matchesPR_bounds R hR.toFaithful ms collapse interp (hr ms (by simp))
        (fits64_of R hR.toFaithful _ (le_trans hlm (by split <;> norm_num)))
        (fun hc => fits32_of R hR.toFaithful _ (by rw [hc, if_pos rfl] at hlm; exact hlm))
      obtain ⟨ys, h5, h6, h7⟩ := sampleCurve_rounded R hR linear (matchesPR R ms collapse interp).2
        (matchesPR R ms collapse interp).1 (evenPoints R n) (matchesPR_len_eq _ _ _ _)
        (evenPoints_sorted _ hR.toFaithful n) (matchesPR_repr R hR ms collapse interp)
        (evenPoints_repr R hR n) hb.1
      refine ⟨ys :: yss, ?_, by simp [h2], ?_, ?_⟩
      · unfold groupCurves
        simp only [h5, h1, bind, Except.bind, pure, Except.pure]
      · intro z hz
        rcases List.mem_cons.1 hz with rfl | hz
        · exact h6
        · exact h3 z hz
      · intro z hz
        rcases List.mem_cons.1 hz with rfl | hz
        · exact h7
        · exact h4 z hz
  set xs := evenPoints R n with hxs
  obtain ⟨ms, h5, h6, h7⟩ := meanColumns_spec R yss (fun j s => 0 ≤ s ∧ s ≤ (yss.length : ℕ))
    xs.length xs.length 0 (by omega)
    (fun j hj => by
      have := columnSum_rounded R hR.toFaithful j yss 0 0 le_rfl (by simp) (by omega)
        (fun ys hys => by rw [h3 ys hys]; exact hj) h4
      simpa using this)
  refine ⟨xs.zip ms, ?_, ?_, ?_⟩
  · unfold meanRPCurve
    simp only [← hxs, h1, h5, bind, Except.bind]
    exact writeCurveFile_ok w f _ _ hf hw h6.symm
  · rw [List.map_fst_zip]
    exact h6.symm.le
  · intro hne p hp
    have hpos : 0 < groups.length := List.length_pos_of_ne_nil hne
    obtain ⟨k, hk, rfl⟩ := List.mem_iff_getElem.1 hp
    rw [List.length_zip] at hk
    obtain ⟨s, hs, hge⟩ := h7 k (by omega)
    rw [List.getElem?_eq_getElem (by omega)] at hge
    injection hge with hge
    rw [List.getElem_zip]
    simp only [hge]
    refine ⟨R.f64 (s / R.f64 yss.length), ?_, ?_, ?_⟩
    · unfold meanOf
      rw [if_neg (by omega)]
    · exact hR.nonneg64 (div_nonneg hs.1 (hR.nonneg64 (by positivity)))
    · refine hR.le_one64 ?_
      rw [hR.nat64 _ (by omega)]
      exact div_le_one_of_le₀ hs.2 (by positivity)

/-- Two groups (a false positive before a hit; a hit and a miss) sampled at three points. -/
example : let groups : List (List (KwsMatch Nat Nat)) :=
      [[⟨none, some ⟨⟨1, 2⟩, .fin 2⟩, ⟨1, 0⟩⟩, ⟨some ⟨1, 1⟩, some ⟨⟨1, 1⟩, .fin 1⟩, ⟨0, 0⟩⟩],
       [⟨some ⟨2, 1⟩, some ⟨⟨2, 1⟩, .fin 1⟩, ⟨0, 0⟩⟩, ⟨some ⟨2, 2⟩, none, ⟨0, 1⟩⟩]]
    (∀ ms ∈ groups, ∀ m ∈ ms, Rates m.error) ∧
    meanRPCurve Rnd.exact ⟨fun _ => none, [], fun _ => true⟩ ['f'] groups 3 false false true =
      .ok [(0, .fin (1 / 2)), (1 / 2, .fin (5 / 8)), (1, .fin (1 / 4))] := by
  refine ⟨by unfold Rates; decide +kernel, by decide +kernel⟩

/-- C39: an empty file name or an unwritable file makes the writer throw. -/
theorem C39_unwritable (w : World) (f : Str) (x y : List ℚ) :
    (f = [] → writeCurveFile w f x y = .error .invalidArgument) ∧
    (f ≠ [] → x.length = y.length → w.writable f = false →
      writeCurveFile w f x y = .error .ioFailure) := by
  constructor
  · rintro rfl; rfl
  · intro hf hl hw
    unfold writeCurveFile writeCurve
    rw [if_neg hf, if_neg (by simpa using hl)]
    simp only [bind, Except.bind, hw]
    rfl

end

end Kws
