import Verif.Lemmas.AP
import Verif.Model.Tool

/-!
# Sampling of curves
-/

namespace Kws
open Spec

/-- The value at `x` computed from the source: 0 beyond the end, otherwise `sampleAt`. -/
def Sampled (R : Rnd) (linear : Bool) (src : List (ℚ × ℚ)) (x y : ℚ) : Prop :=
  ((∀ p ∈ src, p.1 < x) ∧ y = 0) ∨
  ∃ pre sx sy post, src = pre ++ (sx, sy) :: post ∧ (∀ p ∈ pre, p.1 < x) ∧ x ≤ sx ∧
    sampleAt R linear pre.getLast? sx sy x = .ok y

theorem skipTo_spec (x : ℚ) (after : List (ℚ × ℚ)) : ∀ pre : List (ℚ × ℚ), ∃ mid rest,
    after = mid ++ rest ∧ (∀ p ∈ mid, p.1 < x) ∧ (∀ s ∈ rest.head?, x ≤ s.1) ∧
    skipTo x pre.getLast? after = ((pre ++ mid).getLast?, rest) := by
  induction after with
  | nil => intro pre; exact ⟨[], [], rfl, by simp, by simp, by simp [skipTo]⟩
  | cons s rest ih =>
    intro pre
    by_cases h : s.1 < x
    · obtain ⟨mid, rest', h1, h2, h3, h4⟩ := ih (pre ++ [s])
      refine ⟨s :: mid, rest', by simp [h1], ?_, h3, ?_⟩
      · intro p hp
        rcases List.mem_cons.1 hp with rfl | hp
        · exact h
        · exact h2 p hp
      · rw [skipTo, if_pos h]
        have : some s = (pre ++ [s]).getLast? := by simp
        rw [this, h4, List.append_assoc]
        rfl
    · refine ⟨[], s :: rest, rfl, by simp, ?_, ?_⟩
      · intro s' hs'
        simp at hs'
        subst hs'
        exact not_lt.1 h
      · rw [skipTo, if_neg h, List.append_nil]

theorem sampleLoop_spec (R : Rnd) (linear : Bool) (xs : List ℚ) :
    ∀ (after pre : List (ℚ × ℚ)), xs.Pairwise (· ≤ ·) → (∀ p ∈ pre, ∀ x ∈ xs, p.1 < x) →
    (∀ pre' sx sy post, pre ++ after = pre' ++ (sx, sy) :: post → ∀ x ∈ xs,
      (∀ p ∈ pre', p.1 < x) → x ≤ sx → ∃ y, sampleAt R linear pre'.getLast? sx sy x = .ok y) →
    ∃ ys, sampleLoop R linear pre.getLast? after xs = .ok ys ∧
      List.Forall₂ (Sampled R linear (pre ++ after)) xs ys := by
  induction xs with
  | nil =>
    intro after pre _ _ _
    exact ⟨[], rfl, List.Forall₂.nil⟩
  | cons x xs ih =>
    intro after pre hs hp hok
    obtain ⟨mid, rest, rfl, hmid, hrest, hskip⟩ := skipTo_spec x after pre
    have hs' := List.pairwise_cons.1 hs
    have hall : ∀ p ∈ pre ++ mid, p.1 < x := by
      intro p hp'
      rcases List.mem_append.1 hp' with h | h
      · exact hp p h x (List.mem_cons_self ..)
      · exact hmid p h
    obtain ⟨ys, h1, h2⟩ := ih rest (pre ++ mid) hs'.2
      (fun p h x' hx' => lt_of_lt_of_le (hall p h) (hs'.1 x' hx'))
      (fun pre' sx sy post he x' hx' => hok pre' sx sy post (by rw [← List.append_assoc]; exact he) x'
        (List.mem_cons_of_mem _ hx'))
    rw [← List.append_assoc]
    obtain ⟨y, hy, hsam⟩ : ∃ y, (match rest with
        | [] => (pure 0 : Cpp ℚ)
        | (sx, sy) :: _ => sampleAt R linear (pre ++ mid).getLast? sx sy x) = .ok y ∧
        Sampled R linear (pre ++ mid ++ rest) x y := by
      cases rest with
      | nil => exact ⟨0, rfl, Or.inl ⟨by rw [List.append_nil]; exact hall, rfl⟩⟩
      | cons s rest =>
        obtain ⟨sx, sy⟩ := s
        have hle : x ≤ sx := hrest (sx, sy) (by simp)
        obtain ⟨y, hy⟩ := hok (pre ++ mid) sx sy rest (by rw [List.append_assoc]) x
          (List.mem_cons_self ..) hall hle
        exact ⟨y, hy, Or.inr ⟨pre ++ mid, sx, sy, rest, rfl, hall, hle, hy⟩⟩
    refine ⟨y :: ys, ?_, List.Forall₂.cons hsam h2⟩
    unfold sampleLoop
    simp only [hskip]
    cases rest with
    | nil =>
      injection hy with hy
      subst hy
      simp only [bind, Except.bind, h1, pure, Except.pure]
    | cons s rest =>
      simp only at hy
      simp only [hy, bind, Except.bind, h1, pure, Except.pure]

theorem sampleCurve_spec (R : Rnd) (linear : Bool) (srcX srcY dstX : List ℚ)
    (hl : srcX.length = srcY.length) (hs : dstX.Pairwise (· ≤ ·))
    (hok : ∀ pre' sx sy post, srcX.zip srcY = pre' ++ (sx, sy) :: post → ∀ x ∈ dstX,
      (∀ p ∈ pre', p.1 < x) → x ≤ sx → ∃ y, sampleAt R linear pre'.getLast? sx sy x = .ok y) :
    ∃ ys, sampleCurve R srcX srcY dstX linear = .ok ys ∧
      List.Forall₂ (Sampled R linear (srcX.zip srcY)) dstX ys := by
  unfold sampleCurve
  rw [if_pos hl]
  exact sampleLoop_spec R linear dstX (srcX.zip srcY) [] hs (by simp) hok

theorem sampleAt_plain (R : Rnd) (linear : Bool) (pre : List (ℚ × ℚ)) (sx sy x : ℚ)
    (h : ¬(linear = true ∧ pre ≠ [])) : sampleAt R linear pre.getLast? sx sy x = .ok sy := by
  cases linear with
  | false => rfl
  | true =>
    have : pre = [] := by
      by_contra hne; exact h ⟨rfl, hne⟩
    subst this
    rfl

theorem exists_getLast {α : Type} (l : List α) (h : l ≠ []) : ∃ a, l.getLast? = some a ∧ a ∈ l :=
  ⟨l.getLast h, List.getLast?_eq_some_getLast h, List.getLast_mem h⟩

/-! ### Exact arithmetic -/

theorem sampleAt_exact (px py sx sy x : ℚ) (h1 : px < x) (h2 : x ≤ sx) :
    ∃ y, sampleAt Rnd.exact true (some (px, py)) sx sy x = .ok y ∧
      (y - py) * (sx - px) = (sy - py) * (x - px) := by
  have hd : sx - x + (x - px) ≠ 0 := by
    have : 0 < sx - px := by linarith
    intro h; linarith
  refine ⟨(sx - x) / (sx - x + (x - px)) * py + (1 - (sx - x) / (sx - x + (x - px))) * sy, ?_, ?_⟩
  · have hf : fdiv Rnd.exact (sx - x) (sx - x + (x - px)) = .ok ((sx - x) / (sx - x + (x - px))) :=
      if_neg hd
    show (fdiv Rnd.exact (sx - x) (sx - x + (x - px)) >>= _) = _
    rw [hf]
    rfl
  · have he : sx - x + (x - px) = sx - px := by ring
    rw [he] at hd ⊢
    field_simp
    ring

theorem sampled_onCurve (linear : Bool) (src : List (ℚ × ℚ)) (x y : ℚ)
    (h : Sampled Rnd.exact linear src x y) : OnCurve linear src x y := by
  rcases h with h | ⟨pre, sx, sy, post, he, hp, hx, hy⟩
  · exact Or.inl h
  · refine Or.inr ⟨pre, sx, sy, post, he, hp, hx, ?_⟩
    split
    · rename_i hc
      obtain ⟨rfl, hne⟩ := hc
      obtain ⟨⟨px, py⟩, hl, hm⟩ := exists_getLast pre hne
      obtain ⟨y', h1, h2⟩ := sampleAt_exact px py sx sy x (hp _ hm) hx
      rw [hl, h1] at hy
      injection hy with hy
      subst hy
      exact ⟨px, py, hl, lt_of_lt_of_le (hp _ hm) hx, h2⟩
    · rename_i hc
      rw [sampleAt_plain _ _ _ _ _ _ hc] at hy
      injection hy with hy
      exact hy.symm

theorem sampleCurve_exact (linear : Bool) (srcX srcY dstX : List ℚ)
    (hl : srcX.length = srcY.length) (hs : dstX.Pairwise (· ≤ ·)) :
    ∃ ys, sampleCurve Rnd.exact srcX srcY dstX linear = .ok ys ∧
      List.Forall₂ (OnCurve linear (srcX.zip srcY)) dstX ys := by
  obtain ⟨ys, h1, h2⟩ := sampleCurve_spec Rnd.exact linear srcX srcY dstX hl hs (by
    intro pre sx sy post _ x _ hp hx
    by_cases hc : linear = true ∧ pre ≠ []
    · obtain ⟨rfl, hne⟩ := hc
      obtain ⟨⟨px, py⟩, hlast, hm⟩ := exists_getLast pre hne
      obtain ⟨y', h1, _⟩ := sampleAt_exact px py sx sy x (hp _ hm) hx
      exact ⟨y', by rw [hlast, h1]⟩
    · exact ⟨sy, sampleAt_plain _ _ _ _ _ _ hc⟩)
  exact ⟨ys, h1, h2.imp (fun x y h => sampled_onCurve linear _ x y h)⟩

/-- Interpolated values are between the neighbouring ordinates. -/
theorem onCurve_range (linear : Bool) (src : List (ℚ × ℚ)) (x y lo hi : ℚ)
    (h : OnCurve linear src x y) (hr : ∀ p ∈ src, lo ≤ p.2 ∧ p.2 ≤ hi) :
    y = 0 ∨ (lo ≤ y ∧ y ≤ hi) := by
  rcases h with h | ⟨pre, sx, sy, post, he, hp, hx, hy⟩
  · exact Or.inl h.2
  · right
    have hs := hr (sx, sy) (by rw [he]; simp)
    split at hy
    · obtain ⟨px, py, hlast, hlt, heq⟩ := hy
      have hm : (px, py) ∈ pre := List.mem_of_getLast? hlast
      have hpy := hr (px, py) (by rw [he]; exact List.mem_append_left _ hm)
      have hpx := hp _ hm
      simp only at hs hpy hpx
      have hd : 0 < sx - px := by linarith
      -- y is a convex combination
      have key : y * (sx - px) = py * (sx - x) + sy * (x - px) := by linarith
      constructor
      · have : lo * (sx - px) ≤ y * (sx - px) := by
          rw [key]
          nlinarith [mul_le_mul_of_nonneg_right hpy.1 (by linarith : 0 ≤ sx - x),
            mul_le_mul_of_nonneg_right hs.1 (by linarith : 0 ≤ x - px)]
        exact le_of_mul_le_mul_right this hd
      · have : y * (sx - px) ≤ hi * (sx - px) := by
          rw [key]
          nlinarith [mul_le_mul_of_nonneg_right hpy.2 (by linarith : 0 ≤ sx - x),
            mul_le_mul_of_nonneg_right hs.2 (by linarith : 0 ≤ x - px)]
        exact le_of_mul_le_mul_right this hd
    · subst hy; exact hs

/-! ### Rounded arithmetic -/

theorem sampleAt_rounded (R : Rnd) (hR : R.Precise) (px py sx sy x : ℚ) (h1 : px < x) (h2 : x ≤ sx)
    (hpx : R.f64 px = px) (hx : R.f64 x = x)
    (hpy : 0 ≤ py ∧ py ≤ 1) (hsy : 0 ≤ sy ∧ sy ≤ 1) :
    ∃ y, sampleAt R true (some (px, py)) sx sy x = .ok y ∧ 0 ≤ y ∧ y ≤ 1 := by
  have hw0 : 0 ≤ R.f64 (sx - x) := hR.nonneg64 (by linarith)
  have hw1 : 0 < R.f64 (x - px) := hR.gap64 px x hpx hx h1
  have hd : R.f64 (sx - x) ≤ R.f64 (R.f64 (sx - x) + R.f64 (x - px)) := by
    have := hR.mono64 (R.f64 (sx - x)) (R.f64 (sx - x) + R.f64 (x - px)) (by linarith)
    rwa [hR.idem64] at this
  have hd1 : 0 < R.f64 (R.f64 (sx - x) + R.f64 (x - px)) := by
    have := hR.mono64 (R.f64 (x - px)) (R.f64 (sx - x) + R.f64 (x - px)) (by linarith)
    rw [hR.idem64] at this
    linarith
  set w0 := R.f64 (sx - x) with hw0d
  set w1 := R.f64 (x - px) with hw1d
  set d := R.f64 (w0 + w1) with hdd
  have ht0 : 0 ≤ R.f64 (w0 / d) := hR.nonneg64 (div_nonneg hw0 hd1.le)
  have ht1 : R.f64 (w0 / d) ≤ 1 := hR.le_one64 (by rw [div_le_one hd1]; exact hd)
  have htr : R.f64 (R.f64 (w0 / d)) = R.f64 (w0 / d) := hR.idem64 _
  set t := R.f64 (w0 / d) with htd
  have hu0 : 0 ≤ R.f64 (1 - t) := hR.nonneg64 (by linarith)
  have hur : R.f64 (R.f64 (1 - t)) = R.f64 (1 - t) := hR.idem64 _
  have hc := hR.compl64 t ht0 ht1
  set u := R.f64 (1 - t) with hud
  have ha : R.f64 (t * py) ≤ t := by
    have := hR.mono64 (t * py) t (by nlinarith)
    rwa [htr] at this
  have ha0 : 0 ≤ R.f64 (t * py) := hR.nonneg64 (mul_nonneg ht0 hpy.1)
  have hb : R.f64 (u * sy) ≤ u := by
    have := hR.mono64 (u * sy) u (by nlinarith)
    rwa [hur] at this
  have hb0 : 0 ≤ R.f64 (u * sy) := hR.nonneg64 (mul_nonneg hu0 hsy.1)
  refine ⟨R.f64 (R.f64 (t * py) + R.f64 (u * sy)), ?_, hR.nonneg64 (by linarith), ?_⟩
  · simp only [sampleAt, fdiv, bind, Except.bind, pure, Except.pure, ← hw0d, ← hw1d, ← hdd,
      if_neg hd1.ne', ← htd, ← hud]
  · exact (hR.mono64 _ _ (add_le_add ha hb)).trans hc

theorem sampleCurve_rounded (R : Rnd) (hR : R.Precise) (linear : Bool) (srcX srcY dstX : List ℚ)
    (hl : srcX.length = srcY.length) (hs : dstX.Pairwise (· ≤ ·))
    (hxr : ∀ x ∈ srcX, R.f64 x = x) (hdr : ∀ x ∈ dstX, R.f64 x = x)
    (hy : ∀ y ∈ srcY, 0 ≤ y ∧ y ≤ 1) :
    ∃ ys, sampleCurve R srcX srcY dstX linear = .ok ys ∧ ys.length = dstX.length ∧
      ∀ y ∈ ys, 0 ≤ y ∧ y ≤ 1 := by
  have key : ∀ pre sx sy post, srcX.zip srcY = pre ++ (sx, sy) :: post → ∀ x ∈ dstX,
      (∀ p ∈ pre, p.1 < x) → x ≤ sx →
      ∃ y, sampleAt R linear pre.getLast? sx sy x = .ok y ∧ 0 ≤ y ∧ y ≤ 1 := by
    intro pre sx sy post he x hx hp hxs
    have hmem : (sx, sy) ∈ srcX.zip srcY := by rw [he]; simp
    have hsy := hy sy (List.of_mem_zip hmem).2
    by_cases hc : linear = true ∧ pre ≠ []
    · obtain ⟨rfl, hne⟩ := hc
      obtain ⟨⟨px, py⟩, hlast, hm⟩ := exists_getLast pre hne
      have hmem' : (px, py) ∈ srcX.zip srcY := by rw [he]; exact List.mem_append_left _ hm
      obtain ⟨y, h1, h2⟩ := sampleAt_rounded R hR px py sx sy x (hp _ hm) hxs
        (hxr px (List.of_mem_zip hmem').1) (hdr x hx) (hy py (List.of_mem_zip hmem').2) hsy
      exact ⟨y, by rw [hlast, h1], h2⟩
    · exact ⟨sy, sampleAt_plain _ _ _ _ _ _ hc, hsy⟩
  obtain ⟨ys, h1, h2⟩ := sampleCurve_spec R linear srcX srcY dstX hl hs
    (fun pre sx sy post he x hx hp hxs => by
      obtain ⟨y, h, _⟩ := key pre sx sy post he x hx hp hxs
      exact ⟨y, h⟩)
  refine ⟨ys, h1, h2.length_eq.symm, ?_⟩
  intro y hym
  obtain ⟨i, hi, rfl⟩ := List.mem_iff_getElem.1 hym
  have hi' : i < dstX.length := by rw [h2.length_eq]; exact hi
  have hS := List.Forall₂.get h2 hi' hi
  simp only [List.get_eq_getElem] at hS
  rcases hS with ⟨_, h0⟩ | ⟨pre, sx, sy, post, he, hp, hx, hy'⟩
  · rw [h0]; norm_num
  · obtain ⟨y', h3, h4⟩ := key pre sx sy post he _ (List.getElem_mem hi') hp hx
    rw [hy'] at h3
    injection h3 with h3
    rw [h3]; exact h4

/-! ### The grid -/

theorem evenPoints_length (R : Rnd) (n : Nat) : (evenPoints R n).length = if n > 1 then n else 0 := by
  unfold evenPoints
  split <;> simp

theorem evenPoints_sorted (R : Rnd) (hR : R.Faithful) (n : Nat) :
    (evenPoints R n).Pairwise (· ≤ ·) := by
  unfold evenPoints
  split
  · rw [List.pairwise_map]
    refine List.pairwise_lt_range.imp ?_
    intro a b hab
    refine hR.mono64 _ _ (div_le_div_of_nonneg_right (hR.mono64 _ _ ?_) (hR.nonneg64 (by positivity)))
    exact_mod_cast hab.le
  · exact List.Pairwise.nil

theorem evenPoints_repr (R : Rnd) (hR : R.Precise) (n : Nat) :
    ∀ x ∈ evenPoints R n, R.f64 x = x := by
  intro x hx
  unfold evenPoints at hx
  split at hx
  · obtain ⟨k, _, rfl⟩ := List.mem_map.1 hx
    exact hR.idem64 _
  · simp at hx

theorem computePR_repr {ε : Type} [IsError ε] (R : Rnd) (hR : R.Precise) (es : List ε)
    (interp : Bool) : ∀ x ∈ (computePR R es interp).2, R.f64 x = x := by
  intro x hx
  unfold computePR at hx
  obtain ⟨p, hp, rfl⟩ := List.mem_map.1 hx
  obtain ⟨k, hk, rfl⟩ := List.mem_iff_getElem.1 hp
  have hk' : k < es.length := by rwa [prLoop_length] at hk
  have hg := prLoop_get R (numTotalReferences es) es {} k hk'
  rw [List.getElem?_eq_getElem hk] at hg
  injection hg with hg
  rw [hg]
  unfold PRSums.recall
  split
  · exact hR.idem64 _
  · exact hR.one64

theorem matchesPR_repr {Q L : Type} (R : Rnd) (hR : R.Precise) (ms : List (KwsMatch Q L))
    (collapse interp : Bool) : ∀ x ∈ (matchesPR R ms collapse interp).2, R.f64 x = x := by
  unfold matchesPR
  split
  · exact computePR_repr R hR _ _
  · exact computePR_repr R hR _ _

theorem matchesPR_len_eq {Q L : Type} (R : Rnd) (ms : List (KwsMatch Q L)) (collapse interp : Bool) :
    (matchesPR R ms collapse interp).2.length = (matchesPR R ms collapse interp).1.length := by
  rw [(matchesPR_lengths R ms collapse interp).1, (matchesPR_lengths R ms collapse interp).2]

end Kws
