import Verif.Lemmas.Curve
import Verif.Props.Rounding

/-!
The recall-precision curves in floating-point arithmetic.
-/

set_option linter.unusedSectionVars false

namespace Kws
open Spec

/-! ## Comparing fractions after rounding -/

/-- The error of a quotient of weights. -/
theorem weight_near (u N w0 w1 d a b : ℚ) (hu : 0 < u) (hN : 1 ≤ N) (huN : 10 * u * (N * (N + 1)) ≤ 1)
    (ha : 0 ≤ a) (hb : 0 < b) (hab : 1 / N ≤ a + b) (b0 : |w0 - a| ≤ 3 * u) (b1 : |w1 - b| ≤ 3 * u)
    (ed : |d - (w0 + w1)| ≤ 4 * u) : 0 < d ∧ |w0 / d - a / (a + b)| ≤ 13 * u * (N + 1) := by
  have bd : |d - (a + b)| ≤ 10 * u := by
    rw [abs_le] at *
    constructor <;> linarith [ed.1, ed.2, b0.1, b0.2, b1.1, b1.2]
  have hdl : 1 / (N + 1) ≤ d := by
    have h10 : 10 * u ≤ 1 / N - 1 / (N + 1) := by
      rw [div_sub_div _ _ (by linarith) (by linarith), le_div_iff₀ (by nlinarith)]
      linarith
    linarith [(abs_le.1 bd).1]
  have hd0 : 0 < d := lt_of_lt_of_le (by positivity) hdl
  have hD : 0 < a + b := by linarith
  refine ⟨hd0, ?_⟩
  rw [div_sub_div _ _ hd0.ne' hD.ne', abs_div, abs_of_pos (mul_pos hd0 hD),
    div_le_iff₀ (mul_pos hd0 hD)]
  have hq : w0 * (a + b) - d * a = (w0 - a) * (a + b) - (d - (a + b)) * a := by ring
  rw [hq]
  have m0 : |(w0 - a) * (a + b)| ≤ 3 * u * (a + b) := by
    rw [abs_mul, abs_of_pos hD]; gcongr
  have m1 : |(d - (a + b)) * a| ≤ 10 * u * (a + b) := by
    rw [abs_mul, abs_of_nonneg ha]
    exact mul_le_mul bd (by linarith) ha (by positivity)
  have m2 := abs_sub ((w0 - a) * (a + b)) ((d - (a + b)) * a)
  have m3 : 1 ≤ (N + 1) * d := by
    rw [div_le_iff₀ (by linarith)] at hdl
    linarith
  have m4 : 13 * u * (a + b) * 1 ≤ 13 * u * (a + b) * ((N + 1) * d) :=
    mul_le_mul_of_nonneg_left m3 (by positivity)
  calc |(w0 - a) * (a + b) - (d - (a + b)) * a| ≤ 13 * u * (a + b) * 1 := by linarith
    _ ≤ 13 * u * (a + b) * ((N + 1) * d) := m4
    _ = 13 * u * (N + 1) * (d * (a + b)) := by ring

/-- The error of a product of numbers in the unit interval. -/
theorem product_near (e f t s p p' : ℚ) (ht : 0 ≤ t ∧ t ≤ 1) (hp : 0 ≤ p ∧ p ≤ 1) (h1 : |t - s| ≤ e)
    (h2 : |p' - p| ≤ f) : |t * p' - s * p| ≤ e + f := by
  have : t * p' - s * p = (t - s) * p + t * (p' - p) := by ring
  rw [this]
  refine (abs_add_le _ _).trans (add_le_add ?_ ?_)
  · rw [abs_mul, abs_of_nonneg hp.1]
    exact (mul_le_of_le_one_right (abs_nonneg _) hp.2).trans h1
  · rw [abs_mul, abs_of_nonneg ht.1]
    exact (mul_le_of_le_one_left (abs_nonneg _) ht.2).trans h2

theorem chain_near {a b c e f : ℚ} (h1 : |a - b| ≤ e) (h2 : |b - c| ≤ f) : |a - c| ≤ e + f :=
  (abs_sub_le a b c).trans (add_le_add h1 h2)

section
variable (R : Rnd) (hR : R.Precise)
include hR

/-- Rounding keeps the order of two different fractions with small denominators. -/
theorem round_lt_frac {a b c d : ℕ} (hb : 0 < b) (hd : 0 < d) (hb' : b ≤ 2 ^ 25) (hd' : d ≤ 2 ^ 25)
    (hab : a ≤ b) (hcd : c ≤ d) (h : (a : ℚ) / b < c / d) : R.f64 ((a : ℚ) / b) < R.f64 ((c : ℚ) / d) := by
  have hbq : (0 : ℚ) < b := by exact_mod_cast hb
  have hdq : (0 : ℚ) < d := by exact_mod_cast hd
  have ha1 : (a : ℚ) ≤ b := by exact_mod_cast hab
  have hc1 : (c : ℚ) ≤ d := by exact_mod_cast hcd
  have hb2 : (b : ℚ) ≤ 2 ^ 25 := by exact_mod_cast hb'
  have hd2 : (d : ℚ) ≤ 2 ^ 25 := by exact_mod_cast hd'
  have e1 := hR.err64 ((a : ℚ) / b) (by positivity) (by rw [div_le_one hbq]; exact ha1)
  have e2 := hR.err64 ((c : ℚ) / d) (by positivity) (by rw [div_le_one hdq]; exact hc1)
  have hN : a * d < c * b := by
    rw [div_lt_div_iff₀ hbq hdq] at h
    exact_mod_cast h
  have hN' : (a : ℚ) * d + 1 ≤ c * b := by exact_mod_cast hN
  have hgap : 1 / 2 ^ 50 ≤ (c : ℚ) / d - a / b := by
    rw [div_sub_div _ _ hdq.ne' hbq.ne', div_le_div_iff₀ (by positivity) (by positivity)]
    have hm : (d : ℚ) * b ≤ 2 ^ 50 := by
      calc (d : ℚ) * b ≤ 2 ^ 25 * 2 ^ 25 := by gcongr
        _ = 2 ^ 50 := by norm_num
    nlinarith
  rw [abs_le] at e1 e2
  have : (1 : ℚ) / 2 ^ 54 + 1 / 2 ^ 54 < 1 / 2 ^ 50 := by norm_num
  linarith [e1.2, e2.1]

theorem round_lt_frac_iff {a b c d : ℕ} (hb : 0 < b) (hd : 0 < d) (hb' : b ≤ 2 ^ 25)
    (hd' : d ≤ 2 ^ 25) (hab : a ≤ b) (hcd : c ≤ d) :
    R.f64 ((a : ℚ) / b) < R.f64 ((c : ℚ) / d) ↔ (a : ℚ) / b < c / d := by
  refine ⟨fun h => ?_, round_lt_frac R hR hb hd hb' hd' hab hcd⟩
  by_contra hn
  exact absurd h (not_lt.2 (hR.mono64 _ _ (not_lt.1 hn)))

/-! ## The value at a point -/

/-- The error of a value on a curve whose abscissae are fractions with denominator `N`. -/
def curveError (N : ℕ) : ℚ := 7 * (N + 2) / 2 ^ 52

theorem sampleAt_near (hE : RelErr R) (N : ℕ) (hN : 0 < N) (hN' : N ≤ 2 ^ 24)
    (px py sx sy x py' sy' : ℚ) (h1 : px < x) (h2 : x ≤ sx) (hp0 : 0 ≤ px) (hs1 : sx ≤ 1)
    (hgap : 1 / (N : ℚ) ≤ sx - px) (h1' : R.f64 px < R.f64 x)
    (hpy : 0 ≤ py ∧ py ≤ 1) (hsy : 0 ≤ sy ∧ sy ≤ 1) (hpy' : 0 ≤ py' ∧ py' ≤ 1)
    (hsy' : 0 ≤ sy' ∧ sy' ≤ 1) (dp : |py' - py| ≤ 2 / 2 ^ 54) (ds : |sy' - sy| ≤ 2 / 2 ^ 54) :
    ∃ y, sampleAt R true (some (R.f64 px, py')) (R.f64 sx) sy' (R.f64 x) = .ok y ∧
      |y - (py + (sy - py) * (x - px) / (sx - px))| ≤ curveError N := by
  have hN1 : (1 : ℚ) ≤ N := by exact_mod_cast hN
  have hN2 : (N : ℚ) ≤ 2 ^ 24 := by exact_mod_cast hN'
  obtain ⟨u, hu⟩ : ∃ u : ℚ, u = 1 / 2 ^ 54 := ⟨_, rfl⟩
  have hu0 : 0 < u := by rw [hu]; positivity
  have huN : 10 * u * ((N : ℚ) * (N + 1)) ≤ 1 := by
    have : (N : ℚ) * (N + 1) ≤ 2 ^ 24 * (2 ^ 24 + 1) := by gcongr
    rw [hu]
    calc 10 * (1 / 2 ^ 54) * ((N : ℚ) * (N + 1)) ≤ 10 * (1 / 2 ^ 54) * (2 ^ 24 * (2 ^ 24 + 1)) := by
          gcongr
      _ ≤ 1 := by norm_num
  have hdp : (2 : ℚ) / 2 ^ 54 = 2 * u := by rw [hu]; norm_num
  have hu4 : (2 : ℚ) / 2 ^ 53 = 4 * u := by rw [hu]; norm_num
  rw [hdp] at dp ds
  have err : ∀ a, 0 ≤ a → a ≤ 1 → |R.f64 a - a| ≤ u := by rw [hu]; exact hR.err64
  have err2 : ∀ a, 0 ≤ a → a ≤ 2 → |R.f64 a - a| ≤ 4 * u := by
    intro a h0 h2
    rw [← hu4]
    exact hE a 2 (by rw [abs_of_nonneg h0]; exact h2) (by norm_num)
  have ep := err px hp0 (by linarith)
  have ex := err x (by linarith) (by linarith)
  have es := err sx (by linarith) hs1
  have mp : 0 ≤ R.f64 px := hR.nonneg64 hp0
  have ms : R.f64 sx ≤ 1 := hR.le_one64 hs1
  have mx : R.f64 x ≤ R.f64 sx := hR.mono64 _ _ h2
  have e0 := err (R.f64 sx - R.f64 x) (by linarith) (by linarith)
  have e1 := err (R.f64 x - R.f64 px) (by linarith) (by linarith)
  have hw0 : 0 ≤ R.f64 (R.f64 sx - R.f64 x) := hR.nonneg64 (by linarith)
  have hw1 : 0 ≤ R.f64 (R.f64 x - R.f64 px) := hR.nonneg64 (by linarith)
  have hw0' : R.f64 (R.f64 sx - R.f64 x) ≤ 1 := hR.le_one64 (by linarith)
  have hw1' : R.f64 (R.f64 x - R.f64 px) ≤ 1 := hR.le_one64 (by linarith)
  obtain ⟨w0, hw0d⟩ : ∃ w0, R.f64 (R.f64 sx - R.f64 x) = w0 := ⟨_, rfl⟩
  obtain ⟨w1, hw1d⟩ : ∃ w1, R.f64 (R.f64 x - R.f64 px) = w1 := ⟨_, rfl⟩
  have hdm : w0 ≤ R.f64 (w0 + w1) := by
    have := hR.mono64 w0 (w0 + w1) (by linarith)
    rwa [← hw0d, hR.idem64, hw0d] at this
  rw [hw0d] at e0 hw0 hw0'
  rw [hw1d] at e1 hw1 hw1'
  have ed := err2 (w0 + w1) (by linarith) (by linarith)
  obtain ⟨d, hdd⟩ : ∃ d, R.f64 (w0 + w1) = d := ⟨_, rfl⟩
  rw [hdd] at ed hdm
  have b0 : |w0 - (sx - x)| ≤ 3 * u := by
    rw [abs_le] at e0 es ex ⊢
    constructor <;> linarith [e0.1, e0.2, es.1, es.2, ex.1, ex.2]
  have b1 : |w1 - (x - px)| ≤ 3 * u := by
    rw [abs_le] at e1 ep ex ⊢
    constructor <;> linarith [e1.1, e1.2, ep.1, ep.2, ex.1, ex.2]
  have hsum : sx - px = sx - x + (x - px) := by ring
  rw [hsum] at hgap
  obtain ⟨hd0, bt⟩ := weight_near u N w0 w1 d (sx - x) (x - px) hu0 hN1 huN (by linarith) (by linarith)
    hgap b0 b1 ed
  rw [← hsum] at bt
  have hD : 0 < sx - px := by linarith
  have q0 : 0 ≤ w0 / d := div_nonneg hw0 hd0.le
  have q1 : w0 / d ≤ 1 := by rw [div_le_one hd0]; exact hdm
  have et := err _ q0 q1
  have ht0 : 0 ≤ R.f64 (w0 / d) := hR.nonneg64 q0
  have ht1 : R.f64 (w0 / d) ≤ 1 := hR.le_one64 q1
  obtain ⟨t, htd⟩ : ∃ t, R.f64 (w0 / d) = t := ⟨_, rfl⟩
  rw [htd] at et ht0 ht1
  have bts := chain_near et bt
  have eu := err (1 - t) (by linarith) (by linarith)
  have hu0' : 0 ≤ R.f64 (1 - t) := hR.nonneg64 (by linarith)
  have hu1' : R.f64 (1 - t) ≤ 1 := hR.le_one64 (by linarith)
  obtain ⟨v, hvd⟩ : ∃ v, R.f64 (1 - t) = v := ⟨_, rfl⟩
  rw [hvd] at eu hu0' hu1'
  obtain ⟨s, hsd⟩ : ∃ s, s = (sx - x) / (sx - px) := ⟨_, rfl⟩
  rw [← hsd] at bts
  have bv := chain_near eu (show |1 - t - (1 - s)| ≤ u + 13 * u * (N + 1) by
    rw [show 1 - t - (1 - s) = -(t - s) by ring, abs_neg]; exact bts)
  have ba := product_near _ _ t s py py' ⟨ht0, ht1⟩ hpy bts dp
  have bc := product_near _ _ v (1 - s) sy sy' ⟨hu0', hu1'⟩ hsy bv ds
  have a0 : 0 ≤ t * py' := mul_nonneg ht0 hpy'.1
  have a1 : t * py' ≤ 1 := mul_le_one₀ ht1 hpy'.1 hpy'.2
  have c0 : 0 ≤ v * sy' := mul_nonneg hu0' hsy'.1
  have c1 : v * sy' ≤ 1 := mul_le_one₀ hu1' hsy'.1 hsy'.2
  have ea := chain_near (err _ a0 a1) ba
  have ec := chain_near (err _ c0 c1) bc
  have ha1 : R.f64 (t * py') ≤ 1 := hR.le_one64 a1
  have hc1 : R.f64 (v * sy') ≤ 1 := hR.le_one64 c1
  have ha0 : 0 ≤ R.f64 (t * py') := hR.nonneg64 a0
  have hc0 : 0 ≤ R.f64 (v * sy') := hR.nonneg64 c0
  have ey := err2 (R.f64 (t * py') + R.f64 (v * sy')) (by linarith) (by linarith)
  refine ⟨R.f64 (R.f64 (t * py') + R.f64 (v * sy')), ?_, ?_⟩
  · simp only [sampleAt, fdiv, bind, Except.bind, pure, Except.pure, hw0d, hw1d, hdd,
      if_neg hd0.ne', htd, hvd]
  · have hval : py + (sy - py) * (x - px) / (sx - px) = s * py + (1 - s) * sy := by
      rw [hsd]; field_simp; ring
    rw [hval]
    have hfin : curveError N = 28 * u * (N + 2) := by
      unfold curveError; rw [hu]; ring
    rw [hfin]
    have hun : u ≤ u * N := le_mul_of_one_le_right hu0.le hN1
    refine (chain_near ey (f := (u + (u + 13 * u * (N + 1) + 2 * u)) +
      (u + (u + (u + 13 * u * (N + 1)) + 2 * u))) ?_).trans ?_
    · rw [show R.f64 (t * py') + R.f64 (v * sy') - (s * py + (1 - s) * sy) =
        (R.f64 (t * py') - s * py) + (R.f64 (v * sy') - (1 - s) * sy) by ring]
      exact (abs_add_le _ _).trans (add_le_add ea ec)
    · clear * - hun hu0
      nlinarith

omit hR in
theorem valueAt_split (linear : Bool) (x : ℚ) (l pre : List (ℚ × ℚ)) (h : ∀ p ∈ pre, p.1 < x) :
    ∀ prev, valueAt linear x prev (pre ++ l) = valueAt linear x (pre.getLast?.or prev) l := by
  induction pre with
  | nil => intro prev; rfl
  | cons p pre ih =>
    intro prev
    have e : valueAt linear x prev (p :: (pre ++ l)) = valueAt linear x (some p) (pre ++ l) := by
      simp only [valueAt, if_pos (h p (by simp))]
    rw [List.cons_append, e, ih (fun q hq => h q (by simp [hq])), List.getLast?_cons]
    cases pre.getLast? <;> rfl

/-- The points of a curve on the grid of fractions with denominator `N`, and how they are rounded. -/
structure Rounded (N : ℕ) (src' src : List (ℚ × ℚ)) : Prop where
  near : List.Forall₂ (fun p' p => p'.1 = R.f64 p.1 ∧ |p'.2 - p.2| ≤ 2 / 2 ^ 54) src' src
  grid : ∀ p ∈ src, ∃ a ≤ N, p.1 = (a : ℚ) / N
  unit : ∀ p ∈ src, 0 ≤ p.2 ∧ p.2 ≤ 1
  unit' : ∀ p ∈ src', 0 ≤ p.2 ∧ p.2 ≤ 1

omit hR in
theorem curveError_le (N : ℕ) : (2 : ℚ) / 2 ^ 54 ≤ curveError N := by
  unfold curveError
  have : (0 : ℚ) ≤ N := by positivity
  rw [div_le_div_iff₀ (by positivity) (by positivity)]
  nlinarith

omit hR in
theorem forall₂_mem_left {α β : Type} {r : α → β → Prop} {l : List α} {l' : List β}
    (h : List.Forall₂ r l l') {a : α} (ha : a ∈ l) : ∃ b ∈ l', r a b := by
  induction h with
  | nil => simp at ha
  | @cons x y l l' hxy _ ih =>
    rcases List.mem_cons.1 ha with rfl | ha
    · exact ⟨y, by simp, hxy⟩
    · obtain ⟨b, hb, hr⟩ := ih ha
      exact ⟨b, by simp [hb], hr⟩

omit hR in
theorem forall₂_mem_right {α β : Type} {r : α → β → Prop} {l : List α} {l' : List β}
    (h : List.Forall₂ r l l') {b : β} (hb : b ∈ l') : ∃ a ∈ l, r a b := by
  induction h with
  | nil => simp at hb
  | @cons x y l l' hxy _ ih =>
    rcases List.mem_cons.1 hb with rfl | hb
    · exact ⟨x, by simp, hxy⟩
    · obtain ⟨a, ha, hr⟩ := ih hb
      exact ⟨a, by simp [ha], hr⟩

omit hR in
theorem forall₂_split {α β : Type} {r : α → β → Prop} {a b : List α} {l' : List β}
    (h : List.Forall₂ r (a ++ b) l') :
    ∃ c d, List.Forall₂ r a c ∧ List.Forall₂ r b d ∧ l' = c ++ d := by
  induction a generalizing l' with
  | nil => exact ⟨[], l', .nil, h, rfl⟩
  | cons x a ih =>
    cases h with
    | cons hxy h =>
      obtain ⟨c, d, h1, h2, rfl⟩ := ih h
      exact ⟨_ :: c, d, .cons hxy h1, h2, rfl⟩

omit hR in
theorem forall₂_getLast? {α β : Type} {r : α → β → Prop} {l : List α} {l' : List β}
    (h : List.Forall₂ r l l') : (l.getLast? = none ∧ l'.getLast? = none) ∨
      ∃ a b, l.getLast? = some a ∧ l'.getLast? = some b ∧ r a b := by
  induction h with
  | nil => exact Or.inl ⟨rfl, rfl⟩
  | @cons x y l l' hxy _ ih =>
    right
    rw [List.getLast?_cons, List.getLast?_cons]
    rcases ih with ⟨e1, e2⟩ | ⟨a, b, e1, e2, hr⟩
    · exact ⟨x, y, by rw [e1]; rfl, by rw [e2]; rfl, hxy⟩
    · exact ⟨a, b, by rw [e1]; rfl, by rw [e2]; rfl, hr⟩

/-- The value computed at a point of the grid is close to the value of the curve. -/
theorem sampled_near (hE : RelErr R) (linear : Bool) (N M k : ℕ) (hN : 0 < N) (hN' : N ≤ 2 ^ 24)
    (hM : 0 < M) (hM' : M ≤ 2 ^ 24) (hk : k ≤ M) (src' src : List (ℚ × ℚ)) (h : Rounded R N src' src)
    (y : ℚ) (hy : Sampled R linear src' (R.f64 ((k : ℚ) / M)) y) :
    |y - valueAt linear ((k : ℚ) / M) none src| ≤ curveError N := by
  have lt_iff : ∀ {p' p : ℚ × ℚ}, p ∈ src → p'.1 = R.f64 p.1 →
      (p'.1 < R.f64 ((k : ℚ) / M) ↔ p.1 < (k : ℚ) / M) := by
    intro p' p hp e
    obtain ⟨a, ha, ep⟩ := h.grid p hp
    rw [e, ep]
    exact round_lt_frac_iff R hR hN hM (by omega) (by omega) ha hk
  rcases hy with ⟨h1, rfl⟩ | ⟨pre', sx', sy', post', rfl, h1, h2, h3⟩
  · have h1' : ∀ p ∈ src, p.1 < (k : ℚ) / M := by
      intro p hp
      obtain ⟨p', hp', e, _⟩ := forall₂_mem_right h.near hp
      exact (lt_iff hp e).1 (h1 p' hp')
    have := valueAt_split linear ((k : ℚ) / M) [] src h1' none
    rw [List.append_nil] at this
    rw [this]
    simp only [valueAt, sub_self, abs_zero]
    exact le_trans (by positivity) (curveError_le N)
  · have hnear := h.near
    obtain ⟨pre, l, hpre, hl, rfl⟩ : ∃ pre l, List.Forall₂ (fun (p' p : ℚ × ℚ) => p'.1 = R.f64 p.1 ∧
        |p'.2 - p.2| ≤ 2 / 2 ^ 54) pre' pre ∧ List.Forall₂ (fun (p' p : ℚ × ℚ) => p'.1 = R.f64 p.1 ∧
        |p'.2 - p.2| ≤ 2 / 2 ^ 54) ((sx', sy') :: post') l ∧ src = pre ++ l := by
      exact forall₂_split hnear
    cases hl with
    | @cons _ s _ post hs hpost =>
      obtain ⟨sx, sy⟩ := s
      obtain ⟨es, ds⟩ := hs
      simp only at es ds
      have ms : (sx, sy) ∈ pre ++ (sx, sy) :: post := by simp
      have h1' : ∀ p ∈ pre, p.1 < (k : ℚ) / M := by
        intro p hp
        obtain ⟨p', hp', e, _⟩ := forall₂_mem_right hpre hp
        exact (lt_iff (List.mem_append_left _ hp) e).1 (h1 p' hp')
      have h2' : ¬ sx < (k : ℚ) / M := by
        rw [← lt_iff (p' := (sx', sy')) ms es]
        exact not_lt.2 h2
      rw [valueAt_split linear _ _ _ h1', Option.or_none]
      simp only [valueAt, if_neg h2']
      rcases forall₂_getLast? hpre with ⟨e1, e2⟩ | ⟨⟨px', py'⟩, ⟨px, py⟩, e1, e2, e3, e4⟩
      · rw [e2]
        rw [e1] at h3
        have : sampleAt R linear none sx' sy' (R.f64 ((k : ℚ) / M)) = .ok sy' := by
          cases linear <;> rfl
        rw [this] at h3
        injection h3 with h3
        rw [← h3]
        exact ds.trans (curveError_le N)
      · rw [e2]
        rw [e1] at h3
        cases linear with
        | false =>
          injection h3 with h3
          rw [← h3]
          exact ds.trans (curveError_le N)
        | true =>
          simp only [if_true]
          simp only at e3 e4
          have mp' := List.mem_of_getLast? e1
          have mp := List.mem_of_getLast? e2
          have hlt := h1' _ mp
          have hlt' := h1 _ mp'
          simp only at hlt hlt'
          have hNq : (0 : ℚ) < N := by exact_mod_cast hN
          obtain ⟨a, ha, ea⟩ := h.grid _ (List.mem_append_left _ mp)
          obtain ⟨b, hb, eb⟩ := h.grid _ ms
          simp only at ea eb
          have hab : a < b := by
            have : (a : ℚ) / N < b / N := by rw [← ea, ← eb]; linarith [not_lt.1 h2']
            rw [div_lt_div_iff_of_pos_right hNq] at this
            exact_mod_cast this
          obtain ⟨z, z1, z2⟩ := sampleAt_near R hR hE N hN hN' px py sx sy ((k : ℚ) / M) py' sy' hlt
            (not_lt.1 h2') (by rw [ea]; positivity)
            (by rw [eb, div_le_one hNq]; exact_mod_cast hb)
            (by
              rw [ea, eb, ← sub_div]
              gcongr
              have : (a : ℚ) + 1 ≤ b := by exact_mod_cast hab
              linarith)
            (by rw [← e3]; exact hlt')
            (h.unit _ (List.mem_append_left _ mp)) (h.unit _ ms)
            (h.unit' _ (List.mem_append_left _ mp')) (h.unit' (sx', sy') (by simp)) e4 ds
          rw [e3, es, z1] at h3
          injection h3 with h3
          rw [← h3]
          exact z2

/-! ## The points of a curve -/

section
variable {ε : Type} [IsError ε]

/-- The rounded recall is that of the exact recall. -/
theorem recall_round (s : PRSums) (TR : Nat) (b : ℕ) (hb : s.sumFN = b / 2 ^ 24)
    (hb' : s.sumFN ≤ s.sumNR) (hTR : s.sumNR ≤ TR) (hg : TR ≤ 2 ^ 29) :
    s.recall R TR = R.f64 (s.recall Rnd.exact TR) := by
  have g := fits64_of R hR.toFaithful TR (by omega)
  unfold PRSums.recall
  split
  · have hgb := grid_le (hb ▸ hb')
    rw [g _ le_rfl, g _ hTR]
    have hs : R.f64 ((s.sumNR : ℚ) - s.sumFN) = s.sumNR - s.sumFN := by
      have e : (s.sumNR : ℚ) - s.sumFN = ((s.sumNR * 2 ^ 24 - b : ℕ) : ℚ) / 2 ^ 24 := by
        rw [Nat.cast_sub hgb, hb]; push_cast; ring
      rw [e]; exact hR.dyadic64 _ 24 (by omega) (by norm_num)
    rw [hs]
    rfl
  · exact hR.one64.symm

theorem computePR_recall (es : List ε) (interp : Bool)
    (hw : ∀ e ∈ es, OnGrid e) (hes : ∀ e ∈ es, ErrOk e)
    (hh : (es.map IsError.nh).sum ≤ 2 ^ 29) (hr : (es.map IsError.nr).sum ≤ 2 ^ 29) :
    (computePR R es interp).2 = (computePR Rnd.exact es interp).2.map R.f64 := by
  rw [show (computePR R es interp).2 = (prLoop R (numTotalReferences es) {} es).map (·.2) from rfl,
    show (computePR Rnd.exact es interp).2 =
      (prLoop Rnd.exact (numTotalReferences es) {} es).map (·.2) from rfl]
  refine List.ext_getElem? fun k => ?_
  by_cases hk : k < es.length
  · obtain ⟨s, a, b, -, g1, g2, -, h2, -, h4, h5, -, h7⟩ :=
      prLoop_grid R hR.toFaithful es hw hes hh hr k hk
    rw [List.getElem?_map, List.getElem?_map, List.getElem?_map, g1, g2]
    simp only [Option.map_some]
    rw [recall_round R hR s _ b h2 h4 h5 h7]
  · rw [List.getElem?_eq_none (by simp [prLoop_length]; omega),
      List.getElem?_eq_none (by simp [prLoop_length]; omega)]

end

section
variable {Q L : Type}

theorem matchesPR_recall (ms : List (KwsMatch Q L)) (collapse interp : Bool) (h : GridOk collapse ms) :
    (matchesPR R ms collapse interp).2 = (matchesPR Rnd.exact ms collapse interp).2.map R.f64 := by
  obtain ⟨hg, hc, hl⟩ := h
  have l1 := sum_le_length ms (fun m => m.error.nh) (fun m => nh_le_one m.error)
  have l2 := sum_le_length ms (fun m => m.error.nr) (fun m => nr_le_one m.error)
  unfold matchesPR
  cases collapse with
  | false =>
    simp only [Bool.false_eq_true, if_false]
    refine computePR_recall R hR _ interp ?_ ?_ ?_ ?_
    · intro e he
      obtain ⟨m, hm, rfl⟩ := List.mem_map.1 he
      exact (hg m hm).2
    · intro e he
      obtain ⟨m, hm, rfl⟩ := List.mem_map.1 he
      exact rates_errOk _ (hg m hm).1
    · rw [show (getMatchErrors ms).map IsError.nh = ms.map (fun m => m.error.nh) from List.map_map]
      exact l1.trans hl
    · rw [show (getMatchErrors ms).map IsError.nr = ms.map (fun m => m.error.nr) from List.map_map]
      exact l2.trans hl
  | true =>
  rw [if_pos rfl, if_pos rfl]
  obtain ⟨hl', hh⟩ := hc rfl
  rw [collapse_hard R ms hh (fits32_of R hR.toFaithful _ hl')]
  refine computePR_recall R hR _ interp (collapse_grid ms (fun m hm => (hg m hm).2))
    (collapse_ok Rnd.exact exact_faithful ms (fun m hm => (hg m hm).1) (fits32_exact _)
      (fits32_exact _)) ?_ ?_
  · rw [(collapse_sums Rnd.exact ms).1]; omega
  · rw [(collapse_sums Rnd.exact ms).2]; omega

omit hR in
/-- The exact recalls are fractions of the number of references. -/
theorem matchesPR_fraction (ms : List (KwsMatch Q L)) (h : ∀ m ∈ ms, HardMatch m) (hn : NoNaN ms)
    (hs : ByRank ms) (interp : Bool) :
    ∀ x ∈ (matchesPR Rnd.exact ms true interp).2,
      ∃ a ≤ max 1 (tallyOf ms).refs, x = (a : ℚ) / (max 1 (tallyOf ms).refs : ℕ) := by
  obtain ⟨ranks, h1, h2, _⟩ := globalAP_ranks ms h hn hs false false
  have hp : (matchesPR Rnd.exact ms true interp).2 =
      (ranks.map (tallyOf ms).point).map Prod.snd := by
    unfold matchesPR
    rw [if_pos rfl, h2, computePR_points,
      points_eq ms h ranks h1.sorted (fun m hm => (h1.mem _).2 ⟨m, hm, rfl⟩)]
    simp only
    split
    · exact topped_snd _
    · rfl
  intro x hx
  rw [hp, List.map_map] at hx
  obtain ⟨s, _, rfl⟩ := List.mem_map.1 hx
  simp only [Function.comp, Tally.point]
  by_cases h0 : (tallyOf ms).refs = 0
  · rw [if_pos h0, h0]
    exact ⟨1, by simp, by simp⟩
  · rw [if_neg h0, max_eq_right (by omega)]
    refine ⟨_, ?_, rfl⟩
    unfold tallyOf
    refine List.countP_mono_left fun m _ hm => ?_
    simp only [Bool.and_eq_true] at hm
    exact hm.1

/-- The curve of hits, false positives and false negatives and its rounding. -/
theorem matchesPR_roundedCurve (ms : List (KwsMatch Q L)) (collapse interp : Bool)
    (h : ∀ m ∈ ms, HardMatch m) (N : ℕ)
    (hf : ∀ x ∈ (matchesPR Rnd.exact ms collapse interp).2, ∃ a ≤ N, x = (a : ℚ) / N)
    (hl : ms.length ≤ 2 ^ 24) :
    Rounded R N
      ((matchesPR R ms collapse interp).2.zip (matchesPR R ms collapse interp).1)
      ((matchesPR Rnd.exact ms collapse interp).2.zip (matchesPR Rnd.exact ms collapse interp).1) := by
  have hg := gridOk_hard collapse ms (fun m hm => (h m hm).hard) hl
  have hrt : ∀ m ∈ ms, Rates m.error := fun m hm => (hg.1 m hm).1
  have b1 := matchesPR_bounds R hR.toFaithful ms collapse interp hrt
    (fits64_of R hR.toFaithful _ (hl.trans (by norm_num)))
    (fun _ => fits32_of R hR.toFaithful _ hl)
  have b2 := matchesPR_bounds Rnd.exact exact_faithful ms collapse interp hrt (fits64_exact _)
    (fun _ => fits32_exact _)
  constructor
  · have e2 := matchesPR_recall R hR ms collapse interp hg
    have e1 := (matchesPR_near R hR ms collapse interp hg).1
    have len := matchesPR_len_eq R ms collapse interp
    have len' := matchesPR_len_eq Rnd.exact ms collapse interp
    rw [e2] at len ⊢
    unfold Near at e1
    revert len len' e1
    generalize (matchesPR R ms collapse interp).1 = p
    generalize (matchesPR Rnd.exact ms collapse interp).1 = q
    generalize (matchesPR Rnd.exact ms collapse interp).2 = x
    intro e1 len len'
    rw [List.length_map] at len
    induction e1 generalizing x with
    | nil => cases x <;> simp at *
    | @cons a b p q hab _ ih =>
      cases x with
      | nil => simp at len
      | cons z x =>
        simp only [List.map_cons, List.zip_cons_cons]
        exact .cons ⟨rfl, hab⟩ (ih x (by simpa using len) (by simpa using len'))
  · intro p hp
    exact hf p.1 (List.of_mem_zip hp).1
  · intro p hp
    exact b2.1 p.2 (List.of_mem_zip hp).2
  · intro p hp
    exact b1.1 p.2 (List.of_mem_zip hp).2

/-- The matches are hits, false positives and false negatives, and the recalls of their curve are fractions
of a number that is not too large. -/
def FineCurve (collapse interp : Bool) (ms : List (KwsMatch Q L)) : Prop :=
  (∀ m ∈ ms, HardMatch m) ∧ ∃ N : ℕ, 0 < N ∧ N ≤ max 1 ms.length ∧
    ∀ x ∈ (matchesPR Rnd.exact ms collapse interp).2, ∃ a ≤ N, x = (a : ℚ) / N

omit hR in
theorem tally_refs_le (ms : List (KwsMatch Q L)) : (tallyOf ms).refs ≤ ms.length :=
  List.countP_le_length

omit hR in
theorem curveError_mono {a b : ℕ} (h : a ≤ b) : curveError a ≤ curveError b := by
  unfold curveError
  have : (a : ℚ) ≤ b := by exact_mod_cast h
  gcongr

/-! ## Sampled curves -/

theorem evenPoints_round (n : ℕ) (hn : n ≤ 2 ^ 24) :
    evenPoints R n = (evenPoints Rnd.exact n).map R.f64 := by
  unfold evenPoints
  split
  · rw [List.map_map]
    refine List.map_congr_left fun k hk => ?_
    have := List.mem_range.1 hk
    simp only [Function.comp, Rnd.exact, id]
    rw [hR.toFaithful.nat64 k (by omega), hR.toFaithful.nat64 (n - 1) (by omega)]
  · rfl

omit hR in
theorem evenPoints_mem (n : ℕ) (x : ℚ) (hx : x ∈ evenPoints Rnd.exact n) :
    ∃ k M : ℕ, 0 < M ∧ M ≤ n ∧ k ≤ M ∧ x = (k : ℚ) / M := by
  unfold evenPoints at hx
  split at hx
  · obtain ⟨k, hk, rfl⟩ := List.mem_map.1 hx
    have := List.mem_range.1 hk
    exact ⟨k, n - 1, by omega, by omega, by omega, rfl⟩
  · simp at hx

/-- The samples of the curve of a list of matches. -/
theorem sampleCurve_near (hE : RelErr R) (ms : List (KwsMatch Q L)) (collapse interp linear : Bool)
    (h : FineCurve collapse interp ms) (hl : ms.length ≤ 2 ^ 24) (n : ℕ) (hN : n ≤ 2 ^ 24) :
    ∃ ys, sampleCurve R (matchesPR R ms collapse interp).2 (matchesPR R ms collapse interp).1
        (evenPoints R n) linear = .ok ys ∧
      List.Forall₂ (fun x y => 0 ≤ y ∧ y ≤ 1 ∧ |y - valueAt linear x none
          (exactCurve collapse interp ms)| ≤ curveError (ms.length + 1))
        (evenPoints Rnd.exact n) ys := by
  classical
  obtain ⟨h, N, hN0, hNl, hf⟩ := h
  have hR2 := matchesPR_roundedCurve R hR ms collapse interp h N hf hl
  obtain ⟨ys, h1, h2, h3⟩ := sampleCurve_rounded R hR linear (matchesPR R ms collapse interp).2
    (matchesPR R ms collapse interp).1 (evenPoints R n) (matchesPR_len_eq _ _ _ _)
    (evenPoints_sorted _ hR.toFaithful n) (matchesPR_repr R hR ms collapse interp)
    (evenPoints_repr R hR n) (matchesPR_bounds R hR.toFaithful ms collapse interp
      (fun m hm => hard_rates _ (h m hm).hard)
      (fits64_of R hR.toFaithful _ (hl.trans (by norm_num)))
      (fun _ => fits32_of R hR.toFaithful _ hl)).1
  refine ⟨ys, h1, ?_⟩
  have h4 : List.Forall₂ (Sampled R linear ((matchesPR R ms collapse interp).2.zip
      (matchesPR R ms collapse interp).1)) (evenPoints R n) ys := by
    obtain ⟨ys', g1, g2⟩ := sampleCurve_spec R linear (matchesPR R ms collapse interp).2
      (matchesPR R ms collapse interp).1 (evenPoints R n) (matchesPR_len_eq _ _ _ _)
      (evenPoints_sorted _ hR.toFaithful n) (by
        intro pre sx sy post he x hx hp hxs
        by_cases hc : linear = true ∧ pre ≠ []
        · obtain ⟨rfl, hne⟩ := hc
          obtain ⟨⟨px, py⟩, hlast, hm⟩ := exists_getLast pre hne
          have hmem : (sx, sy) ∈ (matchesPR R ms collapse interp).2.zip (matchesPR R ms collapse interp).1 := by
            rw [he]; simp
          have hmem' : (px, py) ∈ (matchesPR R ms collapse interp).2.zip
              (matchesPR R ms collapse interp).1 := by
            rw [he]; exact List.mem_append_left _ hm
          obtain ⟨y, h1, h2⟩ := sampleAt_rounded R hR px py sx sy x (hp _ hm) hxs
            (matchesPR_repr R hR ms collapse interp px (List.of_mem_zip hmem').1)
            (evenPoints_repr R hR n x hx) (hR2.unit' _ hmem') (hR2.unit' _ hmem)
          exact ⟨y, by rw [hlast, h1]⟩
        · exact ⟨sy, sampleAt_plain _ _ _ _ _ _ hc⟩)
    rw [h1] at g1
    injection g1 with g1
    rw [g1]
    exact g2
  rw [evenPoints_round R hR n hN, List.forall₂_map_left_iff] at h4
  rw [List.forall₂_iff_get] at h4 ⊢
  refine ⟨h4.1, fun i hi hi' => ?_⟩
  have hu := h3 _ (List.get_mem ys ⟨i, hi'⟩)
  refine ⟨hu.1, hu.2, ?_⟩
  have hS := h4.2 i hi hi'
  obtain ⟨k, M, hM, hM', hk, e⟩ := evenPoints_mem n _ (List.get_mem _ ⟨i, hi⟩)
  rw [e] at hS ⊢
  have := sampled_near R hR hE linear N M k hN0 (by omega) hM
    (by omega) hk _ _ hR2 _ hS
  exact this.trans (curveError_mono (by omega))

omit hR in
theorem evenPoints_unit (n : ℕ) : ∀ x ∈ evenPoints Rnd.exact n, 0 ≤ x ∧ x ≤ 1 := by
  intro x hx
  obtain ⟨k, M, hM, _, hk, rfl⟩ := evenPoints_mem n x hx
  have hq : (0 : ℚ) < M := by exact_mod_cast hM
  refine ⟨by positivity, ?_⟩
  rw [div_le_one hq]
  exact_mod_cast hk

omit hR in
theorem sampled_eq {α : Type} (n : ℕ) (f : ℚ → α) :
    sampled n f = (evenPoints Rnd.exact n).map (fun x => (x, f x)) := by
  rw [sampled_grid]
  unfold sampled
  split
  · rfl
  · simp only [List.map_map]
    rfl

/-- Points over the rounded grid next to points over the grid. -/
theorem zip_near {α β : Type} (r : α → β → Prop) (f : ℚ → β) (xs : List ℚ) (ys : List α)
    (hx : ∀ x ∈ xs, 0 ≤ x ∧ x ≤ 1) (h : List.Forall₂ (fun x y => r y (f x)) xs ys) :
    List.Forall₂ (fun (p : ℚ × α) (q : ℚ × β) => |p.1 - q.1| ≤ 1 / 2 ^ 54 ∧ r p.2 q.2)
      ((xs.map R.f64).zip ys) (xs.map (fun x => (x, f x))) := by
  induction h with
  | nil => exact .nil
  | @cons x y xs ys hxy _ ih =>
    simp only [List.map_cons, List.zip_cons_cons]
    have := hx x (by simp)
    exact .cons ⟨hR.err64 x this.1 this.2, hxy⟩ (ih (fun z hz => hx z (by simp [hz])))

omit hR in
theorem writeCurveFile_points {K K' : Type} (w : World) (f : Str) (xs : List K) (ys : List K')
    (c : List (K × K')) (h : writeCurveFile w f xs ys = .ok c) : c = xs.zip ys := by
  unfold writeCurveFile writeCurve at h
  simp only [bind, Except.bind] at h
  split at h
  · cases h
  · rename_i v hv
    split at hv
    · cases hv
    · split at hv
      · cases hv
      · injection hv with hv
        split at h
        · injection h with h
          rw [← h, ← hv]
        · cases h

/-- The global curve. -/
theorem globalRPCurve_near (hE : RelErr R) (w : World) (f : Str) (ms : List (KwsMatch Q L))
    (collapse interp linear : Bool) (h : FineCurve collapse interp ms) (hl : ms.length ≤ 2 ^ 24) (n : ℕ)
    (hN : n ≤ 2 ^ 24) (pts : List (ℚ × ℚ))
    (hp : globalRPCurve R w f ms n collapse interp linear = .ok pts) :
    List.Forall₂ (fun p q => |p.1 - q.1| ≤ 1 / 2 ^ 54 ∧ |p.2 - q.2| ≤ curveError (ms.length + 1)) pts
      (sampled n fun x => valueAt linear x none
        (exactCurve collapse interp ms)) := by
  obtain ⟨ys, h1, h2⟩ := sampleCurve_near R hR hE ms collapse interp linear h hl n hN
  unfold globalRPCurve at hp
  simp only [h1, bind, Except.bind] at hp
  rw [writeCurveFile_points w f _ _ _ hp, sampled_eq, evenPoints_round R hR n hN]
  exact zip_near R hR (fun y v => |y - v| ≤ curveError (ms.length + 1)) _ _ _ (evenPoints_unit n) (h2.imp fun x y hxy => hxy.2.2)

theorem columnSum_near (hE : RelErr R) (i K : ℕ) (hK : K ≤ 2 ^ 53) (e : ℚ) (vs : List ℚ)
    (yss : List (List ℚ))
    (h : List.Forall₂ (fun v ys => ∃ y, ys[i]? = some y ∧ 0 ≤ y ∧ y ≤ 1 ∧ |y - v| ≤ e) vs yss) :
    ∀ (s s' δ : ℚ) (k : ℕ), 0 ≤ s → s ≤ k → |s - s'| ≤ δ → k + yss.length ≤ K →
    ∃ t, columnSum R i s yss = .ok t ∧ 0 ≤ t ∧ t ≤ (k + yss.length : ℕ) ∧
      |t - (s' + vs.sum)| ≤ δ + yss.length * (e + K / 2 ^ 53) := by
  induction h with
  | nil =>
    intro s s' δ k h0 h1 h2 _
    exact ⟨s, rfl, h0, by simpa using h1, by simpa using h2⟩
  | @cons v ys vs yss hv _ ih =>
    intro s s' δ k h0 h1 h2 hk
    obtain ⟨y, hy, y0, y1, yv⟩ := hv
    rw [List.length_cons] at hk
    have hk1 : (k : ℚ) + 1 ≤ K := by exact_mod_cast (by omega : k + 1 ≤ K)
    have hk0 : (0 : ℚ) ≤ k := by positivity
    have r := hE (s + y) K (by rw [abs_of_nonneg (by linarith)]; linarith) (by linarith)
    obtain ⟨t, t1, t2, t3, t4⟩ := ih (R.f64 (s + y)) (s' + v) (δ + (e + K / 2 ^ 53)) (k + 1)
      (hR.nonneg64 (by linarith)) (by
        have := hR.mono64 (s + y) ((k + 1 : ℕ) : ℚ) (by push_cast; linarith)
        rwa [hR.toFaithful.nat64 (k + 1) (by omega)] at this)
      (by
        rw [abs_le] at *
        constructor <;> linarith [h2.1, h2.2, yv.1, yv.2, r.1, r.2]) (by omega)
    refine ⟨t, ?_, t2, ?_, ?_⟩
    · unfold columnSum vecAt
      rw [hy]
      simpa only [bind, Except.bind] using t1
    · rw [List.length_cons]
      have : k + (yss.length + 1) = k + 1 + yss.length := by omega
      rw [this]; exact t3
    · rw [List.sum_cons, ← add_assoc, List.length_cons]
      refine t4.trans (le_of_eq ?_)
      push_cast
      ring

/-- The mean curve. -/
theorem meanRPCurve_near (hE : RelErr R) (w : World) (f : Str) (groups : List (List (KwsMatch Q L)))
    (collapse interp linear : Bool) (h : ∀ ms ∈ groups, FineCurve collapse interp ms) (B : ℕ)
    (hB : ∀ ms ∈ groups, ms.length ≤ B) (hB' : B ≤ 2 ^ 24) (hG : groups.length ≤ B)
    (n : ℕ) (hN : n ≤ 2 ^ 24) (pts : List (ℚ × Flt))
    (hp : meanRPCurve R w f groups n collapse interp linear = .ok pts) :
    List.Forall₂ (fun p q => |p.1 - q.1| ≤ 1 / 2 ^ 54 ∧ CloseCoord (8 * (B + 3) / 2 ^ 52) p.2 q.2) pts
      (sampled n fun x => if groups = [] then .nan else .fin (average (groups.map fun ms =>
        valueAt linear x none (exactCurve collapse interp ms)))) := by
  obtain ⟨yss, h1, h2⟩ : ∃ yss, groupCurves R (evenPoints R n) collapse interp linear groups = .ok yss ∧
      List.Forall₂ (fun (ms : List (KwsMatch Q L)) ys =>
        List.Forall₂ (fun x y => 0 ≤ y ∧ y ≤ 1 ∧ |y - valueAt linear x none
          (exactCurve collapse interp ms)| ≤ curveError (B + 1))
        (evenPoints Rnd.exact n) ys) groups yss := by
    clear hp hG
    induction groups with
    | nil => exact ⟨[], rfl, .nil⟩
    | cons ms groups ih =>
      obtain ⟨yss, h1, h2⟩ := ih (fun g hg => h g (by simp [hg])) (fun g hg => hB g (by simp [hg]))
      have hm := h ms (by simp)
      have hb := hB ms (by simp)
      obtain ⟨ys, h3, h4⟩ := sampleCurve_near R hR hE ms collapse interp linear hm (hb.trans hB') n hN
      refine ⟨ys :: yss, ?_, .cons (h4.imp fun x y hxy => ⟨hxy.1, hxy.2.1, hxy.2.2.trans
        (curveError_mono (by omega))⟩) h2⟩
      unfold groupCurves
      simp only [h3, h1, bind, Except.bind, pure, Except.pure]
  have hlen := h2.length_eq
  have hcol : ∀ j, j < (evenPoints R n).length → ∃ s, columnSum R j 0 yss = .ok s ∧
      (0 ≤ s ∧ s ≤ groups.length ∧ ∀ x, (evenPoints Rnd.exact n)[j]? = some x →
        |s - (groups.map fun ms => valueAt linear x none
          (exactCurve collapse interp ms)).sum| ≤
            groups.length * (curveError (B + 1) + groups.length / 2 ^ 53)) := by
    intro j hj
    rw [evenPoints_round R hR n hN, List.length_map] at hj
    obtain ⟨x, hx⟩ : ∃ x, (evenPoints Rnd.exact n)[j]? = some x :=
      ⟨_, List.getElem?_eq_getElem hj⟩
    obtain ⟨t, t1, t2, t3, t4⟩ := columnSum_near R hR hE j yss.length (by omega) (curveError (B + 1))
      (groups.map fun ms => valueAt linear x none
          (exactCurve collapse interp ms)) yss (by
        rw [List.forall₂_map_left_iff]
        refine h2.imp fun ms ys hys => ?_
        have hj' : j < ys.length := by rw [← hys.length_eq]; exact hj
        have := List.Forall₂.get hys hj hj'
        simp only [List.get_eq_getElem] at this
        rw [List.getElem?_eq_getElem hj] at hx
        injection hx with hx
        rw [hx] at this
        exact ⟨_, List.getElem?_eq_getElem hj', this⟩) 0 0 0 0 le_rfl (by simp) (by simp) (by omega)
    refine ⟨t, t1, t2, by rw [hlen]; simpa using t3, ?_⟩
    intro x' hx'
    rw [hx] at hx'
    injection hx' with hx'
    subst hx'
    rw [hlen]
    simpa using t4
  obtain ⟨ms, h5, h6, h7⟩ := meanColumns_spec R yss _ (evenPoints R n).length
    (evenPoints R n).length 0 (by omega) hcol
  unfold meanRPCurve at hp
  simp only [h1, h5, bind, Except.bind] at hp
  rw [writeCurveFile_points w f _ _ _ hp, sampled_eq, evenPoints_round R hR n hN]
  refine zip_near R hR _ _ _ _ (evenPoints_unit n) ?_
  rw [List.forall₂_iff_get]
  refine ⟨by rw [h6, evenPoints_round R hR n hN, List.length_map], fun i hi hi' => ?_⟩
  obtain ⟨s, ⟨s0, s1, s2⟩, s3⟩ := h7 i (by omega)
  rw [zero_add] at s2
  have s4 := s2 _ (List.getElem?_eq_getElem hi)
  rw [List.getElem?_eq_getElem hi'] at s3
  injection s3 with s3
  simp only [List.get_eq_getElem, s3]
  unfold meanOf
  by_cases hg : groups = []
  · rw [if_pos hg, if_pos (by rw [← hlen, hg]; rfl)]
    exact rfl
  · have hpos : 0 < groups.length := List.length_pos_of_ne_nil hg
    rw [if_neg hg, if_neg (by omega), ← hlen, hR.toFaithful.nat64 _ (by omega)]
    show |_ - _| ≤ _
    have hq : (0 : ℚ) < groups.length := by exact_mod_cast hpos
    have r := hR.err64 (s / groups.length) (by positivity) (by rw [div_le_one hq]; exact s1)
    unfold average
    rw [List.length_map]
    refine (chain_near r (f := curveError (B + 1) + groups.length / 2 ^ 53) ?_).trans ?_
    · rw [← sub_div, abs_div, abs_of_pos hq, div_le_iff₀ hq, mul_comm]
      exact s4
    · have hG' : (groups.length : ℚ) ≤ B := by exact_mod_cast hG
      unfold curveError
      push_cast
      linarith

end

end

/-! ## Runs -/

section
variable {Q L G : Type} [DecidableEq Q]

theorem forall₂_relax {α β : Type} {r s : α → β → Prop} {l : List α} {l' : List β}
    (h : List.Forall₂ r l l') (hrs : ∀ a b, r a b → s a b) : List.Forall₂ s l l' := h.imp hrs

/-- How far the curves of `n` events may be off. -/
def curvesError (n : ℕ) : ℚ := (n + 3) / 2 ^ 49

theorem curvesError_all (m n : ℕ) (h : m ≤ n) : curveError (m + 1) ≤ curvesError n := by
  unfold curveError curvesError
  have : (m : ℚ) ≤ n := by exact_mod_cast h
  have h0 : (0 : ℚ) ≤ m := by positivity
  push_cast
  rw [div_le_div_iff₀ (by positivity) (by positivity)]
  nlinarith

theorem curvesError_abscissa (n : ℕ) : 1 / 2 ^ 54 ≤ curvesError n := by
  unfold curvesError
  have h0 : (0 : ℚ) ≤ n := by positivity
  rw [div_le_div_iff₀ (by positivity) (by positivity)]
  nlinarith

theorem curvesError_mean (m n : ℕ) (h : m ≤ n) : (8 * (m + 3) / 2 ^ 52 : ℚ) ≤ curvesError n := by
  unfold curvesError
  have : (m : ℚ) ≤ n := by exact_mod_cast h
  rw [div_le_div_iff₀ (by positivity) (by positivity)]
  nlinarith

theorem closeCoord_mono {a b : ℚ} (h : a ≤ b) {x y : Flt} (hc : CloseCoord a x y) :
    CloseCoord b x y := by
  cases x <;> cases y <;> first | exact hc | exact le_trans (show |_ - _| ≤ a from hc) h

/-- The curves of an assessment. -/
theorem assess_curvesNear (R : Rnd) (hR : R.Precise) (hE : RelErr R) (S : StdSort) (rng : Rng G)
    (w : World) (o : ToolOptions)
    (q2g : List (Q × Q)) (ms : List (KwsMatch Q L)) (groups : List (List (KwsMatch Q L)))
    (dump : Option (List (KwsMatch Q L) × List (KwsMatch Q L))) (r : Report Q L)
    (hk : ∀ l, l.Sublist ms → FineCurve o.collapse o.interp l) (n : ℕ) (hl : ms.length ≤ n)
    (hn : n ≤ 2 ^ 24) (hs : o.curveSamples ≤ 2 ^ 24) (hg : groupMatches q2g ms = .ok groups)
    (h : assess R S rng w o ms groups dump = .ok r) :
    HasCurvesNear o r (exactCurves (groupOf q2g) o ms) (curvesError n) := by
  have hh := (hk ms (List.Sublist.refl _)).1
  obtain ⟨g1, g2, _⟩ := groupMatches_facts _ _ _ hg
  obtain ⟨keys, k1, k2, k3⟩ := groupMatches_events q2g ms (fun m hm => (hh m hm).event)
  rw [hg] at k3
  injection k3 with k3
  have hperm : keys.Perm ((ms.filterMap eventOf).map (groupOf q2g ·.query)).dedup :=
    (List.perm_ext_iff_of_nodup k1 (List.nodup_dedup _)).2 (fun k => by rw [k2, List.mem_dedup])
  have hlen : groups.length ≤ ms.length := by
    rw [k3, List.length_map, hperm.length_eq]
    refine ((List.dedup_sublist _).length_le).trans ?_
    rw [List.length_map]
    exact List.length_filterMap_le _ _
  obtain ⟨c1, c2, c3, c4⟩ := assess_curves _ _ _ _ _ _ _ _ _ h
  constructor
  · by_cases ho : o.outputGrp = []
    · rw [if_pos ho]
      exact c1 ho
    · rw [if_neg ho]
      obtain ⟨c, e1, e2⟩ := c2 ho
      refine ⟨c, e2, ?_⟩
      refine forall₂_relax (globalRPCurve_near R hR hE w o.outputGrp ms o.collapse o.interp o.trapezoid
        (hk ms (List.Sublist.refl _)) (hl.trans hn) o.curveSamples hs c e1) fun p q hpq => ?_
      exact ⟨hpq.1.trans (curvesError_abscissa n), hpq.2.trans (curvesError_all _ _ hl)⟩
  · by_cases ho : o.outputMrp = []
    · rw [if_pos ho]
      exact c3 ho
    · rw [if_neg ho]
      obtain ⟨c, e1, e2⟩ := c4 ho
      refine ⟨c, e2, ?_⟩
      have key := meanRPCurve_near R hR hE w o.outputMrp groups o.collapse o.interp o.trapezoid
        (fun g hg => hk g (g2 g hg)) ms.length (fun g hg => (g2 g hg).length_le) (hl.trans hn) hlen
        o.curveSamples hs c e1
      have hcurve : (exactCurves (groupOf q2g) o ms).mean =
          sampled o.curveSamples (fun x => if groups = [] then .nan else .fin (average
            (groups.map fun ms => valueAt o.trapezoid x none
              (exactCurve o.collapse o.interp ms)))) := by
        unfold exactCurves
        simp only
        congr 1
        funext x
        have hnil : (((ms.filterMap eventOf).map (groupOf q2g ·.query)).dedup = []) ↔ groups = [] := by
          rw [k3, List.map_eq_nil_iff, ← List.length_eq_zero_iff, ← List.length_eq_zero_iff,
            hperm.length_eq]
        simp only [hnil]
        split
        · rfl
        · congr 1
          rw [k3, List.map_map]
          exact (average_perm (hperm.map _)).symm
      rw [hcurve]
      refine forall₂_relax key fun p q hpq => ?_
      exact ⟨hpq.1.trans (curvesError_abscissa n), closeCoord_mono (curvesError_mean _ _ hl) hpq.2⟩

omit [DecidableEq Q] in
theorem fineCurve_ranked (interp : Bool) (ms : List (KwsMatch Q L)) (hh : ∀ m ∈ ms, HardMatch m)
    (hn : NoNaN ms) (hs : ByRank ms) : FineCurve true interp ms := by
  classical
  exact ⟨hh, _, by omega, max_le_max le_rfl (tally_refs_le ms), matchesPR_fraction ms hh hn hs interp⟩

end

section
variable {μ σ Q L G : Type} [DecidableEq Q] [Cmp Q] [LawfulCmp Q] [DecidableEq L] [Cmp L] [LawfulCmp L]

/-- The curves of an evaluation are close to those of the matches of a run on the hypotheses in
decreasing order of score. -/
theorem evaluate_curvesNear (S : StdSort) (rng : Rng G) (kit : ToolKit μ σ Q L)
    (hk : SafeKit kit) (hh : ∀ r x e, kit.scorer r x = .ok e → e.fp < 1 → e = ⟨0, 0⟩) (w : World)
    (o : ToolOptions) (q2g : List (Q × Q)) (refs : List (Event Q L)) (hyps : List (ScoredEvent Q L))
    (r : Report Q L) (n : ℕ) (hn : refs.length + hyps.length ≤ n) (hn' : n ≤ 2 ^ 24)
    (hs : o.curveSamples ≤ 2 ^ 24)
    (hnan : ∀ h ∈ hyps, h.score ≠ .nan) (hd : o.sort = "desc".toList)
    (hc : o.collapse = true) (h : evaluate Rnd.ieee S rng kit w o q2g refs hyps = .ok (.done r)) :
    ∃ (l : List (ScoredEvent Q L)) (s' : σ) (ms rep : List (KwsMatch Q L)),
      l.Perm (usedHyps q2g hyps) ∧ l.Pairwise (fun a b => Flt.lt a.score b.score = false) ∧
      SimpleMatcher.run kit.index kit.scorer kit.refsSet (usedRefs q2g refs) l = .ok (s', ms, rep) ∧
      NoNaN ms ∧ HasCurvesNear o r (matchCurves (groupOf q2g) o.curveSamples o.interp o.trapezoid ms)
        (curvesError n) := by
  obtain ⟨l, s', ms, rep, groups, h1, h2, h3, h4⟩ := evaluate_done _ _ _ _ _ _ _ _ _ _ h
  rw [hd] at h1
  obtain ⟨a1, a2, a3⟩ := evaluate_ranked Rnd.ieee S kit hk q2g refs hyps l s' ms rep hnan
    (Or.inr ⟨ieee_faithful, hn.trans hn'⟩) h1 h2
  have hl := run_length _ _ _ _ _ _ _ _ h2
  have hu := used_length q2g refs hyps
  have hp := a2.length_eq
  have hm := run_hardMatch _ _ _ _ _ _ _ _ h2 hh
  refine ⟨l, s', ms, rep, a2, a3, h2, a1.noNaN, ?_⟩
  rw [← exactCurves_tally _ o ms hc hm a1.noNaN a1.byRank]
  refine assess_curvesNear Rnd.ieee ieee_precise ieee_relErr S rng w o q2g ms groups _ r
    (fun k hk => ?_) n (by omega) hn' hs h3 h4
  have hr := a1.sublist hk
  rw [hc]
  exact fineCurve_ranked _ k (fun m hx => hm m (hk.subset hx)) hr.noNaN hr.byRank

end

end Kws
