import Verif.Lemmas.AP
import Verif.Lemmas.Ieee

/-! Rounding errors of the curves and of average precision -/

namespace Kws.Ieee

/-- The rounding error of a `double` is at most `2^-53` times any bound of the number that is at
least 1. -/
theorem round_rel (a b : ℚ) (h : |a| ≤ b) (hb : 1 ≤ b) :
    |round 53 (-1074) a - a| ≤ b / 2 ^ 53 := by
  have key : ∀ x : ℚ, 0 < x → x ≤ b → |roundPos 53 (-1074) x - x| ≤ b / 2 ^ 53 := by
    intro x hx hxb
    refine (roundPos_err 53 (-1074)).trans ?_
    unfold quantum
    rcases le_total (Int.log 2 x - ((53 : ℕ) - 1)) (-1074) with hq | hq
    · rw [max_eq_right hq]
      have : (1 / 2 : ℚ) * 2 ^ (-1074 : ℤ) ≤ 1 / 2 ^ 53 := by
        have h := zpow_le_zpow_right₀ (by norm_num : (1 : ℚ) ≤ 2) (by norm_num : (-1074 : ℤ) ≤ -52)
        have h' : (2 : ℚ) ^ (-52 : ℤ) = 1 / 2 ^ 52 := by rw [zpow_neg]; norm_num
        rw [h'] at h
        linarith
      refine this.trans ?_
      gcongr
    · rw [max_eq_left hq]
      have h1 := log_le hx
      have h2 : (2 : ℚ) ^ (Int.log 2 x - ((53 : ℕ) - 1)) = 2 ^ Int.log 2 x / 2 ^ 52 := by
        rw [zpow_sub₀ (by norm_num)]; norm_num
      rw [h2]
      have h3 : (1 / 2 : ℚ) * (2 ^ Int.log 2 x / 2 ^ 52) = 2 ^ Int.log 2 x / 2 ^ 53 := by ring
      rw [h3]
      gcongr
      exact h1.trans hxb
  rcases lt_trichotomy a 0 with ha | ha | ha
  · unfold round
    rw [if_neg (by linarith), if_pos ha]
    rw [abs_of_neg ha] at h
    have := key (-a) (by linarith) h
    rw [← abs_neg]
    convert this using 2
    ring
  · subst ha
    simp [round]
    positivity
  · unfold round
    rw [if_pos ha]
    rw [abs_of_pos ha] at h
    exact key a ha h

end Kws.Ieee

namespace Kws
open Spec

/-- Bound on the rounding error, relative to a bound of the number. -/
def RelErr (R : Rnd) : Prop := ∀ a b : ℚ, |a| ≤ b → 1 ≤ b → |R.f64 a - a| ≤ b / 2 ^ 53

theorem ieee_relErr : RelErr Rnd.ieee := Ieee.round_rel

/-- Two lists whose entries differ by at most `d`. -/
def Near (d : ℚ) (a b : List ℚ) : Prop := List.Forall₂ (fun x y => |x - y| ≤ d) a b

/-- All entries are in [0,1]. -/
def Unit01 (l : List ℚ) : Prop := ∀ x ∈ l, 0 ≤ x ∧ x ≤ 1

theorem interpolate_near (d : ℚ) (a b : List ℚ) (h : Near d a b) :
    Near d (interpolate a) (interpolate b) := by
  induction h with
  | nil => exact List.Forall₂.nil
  | @cons x y xs ys hxy hrest ih =>
    unfold interpolate
    cases ha : interpolate xs with
    | nil =>
      rw [ha] at ih
      cases hb : interpolate ys with
      | nil => exact List.Forall₂.cons hxy List.Forall₂.nil
      | cons q qs => rw [hb] at ih; cases ih
    | cons p ps =>
      rw [ha] at ih
      cases hb : interpolate ys with
      | nil => rw [hb] at ih; cases ih
      | cons q qs =>
        rw [hb] at ih
        refine List.Forall₂.cons ?_ ih
        cases ih with
        | cons hpq _ =>
          rw [abs_le] at *
          split <;> split <;> constructor <;> linarith [hxy.1, hxy.2, hpq.1, hpq.2]

section
variable (R : Rnd) (hR : R.Precise) (hE : RelErr R)
include hR hE

omit hE in
theorem height_unit (p q : ℚ) (hp : 0 ≤ p ∧ p ≤ 1) (hq : 0 ≤ q ∧ q ≤ 1) :
    0 ≤ R.f64 (1 / 2 * R.f64 (p + q)) ∧ R.f64 (1 / 2 * R.f64 (p + q)) ≤ 1 := by
  have h2 : R.f64 2 = 2 := by
    have := hR.nat64 2 (by norm_num); exact_mod_cast this
  have h0 : 0 ≤ R.f64 (p + q) := hR.nonneg64 (by linarith)
  have h1 : R.f64 (p + q) ≤ 2 := by
    rw [← h2]; exact hR.mono64 _ _ (by linarith)
  exact ⟨hR.nonneg64 (by linarith), hR.le_one64 (by linarith)⟩

theorem height_near (d p q p' q' : ℚ) (hp : 0 ≤ p ∧ p ≤ 1) (hq : 0 ≤ q ∧ q ≤ 1)
    (h1 : |p - p'| ≤ d) (h2 : |q - q'| ≤ d) :
    |R.f64 (1 / 2 * R.f64 (p + q)) - 1 / 2 * (p' + q')| ≤ d + 3 / 2 ^ 54 := by
  have h3 : R.f64 2 = 2 := by
    have := hR.nat64 2 (by norm_num); exact_mod_cast this
  have h0 : 0 ≤ R.f64 (p + q) := hR.nonneg64 (by linarith)
  have h4 : R.f64 (p + q) ≤ 2 := by
    rw [← h3]; exact hR.mono64 _ _ (by linarith)
  have e1 := hE (p + q) 2 (by rw [abs_of_nonneg (by linarith)]; linarith) (by norm_num)
  have e2 := hR.err64 (1 / 2 * R.f64 (p + q)) (by linarith) (by linarith)
  rw [abs_le] at *
  constructor <;> linarith [h1.1, h1.2, h2.1, h2.2, e1.1, e1.2, e2.1, e2.2]

theorem heights_near (t : Bool) (d : ℚ) (pr pr' : List ℚ) (h : Near d pr pr')
    (hu : Unit01 pr) :
    ∀ prev prev' : Option ℚ, (∀ x, prev = some x → (0 ≤ x ∧ x ≤ 1) ∧ ∃ y, prev' = some y ∧ |x - y| ≤ d) →
      (prev = none → prev' = none) →
    Near (d + 3 / 2 ^ 54) (heights R t prev pr) (heights Rnd.exact t prev' pr') ∧
      Unit01 (heights R t prev pr) := by
  have hd' : d ≤ d + 3 / 2 ^ 54 := by
    have : (0 : ℚ) ≤ 3 / 2 ^ 54 := by positivity
    linarith
  induction h with
  | nil =>
    intro prev prev' _ _
    exact ⟨List.Forall₂.nil, by intro x hx; cases hx⟩
  | @cons x y xs ys hxy hrest ih =>
    intro prev prev' hp hn
    have hx := hu x (by simp)
    have ih := ih (fun z hz => hu z (by simp [hz])) (some x) (some y)
      (fun z hz => by injection hz with hz; subst hz; exact ⟨hx, y, rfl, hxy⟩) (by simp)
    have main : ∀ (a b : ℚ), |a - b| ≤ d + 3 / 2 ^ 54 → (0 ≤ a ∧ a ≤ 1) →
        Near (d + 3 / 2 ^ 54) (a :: heights R t (some x) xs) (b :: heights Rnd.exact t (some y) ys) ∧
          Unit01 (a :: heights R t (some x) xs) := by
      intro a b hab ha
      refine ⟨List.Forall₂.cons hab ih.1, ?_⟩
      intro z hz
      rcases List.mem_cons.1 hz with rfl | hz
      · exact ha
      · exact ih.2 z hz
    unfold heights
    cases t with
    | false => exact main _ _ (hxy.trans hd') hx
    | true =>
      cases prev with
      | none =>
        rw [hn rfl]
        exact main _ _ (hxy.trans hd') hx
      | some q =>
        obtain ⟨hq, q', rfl, hqq⟩ := hp q rfl
        exact main _ _ (height_near R hR hE d x q y q' hx hq hxy hqq)
          (height_unit R hR x q hx hq)

/-- The error of a sum of products of numbers in [0,1]. -/
theorem dotFrom_near (N : ℕ) (hN : N ≤ 2 ^ 53) (da db : ℚ) (a a' b b' : List ℚ)
    (ha : Near da a a') (hb : Near db b b') (ua : Unit01 a) (ua' : Unit01 a') (ub : Unit01 b)
    (ub' : Unit01 b') :
    ∀ (k : ℕ) (acc acc' D : ℚ), k + a.length ≤ N → 0 ≤ acc → acc ≤ k → |acc - acc'| ≤ D →
      0 ≤ da → 0 ≤ db →
    |dotFrom R acc (a.zip b) - dotFrom Rnd.exact acc' (a'.zip b')| ≤
        D + a.length * (1 / 2 ^ 54 + da + db + N / 2 ^ 53) ∧
      0 ≤ dotFrom R acc (a.zip b) ∧ dotFrom R acc (a.zip b) ≤ k + a.length := by
  induction ha generalizing b b' with
  | nil =>
    intro k acc acc' D _ h0 h1 hD _ _
    simpa [dotFrom] using ⟨hD, h0, h1⟩
  | @cons x x' xs xs' hx hrest ih =>
    intro k acc acc' D hk h0 h1 hD hda hdb
    simp only [List.length_cons] at hk
    have hnn : (0 : ℚ) ≤ 1 / 2 ^ 54 + da + db + N / 2 ^ 53 := by positivity
    cases hb with
    | nil =>
      simp only [List.zip_nil_right, dotFrom, List.foldl_nil, List.length_cons]
      push_cast
      refine ⟨?_, h0, ?_⟩
      · have : (0 : ℚ) ≤ ((xs.length : ℚ) + 1) * (1 / 2 ^ 54 + da + db + N / 2 ^ 53) := by positivity
        linarith
      · have : (0 : ℚ) ≤ xs.length := by positivity
        linarith
    | @cons y y' ys ys' hy hrest' =>
      have hxu := ua x (by simp)
      have hxu' := ua' x' (by simp)
      have hyu := ub y (by simp)
      have hyu' := ub' y' (by simp)
      have hp0 : 0 ≤ x * y := mul_nonneg hxu.1 hyu.1
      have hp1 : x * y ≤ 1 := mul_le_one₀ hxu.2 hyu.1 hyu.2
      have hr0 : 0 ≤ R.f64 (x * y) := hR.nonneg64 hp0
      have hr1 : R.f64 (x * y) ≤ 1 := hR.le_one64 hp1
      have e1 := hR.err64 (x * y) hp0 hp1
      have hdiff : |x * y - x' * y'| ≤ da + db := by
        have : x * y - x' * y' = (x - x') * y + x' * (y - y') := by ring
        rw [this]
        refine (abs_add_le _ _).trans ?_
        rw [abs_mul, abs_mul, abs_of_nonneg hyu.1, abs_of_nonneg hxu'.1]
        have i1 := mul_le_mul hx hyu.2 hyu.1 hda
        have i2 := mul_le_mul hxu'.2 hy (abs_nonneg _) (by norm_num : (0 : ℚ) ≤ 1)
        linarith
      have hk1 : (k : ℚ) + 1 ≤ N := by exact_mod_cast (by omega : k + 1 ≤ N)
      have hN1 : (1 : ℚ) ≤ N := by
        have : (0 : ℚ) ≤ k := by positivity
        linarith
      have e2 := hE (acc + R.f64 (x * y)) N (by rw [abs_of_nonneg (by linarith)]; linarith) hN1
      have hacc0 : 0 ≤ R.f64 (acc + R.f64 (x * y)) := hR.nonneg64 (by linarith)
      have hacc1 : R.f64 (acc + R.f64 (x * y)) ≤ ((k + 1 : ℕ) : ℚ) := by
        rw [← hR.nat64 (k + 1) (by omega)]
        refine hR.mono64 _ _ ?_
        push_cast
        linarith
      have hD' : |R.f64 (acc + R.f64 (x * y)) - (acc' + x' * y')| ≤
          D + (1 / 2 ^ 54 + da + db + N / 2 ^ 53) := by
        rw [abs_le] at *
        constructor <;> linarith [hD.1, hD.2, e1.1, e1.2, e2.1, e2.2, hdiff.1, hdiff.2]
      obtain ⟨r1, r2, r3⟩ := ih ys ys' hrest' (fun z hz => ua z (by simp [hz]))
        (fun z hz => ua' z (by simp [hz])) (fun z hz => ub z (by simp [hz])) (fun z hz => ub' z (by simp [hz]))
        (k + 1) _ _ _ (by omega) hacc0 hacc1 hD' hda hdb
      have s1 : dotFrom R acc ((x :: xs).zip (y :: ys)) =
          dotFrom R (R.f64 (acc + R.f64 (x * y))) (xs.zip ys) := rfl
      have s2 : dotFrom Rnd.exact acc' ((x' :: xs').zip (y' :: ys')) =
          dotFrom Rnd.exact (acc' + x' * y') (xs'.zip ys') := rfl
      rw [s1, s2]
      simp only [List.length_cons]
      push_cast at r3 ⊢
      refine ⟨r1.trans (le_of_eq (by ring)), r2, by linarith⟩

/-- The error of average precision, given curves that are near each other. -/
theorem computeAP_near (t : Bool) (pr pr' rc rc' : List ℚ) (dp dr : ℚ) (hdp : 0 ≤ dp) (hdr : 0 ≤ dr)
    (hl : pr.length = rc.length) (hn : pr.length ≤ 2 ^ 53) (h1 : Near dp pr pr') (h2 : Near dr rc rc')
    (u1 : Unit01 pr) (u1' : Unit01 pr') (u2 : Unit01 rc) (u2' : Unit01 rc') :
    ∃ v v', computeAP R pr rc t = .ok v ∧ computeAP Rnd.exact pr' rc' t = .ok v' ∧
      |v - v'| ≤ 2 * pr.length * (1 / 2 ^ 54 + dr + (dp + 3 / 2 ^ 54) + pr.length / 2 ^ 53) +
        pr.length / 2 ^ 53 := by
  have hl' : pr'.length = rc'.length := by rw [← h1.length_eq, ← h2.length_eq, hl]
  have hhn := heights_near R hR hE t dp pr pr' h1 u1 none none (by simp) (by simp)
  have hhe : Unit01 (heights Rnd.exact t none pr') := by
    have := heights_near Rnd.exact exact_precise (fun a b _ h => by
      simp only [Rnd.exact, id, sub_self, abs_zero]; positivity) t 0 pr' pr'
      (List.forall₂_same.2 (by simp)) u1' none none (by simp) (by simp)
    exact this.2
  have hlen : (heights R t none pr).length = pr.length := heights_length _ _ _ _
  have A1 := dotFrom_near R hR hE pr.length hn dr (dp + 3 / 2 ^ 54) rc rc' _ _ h2 hhn.1 u2 u2' hhn.2
    hhe 0 0 0 0 (by omega) le_rfl (by simp) (by simp) hdr (by positivity)
  have htail : Near (dp + 3 / 2 ^ 54) (heights R t none pr).tail (heights Rnd.exact t none pr').tail := by
    have := hhn.1
    unfold Near at *
    generalize heights R t none pr = a at *
    generalize heights Rnd.exact t none pr' = b at *
    cases this with
    | nil => exact List.Forall₂.nil
    | cons _ h => exact h
  have A2 := dotFrom_near R hR hE pr.length hn dr (dp + 3 / 2 ^ 54) rc rc' _ _ h2 htail u2 u2'
    (fun x hx => hhn.2 x (List.mem_of_mem_tail hx)) (fun x hx => hhe x (List.mem_of_mem_tail hx))
    0 0 0 0 (by omega) le_rfl (by simp) (by simp) hdr (by positivity)
  refine ⟨_, _, if_pos hl, if_pos hl', ?_⟩
  generalize dotFrom R 0 (rc.zip (heights R t none pr)) = x1 at *
  generalize dotFrom R 0 (rc.zip (heights R t none pr).tail) = x2 at *
  generalize dotFrom Rnd.exact 0 (rc'.zip (heights Rnd.exact t none pr')) = y1 at *
  generalize dotFrom Rnd.exact 0 (rc'.zip (heights Rnd.exact t none pr').tail) = y2 at *
  obtain ⟨a1, a2, a3⟩ := A1
  obtain ⟨b1, b2, b3⟩ := A2
  rw [← hl] at a1 a3 b1 b3
  simp only [Nat.cast_zero, zero_add] at a1 a3 b1 b3
  show |R.f64 (x1 - x2) - (y1 - y2)| ≤ _
  rcases Nat.eq_zero_or_pos pr.length with h0 | hpos
  · rw [h0] at a1 a3 b1 b3 ⊢
    simp only [Nat.cast_zero, zero_mul] at a1 a3 b1 b3
    have hx1 : x1 = 0 := le_antisymm a3 a2
    have hx2 : x2 = 0 := le_antisymm b3 b2
    have hy1 : y1 = 0 := by rw [hx1] at a1; simpa using a1
    have hy2 : y2 = 0 := by rw [hx2] at b1; simpa using b1
    rw [hx1, hx2, hy1, hy2]
    simp [hR.zero64]
  · have hp1 : (1 : ℚ) ≤ pr.length := by exact_mod_cast hpos
    have e := hE (x1 - x2) pr.length (by rw [abs_le]; constructor <;> linarith) hp1
    rw [abs_le] at *
    constructor <;> linarith [a1.1, a1.2, b1.1, b1.2, e.1, e.2]

end

/-! ## Errors that are multiples of `2^-24` -/

section
variable {ε : Type} [IsError ε]

/-- The masses are multiples of `2^-24`. -/
def OnGrid (e : ε) : Prop := ∃ a b : ℕ, IsError.fp e = a / 2 ^ 24 ∧ IsError.fn e = b / 2 ^ 24

theorem grid_le {a n : ℕ} (h : (a : ℚ) / 2 ^ 24 ≤ n) : a ≤ n * 2 ^ 24 := by
  rw [div_le_iff₀ (by positivity)] at h
  exact_mod_cast h

/-- Sums of multiples of `2^-24` are exact. -/
theorem run_grid (R : Rnd) (hR : R.Faithful) (es : List ε) (hw : ∀ e ∈ es, OnGrid e)
    (hes : ∀ e ∈ es, ErrOk e) :
    ∀ s : PRSums, (∃ a b : ℕ, s.sumFP = a / 2 ^ 24 ∧ s.sumFN = b / 2 ^ 24 ∧ s.sumFP ≤ s.sumNH ∧
      s.sumFN ≤ s.sumNR) →
    s.sumNH + (es.map IsError.nh).sum ≤ 2 ^ 29 → s.sumNR + (es.map IsError.nr).sum ≤ 2 ^ 29 →
    s.run R es = s.run Rnd.exact es := by
  induction es with
  | nil => intro s _ _ _; rfl
  | cons e es ih =>
    intro s hs f g
    obtain ⟨a, b, ha, hb, ha', hb'⟩ := hs
    obtain ⟨x, y, hx, hy⟩ := hw e (by simp)
    have he := hes e (by simp)
    simp only [List.map_cons, List.sum_cons] at f g
    have hp := he.fp1
    have hn := he.fn1
    have la : s.sumFP + IsError.fp e ≤ ((s.sumNH + IsError.nh e : ℕ) : ℚ) := by push_cast; linarith
    have lb : s.sumFN + IsError.fn e ≤ ((s.sumNR + IsError.nr e : ℕ) : ℚ) := by push_cast; linarith
    have ea : s.sumFP + IsError.fp e = ((a + x : ℕ) : ℚ) / 2 ^ 24 := by
      rw [ha, hx]; push_cast; ring
    have eb : s.sumFN + IsError.fn e = ((b + y : ℕ) : ℚ) / 2 ^ 24 := by
      rw [hb, hy]; push_cast; ring
    have ga := grid_le (ea ▸ la)
    have gb := grid_le (eb ▸ lb)
    have e1 : R.f64 (s.sumFP + IsError.fp e) = s.sumFP + IsError.fp e := by
      rw [ea]; exact hR.dyadic64 _ 24 (by omega) (by norm_num)
    have e2 : R.f64 (s.sumFN + IsError.fn e) = s.sumFN + IsError.fn e := by
      rw [eb]; exact hR.dyadic64 _ 24 (by omega) (by norm_num)
    have hstep : s.step R e = s.step Rnd.exact e := by
      unfold PRSums.step
      rw [e1, e2]
      rfl
    have : s.run R (e :: es) = (s.step R e).run R es := rfl
    rw [this, show s.run Rnd.exact (e :: es) = (s.step Rnd.exact e).run Rnd.exact es from rfl,
      ← hstep]
    refine ih (fun z hz => hw z (by simp [hz])) (fun z hz => hes z (by simp [hz])) _ ?_ ?_ ?_
    · exact ⟨a + x, b + y, e1.trans ea, e2.trans eb, by simp only [PRSums.step]; rw [e1]; exact la,
        by simp only [PRSums.step]; rw [e2]; exact lb⟩
    · simp only [PRSums.step]; omega
    · simp only [PRSums.step]; omega

/-- The errors of precision and recall when the sums are exact. -/
theorem point_near (R : Rnd) (hR : R.Precise) (s : PRSums) (TR : Nat) (a b : ℕ)
    (ha : s.sumFP = a / 2 ^ 24) (hb : s.sumFN = b / 2 ^ 24) (ha' : s.sumFP ≤ s.sumNH)
    (hb' : s.sumFN ≤ s.sumNR) (hTR : s.sumNR ≤ TR) (hf : s.sumNH ≤ 2 ^ 29) (hg : TR ≤ 2 ^ 29) :
    |s.precision R - s.precision Rnd.exact| ≤ 2 / 2 ^ 54 ∧
    |s.recall R TR - s.recall Rnd.exact TR| ≤ 1 / 2 ^ 54 := by
  have f := fits64_of R hR.toFaithful s.sumNH (by omega)
  have g := fits64_of R hR.toFaithful TR (by omega)
  constructor
  · unfold PRSums.precision
    split
    · rename_i hpos
      have hq : (0 : ℚ) < s.sumNH := by exact_mod_cast hpos
      have hp : 0 ≤ s.sumFP := by rw [ha]; positivity
      rw [f _ le_rfl]
      have h0 : (0 : ℚ) ≤ s.sumFP / s.sumNH := by positivity
      have h1 : s.sumFP / s.sumNH ≤ 1 := by
        rw [div_le_one hq]; exact ha'
      have e1 := hR.err64 _ h0 h1
      have h2 : 0 ≤ R.f64 (s.sumFP / s.sumNH) := hR.nonneg64 h0
      have h3 : R.f64 (s.sumFP / s.sumNH) ≤ 1 := hR.le_one64 h1
      have e2 := hR.err64 (1 - R.f64 (s.sumFP / s.sumNH)) (by linarith) (by linarith)
      show |_ - (1 - s.sumFP / s.sumNH)| ≤ _
      rw [abs_le] at *
      constructor <;> linarith [e1.1, e1.2, e2.1, e2.2]
    · norm_num
  · unfold PRSums.recall
    split
    · rename_i hpos
      have hq : (0 : ℚ) < TR := by exact_mod_cast hpos
      have hgb := grid_le (hb ▸ hb')
      have hp : 0 ≤ s.sumFN := by rw [hb]; positivity
      rw [g _ le_rfl, g _ hTR]
      have hs : R.f64 ((s.sumNR : ℚ) - s.sumFN) = s.sumNR - s.sumFN := by
        have e : (s.sumNR : ℚ) - s.sumFN = ((s.sumNR * 2 ^ 24 - b : ℕ) : ℚ) / 2 ^ 24 := by
          rw [Nat.cast_sub hgb, hb]; push_cast; ring
        rw [e]; exact hR.dyadic64 _ 24 (by omega) (by norm_num)
      rw [hs]
      have h0 : (0 : ℚ) ≤ (s.sumNR - s.sumFN) / TR := div_nonneg (by linarith) hq.le
      have h1 : (s.sumNR - s.sumFN) / TR ≤ 1 := by
        rw [div_le_one hq]
        have : (s.sumNR : ℚ) ≤ TR := by exact_mod_cast hTR
        linarith
      exact hR.err64 _ h0 h1
    · norm_num

/-- With errors on the grid each point of the curves has rounded values of the exact sums. -/
theorem prLoop_grid (R : Rnd) (hR : R.Faithful) (es : List ε)
    (hw : ∀ e ∈ es, OnGrid e) (hes : ∀ e ∈ es, ErrOk e)
    (hh : (es.map IsError.nh).sum ≤ 2 ^ 29) (hr : (es.map IsError.nr).sum ≤ 2 ^ 29) (k : ℕ)
    (hk : k < es.length) :
    ∃ (s : PRSums) (a b : ℕ), s = PRSums.run Rnd.exact {} (es.take (k + 1)) ∧
      (prLoop R (numTotalReferences es) {} es)[k]? =
        some (s.precision R, s.recall R (numTotalReferences es)) ∧
      (prLoop Rnd.exact (numTotalReferences es) {} es)[k]? =
        some (s.precision Rnd.exact, s.recall Rnd.exact (numTotalReferences es)) ∧
      s.sumFP = a / 2 ^ 24 ∧ s.sumFN = b / 2 ^ 24 ∧ s.sumFP ≤ s.sumNH ∧ s.sumFN ≤ s.sumNR ∧
      s.sumNR ≤ numTotalReferences es ∧ s.sumNH ≤ 2 ^ 29 ∧ numTotalReferences es ≤ 2 ^ 29 := by
  have g1 := prLoop_get R (numTotalReferences es) es {} k hk
  have g2 := prLoop_get Rnd.exact (numTotalReferences es) es {} k hk
  have l1 := sum_take_le IsError.nh es (k + 1)
  have l2 := sum_take_le IsError.nr es (k + 1)
  have hw' : ∀ e ∈ es.take (k + 1), OnGrid e := fun e he => hw e (List.mem_of_mem_take he)
  have hes' : ∀ e ∈ es.take (k + 1), ErrOk e := fun e he => hes e (List.mem_of_mem_take he)
  have hrun := run_grid R hR (es.take (k + 1)) hw' hes' {}
    ⟨0, 0, by simp, by simp, by simp, by simp⟩ (by simp only [zero_add]; omega)
    (by simp only [zero_add]; omega)
  have c := run_counts Rnd.exact (es.take (k + 1)) {}
  have d := run_exact (es.take (k + 1)) {}
  have bd := run_bounds Rnd.exact exact_faithful (es.take (k + 1)) hes' {} le_rfl (by simp) le_rfl
    (by simp) (fits64_exact _) (fits64_exact _)
  simp only [zero_add] at c d
  have hgrid : ∀ f : ε → ℚ, (∀ e ∈ es.take (k + 1), ∃ a : ℕ, f e = a / 2 ^ 24) →
      ∃ a : ℕ, ((es.take (k + 1)).map f).sum = a / 2 ^ 24 := by
    generalize es.take (k + 1) = l
    intro f hf
    induction l with
    | nil => exact ⟨0, by simp⟩
    | cons e l ih =>
      obtain ⟨a, ha⟩ := ih (fun x hx => hf x (by simp [hx]))
      obtain ⟨b, hb⟩ := hf e (by simp)
      exact ⟨b + a, by simp only [List.map_cons, List.sum_cons, ha, hb]; push_cast; ring⟩
  obtain ⟨a, ha⟩ := hgrid IsError.fp (fun e he => by obtain ⟨a, _, h, _⟩ := hw' e he; exact ⟨a, h⟩)
  obtain ⟨b, hb⟩ := hgrid IsError.fn (fun e he => by obtain ⟨_, b, _, h⟩ := hw' e he; exact ⟨b, h⟩)
  rw [hrun] at g1
  exact ⟨_, a, b, rfl, g1, g2, by rw [d.1, ha], by rw [d.2, hb], bd.2.1, bd.2.2.2,
    by rw [c.1, numTotal_eq]; exact l2, by rw [c.2]; omega, by rw [numTotal_eq]; exact hr⟩

theorem computePR_near (R : Rnd) (hR : R.Precise) (es : List ε) (interp : Bool)
    (hw : ∀ e ∈ es, OnGrid e) (hes : ∀ e ∈ es, ErrOk e)
    (hh : (es.map IsError.nh).sum ≤ 2 ^ 29) (hr : (es.map IsError.nr).sum ≤ 2 ^ 29) :
    Near (2 / 2 ^ 54) (computePR R es interp).1 (computePR Rnd.exact es interp).1 ∧
    Near (1 / 2 ^ 54) (computePR R es interp).2 (computePR Rnd.exact es interp).2 := by
  have hpt : ∀ k, k < es.length → ∃ p p', (prLoop R (numTotalReferences es) {} es)[k]? = some p ∧
      (prLoop Rnd.exact (numTotalReferences es) {} es)[k]? = some p' ∧
      |p.1 - p'.1| ≤ 2 / 2 ^ 54 ∧ |p.2 - p'.2| ≤ 1 / 2 ^ 54 := by
    intro k hk
    obtain ⟨s, a, b, -, g1, g2, h1, h2, h3, h4, h5, h6, h7⟩ :=
      prLoop_grid R hR.toFaithful es hw hes hh hr k hk
    exact ⟨_, _, g1, g2, point_near R hR s _ a b h1 h2 h3 h4 h5 h6 h7⟩
  have hnear : ∀ (f : ℚ × ℚ → ℚ) (d : ℚ), (∀ p p' : ℚ × ℚ, |p.1 - p'.1| ≤ 2 / 2 ^ 54 →
      |p.2 - p'.2| ≤ 1 / 2 ^ 54 → |f p - f p'| ≤ d) →
      Near d ((prLoop R (numTotalReferences es) {} es).map f)
        ((prLoop Rnd.exact (numTotalReferences es) {} es).map f) := by
    intro f d hf
    unfold Near
    rw [List.forall₂_iff_get]
    refine ⟨by simp [prLoop_length], ?_⟩
    intro i h1 h2
    simp only [List.length_map, prLoop_length] at h1
    obtain ⟨p, p', e1, e2, e3, e4⟩ := hpt i h1
    simp only [List.get_eq_getElem, List.getElem_map]
    obtain ⟨_, e1⟩ := List.getElem?_eq_some_iff.1 e1
    obtain ⟨_, e2⟩ := List.getElem?_eq_some_iff.1 e2
    rw [e1, e2]
    exact hf p p' e3 e4
  have n1 := hnear (·.1) _ (fun p p' h _ => h)
  have n2 := hnear (·.2) _ (fun p p' _ h => h)
  unfold computePR
  simp only
  refine ⟨?_, n2⟩
  split
  · exact interpolate_near _ _ _ n1
  · exact n1

/-- With errors on the grid the rounded recall never decreases. -/
theorem computePR_mono_grid (R : Rnd) (hR : R.Faithful) (es : List ε) (interp : Bool)
    (hw : ∀ e ∈ es, OnGrid e) (hes : ∀ e ∈ es, ErrOk e)
    (hh : (es.map IsError.nh).sum ≤ 2 ^ 29) (hr : (es.map IsError.nr).sum ≤ 2 ^ 29) :
    (computePR R es interp).2.Pairwise (· ≤ ·) := by
  rw [show (computePR R es interp).2 = (prLoop R (numTotalReferences es) {} es).map (·.2) from rfl,
    List.pairwise_iff_getElem]
  intro i j hi hj hij
  simp only [List.length_map, prLoop_length] at hi hj
  obtain ⟨s, a, b, hs, g1, -, -, h2, -, h4, h5, -, h7⟩ := prLoop_grid R hR es hw hes hh hr i hi
  obtain ⟨s', a', b', hs', g1', -, -, h2', -, h4', h5', -, -⟩ :=
    prLoop_grid R hR es hw hes hh hr j hj
  obtain ⟨_, e1⟩ := List.getElem?_eq_some_iff.1 g1
  obtain ⟨_, e2⟩ := List.getElem?_eq_some_iff.1 g1'
  simp only [List.getElem_map, e1, e2]
  have g := fits64_of R hR (numTotalReferences es) (by omega)
  have hmono : (s.sumNR : ℚ) - s.sumFN ≤ s'.sumNR - s'.sumFN := by
    have c := run_counts Rnd.exact (es.take (i + 1)) {}
    have d := run_exact (es.take (i + 1)) {}
    have c' := run_counts Rnd.exact (es.take (j + 1)) {}
    have d' := run_exact (es.take (j + 1)) {}
    simp only [zero_add] at c d c' d'
    rw [hs, hs', c.1, d.2, c'.1, d'.2]
    have hsplit : es.take (j + 1) = es.take (i + 1) ++ (es.take (j + 1)).drop (i + 1) := by
      conv_lhs => rw [← List.take_append_drop (i + 1) (es.take (j + 1))]
      rw [List.take_take, min_eq_left (by omega)]
    rw [hsplit]
    simp only [List.map_append, List.sum_append]
    have hrest : (((es.take (j + 1)).drop (i + 1)).map IsError.fn).sum ≤
        ((((es.take (j + 1)).drop (i + 1)).map IsError.nr).sum : ℕ) := by
      have hsub : ∀ e ∈ (es.take (j + 1)).drop (i + 1), ErrOk e := fun e he =>
        hes e (List.mem_of_mem_take (List.mem_of_mem_drop he))
      generalize (es.take (j + 1)).drop (i + 1) = l at hsub
      induction l with
      | nil => simp
      | cons x l ih =>
        have := ih (fun e he => hsub e (by simp [he]))
        have := (hsub x (by simp)).fn1
        simp only [List.map_cons, List.sum_cons]
        push_cast at *
        linarith
    push_cast at *
    linarith
  unfold PRSums.recall
  split
  · rename_i hpos
    have hq : (0 : ℚ) < numTotalReferences es := by exact_mod_cast hpos
    rw [g _ le_rfl, g _ h5, g _ h5']
    refine hR.mono64 _ _ ?_
    exact div_le_div_of_nonneg_right (hR.mono64 _ _ hmono) hq.le
  · exact le_rfl

end

section
variable {Q L : Type}

theorem hard_grid (e : MatchError) (h : Hard e) : OnGrid e := by
  have h0 : (0 : ℚ) = (0 : ℕ) / 2 ^ 24 := by norm_num
  have h1 : (1 : ℚ) = (2 ^ 24 : ℕ) / 2 ^ 24 := by norm_num
  obtain ⟨h | h, h' | h'⟩ := h
  · exact ⟨0, 0, h.trans h0, h'.trans h0⟩
  · exact ⟨0, 2 ^ 24, h.trans h0, h'.trans h1⟩
  · exact ⟨2 ^ 24, 0, h.trans h1, h'.trans h0⟩
  · exact ⟨2 ^ 24, 2 ^ 24, h.trans h1, h'.trans h1⟩

theorem collapse_grid (ms : List (KwsMatch Q L)) (h : ∀ m ∈ ms, OnGrid m.error) :
    ∀ c ∈ collapseMatches Rnd.exact ms, OnGrid c := by
  have key : ∀ ms : List (KwsMatch Q L), (∀ m ∈ ms, OnGrid m.error) →
      ∀ p ∈ collapseAcc Rnd.exact ms, OnGrid p.1 := by
    intro ms
    induction ms using List.reverseRecOn with
    | nil => intro _ p hp; simp [collapseAcc] at hp
    | append_singleton ms m ih =>
      intro h p hp
      have ih' := ih (fun x hx => h x (by simp [hx]))
      obtain ⟨a, b, ha, hb⟩ := h m (by simp)
      have ha' : m.error.fp = a / 2 ^ 24 := ha
      have hb' : m.error.fn = b / 2 ^ 24 := hb
      rw [collapseAcc_snoc] at hp
      cases hc : collapseAcc Rnd.exact ms with
      | nil =>
        rw [hc] at hp
        simp only [collapseStep, List.mem_singleton] at hp
        subst hp
        exact ⟨a, b, ha', hb'⟩
      | cons q rest =>
        obtain ⟨c, s⟩ := q
        rw [hc] at hp ih'
        unfold collapseStep at hp
        simp only at hp
        split at hp
        · rcases List.mem_cons.1 hp with rfl | hp
          · exact ⟨a, b, ha', hb'⟩
          · exact ih' p hp
        · rcases List.mem_cons.1 hp with rfl | hp
          · obtain ⟨x, y, hx, hy⟩ := ih' (c, s) (by simp)
            have hx' : c.fp = x / 2 ^ 24 := hx
            have hy' : c.fn = y / 2 ^ 24 := hy
            refine ⟨x + a, y + b, ?_, ?_⟩
            · show (Rnd.exact.f32 (c.fp + m.error.fp)) = _
              rw [hx', ha']; simp only [Rnd.exact, id]; push_cast; ring
            · show (Rnd.exact.f32 (c.fn + m.error.fn)) = _
              rw [hy', hb']; simp only [Rnd.exact, id]; push_cast; ring
          · exact ih' p (by simp [hp])
  intro c hc
  rw [collapse_eq] at hc
  obtain ⟨p, hp, rfl⟩ := List.mem_map.1 hc
  exact key ms h p (List.mem_reverse.1 hp)

/-- What is assumed of the matches: rates in [0,1] that are multiples of `2^-24`, and 0 or 1 if
matches are collapsed. -/
def GridOk (collapse : Bool) (ms : List (KwsMatch Q L)) : Prop :=
  (∀ m ∈ ms, Rates m.error ∧ OnGrid m.error) ∧
  (collapse = true → ms.length ≤ 2 ^ 24 ∧ ∀ m ∈ ms, Hard m.error) ∧ ms.length ≤ 2 ^ 29

theorem hard_rates (e : MatchError) (h : Hard e) : Rates e := by
  obtain ⟨h | h, h' | h'⟩ := h <;> simp [Rates, h, h']

theorem matchesPR_near (R : Rnd) (hR : R.Precise) (ms : List (KwsMatch Q L)) (collapse interp : Bool)
    (h : GridOk collapse ms) :
    Near (2 / 2 ^ 54) (matchesPR R ms collapse interp).1 (matchesPR Rnd.exact ms collapse interp).1 ∧
    Near (1 / 2 ^ 54) (matchesPR R ms collapse interp).2 (matchesPR Rnd.exact ms collapse interp).2 ∧
    (matchesPR R ms collapse interp).2.Pairwise (· ≤ ·) := by
  obtain ⟨hg, hc, hl⟩ := h
  have l1 := sum_le_length ms (fun m => m.error.nh) (fun m => nh_le_one m.error)
  have l2 := sum_le_length ms (fun m => m.error.nr) (fun m => nr_le_one m.error)
  unfold matchesPR
  split
  · rename_i hcol
    obtain ⟨hl', hh⟩ := hc hcol
    rw [collapse_hard R ms hh (fits32_of R hR.toFaithful _ hl')]
    have a1 := collapse_grid ms (fun m hm => (hg m hm).2)
    have a2 := collapse_ok Rnd.exact exact_faithful ms (fun m hm => (hg m hm).1) (fits32_exact _)
      (fits32_exact _)
    have a3 : ((collapseMatches Rnd.exact ms).map IsError.nh).sum ≤ 2 ^ 29 := by
      rw [(collapse_sums Rnd.exact ms).1]; omega
    have a4 : ((collapseMatches Rnd.exact ms).map IsError.nr).sum ≤ 2 ^ 29 := by
      rw [(collapse_sums Rnd.exact ms).2]; omega
    have n := computePR_near R hR _ interp a1 a2 a3 a4
    exact ⟨n.1, n.2, computePR_mono_grid R hR.toFaithful _ interp a1 a2 a3 a4⟩
  · have a1 : ∀ e ∈ getMatchErrors ms, OnGrid e := by
      intro e he
      obtain ⟨m, hm, rfl⟩ := List.mem_map.1 he
      exact (hg m hm).2
    have a2 := errors_ok ms (fun m hm => (hg m hm).1)
    have a3 : ((getMatchErrors ms).map IsError.nh).sum ≤ 2 ^ 29 := by
      rw [(errors_sums ms).1]; omega
    have a4 : ((getMatchErrors ms).map IsError.nr).sum ≤ 2 ^ 29 := by
      rw [(errors_sums ms).2.1]; omega
    have n := computePR_near R hR _ interp a1 a2 a3 a4
    exact ⟨n.1, n.2, computePR_mono_grid R hR.toFaithful _ interp a1 a2 a3 a4⟩

theorem collapse_length (R : Rnd) (ms : List (KwsMatch Q L)) :
    (collapseMatches R ms).length ≤ ms.length := by
  rw [collapse_eq, List.length_map, List.length_reverse]
  induction ms using List.reverseRecOn with
  | nil => simp [collapseAcc]
  | append_singleton ms m ih =>
    rw [collapseAcc_snoc, List.length_append, List.length_singleton]
    cases hc : collapseAcc R ms with
    | nil => simp [collapseStep]
    | cons q rest =>
      obtain ⟨c, s⟩ := q
      rw [hc, List.length_cons] at ih
      unfold collapseStep
      simp only
      split
      · simp only [List.length_cons]; omega
      · simp only [List.length_cons]; omega

/-- The rounding error of average precision for `n` matches. -/
def apError (n : ℕ) : ℚ := n * (n + 4) / 2 ^ 52

theorem apError_mono {a b : ℕ} (h : a ≤ b) : apError a ≤ apError b := by
  unfold apError
  have : (a : ℚ) ≤ b := by exact_mod_cast h
  gcongr

theorem globalAP_near (R : Rnd) (hR : R.Precise) (hE : RelErr R) (ms : List (KwsMatch Q L))
    (collapse interp trap : Bool) (h : GridOk collapse ms) :
    ∃ v v', globalAP R ms collapse interp trap = .ok v ∧
      globalAP Rnd.exact ms collapse interp trap = .ok v' ∧ |v - v'| ≤ apError ms.length := by
  have hrt : ∀ m ∈ ms, Rates m.error := fun m hm => (h.1 m hm).1
  have hn := matchesPR_near R hR ms collapse interp h
  have b1 := matchesPR_bounds R hR.toFaithful ms collapse interp hrt
    (fits64_of R hR.toFaithful _ (h.2.2.trans (by norm_num)))
    (fun hc => fits32_of R hR.toFaithful _ (h.2.1 hc).1)
  have b2 := matchesPR_bounds Rnd.exact exact_faithful ms collapse interp hrt (fits64_exact _)
    (fun _ => fits32_exact _)
  have hlen := matchesPR_lengths R ms collapse interp
  have hle : (matchesPR R ms collapse interp).1.length ≤ ms.length := by
    rw [hlen.1]; split
    · exact collapse_length R ms
    · exact le_rfl
  obtain ⟨v, v', e1, e2, e3⟩ := computeAP_near R hR hE trap _ _ _ _ (2 / 2 ^ 54) (1 / 2 ^ 54)
    (by positivity) (by positivity) (by rw [hlen.1, hlen.2])
    (hle.trans (h.2.2.trans (by norm_num))) hn.1 hn.2.1 b1.1 b2.1 b1.2 b2.2
  refine ⟨v, v', e1, e2, e3.trans (le_trans (le_of_eq ?_) (apError_mono hle))⟩
  unfold apError
  ring

end

end Kws

namespace Kws.Ieee

/-- Single-precision numbers from 1/2 on are multiples of `2^-24`. -/
theorem round32_half (x : ℚ) (h : 1 / 2 ≤ x) : ∃ m : ℕ, round 24 (-149) x = m / 2 ^ 24 := by
  have hx : 0 < x := by linarith
  obtain ⟨m, -, hm⟩ := roundPos_form 24 (-149) hx
  have hlog : -1 ≤ Int.log 2 x := by
    have h1 : (2 : ℚ) ^ (-1 : ℤ) < 2 ^ (Int.log 2 x + 1) := by
      refine lt_of_le_of_lt ?_ (lt_log x)
      rw [zpow_neg, zpow_one]
      linarith
    have := (zpow_lt_zpow_iff_right₀ (by norm_num : (1 : ℚ) < 2)).1 h1
    omega
  have hq : -24 ≤ quantum 24 (-149) x := by unfold quantum; push_cast; omega
  obtain ⟨n, hn⟩ : ∃ n : ℕ, quantum 24 (-149) x = n - 24 := ⟨(quantum 24 (-149) x + 24).toNat, by omega⟩
  refine ⟨m * 2 ^ n, ?_⟩
  unfold round
  rw [if_pos hx, hm, hn, zpow_sub₀ (by norm_num)]
  push_cast
  rw [zpow_natCast]
  norm_num
  ring

/-- One minus a single-precision number in [0,1], rounded, is a multiple of `2^-24`. -/
theorem round32_compl (q : ℚ) (hq : round 24 (-149) q = q) (h1 : q ≤ 1) :
    ∃ m : ℕ, round 24 (-149) (1 - q) = m / 2 ^ 24 := by
  rcases le_total (1 / 2) q with h | h
  · obtain ⟨m, hm⟩ := round32_half q h
    rw [hq] at hm
    have hm' : m ≤ 2 ^ 24 := by
      rw [hm, div_le_one (by positivity)] at h1
      exact_mod_cast h1
    have he : 1 - q = ((2 ^ 24 - m : ℕ) : ℚ) / 2 ^ 24 := by
      rw [hm, Nat.cast_sub hm']; push_cast; ring
    rw [he]
    exact ⟨_, round_dyadic 24 (-149) (by norm_num) _ 24 (by omega) (by norm_num)⟩
  · exact round32_half _ (by linarith)

end Kws.Ieee
