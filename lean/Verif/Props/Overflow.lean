import Verif.Lemmas.OverflowMain

/-!
# C123: overflow never influences an evaluation
-/

namespace Kws
open Spec

section
variable {G : Type} {R : Rnd} (h : Overflowing R)
include h

/-- C123 for `Icdar17KwsEval`: whatever the machine gives when an operation on `float`s or `double`s overflows, a run
writes the same and ends in the same way. -/
theorem C123_box (S : StdSort) (rng : Rng G) {w : World} (hw : SmallInputs w) (prog : Str) (argv : List Str) :
    traceMain R S rng (icdarKit R S) icdarTexts w prog argv =
      traceMain Rnd.ieee S rng (icdarKit Rnd.ieee S) icdarTexts w prog argv := by
  rw [icdarKit_over h]
  exact traceMain_over h S rng (icdar_safe _ S) (icdar_reads_over _ S) icdarTexts hw prog argv

/-- C123 for `SimpleKwsEval`. -/
theorem C123_segmentation (S : StdSort) (rng : Rng G) (queryFirst : Bool) {w : World} (hw : SmallInputs w)
    (prog : Str) (argv : List Str) :
    traceMain R S rng (simpleKit R queryFirst) simpleTexts w prog argv =
      traceMain Rnd.ieee S rng (simpleKit Rnd.ieee queryFirst) simpleTexts w prog argv := by
  rw [simpleKit_over h]
  exact traceMain_over h S rng (simple_safe _ _) (simple_reads_over _ _) simpleTexts hw prog argv

/-- C123 for `Icdar17KwsEval` with NDCG in `double`. -/
theorem C123_box_double {lm : Libm} (hl : lm.Sane) (S : StdSort) (rng : Rng G) {w : World} (hw : SmallInputs w)
    (prog : Str) (argv : List Str) :
    traceMainD R lm S rng (icdarKit R S) icdarTexts w prog argv =
      traceMainD Rnd.ieee lm S rng (icdarKit Rnd.ieee S) icdarTexts w prog argv := by
  rw [icdarKit_over h]
  exact traceMainD_over h hl S rng (icdar_safe _ S) (icdar_reads_over _ S) icdarTexts hw prog argv

/-- C123 for `SimpleKwsEval` with NDCG in `double`. -/
theorem C123_segmentation_double {lm : Libm} (hl : lm.Sane) (S : StdSort) (rng : Rng G) (queryFirst : Bool)
    {w : World} (hw : SmallInputs w) (prog : Str) (argv : List Str) :
    traceMainD R lm S rng (simpleKit R queryFirst) simpleTexts w prog argv =
      traceMainD Rnd.ieee lm S rng (simpleKit Rnd.ieee queryFirst) simpleTexts w prog argv := by
  rw [simpleKit_over h]
  exact traceMainD_over h hl S rng (simple_safe _ _) (simple_reads_over _ _) simpleTexts hw prog argv

/-- C123 for the scorers that the tools do not use. -/
theorem C123_scorers {Q D : Type} [Cmp Q] [Cmp D] (t : ℚ) (ref : Event Q (DocBox D UInt32))
    (hyp : ScoredEvent Q (DocBox D UInt32)) :
    iouScorer R t ref hyp = iouScorer Rnd.ieee t ref hyp ∧ softScorer R ref hyp = softScorer Rnd.ieee ref hyp := by
  constructor
  · unfold iouScorer
    simp only [ratioAtLeast_over h]
  · have hv : ∀ a : UInt32, |(CoordVal.val a : ℚ)| ≤ 2 ^ 32 := fun a => by
      have : (CoordVal.val a : ℚ) = (a.toNat : ℚ) := rfl
      rw [this, abs_of_nonneg (by positivity)]
      exact_mod_cast a.toNat_lt.le
    have key : ∀ i a : UInt32, softRate R i a = softRate Rnd.ieee i a := by
      intro i a
      unfold softRate
      simp only
      rw [h.eq32 (hv i) (by norm_num), h.eq32 (hv a) (by norm_num)]
      by_cases ha : Rnd.ieee.f32 (CoordVal.val a) > 0
      · have h1 : 1 ≤ Rnd.ieee.f32 (CoordVal.val a) := by
          have hn : (1 : ℚ) ≤ CoordVal.val a := by
            have e : (CoordVal.val a : ℚ) = (a.toNat : ℚ) := rfl
            rw [e] at ha ⊢
            have : a.toNat ≠ 0 := by
              intro hc
              rw [hc, Nat.cast_zero, ieee_faithful.zero32] at ha
              exact lt_irrefl _ ha
            exact_mod_cast Nat.one_le_iff_ne_zero.2 this
          have := ieee_faithful.mono32 _ _ hn
          rwa [ieee_faithful.one32] at this
        have h2 := div_bound (ieee_bound32 32 (hv i)) h1
        have h3 : |1 - Rnd.ieee.f32 (Rnd.ieee.f32 (CoordVal.val i) / Rnd.ieee.f32 (CoordVal.val a))| ≤ 2 ^ 33 :=
          abs_sub_pow (k := 32) (abs_one_le 32) (ieee_bound32 32 h2)
        rw [if_pos ha, if_pos ha, h.eq32 h2 (by norm_num), h.eq32 h3 (by norm_num)]
      · rw [if_neg ha, if_neg ha, h.eq32 (k := 0) (by norm_num) (by norm_num)]
    unfold softScorer
    simp only [key]

end

/-! ## Examples -/

/-- A machine on which numbers that do not fit become the number `m`, or `-m`. -/
def overflowTo (m : ℚ) : Rnd where
  f32 x := if |Rnd.ieee.f32 x| ≤ fltMax then Rnd.ieee.f32 x else if 0 < Rnd.ieee.f32 x then m else -m
  f64 x := if |Rnd.ieee.f64 x| ≤ dblMax then Rnd.ieee.f64 x else if 0 < Rnd.ieee.f64 x then m else -m

theorem overflowTo_spec {m : ℚ} (h1 : fltMax < m) (h2 : dblMax < m) : Overflowing (overflowTo m) := by
  have f0 := fltMax_nonneg
  have d0 := dblMax_nonneg
  have over : ∀ (b y : ℚ), 0 ≤ b → b < m → b < y → b < if |y| ≤ b then y else if 0 < y then m else -m := by
    intro b y hb hm hy
    rw [if_neg (not_le.2 (lt_of_lt_of_le hy (le_abs_self y))), if_pos (lt_of_le_of_lt hb hy)]
    exact hm
  have under : ∀ (b y : ℚ), 0 ≤ b → b < m → y < -b → (if |y| ≤ b then y else if 0 < y then m else -m) < -b := by
    intro b y hb hm hy
    rw [if_neg (not_le.2 (lt_of_lt_of_le (by linarith) (neg_le_abs y))), if_neg (by linarith)]
    linarith
  exact ⟨fun x hx => if_pos hx, fun x hx => over _ _ f0 h1 hx, fun x hx => under _ _ f0 h1 hx,
    fun x hx => if_pos hx, fun x hx => over _ _ d0 h2 hx, fun x hx => under _ _ d0 h2 hx⟩

theorem flt_le_dbl : fltMax ≤ dblMax := by
  refine le_trans ?_ (pow_le_dblMax (k := 128) (by norm_num))
  unfold fltMax
  norm_num

/-- Two such machines differ where a result is too large, here `2^1024`. -/
example : Overflowing (overflowTo (dblMax + 1)) ∧ Overflowing (overflowTo (dblMax + 2)) ∧
    ∀ k, k = 1024 → (overflowTo (dblMax + 1)).f64 (2 ^ k) ≠ (overflowTo (dblMax + 2)).f64 (2 ^ k) := by
  have hf := flt_le_dbl
  refine ⟨overflowTo_spec (by linarith) (by linarith), overflowTo_spec (by linarith) (by linarith), fun k hk => ?_⟩
  have e : Rnd.ieee.f64 (2 ^ k) = 2 ^ k := Ieee.round_pow 53 (-1074) (by norm_num) k (by norm_num)
  have hd : dblMax < 2 ^ k := by
    have hq : (0 : ℚ) < 2 ^ 971 := by positivity
    rw [show k = 53 + 971 by omega, pow_add]
    exact mul_lt_mul_of_pos_right (by norm_num) hq
  have h0 : (0 : ℚ) < 2 ^ k := by positivity
  have hn : ¬ |(2 : ℚ) ^ k| ≤ dblMax := by
    rw [abs_of_pos h0]
    exact not_le.2 hd
  have key : ∀ m, (overflowTo m).f64 (2 ^ k) = m := by
    intro m
    show (if |Rnd.ieee.f64 (2 ^ k)| ≤ dblMax then _ else if 0 < Rnd.ieee.f64 (2 ^ k) then m else -m) = m
    rw [e, if_neg hn, if_pos h0]
  rw [key, key]
  intro hc
  linarith

/-- A library with rough values. -/
example : (⟨fun r => if r = 1 then 2 else 1, fun _ => 1⟩ : Libm).Sane :=
  ⟨fun r _ => by dsimp only; split <;> norm_num, fun x hx => ⟨by norm_num, by linarith⟩⟩

/-- Files that meet the assumption: a score that does not fit in `float` is refused by the reader on every such
machine. -/
example {G : Type} {R : Rnd} (h : Overflowing R) (S : StdSort) (rng : Rng G) :
    let w : World := ⟨fun n => if n = "r".toList then some "a d 0 0 4 4\n".toList
      else some "a d 0 0 4 4 1e39\n".toList, [], fun _ => true⟩
    SmallInputs w ∧ traceMain R S rng (icdarKit R S) icdarTexts w "kws".toList ["r".toList, "h".toList] =
      traceMain Rnd.ieee S rng (icdarKit Rnd.ieee S) icdarTexts w "kws".toList ["r".toList, "h".toList] := by
  intro w
  have hw : SmallInputs w := by
    refine ⟨fun n t ht => ?_, by simp [w]⟩
    simp only [w] at ht
    split at ht <;> (injection ht with ht; subst ht; decide)
  exact ⟨hw, C123_box h S rng hw _ _⟩

end Kws
