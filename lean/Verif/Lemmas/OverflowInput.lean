import Verif.Lemmas.OverflowRun
import Verif.Model.Output

/-!
# Overflow: the scorer, the numbers in files and on the command line
-/

namespace Kws
open Spec

section
variable {R : Rnd} (h : Overflowing R)
include h

/-! ## The scorer -/

theorem ratioAtLeast_over (num den : UInt32) (t : ℚ) :
    ratioAtLeast R num den t = ratioAtLeast Rnd.ieee num den t := by
  have hv : ∀ a : UInt32, |(CoordVal.val a : ℚ)| ≤ 2 ^ 32 := fun a => by
    have : (CoordVal.val a : ℚ) = (a.toNat : ℚ) := rfl
    rw [this, abs_of_nonneg (by positivity)]
    exact_mod_cast a.toNat_lt.le
  have e1 : ∀ a : UInt32, R.f32 (CoordVal.val a) = Rnd.ieee.f32 (CoordVal.val a) := fun a =>
    h.eq32 (hv a) (by norm_num)
  have e2 : R.f32 (Rnd.ieee.f32 (CoordVal.val den)) = Rnd.ieee.f32 (Rnd.ieee.f32 (CoordVal.val den)) :=
    h.eq32 (ieee_bound32 32 (hv den)) (by norm_num)
  unfold ratioAtLeast
  simp only
  rw [e1, e1, e2]
  by_cases hz : Rnd.ieee.f32 (Rnd.ieee.f32 (CoordVal.val den)) = 0
  · rw [if_pos hz, if_pos hz]
  · rw [if_neg hz, if_neg hz]
    have h1 : 1 ≤ Rnd.ieee.f32 (Rnd.ieee.f32 (CoordVal.val den)) := by
      have hd : den.toNat ≠ 0 := by
        intro hc
        apply hz
        have : (CoordVal.val den : ℚ) = 0 := by
          have : (CoordVal.val den : ℚ) = (den.toNat : ℚ) := rfl
          rw [this, hc]
          rfl
        rw [this, ieee_faithful.zero32, ieee_faithful.zero32]
      have h1 : (1 : ℚ) ≤ CoordVal.val den := by
        have : (CoordVal.val den : ℚ) = (den.toNat : ℚ) := rfl
        rw [this]
        exact_mod_cast Nat.one_le_iff_ne_zero.2 hd
      have h2 := ieee_faithful.mono32 _ _ h1
      rw [ieee_faithful.one32] at h2
      have h3 := ieee_faithful.mono32 _ _ h2
      rwa [ieee_faithful.one32] at h3
    rw [h.eq32 (k := 32) (div_bound (ieee_bound32 32 (hv num)) h1) (by norm_num)]

theorem iohScorer_over {Q D : Type} [Cmp Q] [Cmp D] (t : ℚ) :
    iohScorer (Q := Q) (D := D) (T := UInt32) R t = iohScorer Rnd.ieee t := by
  funext r x
  unfold iohScorer
  simp only [ratioAtLeast_over h]

/-! ## Numbers -/

omit h in
theorem getFloat_over (f g : ℚ → ℚ) (max : ℚ) (hm : 0 ≤ max) (fits : ∀ x, |g x| ≤ max → f x = g x)
    (over : ∀ x, max < g x → max < f x) (under : ∀ x, g x < -max → f x < -max) (skip : Bool) (s : IStream) :
    s.getFloat f max skip = s.getFloat g max skip := by
  unfold IStream.getFloat
  simp only
  split
  · rfl
  · cases (IStream.scanFloat (s.sentry skip).rest).1.value? with
    | none => rfl
    | some q =>
      simp only
      by_cases h1 : max < g q
      · rw [if_pos h1, if_pos (over q h1)]
      · rw [if_neg h1]
        by_cases h2 : g q < -max
        · have := under q h2
          rw [if_pos h2, if_neg (by linarith), if_pos this]
        · rw [if_neg h2]
          have := fits q (abs_le.2 ⟨not_lt.1 h2, not_lt.1 h1⟩)
          rw [this, if_neg h1, if_neg h2]

omit h in
theorem fltMax_nonneg : 0 ≤ fltMax := le_trans (by norm_num) (pow_le_fltMax (k := 0) (by norm_num))
omit h in
theorem dblMax_nonneg : 0 ≤ dblMax := le_trans (by norm_num) (pow_le_dblMax (k := 0) (by norm_num))

theorem extractScored_over {L : Type} (e : Extractor (Event Str L)) : extractScored R e = extractScored Rnd.ieee e := by
  have : extractScore R = extractScore Rnd.ieee := by
    funext s
    unfold extractScore
    rw [getFloat_over R.f32 Rnd.ieee.f32 fltMax fltMax_nonneg h.fits32 h.over32 h.under32]
  unfold extractScored
  rw [this]

theorem simpleKit_over (b : Bool) : simpleKit R b = simpleKit Rnd.ieee b := by
  unfold simpleKit
  rw [extractScored_over h]

theorem icdarKit_over (S : StdSort) : icdarKit R S = icdarKit Rnd.ieee S := by
  unfold icdarKit
  rw [extractScored_over h, iohScorer_over h]

/-! ## The command line -/

theorem parseOther_over : OptVal.parseOther R = OptVal.parseOther Rnd.ieee := by
  funext v s
  unfold OptVal.parseOther
  simp only [getFloat_over R.f64 Rnd.ieee.f64 dblMax dblMax_nonneg h.fits64 h.over64 h.under64]

theorem parseOpt_over : OptVal.parseOpt R = OptVal.parseOpt Rnd.ieee := by
  funext v s
  unfold OptVal.parseOpt
  rw [parseOther_over h]

theorem parseArg_over : OptVal.parseArg R = OptVal.parseArg Rnd.ieee := by
  funext v s
  unfold OptVal.parseArg
  rw [parseOther_over h]

omit h in
theorem parseOptions_congr {R' : Rnd} (hp : OptVal.parseOpt R = OptVal.parseOpt R') (opts : List (Str × OptVal))
    (help : Bool) (argv : List Str) :
    Parser.parseOptions R opts help argv = Parser.parseOptions R' opts help argv := by
  fun_induction Parser.parseOptions R opts help argv <;>
    conv_rhs => unfold Parser.parseOptions
  all_goals simp_all

omit h in
theorem optionsMessage_congr {R' : Rnd} (hp : OptVal.parseOpt R = OptVal.parseOpt R') (opts : List (Str × OptVal))
    (argv : List Str) : Parser.optionsMessage R opts argv = Parser.optionsMessage R' opts argv := by
  have key : ∀ (n : ℕ) (opts : List (Str × OptVal)) (argv : List Str), argv.length ≤ n →
      Parser.optionsMessage R opts argv = Parser.optionsMessage R' opts argv := by
    intro n
    induction n with
    | zero =>
      intro opts argv hn
      have : argv = [] := List.length_eq_zero_iff.1 (by omega)
      subst this
      simp only [Parser.optionsMessage]
    | succ n ih =>
      intro opts argv hn
      match argv, hn with
      | [], _ => simp only [Parser.optionsMessage]
      | [arg], hn =>
        simp only [Parser.optionsMessage, hp]
      | arg :: w :: argv, hn =>
        have h1 : (w :: argv).length ≤ n := by simpa using hn
        have h2 : argv.length ≤ n := by simp at h1; omega
        rw [Parser.optionsMessage.eq_def, Parser.optionsMessage.eq_def R']
        simp only [hp, ih _ _ h1, ih _ _ h2]
  exact key _ _ _ le_rfl

omit h in
theorem parseArgs_congr {R' : Rnd} (hp : OptVal.parseArg R = OptVal.parseArg R') (vs : List OptVal) (argv : List Str) :
    Parser.parseArgs R vs argv = Parser.parseArgs R' vs argv := by
  fun_induction Parser.parseArgs R vs argv <;> unfold Parser.parseArgs <;> simp_all

theorem parse_over (p : Parser) (argv : List Str) : p.parse R argv = p.parse Rnd.ieee argv := by
  unfold Parser.parse
  simp only [parseOptions_congr (parseOpt_over h), parseArgs_congr (parseArg_over h)]

theorem message_over (p : Parser) (argv : List Str) : p.message R argv = p.message Rnd.ieee argv := by
  unfold Parser.message
  simp only [parseOptions_congr (parseOpt_over h), parseArgs_congr (parseArg_over h),
    optionsMessage_congr (parseOpt_over h)]

theorem toolParser_over : toolParser R = toolParser Rnd.ieee := by
  unfold toolParser
  rw [h.eq64 (x := 5 / 100) (k := 0) (by rw [abs_of_pos] <;> norm_num) (by norm_num)]

end

/-! ## What options can hold -/

/-- The range of the type of an option. -/
def InRange : OptVal → Prop
  | .size n => n ≤ 2 ^ 64
  | .double x => |x| ≤ dblMax
  | _ => True

theorem getUnsigned_range (max : ℕ) (skip : Bool) (s : IStream) {n : ℕ} (h : (s.getUnsigned max skip).2 = some n) :
    n ≤ max := by
  unfold IStream.getUnsigned at h
  simp only at h
  split at h
  · simp at h
  · split at h
    · simp only [Option.some.injEq] at h
      omega
    · split at h
      · simp only [Option.some.injEq] at h
        omega
      · simp only [Option.some.injEq] at h
        subst h
        split
        · exact Nat.lt_succ_iff.1 (Nat.mod_lt _ (by omega))
        · omega

theorem getFloat_range (f : ℚ → ℚ) (max : ℚ) (hm : 0 ≤ max) (skip : Bool) (s : IStream) {x : ℚ}
    (h : (s.getFloat f max skip).2 = some x) : |x| ≤ max := by
  unfold IStream.getFloat at h
  simp only at h
  split at h
  · simp at h
  · split at h
    · simp only [Option.some.injEq] at h
      subst h
      simpa using hm
    · split at h
      · simp only [Option.some.injEq] at h
        subst h
        rw [abs_of_nonneg hm]
      · split at h
        · simp only [Option.some.injEq] at h
          subst h
          rw [abs_neg, abs_of_nonneg hm]
        · simp only [Option.some.injEq] at h
          subst h
          exact abs_le.2 ⟨by linarith, by linarith⟩

theorem parseOpt_range (R : Rnd) (v : OptVal) (s : Str) (h : InRange v) : InRange (v.parseOpt R s).2 := by
  cases v with
  | bool b =>
    unfold OptVal.parseOpt OptVal.parseOptBool
    simp only
    split
    · trivial
    · split <;> trivial
  | int32 n => trivial
  | str n => trivial
  | size n =>
    simp only [OptVal.parseOpt, OptVal.parseOther]
    cases hr : ((IStream.ofStr s).getUnsigned (2 ^ 64 - 1) false).2 with
    | none => exact h
    | some m =>
      have := getUnsigned_range _ _ _ hr
      show m ≤ 2 ^ 64
      omega
  | double x =>
    simp only [OptVal.parseOpt, OptVal.parseOther]
    cases hr : ((IStream.ofStr s).getFloat R.f64 dblMax false).2 with
    | none => exact h
    | some m => exact getFloat_range _ _ dblMax_nonneg _ _ hr

theorem find?_mem {κ ν : Type} [DecidableEq κ] {k : κ} {v : ν} {m : List (κ × ν)} (h : AMap.find? k m = some v) :
    ∃ o ∈ m, o.2 = v := by
  induction m with
  | nil => cases h
  | cons a m ih =>
    obtain ⟨k', v'⟩ := a
    unfold AMap.find? at h
    split at h
    · injection h with h
      exact ⟨(k', v'), by simp, h⟩
    · obtain ⟨o, ho, e⟩ := ih h
      exact ⟨o, by simp [ho], e⟩

theorem set_range {k : Str} {v : OptVal} {m : List (Str × OptVal)} (hv : InRange v) (hm : ∀ o ∈ m, InRange o.2) :
    ∀ o ∈ AMap.set k v m, InRange o.2 := by
  induction m with
  | nil => simpa [AMap.set] using hv
  | cons a m ih =>
    obtain ⟨k', v'⟩ := a
    have h1 := hm (k', v') (by simp)
    have h2 := ih fun o ho => hm o (by simp [ho])
    unfold AMap.set
    split
    · intro o ho
      rcases List.mem_cons.1 ho with rfl | ho
      · exact hv
      · exact hm o (by simp [ho])
    · intro o ho
      rcases List.mem_cons.1 ho with rfl | ho
      · exact h1
      · exact h2 o ho

/-- The options after the option loop. -/
def OptionsOutcome.opts : Parser.OptionsOutcome → List (Str × OptVal)
  | .done o _ _ => o
  | .rejected o => o

theorem parseOptions_range (R : Rnd) (opts : List (Str × OptVal)) (help : Bool) (argv : List Str)
    (hm : ∀ o ∈ opts, InRange o.2) :
    ∀ o ∈ OptionsOutcome.opts (Parser.parseOptions R opts help argv), InRange o.2 := by
  have key : ∀ (opts : List (Str × OptVal)) (arg : Str) (v : OptVal) (w : Str) (b : Bool) (v' : OptVal),
      (∀ o ∈ opts, InRange o.2) → AMap.find? (arg.drop 2) opts = some v → v.parseOpt R w = (b, v') →
      ∀ o ∈ AMap.set (arg.drop 2) v' opts, InRange o.2 := by
    intro opts arg v w b v' hm hf hp
    obtain ⟨o, ho, rfl⟩ := find?_mem hf
    have := parseOpt_range R o.2 w (hm o ho)
    rw [hp] at this
    exact set_range this hm
  fun_induction Parser.parseOptions R opts help argv
  all_goals first
    | exact hm
    | (rename_i ih; exact ih hm)
    | (rename_i ih; exact ih (by apply key <;> assumption))
    | (apply key <;> assumption)

theorem parse_range (R : Rnd) (p : Parser) (argv : List Str) (hm : ∀ o ∈ p.opts, InRange o.2) :
    ∀ o ∈ (p.parse R argv).2.opts, InRange o.2 := by
  have := parseOptions_range R p.opts false argv hm
  unfold Parser.parse
  cases ho : Parser.parseOptions R p.opts false argv with
  | rejected o => rw [ho] at this; exact this
  | done o b rest =>
    rw [ho] at this
    cases b with
    | true => exact this
    | false =>
      dsimp only
      split
      · exact this
      · split
        · exact this
        · split
          · exact this
          · split <;> exact this

end Kws
