import Verif.Props.Numbers
import Verif.Model.Output
import Verif.Lemmas.Ieee

/-!
# C75: scores and scored events that are printed and read again
-/

namespace Kws
open Spec

/-- Different numbers with at most `n` digits are apart. -/
theorem decimal_gap {n : ℕ} {d q : ℚ} (hd : Decimal n d) (hq : Decimal n q) (hne : q ≠ d) :
    |d| / 10 ^ n ≤ |q - d| := by
  by_cases h0 : d = 0
  · rw [h0, abs_zero, zero_div]
    exact abs_nonneg _
  obtain ⟨m0, k0, hm0, hd0⟩ := hd
  obtain ⟨m', k', hm', hq'⟩ := hq
  have hdp : 0 < |d| := abs_pos.2 h0
  set e := Int.log 10 |d| with he
  have h1 : (10 : ℚ) ^ e ≤ |d| := by
    have := Int.zpow_log_le_self (b := 10) (by norm_num) hdp
    exact_mod_cast this
  have h2 : |d| < (10 : ℚ) ^ (e + 1) := by
    have := Int.lt_zpow_succ_log_self (b := 10) (by norm_num) |d|
    exact_mod_cast this
  have habs : ∀ (m k : ℤ), |(m : ℚ) * 10 ^ k| = (|m| : ℤ) * 10 ^ k := by
    intro m k
    rw [abs_mul, abs_of_pos (by positivity : (0 : ℚ) < 10 ^ k), Int.cast_abs]
  -- the exponent of the last of `n` digits
  set k : ℤ := e + 1 - n with hk
  have hk0 : k ≤ k0 := by
    by_contra hlt
    push Not at hlt
    have : |d| < 10 ^ e := by
      rw [hd0, habs]
      have a : ((|m0| : ℤ) : ℚ) < 10 ^ n := by exact_mod_cast hm0
      calc ((|m0| : ℤ) : ℚ) * 10 ^ k0 < 10 ^ n * 10 ^ k0 := by gcongr
        _ = 10 ^ ((n : ℤ) + k0) := by rw [zpow_add₀ (by norm_num), zpow_natCast]
        _ ≤ 10 ^ e := zpow_le_zpow_right₀ (by norm_num) (by omega)
    linarith
  have hn : (10 : ℚ) ^ k * 10 ^ n = 10 ^ (e + 1) := by
    rw [← zpow_natCast, ← zpow_add₀ (by norm_num)]
    congr 1
    omega
  have hpn : (0 : ℚ) < 10 ^ n := by positivity
  rcases le_or_gt k k' with hkk | hkk
  · -- both are multiples of `10^k`
    obtain ⟨a, ha⟩ := Int.eq_ofNat_of_zero_le (sub_nonneg.2 hk0)
    obtain ⟨b, hb⟩ := Int.eq_ofNat_of_zero_le (sub_nonneg.2 hkk)
    have ea : (10 : ℚ) ^ k0 = 10 ^ a * 10 ^ k := by
      rw [← zpow_natCast, ← zpow_add₀ (by norm_num)]; congr 1; omega
    have eb : (10 : ℚ) ^ k' = 10 ^ b * 10 ^ k := by
      rw [← zpow_natCast, ← zpow_add₀ (by norm_num)]; congr 1; omega
    have hz : q - d = ((m' * 10 ^ b - m0 * 10 ^ a : ℤ) : ℚ) * 10 ^ k := by
      rw [hq', hd0, ea, eb]
      push_cast
      ring
    have hz0 : (m' * 10 ^ b - m0 * 10 ^ a : ℤ) ≠ 0 := by
      intro h
      rw [h] at hz
      simp only [Int.cast_zero, zero_mul] at hz
      exact hne (sub_eq_zero.1 hz)
    rw [hz, habs]
    have h3 : (1 : ℚ) ≤ ((|m' * 10 ^ b - m0 * 10 ^ a| : ℤ) : ℚ) := by
      exact_mod_cast Int.one_le_abs hz0
    rw [div_le_iff₀ hpn]
    calc |d| ≤ 10 ^ (e + 1) := h2.le
      _ = 1 * 10 ^ k * 10 ^ n := by rw [one_mul, hn]
      _ ≤ _ := by gcongr
  · -- `q` is smaller
    have hq1 : |q| ≤ (10 ^ n - 1) * 10 ^ (k - 1) := by
      rw [hq', habs]
      have a : ((|m'| : ℤ) : ℚ) ≤ 10 ^ n - 1 := by
        have : |m'| ≤ 10 ^ n - 1 := by omega
        exact_mod_cast this
      have b : (10 : ℚ) ^ k' ≤ 10 ^ (k - 1) := zpow_le_zpow_right₀ (by norm_num) (by omega)
      have c : (0 : ℚ) ≤ 10 ^ n - 1 := le_trans (by positivity) a
      calc _ ≤ (10 ^ n - 1) * (10 : ℚ) ^ k' := by gcongr
        _ ≤ _ := by gcongr
    have h10 : (10 : ℚ) ^ n * 10 ^ (k - 1) = 10 ^ e := by
      rw [← zpow_natCast, ← zpow_add₀ (by norm_num)]
      congr 1
      omega
    have h4 : |d| - |q| ≤ |q - d| := by
      rw [abs_sub_comm]
      exact abs_sub_abs_le_abs_sub d q
    refine le_trans ?_ h4
    rw [div_le_iff₀ hpn]
    have c : (1 : ℚ) ≤ 10 ^ n := one_le_pow₀ (by norm_num)
    have h5 : |q| * 10 ^ n ≤ (10 ^ n - 1) * |d| := by
      calc |q| * 10 ^ n ≤ (10 ^ n - 1) * 10 ^ (k - 1) * 10 ^ n := by gcongr
        _ = (10 ^ n - 1) * (10 ^ n * 10 ^ (k - 1)) := by ring
        _ = (10 ^ n - 1) * 10 ^ e := by rw [h10]
        _ ≤ _ := by
          have : (0 : ℚ) ≤ 10 ^ n - 1 := by linarith
          gcongr
    nlinarith

/-- The relative error of a `float` in the range of normal numbers. -/
theorem f32_rel (d : ℚ) (h : 1 / 2 ^ 126 ≤ |d|) : |Rnd.ieee.f32 d - d| ≤ |d| / 2 ^ 24 := by
  have key : ∀ x : ℚ, 1 / 2 ^ 126 ≤ x → |Ieee.roundPos 24 (-149) x - x| ≤ x / 2 ^ 24 := by
    intro x hx
    have hx0 : 0 < x := lt_of_lt_of_le (by positivity) hx
    refine (Ieee.roundPos_err 24 (-149)).trans ?_
    have hl : -126 ≤ Int.log 2 x := by
      have h1 := Ieee.lt_log x
      by_contra hlt
      push Not at hlt
      have h2 : (2 : ℚ) ^ (Int.log 2 x + 1) ≤ 2 ^ (-126 : ℤ) :=
        zpow_le_zpow_right₀ (by norm_num) (by omega)
      have h3 : (2 : ℚ) ^ (-126 : ℤ) = 1 / 2 ^ 126 := by rw [zpow_neg]; norm_num
      rw [h3] at h2
      linarith
    unfold Ieee.quantum
    rw [max_eq_left (by push_cast; omega)]
    have h1 := Ieee.log_le hx0
    have h2 : (2 : ℚ) ^ (Int.log 2 x - ((24 : ℕ) - 1)) = 2 ^ Int.log 2 x / 2 ^ 23 := by
      rw [zpow_sub₀ (by norm_num)]; norm_num
    rw [h2]
    have h3 : (1 / 2 : ℚ) * (2 ^ Int.log 2 x / 2 ^ 23) = 2 ^ Int.log 2 x / 2 ^ 24 := by ring
    rw [h3]
    gcongr
  show |Ieee.round 24 (-149) d - d| ≤ _
  rcases lt_trichotomy d 0 with hd | hd | hd
  · unfold Ieee.round
    rw [if_neg (by linarith), if_pos hd]
    rw [abs_of_neg hd] at h ⊢
    have := key (-d) h
    rw [← abs_neg]
    convert this using 2
    ring
  · subst hd
    norm_num at h
  · unfold Ieee.round
    rw [if_pos hd]
    rw [abs_of_pos hd] at h ⊢
    exact key d h

theorem sixDigits_nearest {d q : ℚ} (hd : Decimal 6 d) (hr : d = 0 ∨ 1 / 2 ^ 126 ≤ |d|)
    (hn : Nearest 6 (Rnd.ieee.f32 d) q) : q = d := by
  rcases hr with rfl | hr
  · have h0 : Rnd.ieee.f32 0 = 0 := ieee_faithful.zero32
    rw [h0] at hn
    exact hn.exact (decimal_zero 6)
  · have key : ∀ q : ℚ, Nearest 6 (Rnd.ieee.f32 d) q → q = d := by
      intro q n1
      by_contra hne
      have h1 := decimal_gap hd n1.1 hne
      have h2 := n1.2 d hd
      have h3 := f32_rel d hr
      rw [abs_sub_comm d] at h2
      have h4 : |q - d| ≤ |q - Rnd.ieee.f32 d| + |Rnd.ieee.f32 d - d| := abs_sub_le _ _ _
      have hp : 0 < |d| := lt_of_lt_of_le (by positivity) hr
      have h5 : |d| / 10 ^ 6 ≤ 2 * (|d| / 2 ^ 24) := by linarith
      norm_num at h5
      linarith
    exact key q hn

/-- C75: a score that was written with at most six digits (zero or in the range of normal `float`
numbers) is printed as the same number, in spite of its conversion to `float`. -/
theorem C75_digits (d q : ℚ) (hd : Decimal 6 d) (hr : d = 0 ∨ 1 / 2 ^ 126 ≤ |d|) (a : Str)
    (h : Prints 6 (Rnd.ieee.f32 d) a) (hq : DenotesReal a q) : q = d := by
  obtain ⟨q', d1, n1⟩ := h
  rw [d1.unique hq] at n1
  exact sixDigits_nearest hd hr n1

/-- The number 0.1 is not a `float`, but it is printed as 0.1. -/
example : Rnd.ieee.f32 (1 / 10) ≠ 1 / 10 ∧ showGeneral (Rnd.ieee.f32 (1 / 10)) = "0.1".toList := by
  decide +kernel

/-- C75 does not extend to seven digits: different scores (also as `float`) print the same. -/
theorem C75_seven_differs : ∃ d d' : ℚ, Decimal 7 d ∧ Decimal 7 d' ∧
    Rnd.ieee.f32 d ≠ Rnd.ieee.f32 d' ∧
    showGeneral (Rnd.ieee.f32 d) = showGeneral (Rnd.ieee.f32 d') :=
  ⟨5000001 / 10000000, 5000002 / 10000000, ⟨5000001, -7, by norm_num, by norm_num⟩,
    ⟨5000002, -7, by norm_num, by norm_num⟩, by decide +kernel, by decide +kernel⟩

/-! ## Scored events -/

theorem showFlt_fin (x : ℚ) : showFlt showGeneral (.fin x) = showGeneral x := rfl

/-- The score that results from reading a printed score. -/
def Spec.Reread (R : Rnd) (s s' : Flt) : Prop :=
  ∃ x q : ℚ, s = .fin x ∧ Nearest 6 x q ∧ s' = .fin (R.f32 q)

/-- A score whose printed value is in the range of `float`. -/
def Spec.Printable (R : Rnd) (s : Flt) : Prop :=
  ∃ x : ℚ, s = .fin x ∧ ∀ q : ℚ, Nearest 6 x q → |R.f32 q| ≤ fltMax

theorem scored_str_event (R : Rnd) {e : ScoredEvent Str Str} (hq : QueryWord e.base.query)
    (hl : Word e.base.location) (hs : Printable R e.score) :
    ∃ e', ¬ Ignored (showScored showStrEvent e) ∧
      IsEvent (ScoredText R StrEventText) (showScored showStrEvent e) e' ∧
      e'.base = e.base ∧ Reread R e.score e'.score := by
  obtain ⟨x, hx, hr⟩ := hs
  have hn := printed_nearest 5 x
  rw [Rat.cast_id] at hn
  refine ⟨⟨e.base, .fin (R.f32 (printed 5 x))⟩, ?_, ?_, rfl, x, _, hx, hn, rfl⟩
  · unfold showScored showStrEvent
    rw [List.append_assoc]
    exact not_ignored_query hq
  · refine (C48_scored_str_words R _ _).2 ⟨showGeneral x, printed 5 x, ?_, showGeneral_denotes x,
      hr _ hn, rfl⟩
    unfold showScored showStrEvent
    rw [hx, showFlt_fin, List.append_assoc, List.cons_append, words_space hq.1, words_space hl,
      words_one (showGeneral_denotes x).word]

theorem scored_box_event (R : Rnd) {e : ScoredEvent Str (DocBox Str UInt32)}
    (hq : QueryWord e.base.query) (hl : Word e.base.location.document) (hs : Printable R e.score) :
    ∃ e', ¬ Ignored (showScored showBoxEvent e) ∧
      IsEvent (ScoredText R BoxEventText) (showScored showBoxEvent e) e' ∧
      e'.base = e.base ∧ Reread R e.score e'.score := by
  obtain ⟨x, hx, hr⟩ := hs
  have hn := printed_nearest 5 x
  rw [Rat.cast_id] at hn
  refine ⟨⟨e.base, .fin (R.f32 (printed 5 x))⟩, ?_, ?_, rfl, x, _, hx, hn, rfl⟩
  · unfold showScored showBoxEvent
    rw [List.append_assoc]
    exact not_ignored_query hq
  · have hw : words (showScored showBoxEvent e) = [e.base.query, e.base.location.document,
        showNat e.base.location.x.toNat, showNat e.base.location.y.toNat,
        showNat e.base.location.w.toNat, showNat e.base.location.h.toNat, showGeneral x] := by
      unfold showScored showBoxEvent showDocBox showBox
      rw [hx, showFlt_fin]
      simp only [List.append_assoc, List.cons_append]
      rw [words_space hq.1, words_space hl, words_space (showNat_numeral _).word,
        words_space (showNat_numeral _).word, words_space (showNat_numeral _).word,
        words_space (showNat_numeral _).word, words_one (showGeneral_denotes x).word]
    obtain ⟨r1, h1, e1⟩ := words_textField hw
    obtain ⟨r2, h2, e2⟩ := words_textField e1
    obtain ⟨a, a', a''⟩ := (showNat_coord e.base.location.x).denotes
    obtain ⟨r3, h3, e3⟩ := words_coordField e2 a a' a''
    obtain ⟨a, a', a''⟩ := (showNat_coord e.base.location.y).denotes
    obtain ⟨r4, h4, e4⟩ := words_coordField e3 a a' a''
    obtain ⟨a, a', a''⟩ := (showNat_coord e.base.location.w).denotes
    obtain ⟨r5, h5, e5⟩ := words_coordField e4 a a' a''
    obtain ⟨a, a', a''⟩ := (showNat_coord e.base.location.h).denotes
    obtain ⟨r6, h6, e6⟩ := words_coordField e5 a a' a''
    obtain ⟨r7, h7, hb⟩ := scoreField_words.2
      ⟨showGeneral x, printed 5 x, e6, showGeneral_denotes x, hr _ hn, rfl⟩
    exact ⟨r7, ⟨r6, ⟨r1, r2, h1, h2, r3, r4, r5, h3, h4, h5, h6⟩, h7⟩, hb⟩

theorem reread_file {R : Rnd} {E : Type} {ex : Extractor E} {G : Str → E → Str → Prop}
    (hf : Format R ex G) (sh : E → Str) (P : E → E → Prop) (es : List E)
    (h : ∀ e ∈ es, '\n' ∉ sh e ∧ ∃ e', ¬ Ignored (sh e) ∧ IsEvent G (sh e) e' ∧ P e e') :
    ∃ es', readPlain ex (onLines sh es) = (es', .ok) ∧ List.Forall₂ P es es' := by
  simp only [C48_accepts hf]
  rw [lines_onLines _ _ fun e he => (h e he).1]
  induction es with
  | nil => exact ⟨[], .nil, .nil⟩
  | cons e es ih =>
    obtain ⟨_, e', h1, h2, h3⟩ := h e (by simp)
    obtain ⟨es', h4, h5⟩ := ih fun x hx => h x (by simp [hx])
    exact ⟨e' :: es', .event h1 h2 h4, .cons h3 h5⟩

theorem showFlt_no_newline {R : Rnd} {s : Flt} (h : Printable R s) :
    '\n' ∉ showFlt showGeneral s := by
  obtain ⟨x, rfl, _⟩ := h
  exact word_no_newline (showGeneral_denotes x).word

theorem showBoxEvent_no_newline {e : Event Str (DocBox Str UInt32)} (hq : Word e.query)
    (hd : Word e.location.document) : '\n' ∉ showBoxEvent e := by
  intro hm
  simp only [showBoxEvent, showDocBox, showBox, List.append_assoc, List.cons_append,
    List.mem_append, List.mem_cons] at hm
  have hnum : ∀ n, '\n' ∉ showNat n := fun n => word_no_newline (showNat_numeral n).word
  have h1 := word_no_newline hq
  have h2 := word_no_newline hd
  have h3 : '\n' ≠ ' ' := by decide
  simp [hnum, h1, h2] at hm

theorem showStrEvent_no_newline {e : Event Str Str} (hq : Word e.query) (hl : Word e.location) :
    '\n' ∉ showStrEvent e := by
  intro hm
  simp only [showStrEvent, List.mem_append, List.mem_cons] at hm
  have h1 := word_no_newline hq
  have h2 := word_no_newline hl
  have h3 : '\n' ≠ ' ' := by decide
  simp [h1, h2] at hm

/-- C75: writing segmentation-based hypotheses and reading the text gives the same events, with scores
converted from the nearest numbers of at most six digits. -/
theorem C75_str (R : Rnd) (es : List (ScoredEvent Str Str))
    (h : ∀ e ∈ es, QueryWord e.base.query ∧ Word e.base.location ∧ Printable R e.score) :
    ∃ es', readPlain (extractScored R extractStrEvent) (onLines (showScored showStrEvent) es) =
      (es', .ok) ∧
      List.Forall₂ (fun e e' => e'.base = e.base ∧ Reread R e.score e'.score) es es' := by
  refine reread_file Format.strHyps _ _ es fun e he => ?_
  obtain ⟨h1, h2, h3⟩ := h e he
  refine ⟨?_, ?_⟩
  · unfold showScored
    have := showStrEvent_no_newline h1.1 h2
    have := showFlt_no_newline h3
    simp [*]
  · obtain ⟨e', a, b, c, d⟩ := scored_str_event R h1 h2 h3
    exact ⟨e', a, b, c, d⟩

/-- C75 for bounding-box hypotheses. -/
theorem C75_box (R : Rnd) (es : List (ScoredEvent Str (DocBox Str UInt32)))
    (h : ∀ e ∈ es, QueryWord e.base.query ∧ Word e.base.location.document ∧ Printable R e.score) :
    ∃ es', readPlain (extractScored R extractBoxEvent) (onLines (showScored showBoxEvent) es) =
      (es', .ok) ∧
      List.Forall₂ (fun e e' => e'.base = e.base ∧ Reread R e.score e'.score) es es' := by
  refine reread_file Format.boxHyps _ _ es fun e he => ?_
  obtain ⟨h1, h2, h3⟩ := h e he
  refine ⟨?_, ?_⟩
  · unfold showScored
    have := showBoxEvent_no_newline h1.1 h2
    have := showFlt_no_newline h3
    simp [*]
  · obtain ⟨e', a, b, c, d⟩ := scored_box_event R h1 h2 h3
    exact ⟨e', a, b, c, d⟩

/-- A score that comes from a text with at most six digits, in the range of normal `float` numbers (or
zero). -/
def Spec.SixDigits (s : Flt) : Prop :=
  ∃ d : ℚ, Decimal 6 d ∧ (d = 0 ∨ 1 / 2 ^ 126 ≤ |d|) ∧ |Rnd.ieee.f32 d| ≤ fltMax ∧
    s = .fin (Rnd.ieee.f32 d)

theorem reread_six {s s' : Flt} (h : SixDigits s) (hr : Reread Rnd.ieee s s') : s' = s := by
  obtain ⟨d, h1, h2, h3, rfl⟩ := h
  obtain ⟨x, q, hx, hn, rfl⟩ := hr
  injection hx with hx
  subst hx
  rw [sixDigits_nearest h1 h2 hn]

theorem Spec.SixDigits.printable {s : Flt} (h : SixDigits s) : Printable Rnd.ieee s := by
  obtain ⟨d, h1, h2, h3, rfl⟩ := h
  exact ⟨_, rfl, fun q hq => by rwa [sixDigits_nearest h1 h2 hq]⟩

theorem forall_six {L : Type} {es es' : List (ScoredEvent Str L)} (h : ∀ e ∈ es, SixDigits e.score)
    (hf : List.Forall₂ (fun e e' => e'.base = e.base ∧ Reread Rnd.ieee e.score e'.score) es es') :
    es' = es := by
  induction hf with
  | nil => rfl
  | cons hp _ ih =>
    rename_i e e' es es' _
    rw [ih fun x hx => h x (List.mem_cons_of_mem _ hx)]
    congr 1
    obtain ⟨b, s⟩ := e
    obtain ⟨b', s'⟩ := e'
    obtain ⟨h1, h2⟩ := hp
    have := reread_six (h _ List.mem_cons_self) h2
    simp only at h1 this
    rw [h1, this]

/-- C75: hypotheses whose scores come from texts with at most six digits are the same after writing
and reading. -/
theorem C75_str_six (es : List (ScoredEvent Str Str))
    (h : ∀ e ∈ es, QueryWord e.base.query ∧ Word e.base.location ∧ SixDigits e.score) :
    readPlain (extractScored Rnd.ieee extractStrEvent) (onLines (showScored showStrEvent) es) =
      (es, .ok) := by
  obtain ⟨es', h1, h2⟩ := C75_str Rnd.ieee es fun e he =>
    ⟨(h e he).1, (h e he).2.1, (h e he).2.2.printable⟩
  rw [h1, forall_six (fun e he => (h e he).2.2) h2]

/-- C75 for bounding-box hypotheses with scores of at most six digits. -/
theorem C75_box_six (es : List (ScoredEvent Str (DocBox Str UInt32)))
    (h : ∀ e ∈ es, QueryWord e.base.query ∧ Word e.base.location.document ∧ SixDigits e.score) :
    readPlain (extractScored Rnd.ieee extractBoxEvent) (onLines (showScored showBoxEvent) es) =
      (es, .ok) := by
  obtain ⟨es', h1, h2⟩ := C75_box Rnd.ieee es fun e he =>
    ⟨(h e he).1, (h e he).2.1, (h e he).2.2.printable⟩
  rw [h1, forall_six (fun e he => (h e he).2.2) h2]

/-- A hypothesis with the score 0.1. -/
example : showScored showBoxEvent ⟨⟨['q'], ⟨⟨1, 2, 3, 4⟩, ['d']⟩⟩, .fin (Rnd.ieee.f32 (1 / 10))⟩ =
      "q d 1 2 3 4 0.1".toList ∧
    QueryWord ['q'] ∧ Word ['d'] ∧ SixDigits (.fin (Rnd.ieee.f32 (1 / 10))) := by
  refine ⟨by decide +kernel, ⟨⟨by decide, by decide⟩, by decide⟩, ⟨by decide, by decide⟩, 1 / 10,
    ⟨1, -1, by norm_num, by norm_num⟩, Or.inr ?_, by decide +kernel, rfl⟩
  rw [abs_of_pos (by norm_num)]
  norm_num

/-- C75 is false for all scores: writing and reading changes the `float` 0.50000012. -/
theorem C75_reread_differs : ∃ e e' : ScoredEvent Str Str,
    readPlain (extractScored Rnd.ieee extractStrEvent) "q d 0.5000001\n".toList = ([e], .ok) ∧
    readPlain (extractScored Rnd.ieee extractStrEvent) (onLines (showScored showStrEvent) [e]) =
      ([e'], .ok) ∧ e' ≠ e :=
  ⟨⟨⟨['q'], ['d']⟩, .fin (Rnd.ieee.f32 (5000001 / 10000000))⟩, ⟨⟨['q'], ['d']⟩, .fin (1 / 2)⟩,
    by decide +kernel, by decide +kernel, by decide +kernel⟩

end Kws
