import Verif.Spec.WrongLine
import Verif.Lemmas.Cmd
import Verif.Model.Help

/-!
Facts about the messages of the command line parser.
-/

namespace Kws
open Spec

namespace Parser
open OptVal

/-- One item is consumed. -/
theorem optionsMessage_item (R : Rnd) (opts : List (Str × OptVal)) (hn : (opts.map Prod.fst).Nodup)
    (hh : "help".toList ∉ opts.map Prod.fst) (done : List OptItem) (it : OptItem)
    (next : List Str) (h : ItemOk R opts it next) :
    optionsMessage R (optsAfter R opts done) (it.render ++ next) =
      optionsMessage R (optsAfter R opts (done ++ [it])) next := by
  obtain ⟨word, value⟩ := it
  rcases h with ⟨hw, hv⟩ | ⟨name, v, hsel, hfind, h⟩
  · simp only at hw hv
    subst hw; subst hv
    rw [optsAfter_skip R opts done _ (by simpa using hh)]
    show optionsMessage R _ ("--help".toList :: next) = _
    rw [optionsMessage, if_neg (by decide), if_neg (by decide), if_pos rfl]
  · obtain ⟨hlike, hdrop⟩ := Spec.Selects.like hsel
    simp only at hlike hdrop
    subst hdrop
    have hfind' := find?_optsAfter R opts done (word.drop 2)
    rw [hfind, Option.map_some] at hfind'
    have hty := valueAfter_sameType R v (lastText done (word.drop 2))
    have hb := sameType_boolean hty
    have h1 : ¬ (decide (word.length < 2) || !startsDash word) = true := by
      rw [optionLike_iff]; exact not_not.2 hlike
    rcases h with ⟨hbool, s, hs, hok⟩ | ⟨hbool, hs, hnext⟩ | ⟨hbool, s, hs, hnd, hok⟩
    · simp only at hs
      subst hs
      show optionsMessage R _ (word :: s :: next) = _
      rw [optionsMessage, if_neg h1, if_neg hsel.2.1, if_neg hsel.2.2]
      simp only [hfind', ← hb, hbool, Bool.false_eq_true, if_false]
      have ht := parseOpt_type R hty s
      rw [← ht.1, hok, if_pos rfl]
      rw [← optsAfter_set R opts hn done ⟨word, some s⟩ v hfind hok]
      rfl
    · simp only at hs
      subst hs
      have hok : (v.parseOpt R []).1 = true := by
        cases v <;> first | (cases hbool; done) | rfl
      have ht := parseOpt_type R hty []
      have hset := optsAfter_set R opts hn done ⟨word, none⟩ v hfind hok
      show optionsMessage R _ (word :: next) = _
      rw [optionsMessage, if_neg h1, if_neg hsel.2.1, if_neg hsel.2.2]
      simp only [hfind', ← hb, hbool, if_true]
      cases next with
      | nil =>
        simp only
        rw [← ht.1, hok, if_pos rfl]
        rw [optionsMessage]
      | cons w next =>
        have hd := (startsDash_iff w).2 (hnext w rfl)
        simp only [hd, if_true]
        rw [← ht.1, hok, if_pos rfl]
        simp only [Option.getD_none] at hset
        rw [hset]
    · simp only at hs
      subst hs
      have hd : startsDash s = false := by
        rw [← Bool.not_eq_true, startsDash_iff]; exact hnd
      show optionsMessage R _ (word :: s :: next) = _
      rw [optionsMessage, if_neg h1, if_neg hsel.2.1, if_neg hsel.2.2]
      simp only [hfind', ← hb, hbool, if_true, hd, Bool.false_eq_true, if_false]
      have ht := parseOpt_type R hty s
      rw [← ht.1, hok, if_pos rfl]
      rw [← optsAfter_set R opts hn done ⟨word, some s⟩ v hfind hok]
      rfl

/-- All items are consumed. -/
theorem optionsMessage_items (R : Rnd) (opts : List (Str × OptVal)) (hn : (opts.map Prod.fst).Nodup)
    (hh : "help".toList ∉ opts.map Prod.fst) (items : List OptItem) (tail : List Str) :
    ∀ (done : List OptItem), ItemsOk R opts items tail →
    optionsMessage R (optsAfter R opts done) (items.flatMap OptItem.render ++ tail) =
      optionsMessage R (optsAfter R opts (done ++ items)) tail := by
  induction items with
  | nil => intro done _; simp
  | cons it items ih =>
    rintro done ⟨h1, h2⟩
    rw [List.flatMap_cons, List.append_assoc,
      optionsMessage_item R opts hn hh done it _ h1, ih _ h2]
    simp

/-- A wrong option is rejected with its message. -/
theorem badOption_rejected (R : Rnd) (opts : List (Str × OptVal)) (done : List OptItem) (help : Bool)
    (rest : List Str) (s : Str) (h : BadOption R opts rest s) :
    (∃ o, parseOptions R (optsAfter R opts done) help rest = .rejected o) ∧
    optionsMessage R (optsAfter R opts done) rest = some (endl s) := by
  cases h with
  | @unknown w name rest hs hn =>
    obtain ⟨hlike, hdrop⟩ := Spec.Selects.like hs
    have h1 : ¬ (decide (w.length < 2) || !startsDash w) = true := by
      rw [optionLike_iff]; exact not_not.2 hlike
    rw [parseOptions, if_neg h1, if_neg hs.2.1, if_neg hs.2.2, find?_optsAfter, hdrop,
      AMap.find?_none.2 hn, optionsMessage, if_neg h1, if_neg hs.2.1, if_neg hs.2.2, find?_optsAfter,
      hdrop, AMap.find?_none.2 hn]
    exact ⟨⟨_, rfl⟩, rfl⟩
  | @noValue w name v hs hv hb =>
    obtain ⟨hlike, hdrop⟩ := Spec.Selects.like hs
    have h1 : ¬ (decide (w.length < 2) || !startsDash w) = true := by
      rw [optionLike_iff]; exact not_not.2 hlike
    rw [parseOptions, if_neg h1, if_neg hs.2.1, if_neg hs.2.2, find?_optsAfter, hdrop, hv,
      optionsMessage, if_neg h1, if_neg hs.2.1, if_neg hs.2.2, find?_optsAfter, hdrop, hv]
    simp only [Option.map_some, ← sameType_boolean (valueAfter_sameType R v _), hb,
      Bool.false_eq_true, if_false]
    exact ⟨⟨_, rfl⟩, rfl⟩
  | @badValue w name s rest v hs hv hb hbad =>
    obtain ⟨hlike, hdrop⟩ := Spec.Selects.like hs
    have h1 : ¬ (decide (w.length < 2) || !startsDash w) = true := by
      rw [optionLike_iff]; exact not_not.2 hlike
    have hty := valueAfter_sameType R v (lastText done name)
    have ht := (parseOpt_type R hty s).1
    rw [parseOptions, if_neg h1, if_neg hs.2.1, if_neg hs.2.2, find?_optsAfter, hdrop, hv,
      optionsMessage, if_neg h1, if_neg hs.2.1, if_neg hs.2.2, find?_optsAfter, hdrop, hv]
    simp only [Option.map_some, ← sameType_boolean hty]
    by_cases hbool : v.isBoolean = true
    · have hd : startsDash s = false := by
        rw [← Bool.not_eq_true, startsDash_iff]; exact hb hbool
      simp only [hbool, if_true, hd, Bool.false_eq_true, if_false, ← ht, hbad]
      exact ⟨⟨_, rfl⟩, rfl⟩
    · rw [Bool.not_eq_true] at hbool
      simp only [hbool, Bool.false_eq_true, if_false, ← ht, hbad]
      exact ⟨⟨_, rfl⟩, rfl⟩

/-- Every command line consists of options that are fine, followed by a wrong one or by the
positional arguments. -/
theorem line_cases (R : Rnd) (opts : List (Str × OptVal)) (n : ℕ) : ∀ argv : List Str, argv.length ≤ n →
    ∃ items rest, argv = items.flatMap OptItem.render ++ rest ∧ ItemsOk R opts items rest ∧
      ((∃ s, BadOption R opts rest s) ∨ ∃ pos, TailOk rest pos) := by
  induction n with
  | zero =>
    intro argv hlen
    have : argv = [] := List.length_eq_zero_iff.1 (Nat.le_zero.1 hlen)
    subst this
    exact ⟨[], [], rfl, trivial, Or.inr ⟨[], Or.inr ⟨rfl, by simp⟩⟩⟩
  | succ n ih =>
    intro argv hlen
    have step : ∀ (it : OptItem) (next : List Str), argv = it.render ++ next →
        ItemOk R opts it next → ∃ items rest, argv = items.flatMap OptItem.render ++ rest ∧
          ItemsOk R opts items rest ∧ ((∃ s, BadOption R opts rest s) ∨ ∃ pos, TailOk rest pos) := by
      intro it next e hit
      have hl : next.length ≤ n := by
        rw [e] at hlen
        simp only [OptItem.render, List.cons_append, List.length_cons, List.length_append] at hlen
        omega
      obtain ⟨items, rest, e2, h1, h2⟩ := ih _ hl
      refine ⟨it :: items, rest, ?_, ⟨?_, h1⟩, h2⟩
      · rw [List.flatMap_cons, List.append_assoc, ← e2, e]
      · rw [← e2]; exact hit
    have stop : ∀ s, BadOption R opts argv s → ∃ items rest, argv = items.flatMap OptItem.render ++ rest ∧
          ItemsOk R opts items rest ∧ ((∃ s, BadOption R opts rest s) ∨ ∃ pos, TailOk rest pos) :=
      fun s h => ⟨[], argv, rfl, trivial, Or.inl ⟨s, h⟩⟩
    cases argv with
    | nil => exact ⟨[], [], rfl, trivial, Or.inr ⟨[], Or.inr ⟨rfl, by simp⟩⟩⟩
    | cons arg argv =>
      by_cases hlike : OptionLike arg
      swap
      · refine ⟨[], arg :: argv, rfl, trivial, Or.inr ⟨arg :: argv, Or.inr ⟨rfl, fun w hw => ?_⟩⟩⟩
        simp only [List.head?_cons, Option.some.injEq] at hw
        subst hw
        exact hlike
      by_cases hdd : arg = "--".toList
      · subst hdd
        exact ⟨[], "--".toList :: argv, rfl, trivial, Or.inr ⟨argv, Or.inl rfl⟩⟩
      by_cases hhelp : arg = "--help".toList
      · subst hhelp
        exact step ⟨"--help".toList, none⟩ argv rfl (Or.inl ⟨rfl, rfl⟩)
      have hsel := selects_of hlike hdd hhelp
      cases hf : AMap.find? (arg.drop 2) opts with
      | none => exact stop _ (.unknown hsel (AMap.find?_none.1 hf))
      | some v =>
        by_cases hbool : v.isBoolean = true
        · cases argv with
          | nil => exact step ⟨arg, none⟩ [] rfl (Or.inr ⟨_, v, hsel, hf, Or.inr (Or.inl
              ⟨hbool, rfl, by simp⟩)⟩)
          | cons w argv =>
            by_cases hd : w.head? = some '-'
            · refine step ⟨arg, none⟩ (w :: argv) rfl (Or.inr ⟨_, v, hsel, hf, Or.inr (Or.inl
                ⟨hbool, rfl, ?_⟩)⟩)
              intro x hx
              simp only [List.head?_cons, Option.some.injEq] at hx
              subst hx
              exact hd
            · by_cases hok : (v.parseOpt R w).1 = true
              · exact step ⟨arg, some w⟩ argv rfl (Or.inr ⟨_, v, hsel, hf, Or.inr (Or.inr
                  ⟨hbool, w, rfl, hd, hok⟩)⟩)
              · exact stop _ (.badValue hsel hf (fun _ => hd) (Bool.not_eq_true _ ▸ hok))
        · rw [Bool.not_eq_true] at hbool
          cases argv with
          | nil => exact stop _ (.noValue hsel hf hbool)
          | cons w argv =>
            by_cases hok : (v.parseOpt R w).1 = true
            · exact step ⟨arg, some w⟩ argv rfl (Or.inr ⟨_, v, hsel, hf, Or.inl ⟨hbool, w, rfl, hok⟩⟩)
            · exact stop _ (.badValue hsel hf (fun h => by rw [hbool] at h; cases h)
                (Bool.not_eq_true _ ▸ hok))

/-! ## Positional arguments -/

theorem args_cases (R : Rnd) (vs : List OptVal) (ws : List Str) :
    ArgsOk R vs ws ∨ ∃ k, FirstBadArg R vs ws k := by
  unfold ArgsOk FirstBadArg
  generalize vs.zip ws = l
  induction l with
  | nil => left; simp
  | cons p l ih =>
    by_cases hp : (p.1.parseArg R p.2).1 = true
    · rcases ih with ih | ⟨k, v, w, h1, h2, h3⟩
      · left
        intro q hq
        rcases List.mem_cons.1 hq with rfl | hq
        · exact hp
        · exact ih q hq
      · right
        refine ⟨k + 1, v, w, h1, h2, ?_⟩
        intro q hq
        rw [List.take_succ_cons] at hq
        rcases List.mem_cons.1 hq with rfl | hq
        · exact hp
        · exact h3 q hq
    · right
      exact ⟨0, p.1, p.2, rfl, Bool.not_eq_true _ ▸ hp, by simp⟩

theorem parseArgs_firstBad (R : Rnd) (vs : List OptVal) (ws : List Str) (k : ℕ)
    (h : FirstBadArg R vs ws k) : ∃ a r, parseArgs R vs ws = (false, a, k, r) := by
  induction vs generalizing ws k with
  | nil =>
    obtain ⟨v, w, h, _⟩ := h
    simp at h
  | cons v vs ih =>
    cases ws with
    | nil =>
      obtain ⟨v, w, h, _⟩ := h
      simp at h
    | cons w ws =>
      obtain ⟨v', w', h1, h2, h3⟩ := h
      rw [parseArgs]
      cases k with
      | zero =>
        simp only [List.zip_cons_cons, List.getElem?_cons_zero, Option.some.injEq, Prod.mk.injEq] at h1
        obtain ⟨rfl, rfl⟩ := h1
        simp only [h2, Bool.false_eq_true, if_false]
        exact ⟨_, _, rfl⟩
      | succ k =>
        have hv : (v.parseArg R w).1 = true := h3 (v, w) (by simp)
        obtain ⟨a, r, e⟩ := ih ws k ⟨v', w', by simpa using h1, h2, fun q hq => h3 q (by
          rw [List.zip_cons_cons, List.take_succ_cons]
          exact List.mem_cons_of_mem _ hq)⟩
        simp only [hv, if_true, e]
        exact ⟨_, _, rfl⟩

/-- Positional arguments are fine, or there is a message. -/
theorem arguments_cases (R : Rnd) (args optArgs : List OptVal) (pos : List Str) :
    (∃ s, BadArguments R args optArgs pos s) ∨ (args.length ≤ pos.length ∧
      pos.length ≤ args.length + optArgs.length ∧ ArgsOk R args pos ∧
      ArgsOk R optArgs (pos.drop args.length)) := by
  rcases args_cases R args pos with h1 | ⟨k, h1⟩
  swap
  · exact Or.inl ⟨_, .badArg h1⟩
  rcases Nat.lt_or_ge pos.length args.length with h2 | h2
  · exact Or.inl ⟨_, .missing h1 h2⟩
  rcases args_cases R optArgs (pos.drop args.length) with h3 | ⟨k, h3⟩
  swap
  · exact Or.inl ⟨_, .badOptArg h1 h2 h3⟩
  rcases Nat.lt_or_ge (args.length + optArgs.length) pos.length with h4 | h4
  · exact Or.inl ⟨_, .tooMany h1 h3 h4⟩
  · exact Or.inr ⟨h2, h4, h1, h3⟩

theorem showNat_toDigits (n : ℕ) : showNat n = Nat.toDigits 10 n := by
  unfold showNat
  simp [toString, Nat.repr]

/-- A wrong command line is rejected with its message. -/
theorem wrongLine_rejected (R : Rnd) (p : Parser) (hp : WellRegistered p) (argv : List Str) (s : Str)
    (h : WrongLine R p argv s) :
    (p.parse R argv).1 = .rejected ∧ p.message R argv = some (endl s) := by
  cases h with
  | @option items rest s e hok hbad =>
    have h1 := parseOptions_items R p.opts hp.1 hp.2 items rest [] false hok
    have h2 := optionsMessage_items R p.opts hp.1 hp.2 items rest [] hok
    rw [optsAfter_nil, List.nil_append, ← e] at h1 h2
    obtain ⟨⟨o, h3⟩, h4⟩ := badOption_rejected R p.opts items (false || items.any isHelp) rest s hbad
    unfold parse message
    rw [h1, h3, h2, h4]
    exact ⟨rfl, rfl⟩
  | @arguments items tail pos s e hok ht hnh hbad =>
    have h := parseOptions_items R p.opts hp.1 hp.2 items tail [] false hok
    rw [optsAfter_nil, parseOptions_tail R _ _ ht] at h
    have hno : items.any isHelp = false := by
      rw [List.any_eq_false]
      intro it hit
      have := hnh it hit
      simpa [isHelp] using this
    rw [hno, Bool.or_false, List.nil_append, ← e] at h
    unfold parse message
    rw [h]
    simp only
    cases hbad with
    | badArg hb =>
      obtain ⟨a, r, e⟩ := parseArgs_firstBad R _ _ _ hb
      simp only [e, showNat_toDigits, and_self]
    | missing ha hl =>
      rw [parseArgs_ok R _ _ ha]
      simp only
      rw [if_pos (by omega), if_pos (by omega), Nat.min_eq_right hl.le, showNat_toDigits]
      exact ⟨rfl, rfl⟩
    | badOptArg ha hl hb =>
      obtain ⟨a, r, e⟩ := parseArgs_firstBad R _ _ _ hb
      rw [parseArgs_ok R _ _ ha]
      simp only
      rw [if_neg (by omega), if_neg (by omega), e, Nat.min_eq_left hl]
      simp only [showNat_toDigits, and_self]
    | tooMany ha hb hl =>
      rw [parseArgs_ok R _ _ ha]
      simp only
      rw [if_neg (by omega), if_neg (by omega), parseArgs_ok R _ _ hb]
      simp only
      have hne : ((pos.drop p.args.length).drop p.optArgs.length).isEmpty = false := by
        rw [List.drop_drop, List.isEmpty_eq_false_iff, ne_eq, List.drop_eq_nil_iff]
        omega
      rw [hne, List.drop_drop, List.length_drop]
      rw [show p.args.length + p.optArgs.length + (pos.length - (p.args.length + p.optArgs.length)) =
        pos.length by omega]
      simp only [Bool.false_eq_true, if_false, showNat_toDigits, and_self]

end Parser

end Kws
