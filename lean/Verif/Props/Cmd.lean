import Verif.Lemmas.Cmd
import Verif.Lemmas.Grammar
import Verif.Model.Tool

/-!
# C52 - C57: the command line

A command line is a list of option items, possibly `--`, and the positional arguments
(`Spec/CommandLine.lean`). `p.parse R argv` is `Parser::Parse`.
-/

namespace Kws
open Spec Parser OptVal

/-! ## C52 -/

/-- C52: on a command line made of valid option items without `--help` and a suitable number of valid
positional arguments, parsing succeeds; options have the value of their last occurrence or their
default, positional arguments are assigned in order. And parsing succeeds on no other command line. -/
theorem C52_accepts (R : Rnd) (p p' : Parser) (hp : WellRegistered p) (argv : List Str) :
    p.parse R argv = (.accepted, p') ↔ ∃ items tail pos,
      argv = items.flatMap OptItem.render ++ tail ∧ ItemsOk R p.opts items tail ∧
      TailOk tail pos ∧ (∀ it ∈ items, it.word ≠ "--help".toList) ∧
      p.args.length ≤ pos.length ∧ pos.length ≤ p.args.length + p.optArgs.length ∧
      ArgsOk R p.args pos ∧ ArgsOk R p.optArgs (pos.drop p.args.length) ∧
      p' = ⟨optsAfter R p.opts items, assigned R p.args pos,
        assigned R p.optArgs (pos.drop p.args.length)⟩ := by
  have hlen1 : ∀ pos : List Str, (assigned R p.args pos).length = p.args.length := by
    intro pos; simp [assigned]; omega
  constructor
  · intro h
    unfold Parser.parse at h
    cases ho : parseOptions R p.opts false argv with
    | rejected o => rw [ho] at h; injection h with h _; cases h
    | done o help pos =>
      rw [ho] at h
      have ho' := ho
      rw [← optsAfter_nil R p.opts] at ho'
      obtain ⟨items, tail, e, hok, htail⟩ :=
        parseOptions_done R p.opts hp.1 hp.2 argv.length argv [] false help o pos (le_refl _) ho'
      have h2 := parseOptions_items R p.opts hp.1 hp.2 items tail [] false hok
      rw [← e, ho', parseOptions_tail R _ _ htail] at h2
      injection h2 with h3 h4 h5
      subst h3
      cases help with
      | true => simp only at h; injection h with h _; cases h
      | false =>
        simp only at h
        have hnh : ∀ it ∈ items, it.word ≠ "--help".toList := by
          intro it hit hw
          have : items.any isHelp = true :=
            List.any_eq_true.2 ⟨it, hit, by simpa [isHelp] using hw⟩
          rw [Bool.false_or, this] at h4
          cases h4
        by_cases ha : ArgsOk R p.args pos
        · rw [parseArgs_ok R p.args pos ha] at h
          simp only at h
          split at h
          · injection h with h _; cases h
          · rename_i hge
            by_cases hb : ArgsOk R p.optArgs (pos.drop p.args.length)
            · rw [parseArgs_ok R _ _ hb] at h
              simp only at h
              split at h
              · rename_i hemp
                injection h with _ h
                refine ⟨items, tail, pos, e, hok, htail, hnh, by omega, ?_, ha, hb, h.symm⟩
                simp only [List.drop_drop, List.isEmpty_iff, List.drop_eq_nil_iff] at hemp
                omega
              · injection h with h _; cases h
            · have := parseArgs_bad R _ _ hb
              revert h
              rcases hpa : parseArgs R p.optArgs (pos.drop p.args.length) with ⟨b, x, y, z⟩
              rw [hpa] at this
              simp only at this
              subst this
              intro h
              injection h with h _; cases h
        · have := parseArgs_bad R _ _ ha
          revert h
          rcases hpa : parseArgs R p.args pos with ⟨b, x, y, z⟩
          rw [hpa] at this
          simp only at this
          subst this
          intro h
          injection h with h _; cases h
  · rintro ⟨items, tail, pos, rfl, hok, htail, hnh, h1, h2, ha, hb, rfl⟩
    have h := parseOptions_items R p.opts hp.1 hp.2 items tail [] false hok
    rw [optsAfter_nil, parseOptions_tail R _ _ htail] at h
    have hno : items.any isHelp = false := by
      rw [List.any_eq_false]
      intro it hit
      have := hnh it hit
      simpa [isHelp] using this
    rw [hno, Bool.or_false, List.nil_append] at h
    unfold Parser.parse
    rw [h]
    simp only
    rw [parseArgs_ok R p.args pos ha]
    simp only
    rw [if_neg (by omega), parseArgs_ok R _ _ hb]
    simp only
    rw [if_pos]
    simp only [List.drop_drop, List.isEmpty_iff, List.drop_eq_nil_iff]
    omega

/-- The registry of the following cases: a flag, a text, one mandatory and one optional argument. -/
def cmdExample : Parser := ⟨[("flag".toList, .bool true), ("text".toList, .str [])], [.str []],
  [.str "opt".toList]⟩

theorem cmdExample_registered : WellRegistered cmdExample := by
  unfold WellRegistered
  decide

/-- Case: a flag given twice, a text, and the mandatory argument. -/
example : cmdExample.parse Rnd.exact (["--flag", "false", "--text", "-x", "--flag", "--", "-r"].map
    String.toList) = (.accepted, ⟨[("flag".toList, .bool true), ("text".toList, .str "-x".toList)],
      [.str "-r".toList], [.str "opt".toList]⟩) := by
  rw [C52_accepts Rnd.exact cmdExample _ cmdExample_registered]
  refine ⟨[⟨"--flag".toList, some "false".toList⟩, ⟨"--text".toList, some "-x".toList⟩,
    ⟨"--flag".toList, none⟩], ["--".toList, "-r".toList], ["-r".toList], rfl, ?_, Or.inl rfl,
    by decide, by decide, by decide, ?_, ?_, ?_⟩
  · refine ⟨Or.inr ⟨"flag".toList, .bool true, ⟨⟨'-', rfl⟩, by decide, by decide⟩, rfl,
      Or.inr (Or.inr ⟨rfl, "false".toList, rfl, by decide, by decide⟩)⟩,
      Or.inr ⟨"text".toList, .str [], ⟨⟨'-', rfl⟩, by decide, by decide⟩, rfl,
        Or.inl ⟨rfl, "-x".toList, rfl, by decide⟩⟩,
      Or.inr ⟨"flag".toList, .bool true, ⟨⟨'-', rfl⟩, by decide, by decide⟩, rfl,
        Or.inr (Or.inl ⟨rfl, rfl, ?_⟩)⟩, trivial⟩
    intro w hw
    simp at hw
    subst hw
    rfl
  · intro q hq
    simp [cmdExample] at hq
    subst hq
    decide
  · intro q hq
    simp [cmdExample] at hq
  · rfl

/-- C52: `--help` among valid items prints the help, whatever the positional arguments. -/
theorem C52_help (R : Rnd) (p : Parser) (hp : WellRegistered p) (argv : List Str) :
    (p.parse R argv).1 = .exitHelp ↔ ∃ items tail pos,
      argv = items.flatMap OptItem.render ++ tail ∧ ItemsOk R p.opts items tail ∧
      TailOk tail pos ∧ ∃ it ∈ items, it.word = "--help".toList := by
  constructor
  · intro h
    unfold Parser.parse at h
    cases ho : parseOptions R p.opts false argv with
    | rejected o => rw [ho] at h; cases h
    | done o help pos =>
      rw [ho] at h
      have ho' := ho
      rw [← optsAfter_nil R p.opts] at ho'
      obtain ⟨items, tail, e, hok, htail⟩ :=
        parseOptions_done R p.opts hp.1 hp.2 argv.length argv [] false help o pos (le_refl _) ho'
      have h2 := parseOptions_items R p.opts hp.1 hp.2 items tail [] false hok
      rw [← e, ho', parseOptions_tail R _ _ htail] at h2
      injection h2 with h3 h4 h5
      cases help with
      | true =>
        rw [Bool.false_or] at h4
        obtain ⟨it, hit, hw⟩ := List.any_eq_true.1 h4.symm
        exact ⟨items, tail, pos, e, hok, htail, it, hit, by simpa [isHelp] using hw⟩
      | false =>
        exfalso
        simp only at h
        revert h
        repeat' split
        all_goals simp
  · rintro ⟨items, tail, pos, rfl, hok, htail, it, hit, hw⟩
    have h := parseOptions_items R p.opts hp.1 hp.2 items tail [] false hok
    rw [optsAfter_nil, parseOptions_tail R _ _ htail] at h
    have hyes : items.any isHelp = true := List.any_eq_true.2 ⟨it, hit, by simpa [isHelp] using hw⟩
    rw [hyes, Bool.or_true] at h
    unfold Parser.parse
    rw [h]

/-! ## C53 -/

/-- What is left after valid items decides. -/
theorem parse_rejected (R : Rnd) (p : Parser) (hp : WellRegistered p) (items : List OptItem)
    (rest : List Str) (hok : ItemsOk R p.opts items rest)
    (h : ∀ help, ∃ o, parseOptions R (optsAfter R p.opts items) help rest = .rejected o) :
    (p.parse R (items.flatMap OptItem.render ++ rest)).1 = .rejected := by
  have h2 := parseOptions_items R p.opts hp.1 hp.2 items rest [] false hok
  rw [optsAfter_nil, List.nil_append] at h2
  obtain ⟨o, ho⟩ := h (false || items.any isHelp)
  unfold Parser.parse
  rw [h2, ho]

/-- C53: an unknown option, wherever it is among the options, is an error (even after `--help`). -/
theorem C53_unknown (R : Rnd) (p : Parser) (hp : WellRegistered p) (items : List OptItem)
    (w name : Str) (rest : List Str) (hok : ItemsOk R p.opts items (w :: rest))
    (hs : Selects w name) (hn : name ∉ p.opts.map Prod.fst) :
    (p.parse R (items.flatMap OptItem.render ++ w :: rest)).1 = .rejected := by
  refine parse_rejected R p hp items (w :: rest) hok fun help => ?_
  obtain ⟨hlike, hdrop⟩ := Spec.Selects.like hs
  have h1 : ¬ (decide (w.length < 2) || !startsDash w) = true := by
    rw [optionLike_iff]; exact not_not.2 hlike
  rw [parseOptions, if_neg h1, if_neg hs.2.1, if_neg hs.2.2, find?_optsAfter, hdrop,
    AMap.find?_none.2 hn]
  exact ⟨_, rfl⟩

/-- C53: an option that needs a value is an error at the end of the command line. -/
theorem C53_missing_value (R : Rnd) (p : Parser) (hp : WellRegistered p) (items : List OptItem)
    (w name : Str) (v : OptVal) (hok : ItemsOk R p.opts items [w])
    (hs : Selects w name) (hv : AMap.find? name p.opts = some v) (hb : v.isBoolean = false) :
    (p.parse R (items.flatMap OptItem.render ++ [w])).1 = .rejected := by
  refine parse_rejected R p hp items [w] hok fun help => ?_
  obtain ⟨hlike, hdrop⟩ := Spec.Selects.like hs
  have h1 : ¬ (decide (w.length < 2) || !startsDash w) = true := by
    rw [optionLike_iff]; exact not_not.2 hlike
  rw [parseOptions, if_neg h1, if_neg hs.2.1, if_neg hs.2.2, find?_optsAfter, hdrop, hv]
  simp only [Option.map_some, ← sameType_boolean (valueAfter_sameType R v _), hb,
    Bool.false_eq_true, if_false]
  exact ⟨_, rfl⟩

/-- C53: an invalid value is an error. (For a boolean option a word that starts with a dash is not
taken as value.) -/
theorem C53_invalid_value (R : Rnd) (p : Parser) (hp : WellRegistered p) (items : List OptItem)
    (w name s : Str) (rest : List Str) (v : OptVal) (hok : ItemsOk R p.opts items (w :: s :: rest))
    (hs : Selects w name) (hv : AMap.find? name p.opts = some v)
    (hb : v.isBoolean = true → s.head? ≠ some '-') (hbad : (v.parseOpt R s).1 = false) :
    (p.parse R (items.flatMap OptItem.render ++ w :: s :: rest)).1 = .rejected := by
  refine parse_rejected R p hp items (w :: s :: rest) hok fun help => ?_
  obtain ⟨hlike, hdrop⟩ := Spec.Selects.like hs
  have h1 : ¬ (decide (w.length < 2) || !startsDash w) = true := by
    rw [optionLike_iff]; exact not_not.2 hlike
  have hty := valueAfter_sameType R v (lastText items name)
  have ht := (parseOpt_type R hty s).1
  rw [parseOptions, if_neg h1, if_neg hs.2.1, if_neg hs.2.2, find?_optsAfter, hdrop, hv]
  simp only [Option.map_some, ← sameType_boolean hty]
  by_cases hbool : v.isBoolean = true
  · have hd : startsDash s = false := by
      rw [← Bool.not_eq_true, startsDash_iff]; exact hb hbool
    simp only [hbool, if_true, hd, Bool.false_eq_true, if_false, ← ht, hbad]
    exact ⟨_, rfl⟩
  · rw [Bool.not_eq_true] at hbool
    simp only [hbool, Bool.false_eq_true, if_false, ← ht, hbad]
    exact ⟨_, rfl⟩

/-- C53: too few or too many positional arguments, or an invalid one, are errors. -/
theorem C53_positional (R : Rnd) (p : Parser) (hp : WellRegistered p) (items : List OptItem)
    (tail pos : List Str) (hok : ItemsOk R p.opts items tail) (ht : TailOk tail pos)
    (hnh : ∀ it ∈ items, it.word ≠ "--help".toList)
    (hbad : pos.length < p.args.length ∨ p.args.length + p.optArgs.length < pos.length ∨
      ¬ ArgsOk R p.args pos ∨ ¬ ArgsOk R p.optArgs (pos.drop p.args.length)) :
    (p.parse R (items.flatMap OptItem.render ++ tail)).1 = .rejected := by
  have h := parseOptions_items R p.opts hp.1 hp.2 items tail [] false hok
  rw [optsAfter_nil, parseOptions_tail R _ _ ht] at h
  have hno : items.any isHelp = false := by
    rw [List.any_eq_false]
    intro it hit
    have := hnh it hit
    simpa [isHelp] using this
  rw [hno, Bool.or_false, List.nil_append] at h
  unfold Parser.parse
  rw [h]
  simp only
  by_cases ha : ArgsOk R p.args pos
  · rw [parseArgs_ok R p.args pos ha]
    simp only
    split
    · rfl
    · rename_i hge
      by_cases hb : ArgsOk R p.optArgs (pos.drop p.args.length)
      · rw [parseArgs_ok R _ _ hb]
        simp only
        have hlt : p.args.length + p.optArgs.length < pos.length := by
          rcases hbad with h1 | h1 | h1 | h1
          · omega
          · exact h1
          · exact absurd ha h1
          · exact absurd hb h1
        rw [if_neg]
        simp only [List.drop_drop, List.isEmpty_iff, List.drop_eq_nil_iff]
        omega
      · have := parseArgs_bad R _ _ hb
        rcases hpa : parseArgs R p.optArgs (pos.drop p.args.length) with ⟨b, x, y, z⟩
        rw [hpa] at this
        simp only at this
        subst this
        rfl
  · have := parseArgs_bad R _ _ ha
    rcases hpa : parseArgs R p.args pos with ⟨b, x, y, z⟩
    rw [hpa] at this
    simp only at this
    subst this
    rfl

/-- Cases: an unknown option after a valid one; no positional argument; three of them. -/
example : (cmdExample.parse Rnd.exact (["--text", "a", "--txt", "b", "r"].map String.toList)).1 = .rejected ∧
    (cmdExample.parse Rnd.exact (["--text", "a"].map String.toList)).1 = .rejected ∧
    (cmdExample.parse Rnd.exact (["a", "b", "c"].map String.toList)).1 = .rejected := by
  refine ⟨?_, ?_, ?_⟩
  · refine C53_unknown Rnd.exact cmdExample cmdExample_registered
      [⟨"--text".toList, some "a".toList⟩] "--txt".toList "txt".toList ["b".toList, "r".toList]
      ⟨Or.inr ⟨"text".toList, .str [], ⟨⟨'-', rfl⟩, by decide, by decide⟩, rfl,
        Or.inl ⟨rfl, "a".toList, rfl, by decide⟩⟩, trivial⟩ ⟨⟨'-', rfl⟩, by decide, by decide⟩
      (by decide)
  · refine C53_positional Rnd.exact cmdExample cmdExample_registered
      [⟨"--text".toList, some "a".toList⟩] [] [] ⟨Or.inr ⟨"text".toList, .str [],
        ⟨⟨'-', rfl⟩, by decide, by decide⟩, rfl, Or.inl ⟨rfl, "a".toList, rfl, by decide⟩⟩, trivial⟩
      (Or.inr ⟨rfl, by simp⟩) (by decide) (Or.inl (by decide))
  · refine C53_positional Rnd.exact cmdExample cmdExample_registered [] _ _ trivial
      (Or.inr ⟨rfl, ?_⟩) (by simp) (Or.inr (Or.inl (by decide)))
    intro w hw
    simp at hw
    subst hw
    rintro ⟨h, _⟩
    exact absurd h (by decide)

/-! ## C54 -/

/-- C54: a registration fails exactly if the name is `help` or taken, and then changes nothing. -/
theorem C54_fails (p : Parser) (name : Str) (v : OptVal) :
    ((p.registerOption name v).1 = false ↔ name = "help".toList ∨ name ∈ p.opts.map Prod.fst) ∧
    ((p.registerOption name v).1 = false → (p.registerOption name v).2 = p) := by
  unfold registerOption
  split
  · rename_i h
    exact ⟨⟨fun _ => Or.inl h, fun _ => rfl⟩, fun _ => rfl⟩
  · rename_i h
    cases hf : AMap.find? name p.opts with
    | some w =>
      refine ⟨⟨fun _ => Or.inr ?_, fun _ => rfl⟩, fun _ => rfl⟩
      exact List.mem_map.2 ⟨_, AMap.find?_some_mem hf, rfl⟩
    | none =>
      simp only
      refine ⟨⟨fun e => absurd e (by simp), ?_⟩, fun e => absurd e (by simp)⟩
      rintro (e | e)
      · exact absurd e h
      · exact absurd e (AMap.find?_none.1 hf)

/-- C54: a successful registration adds the option and keeps everything else. -/
theorem C54_succeeds (p : Parser) (name : Str) (v : OptVal)
    (h : (p.registerOption name v).1 = true) :
    AMap.find? name (p.registerOption name v).2.opts = some v ∧
    (∀ n, n ≠ name → AMap.find? n (p.registerOption name v).2.opts = AMap.find? n p.opts) ∧
    (p.registerOption name v).2.args = p.args ∧
    (p.registerOption name v).2.optArgs = p.optArgs := by
  unfold registerOption at h ⊢
  split at h
  · cases h
  · rename_i hne
    rw [if_neg hne]
    cases hf : AMap.find? name p.opts with
    | some w => rw [hf] at h; cases h
    | none =>
      simp only [AMap.emplace, hf]
      refine ⟨?_, fun n hn => ?_, trivial, trivial⟩
      · rw [AMap.find?_append, hf]
        simp [AMap.find?]
      · rw [AMap.find?_append]
        simp [AMap.find?, hn]

/-- A registration. -/
inductive Spec.Registration
  | option (name : Str) (v : OptVal)
  | argument (v : OptVal)
  | optArgument (v : OptVal)

/-- The parser after a history of registrations. -/
def Spec.registered : List Registration → Parser
  | [] => Parser.new
  | .option n v :: h => ((registered h).registerOption n v).2
  | .argument v :: h => (registered h).registerArgument v
  | .optArgument v :: h => (registered h).registerOptArgument v

/-- C54: after every history of registrations the names are unique and `help` is not among them. -/
theorem C54_history (h : List Registration) : WellRegistered (registered h) := by
  induction h with
  | nil => exact ⟨List.nodup_nil, by simp [registered, Parser.new]⟩
  | cons r h ih =>
    cases r with
    | argument v => exact ih
    | optArgument v => exact ih
    | option n v =>
      simp only [registered]
      by_cases hs : ((registered h).registerOption n v).1 = true
      · have hno : ¬ (n = "help".toList ∨ n ∈ (registered h).opts.map Prod.fst) := by
          intro hc
          rw [← (C54_fails (registered h) n v).1, hs] at hc
          cases hc
        push Not at hno
        unfold registerOption
        rw [if_neg hno.1, AMap.find?_none.2 hno.2]
        simp only [AMap.emplace, AMap.find?_none.2 hno.2]
        refine ⟨?_, ?_⟩
        · simp only [List.map_append, List.map_cons, List.map_nil]
          exact List.nodup_append.2 ⟨ih.1, by simp, by
            intro a ha b hb e
            simp at hb
            rw [e, hb] at ha
            exact hno.2 ha⟩
        · simp only [List.map_append, List.mem_append, not_or]
          exact ⟨ih.2, by simpa using fun e => hno.1 (by simpa using e.symm)⟩
      · rw [Bool.not_eq_true] at hs
        rw [(C54_fails (registered h) n v).2 hs]
        exact ih

theorem register_names (l : List (String × OptVal)) (p : Parser)
    (h : ((p.opts.map Prod.fst) ++ l.map fun nv => nv.1.toList).Nodup)
    (hh : "help".toList ∉ l.map fun nv => nv.1.toList) :
    (l.foldl (fun p nv => (p.registerOption nv.1.toList nv.2).2) p).opts.map Prod.fst =
      p.opts.map Prod.fst ++ l.map fun nv => nv.1.toList := by
  induction l generalizing p with
  | nil => simp
  | cons a l ih =>
    have hno : a.1.toList ∉ p.opts.map Prod.fst := by
      intro hc
      exact (List.nodup_append.1 h).2.2 _ hc _ (by simp) rfl
    have hne : a.1.toList ≠ "help".toList := fun e => hh (by rw [← e]; simp)
    have hstep : ((p.registerOption a.1.toList a.2).2).opts.map Prod.fst =
        p.opts.map Prod.fst ++ [a.1.toList] := by
      unfold registerOption
      rw [if_neg hne, AMap.find?_none.2 hno]
      simp [AMap.emplace, AMap.find?_none.2 hno]
    rw [List.foldl_cons, ih]
    · rw [hstep]; simp
    · rw [hstep]; simpa using h
    · intro hc
      exact hh (by simp only [List.map_cons, List.mem_cons]; exact Or.inr hc)

theorem toolParser_names (R : Rnd) : (toolParser R).opts.map Prod.fst =
    ["collapse_matches", "interpolated_precision", "trapezoid_integral", "query_set",
      "dump_matches", "query_groups", "bootstrap_ci_gap", "bootstrap_ci_map", "bootstrap_ci_gndcg",
      "bootstrap_ci_mndcg", "bootstrap_samples", "bootstrap_seed", "bootstrap_alpha", "sort",
      "output_grp", "output_mrp", "rp_curve_samples"].map String.toList := by
  unfold toolParser
  simp only [registerArgument, registerOptArgument]
  rw [register_names]
  · rfl
  · simp only [List.map_cons, List.map_nil]; decide
  · simp only [List.map_cons, List.map_nil]; decide

theorem register_opts (l : List (String × OptVal)) (p : Parser)
    (h : ((p.opts.map Prod.fst) ++ l.map fun nv => nv.1.toList).Nodup)
    (hh : "help".toList ∉ l.map fun nv => nv.1.toList) :
    (l.foldl (fun p nv => (p.registerOption nv.1.toList nv.2).2) p).opts =
      p.opts ++ l.map fun nv => (nv.1.toList, nv.2) := by
  induction l generalizing p with
  | nil => simp
  | cons a l ih =>
    have hno : a.1.toList ∉ p.opts.map Prod.fst := by
      intro hc
      exact (List.nodup_append.1 h).2.2 _ hc _ (by simp) rfl
    have hne : a.1.toList ≠ "help".toList := fun e => hh (by rw [← e]; simp)
    have hstep : ((p.registerOption a.1.toList a.2).2).opts = p.opts ++ [(a.1.toList, a.2)] := by
      unfold registerOption
      rw [if_neg hne, AMap.find?_none.2 hno]
      simp [AMap.emplace, AMap.find?_none.2 hno]
    rw [List.foldl_cons, ih]
    · rw [hstep]; simp
    · rw [hstep]; simpa using h
    · intro hc
      exact hh (by simp only [List.map_cons, List.mem_cons]; exact Or.inr hc)

theorem toolParser_opts (R : Rnd) : (toolParser R).opts = [("collapse_matches", OptVal.bool true),
    ("interpolated_precision", .bool true), ("trapezoid_integral", .bool true),
    ("query_set", .str []), ("dump_matches", .str []), ("query_groups", .str []),
    ("bootstrap_ci_gap", .bool false), ("bootstrap_ci_map", .bool false),
    ("bootstrap_ci_gndcg", .bool false), ("bootstrap_ci_mndcg", .bool false),
    ("bootstrap_samples", .size 10000), ("bootstrap_seed", .size 0x12345),
    ("bootstrap_alpha", .double (R.f64 (5 / 100))), ("sort", .str "desc".toList),
    ("output_grp", .str []), ("output_mrp", .str []),
    ("rp_curve_samples", .size 10000)].map fun o : String × OptVal => (o.1.toList, o.2) := by
  unfold toolParser
  simp only [registerArgument, registerOptArgument]
  rw [register_opts]
  · rfl
  · simp only [List.map_cons, List.map_nil]; decide
  · simp only [List.map_cons, List.map_nil]; decide

theorem toolParser_args (R : Rnd) : (toolParser R).args = [.str []] ∧ (toolParser R).optArgs = [.str []] := by
  have hreg : ∀ (p : Parser) (n : Str) (v : OptVal), (p.registerOption n v).2.args = p.args ∧
      (p.registerOption n v).2.optArgs = p.optArgs := by
    intro p n v
    unfold Parser.registerOption
    split
    · exact ⟨rfl, rfl⟩
    · split <;> exact ⟨rfl, rfl⟩
  have hfold : ∀ (l : List (String × OptVal)) (p : Parser),
      (l.foldl (fun p nv => (p.registerOption nv.1.toList nv.2).2) p).args = p.args ∧
      (l.foldl (fun p nv => (p.registerOption nv.1.toList nv.2).2) p).optArgs = p.optArgs := by
    intro l
    induction l with
    | nil => intro p; exact ⟨rfl, rfl⟩
    | cons a l ih =>
      intro p
      rw [List.foldl_cons]
      exact ⟨(ih _).1.trans (hreg ..).1, (ih _).2.trans (hreg ..).2⟩
  unfold toolParser Parser.registerOptArgument Parser.registerArgument
  dsimp only
  rw [(hfold _ _).1, (hfold _ _).2]
  exact ⟨rfl, rfl⟩

/-- C54: every option of the tools is registered. -/
theorem C54_tool (R : Rnd) : WellRegistered (toolParser R) := by
  unfold WellRegistered
  rw [toolParser_names]
  decide

/-- Cases: `help` and a taken name are refused, another name is not. -/
example : (cmdExample.registerOption "help".toList (.size 1)).1 = false ∧
    (cmdExample.registerOption "flag".toList (.size 1)).1 = false ∧
    (cmdExample.registerOption "help2".toList (.size 1)).1 = true := by decide

/-! ## C55 -/

/-- C55 is false: a single dash and any character select the option as well. -/
theorem C55_double_dash_refuted : ∃ w : Str, w ≠ "--text".toList ∧
    cmdExample.parse Rnd.exact [w, "a".toList, "r".toList] = (.accepted,
      ⟨[("flag".toList, .bool true), ("text".toList, .str "a".toList)], [.str "r".toList],
        [.str "opt".toList]⟩) := by
  refine ⟨"-xtext".toList, by decide, ?_⟩
  rw [C52_accepts Rnd.exact cmdExample _ cmdExample_registered]
  refine ⟨[⟨"-xtext".toList, some "a".toList⟩], ["r".toList], ["r".toList], rfl,
    ⟨Or.inr ⟨"text".toList, .str [], ⟨⟨'x', rfl⟩, by decide, by decide⟩, rfl,
      Or.inl ⟨rfl, "a".toList, rfl, by decide⟩⟩, trivial⟩, Or.inr ⟨rfl, ?_⟩, by decide, by decide,
    by decide, ?_, ?_, rfl⟩
  · intro w hw
    simp at hw
    subst hw
    rintro ⟨h, _⟩
    exact absurd h (by decide)
  · intro q hq
    simp [cmdExample] at hq
    subst hq
    decide
  · intro q hq
    simp [cmdExample] at hq

/-- C55, what holds: in an accepted command line every option was selected by a dash, some character
and its name; so with a second dash it was selected by `--` and its name. -/
theorem C55_selected_partial (R : Rnd) (p p' : Parser) (hp : WellRegistered p) (argv : List Str)
    (h : p.parse R argv = (.accepted, p')) (name : Str) (v v' : OptVal)
    (hv : AMap.find? name p.opts = some v) (hv' : AMap.find? name p'.opts = some v') (hne : v' ≠ v) :
    ∃ c, '-' :: c :: name ∈ argv := by
  obtain ⟨items, tail, pos, rfl, hok, htail, hnh, _, _, _, _, rfl⟩ := (C52_accepts R p p' hp argv).1 h
  simp only [find?_optsAfter, hv, Option.map_some, Option.some.injEq] at hv'
  cases hl : lastText items name with
  | none => rw [hl] at hv'; exact absurd hv'.symm hne
  | some s =>
    unfold lastText at hl
    simp only [Option.map_eq_some_iff] at hl
    obtain ⟨it, hit, _⟩ := hl
    have hmem := List.mem_of_getLast? hit
    rw [List.mem_filter] at hmem
    obtain ⟨hmem, hdrop⟩ := hmem
    have hsel : ∀ (items : List OptItem) (tail : List Str), ItemsOk R p.opts items tail →
        ∀ it ∈ items, it.word ≠ "--help".toList → ∃ n, Selects it.word n := by
      intro items
      induction items with
      | nil => intro _ _ it hit; simp at hit
      | cons a items ih =>
        rintro tail ⟨h1, h2⟩ it hit hw
        rcases List.mem_cons.1 hit with rfl | hit
        · rcases h1 with ⟨h1, _⟩ | ⟨n, v, h1, _⟩
          · exact absurd h1 hw
          · exact ⟨n, h1⟩
        · exact ih tail h2 it hit hw
    obtain ⟨n, ⟨c, hc⟩, _⟩ := hsel items tail hok it hmem (hnh it hmem)
    rw [hc] at hdrop
    simp only [List.drop_succ_cons, List.drop_zero, beq_iff_eq] at hdrop
    subst hdrop
    refine ⟨c, List.mem_append_left _ (List.mem_flatMap.2 ⟨it, hmem, ?_⟩)⟩
    rw [← hc]
    exact List.mem_cons_self

/-! ## C56 -/

theorem scanSign_digits {s : Str} (h : (IStream.scanSign s).2.dropWhile isDigit = []) :
    ∃ sg, s = sg ++ (IStream.scanSign s).2 ∧ Sign sg (IStream.scanSign s).1 ∧
      ∀ c ∈ (IStream.scanSign s).2, isDigit c = true := by
  obtain ⟨sg, hs, e⟩ := scan_sign s
  refine ⟨sg, e, hs, fun c hc => ?_⟩
  have e2 := List.takeWhile_append_dropWhile (p := isDigit) (l := (IStream.scanSign s).2)
  rw [h, List.append_nil] at e2
  rw [← e2] at hc
  exact mem_takeWhile_imp hc

theorem digits_scan {sg ds : Str} {neg : Bool} (hs : Sign sg neg) (hd : ∀ c ∈ ds, isDigit c = true) :
    IStream.scanSign (sg ++ ds) = (neg, ds) ∧ ds.takeWhile isDigit = ds ∧ ds.dropWhile isDigit = [] := by
  have hn : NumeralEnded [] := by intro c hc; simp at hc
  have t := takeWhile_digits hd hn
  rw [List.append_nil] at t
  refine ⟨sign_scan hs ds fun c hc => ?_, t⟩
  exact digit_not_sign (hd c (List.mem_of_mem_head? hc))

/-- The value stored in an unsigned variable with maximum `max` for a sign and digits. -/
def Spec.storedUnsigned (max : Nat) (neg : Bool) (ds : Str) : Nat :=
  if ds = [] then 0
  else if max < numeral ds then max
  else if neg then (max + 1 - numeral ds) % (max + 1) else numeral ds

/-- The value stored in a signed variable with maximum `max` for a sign and digits. -/
def Spec.storedSigned (max : Nat) (neg : Bool) (ds : Str) : Int :=
  let z : Int := if neg then -(numeral ds : Int) else numeral ds
  if ds = [] then 0
  else if (max : Int) < z then max
  else if z < -max - 1 then -max - 1
  else z

/-- C56, what holds (`size_t`): exactly the texts made of an optional sign and (possibly no) digits
are accepted, with the following value. -/
theorem C56_size_partial (R : Rnd) (old m : Nat) (s : Str) :
    (OptVal.size old).parseOpt R s = (true, .size m) ↔
      ∃ sg neg ds, s = sg ++ ds ∧ Sign sg neg ∧ (∀ c ∈ ds, isDigit c = true) ∧
        m = storedUnsigned (2 ^ 64 - 1) neg ds := by
  have key : (OptVal.size old).parseOpt R s =
      (((IStream.scanSign s).2.dropWhile isDigit).isEmpty, .size
        (storedUnsigned (2 ^ 64 - 1) (IStream.scanSign s).1
          ((IStream.scanSign s).2.takeWhile isDigit))) := by
    simp only [parseOpt, parseOther, IStream.getUnsigned, IStream.sentry, IStream.ofStr,
      IStream.good, Bool.not_false, Bool.and_self, if_true, Bool.false_eq_true, if_false,
      storedUnsigned, natVal_eq]
    by_cases h1 : (IStream.scanSign s).2.takeWhile isDigit = []
    · simp [h1]
    · have h1' : ((IStream.scanSign s).2.takeWhile isDigit).isEmpty = false := by simpa using h1
      simp only [h1', h1, Bool.false_eq_true, if_false, gt_iff_lt]
      split
      · rfl
      · split <;> rfl
  rw [key]
  constructor
  · intro h
    injection h with h1 h2
    injection h2 with h2
    rw [List.isEmpty_iff] at h1
    obtain ⟨sg, e, hs, hd⟩ := scanSign_digits h1
    refine ⟨sg, _, _, e, hs, hd, ?_⟩
    have e2 := List.takeWhile_append_dropWhile (p := isDigit) (l := (IStream.scanSign s).2)
    rw [h1, List.append_nil] at e2
    rw [← h2, e2]
  · rintro ⟨sg, neg, ds, rfl, hs, hd, rfl⟩
    obtain ⟨h1, h2, h3⟩ := digits_scan hs hd
    rw [h1]
    simp only [h2, h3]
    rfl

/-- C56, what holds (`int32_t`): exactly the texts made of an optional sign and (possibly no) digits
are accepted, with the following value. -/
theorem C56_int_partial (R : Rnd) (old m : Int) (s : Str) :
    (OptVal.int32 old).parseOpt R s = (true, .int32 m) ↔
      ∃ sg neg ds, s = sg ++ ds ∧ Sign sg neg ∧ (∀ c ∈ ds, isDigit c = true) ∧
        m = storedSigned (2 ^ 31 - 1) neg ds := by
  have key : (OptVal.int32 old).parseOpt R s =
      (((IStream.scanSign s).2.dropWhile isDigit).isEmpty, .int32
        (storedSigned (2 ^ 31 - 1) (IStream.scanSign s).1
          ((IStream.scanSign s).2.takeWhile isDigit))) := by
    simp only [parseOpt, parseOther, IStream.getSigned, IStream.sentry, IStream.ofStr,
      IStream.good, Bool.not_false, Bool.and_self, if_true, Bool.false_eq_true, if_false,
      storedSigned, natVal_eq]
    by_cases h1 : (IStream.scanSign s).2.takeWhile isDigit = []
    · simp [h1]
    · have h1' : ((IStream.scanSign s).2.takeWhile isDigit).isEmpty = false := by simpa using h1
      simp only [h1', h1, Bool.false_eq_true, if_false, gt_iff_lt]
      generalize (if (IStream.scanSign s).1 = true then
        -(numeral ((IStream.scanSign s).2.takeWhile isDigit) : Int)
        else numeral ((IStream.scanSign s).2.takeWhile isDigit)) = z
      split
      · rfl
      · split <;> rfl
  rw [key]
  constructor
  · intro h
    injection h with h1 h2
    injection h2 with h2
    rw [List.isEmpty_iff] at h1
    obtain ⟨sg, e, hs, hd⟩ := scanSign_digits h1
    refine ⟨sg, _, _, e, hs, hd, ?_⟩
    have e2 := List.takeWhile_append_dropWhile (p := isDigit) (l := (IStream.scanSign s).2)
    rw [h1, List.append_nil] at e2
    rw [← h2, e2]
  · rintro ⟨sg, neg, ds, rfl, hs, hd, rfl⟩
    obtain ⟨h1, h2, h3⟩ := digits_scan hs hd
    rw [h1]
    simp only [h2, h3]
    rfl

/-- C56, what holds: a complete number in range is accepted with its value. -/
theorem C56_in_range_partial (R : Rnd) (s : Str) :
    (∀ old z, Denotes s z → 0 ≤ z → z < 2 ^ 64 →
      (OptVal.size old).parseOpt R s = (true, .size z.toNat)) ∧
    (∀ old z, Denotes s z → -2 ^ 31 ≤ z → z < 2 ^ 31 →
      (OptVal.int32 old).parseOpt R s = (true, .int32 z)) ∧
    (∀ old q, DenotesReal s q → |R.f64 q| ≤ dblMax →
      (OptVal.double old).parseOpt R s = (true, .double (R.f64 q))) := by
  refine ⟨?_, ?_, ?_⟩
  · rintro old z ⟨sg, neg, ds, e, hs, ⟨hne, hd⟩, hz⟩ h1 h2
    rw [C56_size_partial]
    refine ⟨sg, neg, ds, e, hs, hd, ?_⟩
    unfold storedUnsigned
    rw [if_neg hne]
    cases neg
    · simp only [Bool.false_eq_true, if_false] at hz ⊢
      rw [if_neg (by omega)]
      omega
    · simp only [if_true] at hz ⊢
      have h0 : numeral ds = 0 := by omega
      rw [h0]
      simp [hz, h0]
  · rintro old z ⟨sg, neg, ds, e, hs, ⟨hne, hd⟩, hz⟩ h1 h2
    rw [C56_int_partial]
    refine ⟨sg, neg, ds, e, hs, hd, ?_⟩
    unfold storedSigned
    simp only
    rw [if_neg hne, ← hz, if_neg (by push_cast; omega), if_neg (by push_cast; omega)]
  · intro old q hq ha
    obtain ⟨h1, h2⟩ := scanFloat_denotes hq
    obtain ⟨h3, h4⟩ := abs_le.1 ha
    simp only [parseOpt, parseOther, IStream.getFloat, IStream.sentry, IStream.ofStr,
      IStream.good, Bool.not_false, Bool.and_self, if_true, Bool.false_eq_true, if_false, h1, h2]
    rw [if_neg (not_lt.2 h4), if_neg (not_lt.2 h3)]
    rfl

/-- The characters of numbers. -/
def Spec.numberChars : Str := "0123456789+-.eE".toList

theorem digit_numberChar {c : Char} (h : isDigit c = true) : c ∈ numberChars := by
  simp only [isDigit, Bool.and_eq_true, decide_eq_true_eq] at h
  have h1 : '0'.toNat ≤ c.toNat := h.1
  have h2 : c.toNat ≤ '9'.toNat := h.2
  have h3 : '0'.toNat = 48 := by decide
  have h4 : '9'.toNat = 57 := by decide
  rw [h3] at h1
  rw [h4] at h2
  have : ∀ n, 48 ≤ n → n ≤ 57 → Char.ofNat n ∈ numberChars := by
    intro n a b
    have hn : n ∈ List.range' 48 10 := List.mem_range'_1.2 ⟨a, by omega⟩
    have hall : ∀ n ∈ List.range' 48 10, Char.ofNat n ∈ numberChars := by decide
    exact hall n hn
  have := this c.toNat h1 h2
  rwa [Char.ofNat_toNat] at this

theorem sign_numberChar {sg : Str} {neg : Bool} (h : Sign sg neg) : ∀ c ∈ sg, c ∈ numberChars := by
  cases h <;> simp <;> decide

theorem scanFloat_chars (w : Str) : ∃ pre, w = pre ++ (IStream.scanFloat w).2 ∧
    ∀ c ∈ pre, c ∈ numberChars := by
  obtain ⟨sg, hs, e⟩ := scan_sign w
  have ey := List.takeWhile_append_dropWhile (p := isDigit) (l := (IStream.scanSign w).2)
  obtain ⟨frac, ez, hf, hfrac⟩ := fracPart_spec ((IStream.scanSign w).2.dropWhile isDigit)
  have hfc : ∀ c ∈ frac, c ∈ numberChars := by
    rcases hfrac with ⟨rfl, _⟩ | rfl
    · simp
    · intro c hc
      rcases List.mem_cons.1 hc with rfl | hc
      · decide
      · exact digit_numberChar (hf c hc)
  have hic : ∀ c ∈ (IStream.scanSign w).2.takeWhile isDigit, c ∈ numberChars :=
    fun c hc => digit_numberChar (mem_takeWhile_imp hc)
  have hsc := sign_numberChar hs
  have hpre : ∀ c ∈ sg ++ ((IStream.scanSign w).2.takeWhile isDigit ++ frac), c ∈ numberChars := by
    intro c hc
    simp only [List.mem_append] at hc
    rcases hc with hc | hc | hc
    · exact hsc c hc
    · exact hic c hc
    · exact hfc c hc
  have hw : w = (sg ++ ((IStream.scanSign w).2.takeWhile isDigit ++ frac)) ++
      (IStream.fracPart ((IStream.scanSign w).2.dropWhile isDigit)).2 := by
    rw [List.append_assoc, List.append_assoc, ← ez, ey]
    exact e
  rw [IStream.scanFloat_eq]
  simp only
  split
  · exact ⟨_, hw, hpre⟩
  · generalize (IStream.fracPart ((IStream.scanSign w).2.dropWhile isDigit)).2 = x at hw
    cases x with
    | nil => exact ⟨_, hw, hpre⟩
    | cons c x =>
      by_cases hc : (c == 'e' || c == 'E') = true
      · simp only [IStream.expPart, hc, if_true]
        obtain ⟨sg', hs', e'⟩ := scan_sign x
        refine ⟨(sg ++ ((IStream.scanSign w).2.takeWhile isDigit ++ frac)) ++
          (c :: (sg' ++ (IStream.scanSign x).2.takeWhile isDigit)), ?_, ?_⟩
        · have e3 : sg' ++ (IStream.scanSign x).2.takeWhile isDigit ++
              (IStream.scanSign x).2.dropWhile isDigit = x := by
            rw [List.append_assoc, List.takeWhile_append_dropWhile, ← e']
          rw [List.append_assoc _ (c :: _), List.cons_append, e3]
          exact hw
        · intro d hd
          rcases List.mem_append.1 hd with hd | hd
          · exact hpre d hd
          · rcases List.mem_cons.1 hd with rfl | hd
            · simp only [Bool.or_eq_true, beq_iff_eq] at hc
              rcases hc with rfl | rfl <;> decide
            · rcases List.mem_append.1 hd with hd | hd
              · exact sign_numberChar hs' d hd
              · exact digit_numberChar (mem_takeWhile_imp hd)
      · simp only [IStream.expPart, hc]
        exact ⟨_, hw, hpre⟩

/-- C56, what holds: a text with a character that cannot belong to a number is rejected by every
numeric option. -/
theorem C56_garbage_partial (R : Rnd) (s : Str) (c : Char) (hc : c ∈ s) (hn : c ∉ numberChars) :
    (∀ old, ((OptVal.size old).parseOpt R s).1 = false) ∧
    (∀ old, ((OptVal.int32 old).parseOpt R s).1 = false) ∧
    (∀ old, ((OptVal.double old).parseOpt R s).1 = false) := by
  have hint : ∀ (sg ds : Str) (neg : Bool), s = sg ++ ds → Sign sg neg →
      (∀ c ∈ ds, isDigit c = true) → False := by
    intro sg ds neg e hs hd
    rw [e] at hc
    rcases List.mem_append.1 hc with hc | hc
    · exact hn (sign_numberChar hs c hc)
    · exact hn (digit_numberChar (hd c hc))
  refine ⟨?_, ?_, ?_⟩
  · intro old
    by_contra h
    rw [Bool.not_eq_false] at h
    have hty := parseOpt_sameType R (OptVal.size old) s
    rcases hp : (OptVal.size old).parseOpt R s with ⟨b, v⟩
    rw [hp] at h hty
    simp only at h hty
    subst h
    cases v with
    | size m =>
      obtain ⟨sg, neg, ds, e, hs, hd, _⟩ := (C56_size_partial R old m s).1 hp
      exact hint sg ds neg e hs hd
    | _ => exact hty
  · intro old
    by_contra h
    rw [Bool.not_eq_false] at h
    have hty := parseOpt_sameType R (OptVal.int32 old) s
    rcases hp : (OptVal.int32 old).parseOpt R s with ⟨b, v⟩
    rw [hp] at h hty
    simp only at h hty
    subst h
    cases v with
    | int32 m =>
      obtain ⟨sg, neg, ds, e, hs, hd, _⟩ := (C56_int_partial R old m s).1 hp
      exact hint sg ds neg e hs hd
    | _ => exact hty
  · intro old
    by_contra h
    rw [Bool.not_eq_false] at h
    have hnil : (IStream.scanFloat s).2 = [] := by
      simp only [parseOpt, parseOther, IStream.getFloat, IStream.sentry, IStream.ofStr,
        IStream.good, Bool.not_false, Bool.and_self, if_true, Bool.false_eq_true, if_false] at h
      cases hv : (IStream.scanFloat s).1.value? with
      | none => rw [hv] at h; simpa using h
      | some q =>
        rw [hv] at h
        simp only at h
        split at h
        · simpa using h
        · split at h
          · simpa using h
          · simpa using h
    obtain ⟨pre, e, hp⟩ := scanFloat_chars s
    rw [hnil, List.append_nil] at e
    rw [e] at hc
    exact hn (hp c hc)

/-- C56 is false: the empty text is accepted as 0 by every numeric option. -/
theorem C56_empty_refuted (R : Rnd) :
    (OptVal.size 10000).parseOpt R [] = (true, .size 0) ∧
    (OptVal.int32 7).parseOpt R [] = (true, .int32 0) ∧
    (OptVal.double 7).parseOpt R [] = (true, .double 0) := ⟨rfl, rfl, rfl⟩

/-- C56 is false: numbers out of range are accepted, with another value. -/
theorem C56_range_refuted : ∃ m m' : Nat, ∃ i : Int,
    (OptVal.size 0).parseOpt Rnd.exact "-1".toList = (true, .size m) ∧ m = 2 ^ 64 - 1 ∧
    (OptVal.size 0).parseOpt Rnd.exact "18446744073709551616".toList = (true, .size m') ∧
      m' = 2 ^ 64 - 1 ∧
    (OptVal.int32 0).parseOpt Rnd.exact "-2147483649".toList = (true, .int32 i) ∧ i = -2147483648 := by
  refine ⟨2 ^ 64 - 1, 2 ^ 64 - 1, -2147483648, ?_, rfl, ?_, rfl, ?_, rfl⟩
  · rw [C56_size_partial]
    exact ⟨['-'], true, ['1'], rfl, .minus, by decide, by decide +kernel⟩
  · rw [C56_size_partial]
    exact ⟨[], false, _, rfl, .none, by decide, by decide +kernel⟩
  · rw [C56_int_partial]
    exact ⟨['-'], true, "2147483649".toList, rfl, .minus, by decide, by decide +kernel⟩

/-- C56 is false: an incomplete number is accepted as 0. -/
theorem C56_incomplete_refuted (R : Rnd) :
    (OptVal.double 7).parseOpt R "5e".toList = (true, .double 0) ∧
    (OptVal.double 7).parseOpt R "-".toList = (true, .double 0) ∧
    (OptVal.size 7).parseOpt R "+".toList = (true, .size 0) := ⟨rfl, rfl, rfl⟩

/-- Cases of the theorems above. -/
example : Denotes "10000".toList 10000 ∧ DenotesReal "5e-2".toList (1 / 20) ∧
    (' ' ∈ "1 ".toList ∧ ' ' ∉ numberChars) :=
  ⟨⟨[], false, "10000".toList, rfl, .none, ⟨by decide, by decide⟩, by decide⟩,
   ⟨[], false, ['5'], [], [], "e-2".toList, -2, rfl, .none, by decide, by decide,
    Or.inl ⟨rfl, rfl⟩, by decide, Or.inr ⟨'e', "-2".toList, rfl, Or.inl rfl,
      ['-'], true, ['2'], rfl, .minus, ⟨by decide, by decide⟩, by decide⟩, by
        simp [numeral]; norm_num⟩, by decide, by decide⟩

/-! ## C57 -/

/-- C57: the spellings of boolean options. -/
theorem C57_option (R : Rnd) (old : Bool) (s : Str) :
    (((OptVal.bool old).parseOpt R s = (true, .bool true)) ↔
      s = "".toList ∨ s = "true".toList ∨ s = "1".toList) ∧
    (((OptVal.bool old).parseOpt R s = (true, .bool false)) ↔
      s = "false".toList ∨ s = "0".toList) ∧
    (((OptVal.bool old).parseOpt R s).1 = false →
      (OptVal.bool old).parseOpt R s = (false, .bool old)) := by
  simp only [parseOpt, parseOptBool]
  by_cases h1 : s = "".toList ∨ s = "true".toList ∨ s = "1".toList
  · rw [if_pos h1]
    refine ⟨⟨fun _ => h1, fun _ => rfl⟩, ⟨fun h => ?_, fun h => ?_⟩, fun h => absurd h (by simp)⟩
    · injection h with _ h; injection h with h; cases h
    · rcases h1 with rfl | rfl | rfl <;> rcases h with h | h <;> exact absurd h (by decide)
  · rw [if_neg h1]
    by_cases h2 : s = "false".toList ∨ s = "0".toList
    · rw [if_pos h2]
      refine ⟨⟨fun h => ?_, fun h => absurd h h1⟩, ⟨fun _ => h2, fun _ => rfl⟩,
        fun h => absurd h (by simp)⟩
      injection h with _ h; injection h with h; cases h
    · rw [if_neg h2]
      refine ⟨⟨fun h => ?_, fun h => absurd h h1⟩, ⟨fun h => ?_, fun h => absurd h h2⟩, fun _ => rfl⟩
      · injection h with h _; cases h
      · injection h with h _; cases h

/-- C57: the spellings of boolean positional arguments. -/
theorem C57_argument (R : Rnd) (old : Bool) (s : Str) :
    (((OptVal.bool old).parseArg R s = (true, .bool true)) ↔ s = "true".toList ∨ s = "1".toList) ∧
    (((OptVal.bool old).parseArg R s = (true, .bool false)) ↔
      s = "false".toList ∨ s = "0".toList) ∧
    (((OptVal.bool old).parseArg R s).1 = false →
      (OptVal.bool old).parseArg R s = (false, .bool old)) := by
  simp only [parseArg, parseArgBool]
  by_cases h1 : s = "true".toList ∨ s = "1".toList
  · rw [if_pos h1]
    refine ⟨⟨fun _ => h1, fun _ => rfl⟩, ⟨fun h => ?_, fun h => ?_⟩, fun h => absurd h (by simp)⟩
    · injection h with _ h; injection h with h; cases h
    · rcases h1 with rfl | rfl <;> rcases h with h | h <;> exact absurd h (by decide)
  · rw [if_neg h1]
    by_cases h2 : s = "false".toList ∨ s = "0".toList
    · rw [if_pos h2]
      refine ⟨⟨fun h => ?_, fun h => absurd h h1⟩, ⟨fun _ => h2, fun _ => rfl⟩,
        fun h => absurd h (by simp)⟩
      injection h with _ h; injection h with h; cases h
    · rw [if_neg h2]
      refine ⟨⟨fun h => ?_, fun h => absurd h h1⟩, ⟨fun h => ?_, fun h => absurd h h2⟩, fun _ => rfl⟩
      · injection h with h _; cases h
      · injection h with h _; cases h

/-- C57: string options and arguments take every text that a command line can contain (no NUL). -/
theorem C57_string (R : Rnd) (old s : Str) (h : '\x00' ∉ s) :
    (OptVal.str old).parseOpt R s = (true, .str s) ∧
    (OptVal.str old).parseArg R s = (true, .str s) := by
  have h1 : s.contains '\x00' = false := by simpa using h
  have h2 : s.takeWhile (· != '\x00') = s := takeWhile_self fun c hc => by
    have : c ≠ '\x00' := fun e => h (e ▸ hc)
    simpa using this
  simp only [parseOpt, parseArg, parseOther, parseStr, h1, h2, Bool.not_false, and_self]

example : '\x00' ∉ " a b\n".toList := by decide

end Kws
