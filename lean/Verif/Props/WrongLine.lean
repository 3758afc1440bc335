import Verif.Lemmas.WrongLine
import Verif.Lemmas.OutputMain
import Verif.Props.Cmd

/-!
# C53 and C81: wrong command lines, and what is said about them

The wrong command lines and the messages about them are specified in `Spec/WrongLine.lean`.
-/

namespace Kws
open Spec Parser OptVal

/-- C53: a command line is rejected if and only if it is wrong: after valid options comes one that is
not valid, or all options are valid and the positional arguments are not. -/
theorem C53_rejects (R : Rnd) (p : Parser) (hp : WellRegistered p) (argv : List Str) :
    (p.parse R argv).1 = .rejected ↔ ∃ s, WrongLine R p argv s := by
  constructor
  · intro h
    obtain ⟨items, rest, e, hok, ⟨s, hbad⟩ | ⟨pos, ht⟩⟩ := line_cases R p.opts argv.length argv le_rfl
    · exact ⟨s, .option e hok hbad⟩
    by_cases hh : ∃ it ∈ items, it.word = "--help".toList
    · have := (C52_help R p hp argv).2 ⟨items, rest, pos, e, hok, ht, hh⟩
      rw [this] at h
      cases h
    · push Not at hh
      rcases arguments_cases R p.args p.optArgs pos with ⟨s, hb⟩ | ⟨h1, h2, h3, h4⟩
      · exact ⟨s, .arguments e hok ht hh hb⟩
      · have := (C52_accepts R p _ hp argv).2
          ⟨items, rest, pos, e, hok, ht, hh, h1, h2, h3, h4, rfl⟩
        rw [this] at h
        cases h
  · rintro ⟨s, h⟩
    exact (wrongLine_rejected R p hp argv s h).1

/-- C53: every command line is well formed, asks for help or is wrong, and only one of these. -/
theorem C53_trichotomy (R : Rnd) (p : Parser) (hp : WellRegistered p) (argv : List Str) :
    (WellFormedLine R p argv ∧ ¬ AsksHelp R p argv ∧ ¬ ∃ s, WrongLine R p argv s) ∨
    (¬ WellFormedLine R p argv ∧ AsksHelp R p argv ∧ ¬ ∃ s, WrongLine R p argv s) ∨
    (¬ WellFormedLine R p argv ∧ ¬ AsksHelp R p argv ∧ ∃ s, WrongLine R p argv s) := by
  have h1 : WellFormedLine R p argv ↔ (p.parse R argv).1 = .accepted := by
    constructor
    · rintro ⟨items, tail, pos, a, b, c, d, e, f, g, h⟩
      rw [(C52_accepts R p _ hp argv).2 ⟨items, tail, pos, a, b, c, d, e, f, g, h, rfl⟩]
    · intro h
      obtain ⟨items, tail, pos, a, b, c, d, e, f, g, h, _⟩ :=
        (C52_accepts R p (p.parse R argv).2 hp argv).1 (Prod.ext h rfl)
      exact ⟨items, tail, pos, a, b, c, d, e, f, g, h⟩
  have h2 : AsksHelp R p argv ↔ (p.parse R argv).1 = .exitHelp := (C52_help R p hp argv).symm
  have h3 := C53_rejects R p hp argv
  rw [h1, h2, ← h3]
  cases (p.parse R argv).1 <;> simp

/-- C81: the message about a command line is the one specified, and there is no message about other
command lines. -/
theorem C81_message (R : Rnd) (p : Parser) (hp : WellRegistered p) (argv : List Str) (s : Str) :
    p.message R argv = some (s ++ ['\n']) ↔ WrongLine R p argv s := by
  constructor
  · intro h
    have hm := message_spec R p argv
    have hr : (p.parse R argv).1 = .rejected := by
      revert hm
      cases (p.parse R argv).1 <;> simp [h]
    obtain ⟨s', hs'⟩ := (C53_rejects R p hp argv).1 hr
    have := (wrongLine_rejected R p hp argv s' hs').2
    rw [h, Option.some.injEq] at this
    have e : s = s' := List.append_cancel_right this
    rw [e]
    exact hs'
  · intro h
    exact (wrongLine_rejected R p hp argv s h).2

/-- C81: there is at most one message. -/
theorem C81_unique (R : Rnd) (p : Parser) (hp : WellRegistered p) (argv : List Str) (s s' : Str)
    (h : WrongLine R p argv s) (h' : WrongLine R p argv s') : s = s' := by
  have h1 := (C81_message R p hp argv s).2 h
  rw [(C81_message R p hp argv s').2 h', Option.some.injEq] at h1
  exact (List.append_cancel_right h1).symm

section
variable {μ σ Q L G : Type} [DecidableEq Q] [Cmp Q] [Cmp L]

/-- C81: run with a wrong command line, a tool writes the message, an empty line and the help to the
standard error, nothing else, and exits with status 1. -/
theorem C81_wrong (R : Rnd) (S : StdSort) (rng : Rng G) (kit : ToolKit μ σ Q L)
    (texts : ToolTexts Q L) (w : World) (prog : Str) (argv : List Str) (s : Str)
    (h : WrongLine R (toolParser R) argv s) :
    ∃ help, errsOf (traceMain R S rng kit texts w prog argv).effects =
        [s ++ "\n".toList, "\n".toList ++ help ++ "\n".toList] ∧
      ("Usage: ".toList ++ prog) <+: help ∧
      outsOf (traceMain R S rng kit texts w prog argv).effects = [] ∧
      filesOf (traceMain R S rng kit texts w prog argv).effects = [] ∧
      (traceMain R S rng kit texts w prog argv).result = .ok 1 := by
  obtain ⟨h1, h2⟩ := wrongLine_rejected R _ (C54_tool R) argv s h
  rcases hp : (toolParser R).parse R argv with ⟨o, p⟩
  rw [hp] at h1
  simp only at h1
  subst h1
  have e : traceMain R S rng kit texts w prog argv =
      ⟨[.err (endl s), .err (endl [] ++ endl ((toolParserTexts prog texts.description).help p))],
        .ok 1⟩ := by
    unfold traceMain
    rw [hp, h2]
    rfl
  rw [e]
  refine ⟨(toolParserTexts prog texts.description).help p, ?_, ?_, rfl, rfl, rfl⟩
  · simp [errsOf, endl]
  · unfold ParserTexts.help ParserTexts.usage endl
    simp only [List.append_assoc, toolParserTexts]
    exact List.prefix_append_right_inj _ |>.2 (List.prefix_append _ _)

/-- C81: run with a command line that asks for help, a tool writes the help to the standard error,
nothing else, and exits with status 0. -/
theorem C81_help (R : Rnd) (S : StdSort) (rng : Rng G) (kit : ToolKit μ σ Q L)
    (texts : ToolTexts Q L) (w : World) (prog : Str) (argv : List Str)
    (h : AsksHelp R (toolParser R) argv) :
    ∃ help, errsOf (traceMain R S rng kit texts w prog argv).effects = [help ++ "\n".toList] ∧
      ("Usage: ".toList ++ prog) <+: help ∧
      outsOf (traceMain R S rng kit texts w prog argv).effects = [] ∧
      filesOf (traceMain R S rng kit texts w prog argv).effects = [] ∧
      (traceMain R S rng kit texts w prog argv).result = .ok 0 := by
  have h1 := (C52_help R _ (C54_tool R) argv).2 h
  rcases hp : (toolParser R).parse R argv with ⟨o, p⟩
  rw [hp] at h1
  simp only at h1
  subst h1
  have e : traceMain R S rng kit texts w prog argv =
      ⟨[.err (endl ((toolParserTexts prog texts.description).help p))], .ok 0⟩ := by
    unfold traceMain
    rw [hp]
    rfl
  rw [e]
  refine ⟨(toolParserTexts prog texts.description).help p, ?_, ?_, rfl, rfl, rfl⟩
  · simp [errsOf, endl]
  · unfold ParserTexts.help ParserTexts.usage endl
    simp only [List.append_assoc, toolParserTexts]
    exact List.prefix_append_right_inj _ |>.2 (List.prefix_append _ _)

end

/-- Case: the third option is unknown. -/
example : WrongLine Rnd.exact cmdExample (["--flag", "false", "--text", "-x", "--txt", "a"].map
    String.toList) "ERROR: Unknown option '--txt'".toList := by
  refine .option (items := [⟨"--flag".toList, some "false".toList⟩, ⟨"--text".toList, some "-x".toList⟩])
    (rest := ["--txt".toList, "a".toList]) rfl ⟨?_, ?_, trivial⟩ ?_
  · exact Or.inr ⟨"flag".toList, .bool true, ⟨⟨'-', rfl⟩, by decide, by decide⟩, rfl,
      Or.inr (Or.inr ⟨rfl, _, rfl, by decide, rfl⟩)⟩
  · exact Or.inr ⟨"text".toList, .str [], ⟨⟨'-', rfl⟩, by decide, by decide⟩, rfl,
      Or.inl ⟨rfl, _, rfl, rfl⟩⟩
  · exact .unknown (name := "txt".toList) ⟨⟨'-', rfl⟩, by decide, by decide⟩ (by decide)

/-- Case: one of three positional arguments is too many. -/
example : WrongLine Rnd.exact cmdExample (["a", "b", "c"].map String.toList)
    "ERROR: Expecting at most 2 positional cmd, but 3 were given".toList := by
  refine .arguments (items := []) (tail := ["a", "b", "c"].map String.toList)
    (pos := ["a", "b", "c"].map String.toList) rfl trivial (Or.inr ⟨rfl, ?_⟩) (by simp) ?_
  · intro w hw
    simp at hw
    subst hw
    rintro ⟨h, _⟩
    exact absurd h (by decide)
  · refine .tooMany ?_ ?_ (by decide) <;> (unfold ArgsOk; decide)

/-- Case: a tool is run with nothing but an option without its value. -/
example : WrongLine Rnd.ieee (toolParser Rnd.ieee) ["--sort".toList]
    "ERROR: Invalid value for option '--sort'".toList := by
  refine .option (items := []) (rest := ["--sort".toList]) rfl trivial ?_
  exact .noValue (name := "sort".toList) (v := .str "desc".toList) ⟨⟨'-', rfl⟩, by decide, by decide⟩
    rfl rfl

end Kws
