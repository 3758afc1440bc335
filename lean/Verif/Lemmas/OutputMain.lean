import Verif.Lemmas.Output

/-!
# Lemmas about traced runs: the command line
-/

namespace Kws

open Spec Traced

namespace Parser

/-- The message of the option loop: there is one if and only if it gives up. -/
theorem optionsMessage_spec (R : Rnd) (opts : List (Str × OptVal)) (help : Bool)
    (argv : List Str) :
    match parseOptions R opts help argv with
    | .rejected _ => ∃ s, optionsMessage R opts argv = some s ∧ IsErrorMessage s
    | .done _ _ _ => optionsMessage R opts argv = none := by
  fun_induction parseOptions R opts help argv <;> unfold optionsMessage <;>
    simp_all [IsErrorMessage, endl]

/-- The message of `Parse`: there is one if and only if it returns false. -/
theorem message_spec (R : Rnd) (p : Parser) (argv : List Str) :
    match (p.parse R argv).1 with
    | .rejected => ∃ s, p.message R argv = some s ∧ IsErrorMessage s
    | _ => p.message R argv = none := by
  have h := optionsMessage_spec R p.opts false argv
  unfold parse message
  cases ho : parseOptions R p.opts false argv with
  | rejected o => rw [ho] at h; exact h
  | done opts help rest =>
    cases help with
    | true => rfl
    | false =>
      dsimp only
      obtain ⟨ok, args, n, rest'⟩ := parseArgs R p.args rest
      cases ok with
      | false => exact ⟨_, rfl, by simp [IsErrorMessage, endl]⟩
      | true =>
        dsimp only
        by_cases hn : n < p.args.length
        · rw [if_pos hn, if_pos hn]
          exact ⟨_, rfl, by simp [IsErrorMessage, endl]⟩
        · rw [if_neg hn, if_neg hn]
          obtain ⟨ok, oargs, k, rest''⟩ := parseArgs R p.optArgs rest'
          cases ok with
          | false => exact ⟨_, rfl, by simp [IsErrorMessage, endl]⟩
          | true =>
            dsimp only
            by_cases hr : rest''.isEmpty = true
            · rw [if_pos hr, if_pos hr]
            · rw [if_neg hr, if_neg hr]
              exact ⟨_, rfl, by simp [IsErrorMessage, endl]⟩

end Parser

theorem ParserTexts.help_head (t : ParserTexts) (p : Parser) : ∃ rest, t.help p = 'U' :: rest := by
  refine ⟨(t.help p).drop 1, ?_⟩
  unfold help usage
  simp only [endl, List.append_assoc]
  rfl

theorem help_quiet (t : ParserTexts) (p : Parser) : ¬ IsErrorMessage (endl (t.help p)) := by
  obtain ⟨rest, h⟩ := t.help_head p
  rw [h]
  simp [IsErrorMessage, endl]

section
variable {μ σ Q L G : Type} [DecidableEq Q] [Cmp Q] [Cmp L] [LawfulCmp Q] [LawfulCmp L]

/-- Everything about what the program writes, in terms of its outcome. -/
structure Writes (sh : Event Q L → Str) (o : ToolOptions) (t : Traced Nat)
    (x : Cpp (RunResult Q L)) : Prop where
  code : t.result = x.map exitCode
  done : ∀ r, x = .ok (.done r) → outsOf t.effects = metricTexts r ∧
    filesOf t.effects = dumpFiles sh o r ++ curveFiles o r ∧
    ∀ s ∈ errsOf t.effects, ¬ IsErrorMessage s
  failed : x = .ok .failed → outsOf t.effects = [] ∧ filesOf t.effects = [] ∧
    ∃ s ∈ errsOf t.effects, IsErrorMessage s
  helped : x = .ok .helped → outsOf t.effects = [] ∧ filesOf t.effects = [] ∧
    ∀ s ∈ errsOf t.effects, ¬ IsErrorMessage s
  aborted : ∀ f, x = .error f → FirstMetrics (outsOf t.effects) ∧
    ∀ s ∈ errsOf t.effects, ¬ IsErrorMessage s
  curves : ∀ r, x = .ok (.done r) → curvesOf t.effects = curveFiles o r

omit [DecidableEq Q] [Cmp Q] [Cmp L] [LawfulCmp Q] [LawfulCmp L] in
theorem Agrees.writes {sh : Event Q L → Str} {o : ToolOptions} {t : Traced Nat}
    {x : Cpp (RunResult Q L)} (h : Agrees sh o t x) : Writes sh o t x :=
  ⟨h.code, h.done, h.failed, fun hx => absurd hx h.helped, h.aborted, h.curves⟩

/-- The options of a command line. -/
def optionsOf (R : Rnd) (argv : List Str) : ToolOptions :=
  ToolOptions.ofParser ((toolParser R).parse R argv).2

theorem traceMain_writes (R : Rnd) (S : StdSort) (rng : Rng G) (kit : ToolKit μ σ Q L)
    (texts : ToolTexts Q L) (w : World) (prog : Str) (argv : List Str) :
    Writes texts.showEvent (optionsOf R argv) (traceMain R S rng kit texts w prog argv)
      (toolMain R S rng kit w argv) := by
  have hm := Parser.message_spec R (toolParser R) argv
  unfold traceMain toolMain optionsOf
  cases hp : (toolParser R).parse R argv with
  | mk out p =>
  rw [hp] at hm
  cases out with
  | accepted => exact (traceMainWith_agrees ..).writes
  | exitHelp =>
    refine ⟨rfl, fun r h => (by cases h), fun h => (by cases h), fun _ => ⟨rfl, rfl, ?_⟩,
      fun f h => (by cases h), fun r h => (by cases h)⟩
    intro s hs
    rcases List.mem_singleton.1 hs with rfl
    exact help_quiet _ _
  | rejected =>
    obtain ⟨s, hs, he⟩ := hm
    refine ⟨rfl, fun r h => (by cases h), fun _ => ⟨rfl, rfl, s, ?_, he⟩, fun h => (by cases h),
      fun f h => (by cases h), fun r h => (by cases h)⟩
    show s ∈ ((toolParser R).message R argv).getD [] :: _
    rw [hs]
    exact List.mem_cons_self

end

end Kws
