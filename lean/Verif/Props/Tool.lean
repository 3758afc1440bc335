import Verif.Lemmas.Total
import Verif.Props.Cmd

/-!
# C62: how a run ends

`ValidInputs` (Spec/Tool.lean): the files exist and have the right format. `Complete o r`: the report
has exactly what was asked for. `Feasible R w o n`: with confidence intervals, sensible parameters;
with curves, writable files and not too many events. `.ok .failed` is exit status 1 without a report,
`.ok (.done r)` is exit status 0 with the report `r`, and `.error f` is an uncaught exception or
undefined behaviour.
-/

namespace Kws
open Spec

section
variable {μ σ Q L G : Type} [DecidableEq Q] [Cmp Q] [Cmp L]

/-- C62, command lines: a command line that is neither well formed nor asks for help ends with status
1, and one that asks for help ends with status 0 without a report. -/
theorem C62_command_line (R : Rnd) (S : StdSort) (rng : Rng G) (kit : ToolKit μ σ Q L) (w : World)
    (argv : List Str) :
    (¬ WellFormedLine R (toolParser R) argv → ¬ AsksHelp R (toolParser R) argv →
      toolMain R S rng kit w argv = .ok .failed) ∧
    (AsksHelp R (toolParser R) argv → toolMain R S rng kit w argv = .ok .helped) := by
  have h1 := C52_help R (toolParser R) (C54_tool R) argv
  unfold toolMain
  cases h : (toolParser R).parse R argv with
  | mk r p =>
    rw [h] at h1
    constructor
    · intro hw hh
      cases r with
      | rejected => rfl
      | exitHelp => exact absurd (h1.1 rfl) hh
      | accepted =>
        obtain ⟨items, tail, pos, a1, a2, a3, a4, a5, a6, a7, a8, _⟩ :=
          (C52_accepts R (toolParser R) p (C54_tool R) argv).1 h
        exact absurd ⟨items, tail, pos, a1, a2, a3, a4, a5, a6, a7, a8⟩ hw
    · intro hh
      have : r = .exitHelp := h1.2 hh
      subst this
      rfl

end

/-- C62 for the box tool, what holds: a feasible run ends with a complete report if the inputs are
valid and the matches, if asked for, can be written; otherwise it ends with status 1. -/
theorem C62_box_partial {G : Type} (R : Rnd) (S : StdSort) (rng : Rng G) (w : World) (o : ToolOptions)
    (hf : ∀ t t', w.file o.refFilename = some t → hypText w o = some t' →
      Feasible R w o ((lines t).length + (lines t').length)) :
    let good := ValidInputs BoxEventText (ScoredText R BoxEventText) w o ∧
      (o.dumpMatches = [] ∨ w.writable o.dumpMatches = true)
    (good → ∃ r, mainWith R S rng (icdarKit R S) w o = .ok (.done r) ∧ Complete o r) ∧
    (¬ good → mainWith R S rng (icdarKit R S) w o = .ok .failed) :=
  (icdar_plain R S).main_total (icdar_safe R S) S rng w o
    (fun t t' h1 h2 => (hf t t' h1 h2).assessable)

/-! ## A run -/

/-- The files of the following runs: two references, three hypotheses. -/
def runExample : World where
  file f := if f = "ref".toList then some "a d 0 0 2 2\nb d 0 0 2 2\n".toList else none
  stdin := "b d 0 0 2 2 0.5\n\n# x\na d 9 9 2 2 1.5\n".toList
  writable _ := false

theorem runExample_file :
    runExample.file "ref".toList = some "a d 0 0 2 2\nb d 0 0 2 2\n".toList := by
  unfold runExample
  dsimp only
  rw [if_pos rfl]

theorem runExample_refs (R : Rnd) :
    ValidFile BoxEventText "a d 0 0 2 2\nb d 0 0 2 2\n".toList :=
  (Format.boxRefs (R := R)).valid_of_ok _ (by decide +kernel)

theorem runExample_hyps :
    ValidFile (ScoredText Rnd.ieee BoxEventText)
      "b d 0 0 2 2 0.5\n\n# x\na d 9 9 2 2 1.5\n".toList :=
  (Format.boxHyps (R := Rnd.ieee)).valid_of_ok _ (by decide +kernel)

theorem runExample_valid (o : ToolOptions) (h1 : o.refFilename = "ref".toList)
    (h2 : o.hypFilename = []) (h3 : o.querySet = []) (h4 : o.queryGroups = []) :
    ValidInputs BoxEventText (ScoredText Rnd.ieee BoxEventText) runExample o := by
  refine ⟨by rw [h1]; decide, ⟨_, by rw [h1]; exact runExample_file, runExample_refs Rnd.ieee⟩,
    ⟨_, if_pos h2, runExample_hyps⟩, fun h => absurd h3 h, fun h => absurd h4 h⟩

/-- A run with all four confidence intervals, in IEEE arithmetic, that ends with a report. -/
example {G : Type} (S : StdSort) (rng : Rng G) :
    let o : ToolOptions :=
      { refFilename := "ref".toList
        ciGap := true
        ciMap := true
        ciGndcg := true
        ciMndcg := true
        alpha := Rnd.ieee.f64 (5 / 100) }
    ∃ r, mainWith Rnd.ieee S rng (icdarKit Rnd.ieee S) runExample o = .ok (.done r) ∧
      r.gAP.ci.isSome = true ∧ r.dump = none := by
  intro o
  obtain ⟨r, h1, h2⟩ := (C62_box_partial Rnd.ieee S rng runExample o (fun t t' _ _ =>
    ⟨fun _ => ⟨by decide, Or.inr ⟨ieee_faithful, by decide, by decide +kernel, by decide +kernel⟩⟩,
      fun h => absurd rfl h, fun h => absurd rfl h, fun h => by simp [o] at h⟩)).1
    ⟨runExample_valid o rfl rfl rfl rfl, Or.inl rfl⟩
  refine ⟨r, h1, h2.gap, ?_⟩
  have := h2.dump
  cases h : r.dump with
  | none => rfl
  | some x => rw [h] at this; exact absurd rfl (this.1 rfl)

/-- C62 is false: with valid inputs, a file for the curve that cannot be written ends the run with an
uncaught exception. -/
theorem C62_curve_refuted {G : Type} (S : StdSort) (rng : Rng G) : ∃ (w : World) (o : ToolOptions),
    ValidInputs BoxEventText (ScoredText Rnd.ieee BoxEventText) w o ∧ o.outputGrp ≠ [] ∧
    w.writable o.outputGrp = false ∧
    mainWith Rnd.ieee S rng (icdarKit Rnd.ieee S) w o = .error .ioFailure := by
  set o : ToolOptions :=
    { refFilename := "ref".toList
      outputGrp := "curve".toList
      alpha := Rnd.ieee.f64 (5 / 100) } with ho
  have hn := (icdar_plain Rnd.ieee S).finite _ runExample_hyps
  refine ⟨runExample, o, runExample_valid o rfl rfl rfl rfl, by decide, rfl, ?_⟩
  rw [(icdar_plain Rnd.ieee S).main_good S rng runExample o (by decide) _ _ runExample_file (if_pos rfl)
    (runExample_refs Rnd.ieee) runExample_hyps]
  have e : readQueryMap (icdarKit Rnd.ieee S).mapQuery runExample o () = .ok (some []) := by
    unfold readQueryMap
    rw [if_neg (fun h => h.1 rfl), if_neg (fun h => h rfl)]
  rw [e]
  refine (icdar_safe Rnd.ieee S).matchAndAssess_curve Rnd.ieee S rng runExample o [] _ _ hn
    ieee_precise ?_ (fun h => by simp [ho] at h) rfl (by decide) rfl
  have h1 := List.length_filterMap_le (lineEvent extractBoxEvent)
    (lines "a d 0 0 2 2\nb d 0 0 2 2\n".toList)
  have h2 := List.length_filterMap_le (lineEvent (extractScored Rnd.ieee extractBoxEvent))
    (lines "b d 0 0 2 2 0.5\n\n# x\na d 9 9 2 2 1.5\n".toList)
  have h3 : (lines "a d 0 0 2 2\nb d 0 0 2 2\n".toList).length = 2 := by decide +kernel
  have h4 : (lines "b d 0 0 2 2 0.5\n\n# x\na d 9 9 2 2 1.5\n".toList).length = 4 := by decide +kernel
  rw [h3] at h1
  rw [h4] at h2
  have : (eventsIn extractBoxEvent "a d 0 0 2 2\nb d 0 0 2 2\n".toList).length +
      (eventsIn (extractScored Rnd.ieee extractBoxEvent)
        "b d 0 0 2 2 0.5\n\n# x\na d 9 9 2 2 1.5\n".toList).length ≤ 2 + 4 := Nat.add_le_add h1 h2
  refine this.trans ?_
  rw [if_pos rfl]
  norm_num

/-- C62 is false: with valid inputs, zero bootstrap samples end the run in an out-of-range access. -/
theorem C62_samples_refuted {G : Type} (S : StdSort) (rng : Rng G) : ∃ (w : World) (o : ToolOptions),
    ValidInputs BoxEventText (ScoredText Rnd.ieee BoxEventText) w o ∧ o.ciGap = true ∧
    o.samples = 0 ∧ ∀ r, mainWith Rnd.ieee S rng (icdarKit Rnd.ieee S) w o ≠ .ok r := by
  set o : ToolOptions :=
    { refFilename := "ref".toList
      ciGap := true
      samples := 0
      alpha := Rnd.ieee.f64 (5 / 100) } with ho
  have hn := (icdar_plain Rnd.ieee S).finite _ runExample_hyps
  refine ⟨runExample, o, runExample_valid o rfl rfl rfl rfl, rfl, rfl, ?_⟩
  intro r
  rw [(icdar_plain Rnd.ieee S).main_good S rng runExample o (by decide) _ _ runExample_file (if_pos rfl)
    (runExample_refs Rnd.ieee) runExample_hyps]
  have e : readQueryMap (icdarKit Rnd.ieee S).mapQuery runExample o () = .ok (some []) := by
    unfold readQueryMap
    rw [if_neg (fun h => h.1 rfl), if_neg (fun h => h rfl)]
  rw [e]
  obtain ⟨ms, rep, groups, _, _, _, _, _, _, e2⟩ :=
    (icdar_safe Rnd.ieee S).matchAndAssess_reduces Rnd.ieee S rng runExample o []
      (eventsIn extractBoxEvent "a d 0 0 2 2\nb d 0 0 2 2\n".toList) _ hn
  change matchAndAssess Rnd.ieee S rng (icdarKit Rnd.ieee S) runExample o []
    (eventsIn extractBoxEvent "a d 0 0 2 2\nb d 0 0 2 2\n".toList)
    (eventsIn (extractScored Rnd.ieee extractBoxEvent)
      "b d 0 0 2 2 0.5\n\n# x\na d 9 9 2 2 1.5\n".toList) ≠ _
  rw [e2, if_neg (fun h => h.1 rfl)]
  cases ha : assess Rnd.ieee S rng runExample o ms groups
    (if o.dumpMatches = [] then none else some (ms, rep)) with
  | error f => intro h; cases h
  | ok rp =>
    exfalso
    obtain ⟨a1, _⟩ := assess_ok _ _ _ _ _ _ _ _ _ ha
    unfold globalStatistic at a1
    simp only [ho, if_true, bind, Except.bind] at a1
    cases hp : percentileCIGrouped Rnd.ieee S Rnd.ieee.f64 rng groups 0 (Rnd.ieee.f64 (5 / 100)) 0x12345
      (fun sample => globalAPGrouped Rnd.ieee S sample true true true true) with
    | error f => rw [hp] at a1; cases a1
    | ok v =>
      obtain ⟨v, lo, hi⟩ := v
      obtain ⟨_, li, ui, _, _, h3, _⟩ := percentileCI_inv _ _ _ _ _ _ _ _ _ _ _ _ hp
      omega

end Kws
