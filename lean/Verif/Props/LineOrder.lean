import Verif.Lemmas.Main
import Verif.Props.Matcher

/-!
# C60: the order of lines does not matter (box tool)

`Reordered o w w'` (Spec/Tool.lean): the worlds differ only in the order and repetition of the lines
of the references, and in the order of the lines of the hypotheses.
-/

namespace Kws
open Spec

section
variable {G : Type}

/-- C60: with `--sort=desc` (the default) or `--sort=asc` the result of a run of the box tool (every
metric, interval, curve and dump, or the failure) is the same. -/
theorem C60_line_order (R : Rnd) (S : StdSort) (rng : Rng G) (w w' : World) (o : ToolOptions)
    (hw : Reordered o w w') (hs : o.sort = "desc".toList ∨ o.sort = "asc".toList) :
    mainWith R S rng (icdarKit R S) w o = mainWith R S rng (icdarKit R S) w' o :=
  (icdar_plain R S).main_reordered S rng
    (fun refs refs' l h => C19_refs_as_set_box S S DocEventSet.new DocEventSet.new (iohScorer R (1 / 2))
      refs refs' l h) w w' o hw (by rcases hs with hs | hs <;> simp [hs])

/-- C60: the order and repetition of the lines of the references never matters. -/
theorem C60_reference_order (R : Rnd) (S : StdSort) (rng : Rng G) (w w' : World) (o : ToolOptions)
    (hw : Reordered o w w') (hh : hypText w o = hypText w' o) :
    mainWith R S rng (icdarKit R S) w o = mainWith R S rng (icdarKit R S) w' o :=
  (icdar_plain R S).main_reordered S rng
    (fun refs refs' l h => C19_refs_as_set_box S S DocEventSet.new DocEventSet.new (iohScorer R (1 / 2))
      refs refs' l h) w w' o hw (Or.inr (Or.inr hh))

/-- C60 for the command line: the same holds for any command line (also if it is rejected). -/
theorem C60_command_line (R : Rnd) (S : StdSort) (rng : Rng G) (w w' : World) (argv : List Str)
    (hw : ∀ p, (toolParser R).parse R argv = (.accepted, p) →
      Reordered (ToolOptions.ofParser p) w w' ∧
      ((ToolOptions.ofParser p).sort = "desc".toList ∨ (ToolOptions.ofParser p).sort = "asc".toList)) :
    toolMain R S rng (icdarKit R S) w argv = toolMain R S rng (icdarKit R S) w' argv := by
  unfold toolMain
  cases h : (toolParser R).parse R argv with
  | mk r p =>
    cases r with
    | rejected => rfl
    | exitHelp => rfl
    | accepted =>
      obtain ⟨h1, h2⟩ := hw p h
      exact C60_line_order R S rng w w' _ h1 h2

end

/-- Two worlds with different lines: a repeated and moved reference, exchanged hypotheses. -/
example :
    let w : World :=
      { file := fun f => if f = "ref".toList then some "a d 0 0 2 2\nb d 0 0 2 2\n".toList else none
        stdin := "b d 0 0 2 2 0.5\nc d 0 0 2 2 -1\n".toList
        writable := fun _ => false }
    let w' : World :=
      { file := fun f => if f = "ref".toList then
          some "b d 0 0 2 2\na d 0 0 2 2\nb d 0 0 2 2\n".toList else none
        stdin := "c d 0 0 2 2 -1\nb d 0 0 2 2 0.5\n".toList
        writable := fun _ => false }
    let o : ToolOptions :=
      { refFilename := "ref".toList
        alpha := 1 / 20 }
    Reordered o w w' := by
  intro w w' o
  refine ⟨Or.inr ⟨"a d 0 0 2 2\nb d 0 0 2 2\n".toList, "b d 0 0 2 2\na d 0 0 2 2\nb d 0 0 2 2\n".toList,
    by simp [w, o], by simp [w', o], ?_⟩, Or.inr ⟨"b d 0 0 2 2 0.5\nc d 0 0 2 2 -1\n".toList,
    "c d 0 0 2 2 -1\nb d 0 0 2 2 0.5\n".toList, if_pos rfl, if_pos rfl, ?_⟩, ?_, ?_, rfl⟩
  · have h1 : lines "a d 0 0 2 2\nb d 0 0 2 2\n".toList =
        ["a d 0 0 2 2".toList, "b d 0 0 2 2".toList] := by decide +kernel
    have h2 : lines "b d 0 0 2 2\na d 0 0 2 2\nb d 0 0 2 2\n".toList =
        ["b d 0 0 2 2".toList, "a d 0 0 2 2".toList, "b d 0 0 2 2".toList] := by decide +kernel
    rw [h1, h2]
    generalize "a d 0 0 2 2".toList = a
    generalize "b d 0 0 2 2".toList = b
    intro l
    simp only [List.mem_cons, List.not_mem_nil, or_false]
    tauto
  · have h1 : lines "b d 0 0 2 2 0.5\nc d 0 0 2 2 -1\n".toList =
        ["b d 0 0 2 2 0.5".toList, "c d 0 0 2 2 -1".toList] := by decide +kernel
    have h2 : lines "c d 0 0 2 2 -1\nb d 0 0 2 2 0.5\n".toList =
        ["c d 0 0 2 2 -1".toList, "b d 0 0 2 2 0.5".toList] := by decide +kernel
    rw [h1, h2]
    exact List.Perm.swap _ _ _
  · simp [w, w', o]
  · simp [w, w', o]

end Kws
