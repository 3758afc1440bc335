import Verif.Spec.Disk
import Verif.Lemmas.FileNames

/-!
# The files after a run
-/

namespace Kws
open Traced Spec

theorem textAfter_other {files : List (Str × Str)} {f : Str} (h : ∀ x ∈ files, x.1 ≠ f) (b : Option Str) :
    textAfter b files f = b := by
  induction files generalizing b with
  | nil => rfl
  | cons x files ih =>
    obtain ⟨n, t⟩ := x
    have hn : n ≠ f := h (n, t) (by simp)
    rw [textAfter, if_neg hn]
    exact ih (fun y hy => h y (by simp [hy])) b

theorem textAfter_append (b : Option Str) (xs ys : List (Str × Str)) (f : Str) :
    textAfter b (xs ++ ys) f = textAfter (textAfter b xs f) ys f := by
  induction xs generalizing b with
  | nil => rfl
  | cons x xs ih => obtain ⟨n, t⟩ := x; exact ih _

/-- What was written before is of no consequence for a file that is written. -/
theorem textAfter_cases (files : List (Str × Str)) (f : Str) :
    (∀ b, textAfter b files f = b) ∨ ∃ t, (f, t) ∈ files ∧ ∀ b, textAfter b files f = some t := by
  induction files with
  | nil => exact .inl fun _ => rfl
  | cons x files ih =>
    obtain ⟨n, t⟩ := x
    obtain h | ⟨u, hu, h⟩ := ih
    · by_cases hn : n = f
      · refine .inr ⟨t, by simp [hn], fun b => ?_⟩
        rw [textAfter, if_pos hn, h]
      · refine .inl fun b => ?_
        rw [textAfter, if_neg hn, h]
    · exact .inr ⟨u, by simp [hu], fun b => by rw [textAfter, h]⟩

theorem textAfter_twice (b : Option Str) (files : List (Str × Str)) (f : Str) :
    textAfter (textAfter b files f) files f = textAfter b files f := by
  obtain h | ⟨t, _, h⟩ := textAfter_cases files f <;> simp only [h]

variable {μ σ Q L G : Type}

theorem sameContents_refl (w : World) (o : ToolOptions) : SameContents w w o o where
  options := rfl
  refsGiven := Iff.rfl
  refs _ := rfl
  hyps := rfl
  groupsGiven := Iff.rfl
  groups _ := rfl
  setGiven _ := Iff.rfl
  set _ _ := rfl
  dumpGiven := Iff.rfl
  dump _ := rfl
  grpGiven := Iff.rfl
  grp _ := rfl
  mrpGiven := Iff.rfl
  mrp _ := rfl

theorem filesOf_names {o : ToolOptions} {es es' : List Effect} (h : List.Forall₂ (SameEffect o o) es es') :
    ∀ x ∈ filesOf es, x.1 ∈ outputNames o := by
  induction h with
  | nil => simp [filesOf]
  | cons h _ ih =>
    cases h with
    | out | err | named | hyps => exact ih
    | dump t => exact List.forall_mem_cons.2 ⟨by simp [outputNames], ih⟩
    | grp t => exact List.forall_mem_cons.2 ⟨by simp [outputNames], ih⟩
    | mrp t => exact List.forall_mem_cons.2 ⟨by simp [outputNames], ih⟩

/-- Everything that a run reads of the world. -/
theorem traceMainWithD_reads [DecidableEq Q] [Cmp Q] [Cmp L] (R : Rnd) (lm : Libm) (S : StdSort) (rng : Rng G)
    (kit : ToolKit μ σ Q L) (texts : ToolTexts Q L) (w w' : World) (argc : Nat) (o : ToolOptions)
    (hr : o.refFilename ≠ [] → w'.file o.refFilename = w.file o.refFilename) (hh : hypText w' o = hypText w o)
    (hs : o.querySet ≠ [] → o.queryGroups = [] → w'.file o.querySet = w.file o.querySet)
    (hg : o.queryGroups ≠ [] → w'.file o.queryGroups = w.file o.queryGroups) (hw : w'.writable = w.writable) :
    traceMainWithD R lm S rng kit texts w' argc o = traceMainWithD R lm S rng kit texts w argc o := by
  have hq : ∀ m, traceQueryMap kit.mapQuery w' o m = traceQueryMap kit.mapQuery w o m := by
    intro m
    unfold traceQueryMap
    by_cases h1 : o.querySet ≠ [] ∧ o.queryGroups = []
    · rw [if_pos h1, if_pos h1, hs h1.1 h1.2]
    · rw [if_neg h1, if_neg h1]
      by_cases h2 : o.queryGroups ≠ []
      · rw [if_pos h2, if_pos h2, hg h2]
      · rw [if_neg h2, if_neg h2]
  have he : ∀ q2g refs hyps, traceEvaluateD R lm S rng kit texts w' o q2g refs hyps =
      traceEvaluateD R lm S rng kit texts w o q2g refs hyps := by
    intro q2g refs hyps
    simp only [traceEvaluateD, traceMatchAndAssessD, traceAssessD, globalRPCurve, meanRPCurve, writeCurveFile, hw]
  unfold hypText at hh
  unfold traceMainWithD
  simp only [hq, he, hh]
  by_cases h : o.refFilename = []
  · rw [if_pos h, if_pos h]
  · rw [if_neg h, if_neg h, hr h]

end Kws
