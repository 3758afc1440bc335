import Verif.Lemmas.SegMonotone
import Verif.Props.Ranking

/-! # C71: better hypotheses are not punished by the segmentation-based tool -/

set_option linter.unusedSectionVars false

namespace Kws
open Spec

section
variable {Q L : Type} [DecidableEq Q] [DecidableEq L]

/-- C71: adding a hypothesis that is right is an improvement, whatever its score. -/
theorem C71_add (refs : List (Event Q L)) (hyps : List (ScoredEvent Q L)) (x : ScoredEvent Q L)
    (hx : x.base ∈ refs) : Improved refs hyps (x :: hyps) where
  right h hh _ := ⟨h, by simp [hh], rfl, Flt.lt_irrefl' _⟩
  wrong q s _ := by
    rw [List.countP_cons_of_neg (by simp [hx])]

/-- C71: dropping hypotheses that are wrong is an improvement. -/
theorem C71_drop (refs : List (Event Q L)) (hyps : List (ScoredEvent Q L)) (p : ScoredEvent Q L → Bool)
    (hp : ∀ h ∈ hyps, h.base ∈ refs → p h = true) : Improved refs hyps (hyps.filter p) where
  right h hh hr := ⟨h, List.mem_filter.2 ⟨hh, hp h hh hr⟩, rfl, Flt.lt_irrefl' _⟩
  wrong _ _ _ := List.Sublist.countP_le List.filter_sublist

/-- C71: raising the scores of right hypotheses and lowering those of wrong ones is an improvement. -/
theorem C71_adjust (refs : List (Event Q L)) (hyps : List (ScoredEvent Q L)) (f : ScoredEvent Q L → Flt)
    (hn : ∀ h ∈ hyps, f h ≠ .nan)
    (hr : ∀ h ∈ hyps, h.base ∈ refs → Flt.lt (f h) h.score = false)
    (hw : ∀ h ∈ hyps, h.base ∉ refs → Flt.lt h.score (f h) = false) :
    Improved refs hyps (hyps.map (fun h => ⟨h.base, f h⟩)) where
  right h hh hb := ⟨_, List.mem_map_of_mem hh, rfl, hr h hh hb⟩
  wrong q s _ := by
    rw [List.countP_map]
    refine List.countP_mono_left fun h hh hp => ?_
    simp only [Function.comp_apply, decide_eq_true_eq] at hp ⊢
    exact ⟨hp.1, hp.2.1, Flt.lt_false_trans (hn h hh) (hw h hh hp.1) hp.2.2⟩

/-- C71: the numbers that the files define. With interpolation, better hypotheses get no lower global and
mean average precision. -/
theorem C71_numbers (refs : List (Event Q L)) (hyps hyps' : List (ScoredEvent Q L))
    (h : Improved refs hyps hyps') (hn : ∀ x ∈ hyps, x.score ≠ .nan) (hn' : ∀ x ∈ hyps', x.score ≠ .nan)
    (grp : Q → Q) (trapezoid : Bool) :
    (segNumbers grp true trapezoid refs hyps).gAP ≤ (segNumbers grp true trapezoid refs hyps').gAP ∧
    (segNumbers grp true trapezoid refs hyps).mAP ≤ (segNumbers grp true trapezoid refs hyps').mAP :=
  h.numbers hn hn' grp trapezoid

end

theorem keep_filter {E : Type} (query : E → Str) (listed : List Str) (es : List E) :
    keep query listed es = es.filter (fun e => decide (listed = [] ∨ query e ∈ listed)) := by
  unfold keep
  split
  · rename_i h
    simp [h]
  · rename_i h
    refine List.filter_congr fun e _ => ?_
    simp [h]

section
variable {G : Type}

theorem yields_finite (R : Rnd) (u : Str) (hyps : List (ScoredEvent Str Str))
    (hhyps : Yields (ScoredText R StrEventText) (lines u) hyps) : ∀ h ∈ hyps, h.score ≠ .nan := by
  intro h hh
  have := (str_plain R).finite u (yields_valid hhyps)
  rw [yields_events Format.strHyps hhyps] at this
  exact this h hh

/-- C71: two runs of the segmentation-based tool with the same references, queries and options: with
descending order, collapsing and interpolation (the defaults), better hypotheses get no lower average
precisions (exact arithmetic). -/
theorem C71_segmentation (S S' : StdSort) (rng rng' : Rng G) (qf : Bool) (w w' : World) (o : ToolOptions)
    (hV : (vocabulary w o).dedup.length ≤ 2 ^ 31) (hV' : (vocabulary w' o).dedup.length ≤ 2 ^ 31)
    (t u u' : Str) (refs : List (Event Str Str)) (hyps hyps' : List (ScoredEvent Str Str))
    (ht : w.file o.refFilename = some t) (ht' : w'.file o.refFilename = some t)
    (hu : hypText w o = some u) (hu' : hypText w' o = some u')
    (hrefs : Yields StrEventText (lines t) refs)
    (hhyps : Yields (ScoredText Rnd.exact StrEventText) (lines u) hyps)
    (hhyps' : Yields (ScoredText Rnd.exact StrEventText) (lines u') hyps')
    (hg : groupFor w' o = groupFor w o) (hq : listedQueries w' o = listedQueries w o)
    (hd : o.sort = "desc".toList) (hc : o.collapse = true) (hi : o.interp = true)
    (himp : Improved refs hyps hyps') (r r' : Report Nat Nat)
    (h : mainWith Rnd.exact S rng (simpleKit Rnd.exact qf) w o = .ok (.done r))
    (h' : mainWith Rnd.exact S' rng' (simpleKit Rnd.exact qf) w' o = .ok (.done r')) :
    r.gAP.value ≤ r'.gAP.value ∧ r.mAP.value ≤ r'.mAP.value := by
  obtain ⟨a1, a2, _, _⟩ := C66_segmentation S rng qf w o hV t u refs hyps ht hu hrefs hhyps hd hc r h
  obtain ⟨b1, b2, _, _⟩ := C66_segmentation S' rng' qf w' o hV' t u' refs hyps' ht' hu' hrefs hhyps' hd hc r' h'
  rw [a1, a2, b1, b2, hg, hq, hi, keep_filter, keep_filter, keep_filter]
  exact (himp.filter (fun q => decide (listedQueries w o = [] ∨ q ∈ listedQueries w o))).numbers
    (fun x hx => yields_finite _ u hyps hhyps x (List.mem_of_mem_filter hx))
    (fun x hx => yields_finite _ u' hyps' hhyps' x (List.mem_of_mem_filter hx)) _ _

/-- C71 in IEEE arithmetic: up to `2^24` lines, the average precisions get lower by rounding errors
only. -/
theorem C71_segmentation_rounded (S S' : StdSort) (rng rng' : Rng G) (qf : Bool) (w w' : World)
    (o : ToolOptions)
    (hV : (vocabulary w o).dedup.length ≤ 2 ^ 31) (hV' : (vocabulary w' o).dedup.length ≤ 2 ^ 31)
    (t u u' : Str) (refs : List (Event Str Str)) (hyps hyps' : List (ScoredEvent Str Str))
    (ht : w.file o.refFilename = some t) (ht' : w'.file o.refFilename = some t)
    (hu : hypText w o = some u) (hu' : hypText w' o = some u')
    (hrefs : Yields StrEventText (lines t) refs)
    (hhyps : Yields (ScoredText Rnd.ieee StrEventText) (lines u) hyps)
    (hhyps' : Yields (ScoredText Rnd.ieee StrEventText) (lines u') hyps')
    (hl : refs.length + hyps.length ≤ 2 ^ 24) (hl' : refs.length + hyps'.length ≤ 2 ^ 24)
    (hg : groupFor w' o = groupFor w o) (hq : listedQueries w' o = listedQueries w o)
    (hd : o.sort = "desc".toList) (hc : o.collapse = true) (hi : o.interp = true)
    (himp : Improved refs hyps hyps') (r r' : Report Nat Nat)
    (h : mainWith Rnd.ieee S rng (simpleKit Rnd.ieee qf) w o = .ok (.done r))
    (h' : mainWith Rnd.ieee S' rng' (simpleKit Rnd.ieee qf) w' o = .ok (.done r')) :
    let ε : ℚ := ((refs.length + hyps.length + 3) ^ 2 + (refs.length + hyps'.length + 3) ^ 2) / 2 ^ 52
    r.gAP.value ≤ r'.gAP.value + ε ∧ r.mAP.value ≤ r'.mAP.value + ε := by
  intro ε
  have a := C66_segmentation_rounded S rng qf w o hV t u refs hyps ht hu hrefs hhyps hl hd hc r h
  have b := C66_segmentation_rounded S' rng' qf w' o hV' t u' refs hyps' ht' hu' hrefs hhyps' hl' hd hc r' h'
  rw [hg, hq] at b
  rw [hi, keep_filter, keep_filter] at a b
  obtain ⟨c1, c2⟩ := (himp.filter (fun q => decide (listedQueries w o = [] ∨ q ∈ listedQueries w o))).numbers
    (fun x hx => yields_finite _ u hyps hhyps x (List.mem_of_mem_filter hx))
    (fun x hx => yields_finite _ u' hyps' hhyps' x (List.mem_of_mem_filter hx)) (groupFor w o) o.trapezoid
  have a1 := abs_le.1 a.gAP
  have a2 := abs_le.1 a.mAP
  have b1 := abs_le.1 b.gAP
  have b2 := abs_le.1 b.mAP
  have e : ε = (refs.length + hyps.length + 3) ^ 2 / 2 ^ 52 + (refs.length + hyps'.length + 3) ^ 2 / 2 ^ 52 := by
    simp only [ε]
    ring
  rw [e]
  constructor <;> linarith

end

/-! ## Runs -/

/-- Two references; the hypotheses are given. -/
def betterExample (hyps : Str) : World where
  file f := if f = "ref".toList then some "a l\nb l\n".toList else none
  stdin := hyps
  writable _ := false

theorem betterExample_file (hyps : Str) :
    (betterExample hyps).file "ref".toList = some "a l\nb l\n".toList := by
  unfold betterExample
  dsimp only
  rw [if_pos rfl]

theorem betterExample_none (hyps : Str) : (betterExample hyps).file [] = none := by
  unfold betterExample
  dsimp only
  rw [if_neg (by decide)]

theorem betterExample_vocabulary (u : Str)
    (h : (words ("a l\nb l\n".toList ++ '\n' :: u)).dedup.length ≤ 2 ^ 31) :
    (vocabulary (betterExample u) idsOptions).dedup.length ≤ 2 ^ 31 := by
  have e : vocabulary (betterExample u) idsOptions = words ("a l\nb l\n".toList ++ '\n' :: u) := by
    rw [words_append_space _ _ _ (by decide)]
    unfold vocabulary
    rw [show (betterExample u).file idsOptions.refFilename = some _ from betterExample_file u,
      show (betterExample u).file idsOptions.querySet = none from betterExample_none u,
      show (betterExample u).file idsOptions.queryGroups = none from betterExample_none u,
      show hypText (betterExample u) idsOptions = some u from if_pos rfl]
    simp
  rw [e]
  exact h

/-- The hypotheses; `s` is the score of a right one. -/
def betterHyps (s : ℚ) : List (ScoredEvent Str Str) :=
  [⟨⟨"b".toList, "l".toList⟩, .fin s⟩, ⟨⟨"a".toList, "m".toList⟩, .fin 2⟩,
    ⟨⟨"a".toList, "l".toList⟩, .fin 1⟩]

def betterRefs : List (Event Str Str) := [⟨"a".toList, "l".toList⟩, ⟨"b".toList, "l".toList⟩]

theorem betterExample_yields :
    Yields StrEventText (lines "a l\nb l\n".toList) betterRefs ∧
    Yields (ScoredText Rnd.exact StrEventText) (lines "b l 1\na m 2\na l 1\n".toList) (betterHyps 1) ∧
    Yields (ScoredText Rnd.exact StrEventText) (lines "b l 3\na m 2\na l 1\n".toList) (betterHyps 3) :=
  ⟨(C48_accepts (Format.strRefs (R := Rnd.exact)) _ _).1 (by decide +kernel),
    (C48_accepts (Format.strHyps (R := Rnd.exact)) _ _).1 (by decide +kernel),
    (C48_accepts (Format.strHyps (R := Rnd.exact)) _ _).1 (by decide +kernel)⟩

theorem betterExample_runs {G : Type} (S : StdSort) (rng : Rng G) (u : Str)
    (hV : (vocabulary (betterExample u) idsOptions).dedup.length ≤ 2 ^ 31)
    (hu : ValidFile (ScoredText Rnd.exact StrEventText) u) : ∃ r,
    mainWith Rnd.exact S rng (simpleKit Rnd.exact true) (betterExample u) idsOptions = .ok (.done r) := by
  obtain ⟨r, h, _⟩ := (C62_segmentation_partial Rnd.exact S rng true (betterExample u) idsOptions hV
    (fun t t' h1 h2 => by
      refine ⟨fun h => by simp [idsOptions] at h, fun h => absurd rfl h, fun h => absurd rfl h,
        fun h => by simp [idsOptions] at h⟩)).1
    ⟨⟨by decide, ⟨_, betterExample_file _, yields_valid betterExample_yields.1⟩, ⟨_, if_pos rfl, hu⟩,
      fun h => absurd rfl h, fun h => absurd rfl h⟩, Or.inl rfl⟩
  exact ⟨r, h⟩

theorem better_improved : Improved betterRefs (betterHyps 1) (betterHyps 3) := by
  have := C71_adjust betterRefs (betterHyps 1) (fun h => if h.base.query = "b".toList then .fin 3 else h.score)
    (by decide +kernel) (by decide +kernel) (by decide +kernel)
  have e : (betterHyps 1).map (fun h => ⟨h.base, if h.base.query = "b".toList then .fin 3 else h.score⟩) =
      betterHyps 3 := by decide +kernel
  rwa [e] at this

/-- Two runs: raising the score of a hit above that of a false positive raises the global average precision
from 2/3 to 5/6. -/
example {G : Type} (S : StdSort) (rng : Rng G) : ∃ r r',
    mainWith Rnd.exact S rng (simpleKit Rnd.exact true) (betterExample "b l 1\na m 2\na l 1\n".toList)
      idsOptions = .ok (.done r) ∧
    mainWith Rnd.exact S rng (simpleKit Rnd.exact true) (betterExample "b l 3\na m 2\na l 1\n".toList)
      idsOptions = .ok (.done r') ∧
    r.gAP.value ≤ r'.gAP.value ∧ r.mAP.value ≤ r'.mAP.value ∧
    r.gAP.value = 2 / 3 ∧ r'.gAP.value = 5 / 6 := by
  obtain ⟨y1, y2, y3⟩ := betterExample_yields
  have v := betterExample_vocabulary "b l 1\na m 2\na l 1\n".toList (by decide +kernel)
  have v' := betterExample_vocabulary "b l 3\na m 2\na l 1\n".toList (by decide +kernel)
  obtain ⟨r, h⟩ := betterExample_runs S rng _ v (yields_valid y2)
  obtain ⟨r', h'⟩ := betterExample_runs S rng _ v' (yields_valid y3)
  have hq : ∀ u, listedQueries (betterExample u) idsOptions = [] := fun _ => rfl
  have hg : ∀ u, groupFor (betterExample u) idsOptions = id := fun _ => rfl
  obtain ⟨h1, h2⟩ := C71_segmentation S S rng rng true _ _ idsOptions v v' _ _ _ _ _ _
    (betterExample_file _) (betterExample_file _) (if_pos rfl) (if_pos rfl) y1 y2 y3
    ((hg _).trans (hg _).symm) ((hq _).trans (hq _).symm) rfl rfl rfl
    better_improved r r' h h'
  obtain ⟨a, _⟩ := C66_segmentation S rng true _ idsOptions v _ _ _ _ (betterExample_file _) (if_pos rfl)
    y1 y2 rfl rfl r h
  obtain ⟨b, _⟩ := C66_segmentation S rng true _ idsOptions v' _ _ _ _ (betterExample_file _) (if_pos rfl)
    y1 y3 rfl rfl r' h'
  refine ⟨r, r', h, h', h1, h2, a.trans ?_, b.trans ?_⟩
  · rw [hq]
    unfold segNumbers Numbers.of
    decide +kernel
  · rw [hq]
    unfold segNumbers Numbers.of
    decide +kernel

end Kws
