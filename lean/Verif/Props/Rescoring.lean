import Verif.Lemmas.Rescore
import Verif.Props.Evaluation

/-!
# C68: only the order of the scores matters
-/

namespace Kws
open Spec

section
variable {G G' : Type}

/-- C68 for the segmentation-based tool: with descending order and collapsing, replacing every score
by an increasing function of it changes neither the numbers nor the curves; the dumped matches are the
same with the new scores. -/
theorem C68_segmentation (R : Rnd) (S S' : StdSort) (rng : Rng G) (rng' : Rng G') (qf : Bool)
    (w w' : World) (o : ToolOptions) (t u u' : Str) (refs : List (Event Str Str))
    (hyps : List (ScoredEvent Str Str)) (g : ℚ → ℚ)
    (hg : StrictMonoOn g {x | ∃ h ∈ hyps, h.score = .fin x})
    (ht : w.file o.refFilename = some t) (ht' : w'.file o.refFilename = some t)
    (hu : hypText w o = some u) (hu' : hypText w' o = some u')
    (hrefs : Yields StrEventText (lines t) refs)
    (hhyps : Yields (ScoredText R StrEventText) (lines u) hyps)
    (hhyps' : Yields (ScoredText R StrEventText) (lines u') (hyps.map (rescored g)))
    (hq : w.file o.querySet = w'.file o.querySet) (hq' : w.file o.queryGroups = w'.file o.queryGroups)
    (hw : w.writable = w'.writable)
    (hR : R = Rnd.exact ∨ R.Faithful ∧ refs.length + hyps.length ≤ 2 ^ 24)
    (hd : o.sort = "desc".toList) (hc : o.collapse = true) (r r' : Report Nat Nat)
    (h : mainWith R S rng (simpleKit R qf) w o = .ok (.done r))
    (h' : mainWith R S' rng' (simpleKit R qf) w' o = .ok (.done r')) :
    SameNumbers r r' ∧ r'.dump = r.dump.map fun d =>
      (d.1.map (rescoredMatch g), d.2.map (rescoredMatch g)) := by
  have hn := (str_plain R).finite u (yields_valid hhyps)
  rw [yields_events Format.strHyps hhyps] at hn
  exact main_rescored R S S' rng rng' (simpleKit R qf) (simple_seg R qf).safe (simple_blind R qf)
    (simple_reads R qf) w w' o t u u' refs hyps g hg hn ht ht' hu hu'
    ((C48_accepts (Format.strRefs (R := R)) t refs).2 hrefs)
    ((C48_accepts Format.strHyps u hyps).2 hhyps) ((C48_accepts Format.strHyps u' _).2 hhyps')
    hq hq' hw hR hd hc r r' h h'

/-- C68 for the box tool. -/
theorem C68_box (R : Rnd) (S S' : StdSort) (rng : Rng G) (rng' : Rng G')
    (w w' : World) (o : ToolOptions) (t u u' : Str) (refs : List (Event Str (DocBox Str UInt32)))
    (hyps : List (ScoredEvent Str (DocBox Str UInt32))) (g : ℚ → ℚ)
    (hg : StrictMonoOn g {x | ∃ h ∈ hyps, h.score = .fin x})
    (ht : w.file o.refFilename = some t) (ht' : w'.file o.refFilename = some t)
    (hu : hypText w o = some u) (hu' : hypText w' o = some u')
    (hrefs : Yields BoxEventText (lines t) refs)
    (hhyps : Yields (ScoredText R BoxEventText) (lines u) hyps)
    (hhyps' : Yields (ScoredText R BoxEventText) (lines u') (hyps.map (rescored g)))
    (hq : w.file o.querySet = w'.file o.querySet) (hq' : w.file o.queryGroups = w'.file o.queryGroups)
    (hw : w.writable = w'.writable)
    (hR : R = Rnd.exact ∨ R.Faithful ∧ refs.length + hyps.length ≤ 2 ^ 24)
    (hd : o.sort = "desc".toList) (hc : o.collapse = true) (r r' : Report Str (DocBox Str UInt32))
    (h : mainWith R S rng (icdarKit R S) w o = .ok (.done r))
    (h' : mainWith R S' rng' (icdarKit R S) w' o = .ok (.done r')) :
    SameNumbers r r' ∧ r'.dump = r.dump.map fun d =>
      (d.1.map (rescoredMatch g), d.2.map (rescoredMatch g)) := by
  have hn := (icdar_plain R S).finite u (yields_valid hhyps)
  rw [yields_events Format.boxHyps hhyps] at hn
  exact main_rescored R S S' rng rng' (icdarKit R S) (icdar_safe R S) (icdar_blind R S)
    (icdar_reads R S) w w' o t u u' refs hyps g hg hn ht ht' hu hu'
    ((C48_accepts (Format.boxRefs (R := R)) t refs).2 hrefs)
    ((C48_accepts Format.boxHyps u hyps).2 hhyps) ((C48_accepts Format.boxHyps u' _).2 hhyps')
    hq hq' hw hR hd hc r r' h h'

end

/-! ## A pair of runs -/

/-- Two references; the hypotheses are given. -/
def scoreExample (hyps : Str) : World where
  file f := if f = "ref".toList then some "a d 0 0 2 2\nb d 0 0 2 2\n".toList else none
  stdin := hyps
  writable _ := false

theorem scoreExample_file (hyps : Str) :
    (scoreExample hyps).file "ref".toList = some "a d 0 0 2 2\nb d 0 0 2 2\n".toList := by
  unfold scoreExample
  dsimp only
  rw [if_pos rfl]

/-- `x ↦ x³ - 20` on the scores `1, 2, 3` of the following runs -/
def scoreChange (x : ℚ) : ℚ := x ^ 3 - 20

def scoreHyps : List (ScoredEvent Str (DocBox Str UInt32)) :=
  [⟨⟨"b".toList, ⟨⟨0, 0, 2, 2⟩, "d".toList⟩⟩, .fin 2⟩, ⟨⟨"a".toList, ⟨⟨9, 9, 2, 2⟩, "d".toList⟩⟩, .fin 3⟩,
    ⟨⟨"a".toList, ⟨⟨0, 0, 2, 2⟩, "d".toList⟩⟩, .fin 1⟩]

theorem scoreExample_yields :
    Yields BoxEventText (lines "a d 0 0 2 2\nb d 0 0 2 2\n".toList)
      [⟨"a".toList, ⟨⟨0, 0, 2, 2⟩, "d".toList⟩⟩, ⟨"b".toList, ⟨⟨0, 0, 2, 2⟩, "d".toList⟩⟩] ∧
    Yields (ScoredText Rnd.ieee BoxEventText)
      (lines "b d 0 0 2 2 2\na d 9 9 2 2 3\na d 0 0 2 2 1\n".toList) scoreHyps ∧
    Yields (ScoredText Rnd.ieee BoxEventText)
      (lines "b d 0 0 2 2 -12\na d 9 9 2 2 7\na d 0 0 2 2 -19\n".toList)
      (scoreHyps.map (rescored scoreChange)) :=
  ⟨(C48_accepts (Format.boxRefs (R := Rnd.ieee)) _ _).1 (by decide +kernel),
    (C48_accepts (Format.boxHyps (R := Rnd.ieee)) _ _).1 (by decide +kernel),
    (C48_accepts (Format.boxHyps (R := Rnd.ieee)) _ _).1 (by decide +kernel)⟩

theorem scoreExample_runs {G : Type} (S : StdSort) (rng : Rng G) (u : Str)
    (hu : ValidFile (ScoredText Rnd.ieee BoxEventText) u) : ∃ r,
    mainWith Rnd.ieee S rng (icdarKit Rnd.ieee S) (scoreExample u) idsOptions = .ok (.done r) := by
  obtain ⟨r, h, _⟩ := (C62_box_partial Rnd.ieee S rng (scoreExample u) idsOptions
    (fun t t' h1 h2 => by
      refine ⟨fun h => by simp [idsOptions] at h, fun h => absurd rfl h, fun h => absurd rfl h,
        fun h => by simp [idsOptions] at h⟩)).1
    ⟨⟨by decide, ⟨_, scoreExample_file _, yields_valid scoreExample_yields.1⟩, ⟨_, if_pos rfl, hu⟩,
      fun h => absurd rfl h, fun h => absurd rfl h⟩, Or.inl rfl⟩
  exact ⟨r, h⟩

/-- Two runs in IEEE arithmetic with different scores and the same numbers. -/
example {G : Type} (S : StdSort) (rng : Rng G) : ∃ r r',
    mainWith Rnd.ieee S rng (icdarKit Rnd.ieee S)
      (scoreExample "b d 0 0 2 2 2\na d 9 9 2 2 3\na d 0 0 2 2 1\n".toList) idsOptions = .ok (.done r) ∧
    mainWith Rnd.ieee S rng (icdarKit Rnd.ieee S)
      (scoreExample "b d 0 0 2 2 -12\na d 9 9 2 2 7\na d 0 0 2 2 -19\n".toList) idsOptions =
        .ok (.done r') ∧
    SameNumbers r r' := by
  obtain ⟨y1, y2, y3⟩ := scoreExample_yields
  obtain ⟨r, h⟩ := scoreExample_runs S rng _ (yields_valid y2)
  obtain ⟨r', h'⟩ := scoreExample_runs S rng _ (yields_valid y3)
  refine ⟨r, r', h, h', (C68_box Rnd.ieee S S rng rng _ _ idsOptions _ _ _ _ scoreHyps scoreChange ?_
    (scoreExample_file _) (scoreExample_file _) (if_pos rfl) (if_pos rfl) y1 y2 y3 rfl rfl rfl
    (Or.inr ⟨ieee_faithful, by decide⟩) rfl rfl r r' h h').1⟩
  intro x _ y _ hxy
  unfold scoreChange
  have : x ^ 3 < y ^ 3 := (Odd.strictMono_pow (by decide)) hxy
  linarith

end Kws
