import Verif.Props.Copies
import Verif.Props.Hits
import Verif.Props.Moved
import Verif.Props.HandedIn
import Verif.Props.BoxImprovement
import Verif.Props.Improvement
import Verif.Props.Rescoring
import Verif.Props.SingleGroup
import Verif.Props.Intervals
import Verif.Props.Decompose
import Verif.Props.Bootstrap
import Verif.Props.Instances

/-!
# More cases for the theorems about runs

Pairs and triples of runs that meet the hypotheses of the theorems about several runs, in IEEE arithmetic where those are
about rounding.
-/

namespace Kws

open Spec

/-- The references are in the file `r`, the hypotheses on the standard input, a set of queries in `s`. -/
def instWorld (refs hyps set : Str) : World where
  file f := if f = "r".toList then some refs else if f = "s".toList then some set else none
  stdin := hyps
  writable _ := true

def instOptions : ToolOptions where
  refFilename := "r".toList
  dumpMatches := "m".toList
  alpha := 1 / 20

theorem inst_file (refs hyps set : Str) : (instWorld refs hyps set).file "r".toList = some refs := by
  unfold instWorld
  dsimp only
  rw [if_pos rfl]

theorem inst_box {G : Type} (R : Rnd) (S : StdSort) (rng : Rng G) (t u s : Str)
    (refs : List (Event Str (DocBox Str UInt32))) (hyps : List (ScoredEvent Str (DocBox Str UInt32)))
    (y1 : Yields BoxEventText (lines t) refs) (y2 : Yields (ScoredText R BoxEventText) (lines u) hyps) :
    ∃ r, mainWith R S rng (icdarKit R S) (instWorld t u s) instOptions = .ok (.done r) ∧
      ∃ ms rep, r.dump = some (ms, rep) := by
  obtain ⟨r, hr, hc⟩ := (C62_box_partial R S rng (instWorld t u s) instOptions
    (fun t u _ _ => ⟨fun h => by simp [instOptions] at h, fun _ => rfl,
      fun h => absurd rfl h, fun h => by simp [instOptions] at h⟩)).1
    ⟨⟨by decide, ⟨_, inst_file _ _ _, yields_valid y1⟩, ⟨_, if_pos rfl, yields_valid y2⟩,
      fun h => absurd rfl h, fun h => absurd rfl h⟩, .inr rfl⟩
  obtain ⟨d, hd⟩ := Option.isSome_iff_exists.1 (hc.dump.2 (by decide))
  exact ⟨r, hr, d.1, d.2, hd⟩

theorem inst_seg {G : Type} (R : Rnd) (S : StdSort) (rng : Rng G) (qf : Bool) (t u s : Str)
    (refs : List (Event Str Str)) (hyps : List (ScoredEvent Str Str))
    (y1 : Yields StrEventText (lines t) refs) (y2 : Yields (ScoredText R StrEventText) (lines u) hyps)
    (hv : (vocabulary (instWorld t u s) instOptions).dedup.length ≤ 2 ^ 31) :
    ∃ r, mainWith R S rng (simpleKit R qf) (instWorld t u s) instOptions = .ok (.done r) := by
  obtain ⟨r, hr, hc⟩ := (C62_segmentation_partial R S rng qf (instWorld t u s) instOptions hv
    (fun t u _ _ => ⟨fun h => by simp [instOptions] at h, fun _ => rfl,
      fun h => absurd rfl h, fun h => by simp [instOptions] at h⟩)).1
    ⟨⟨by decide, ⟨_, inst_file _ _ _, yields_valid y1⟩, ⟨_, if_pos rfl, yields_valid y2⟩,
      fun h => absurd rfl h, fun h => absurd rfl h⟩, .inr rfl⟩
  exact ⟨r, hr⟩

theorem inst_listed (a b c : Str) : listedQueries (instWorld a b c) instOptions = [] := rfl

theorem inst_group (a b c : Str) : groupFor (instWorld a b c) instOptions = id := rfl

/-! ## The box tool -/

section
variable {G : Type} (S : StdSort) (rng : Rng G)

/-- What the following runs read. -/
def instRefs : List (Event Str (DocBox Str UInt32)) :=
  [⟨['a'], ⟨⟨0, 0, 2, 2⟩, ['d']⟩⟩, ⟨['b'], ⟨⟨0, 0, 2, 2⟩, ['d']⟩⟩]

def instHyps : List (ScoredEvent Str (DocBox Str UInt32)) :=
  [⟨⟨['b'], ⟨⟨0, 0, 2, 2⟩, ['d']⟩⟩, .fin (1 / 2)⟩, ⟨⟨['a'], ⟨⟨9, 9, 2, 2⟩, ['d']⟩⟩, .fin (3 / 2)⟩]

theorem instRefs_read : Yields BoxEventText (lines "a d 0 0 2 2\nb d 0 0 2 2\n".toList) instRefs :=
  (C48_accepts (Format.boxRefs (R := Rnd.exact)) _ _).1 (by decide +kernel)

theorem instHyps_read (R : Rnd) (hR : R = Rnd.exact ∨ R = Rnd.ieee) : Yields (ScoredText R BoxEventText)
    (lines "b d 0 0 2 2 0.5\na d 9 9 2 2 1.5\n".toList) instHyps := by
  rcases hR with rfl | rfl
  · exact (C48_accepts (Format.boxHyps (R := Rnd.exact)) _ _).1 (by decide +kernel)
  · exact (C48_accepts (Format.boxHyps (R := Rnd.ieee)) _ _).1 (by decide +kernel)

theorem instRefs_edges : ∀ r ∈ instRefs, EdgesOkU r.location.toBBox := by unfold EdgesOkU; decide +kernel

theorem instHyps_small : ∀ h ∈ instHyps, EdgesOkU h.base.location.toBBox ∧ areaU h.base ≤ 2 ^ 24 := by
  unfold EdgesOkU; decide +kernel

/-- C89 with rounding: the queries change their names, the document gets another one and everything moves. -/
example : ∃ r r', mainWith Rnd.ieee S rng (icdarKit Rnd.ieee S) (instWorld "a d 0 0 2 2\nb d 0 0 2 2\n".toList
      "b d 0 0 2 2 0.5\na d 9 9 2 2 1.5\n".toList []) instOptions = .ok (.done r) ∧
    mainWith Rnd.ieee S rng (icdarKit Rnd.ieee S) (instWorld "b pd 5 3 2 2\na pd 5 3 2 2\n".toList
      "a pd 5 3 2 2 0.5\nb pd 14 12 2 2 1.5\n".toList []) instOptions = .ok (.done r') ∧
    r'.gNDCG.value = r.gNDCG.value ∧ |r'.gAP.value - r.gAP.value| ≤ 2 * (49 / 2 ^ 52) := by
  have y1 := instRefs_read
  have y2 := instHyps_read _ (.inr rfl)
  have z1 : Yields BoxEventText (lines "b pd 5 3 2 2\na pd 5 3 2 2\n".toList)
      [⟨['b'], ⟨⟨5, 3, 2, 2⟩, ['p', 'd']⟩⟩, ⟨['a'], ⟨⟨5, 3, 2, 2⟩, ['p', 'd']⟩⟩] :=
    (C48_accepts (Format.boxRefs (R := Rnd.ieee)) _ _).1 (by decide +kernel)
  have z2 : Yields (ScoredText Rnd.ieee BoxEventText) (lines "a pd 5 3 2 2 0.5\nb pd 14 12 2 2 1.5\n".toList)
      [⟨⟨['a'], ⟨⟨5, 3, 2, 2⟩, ['p', 'd']⟩⟩, .fin (1 / 2)⟩, ⟨⟨['b'], ⟨⟨14, 12, 2, 2⟩, ['p', 'd']⟩⟩, .fin (3 / 2)⟩] :=
    (C48_accepts (Format.boxHyps (R := Rnd.ieee)) _ _).1 (by decide +kernel)
  obtain ⟨r, hr, _⟩ := inst_box Rnd.ieee S rng _ _ [] _ _ y1 y2
  obtain ⟨r', hr', _⟩ := inst_box Rnd.ieee S rng _ _ [] _ _ z1 z2
  have sa : Equiv.swap ['a'] ['b'] ['a'] = ['b'] := Equiv.swap_apply_left _ _
  have sb : Equiv.swap ['a'] ['b'] ['b'] = ['a'] := Equiv.swap_apply_right _ _
  have key := (C89_box_rounded S S rng rng (ρ := Equiv.swap ['a'] ['b'])
    (δ := fun d => 'p' :: d) (γ := Equiv.swap ['a'] ['b']) (τ := fun _ => (5, 3))
    (Equiv.injective _) (fun a b h => (List.cons.inj h).2) (Equiv.injective _) _ _ instOptions instOptions
    _ _ _ _ _ _ _ _ (inst_file _ _ _) (if_pos rfl) (inst_file _ _ _) (if_pos rfl) y1 z1 y2 z2 instRefs_edges
    (by unfold EdgesOkU; decide +kernel) instHyps_small (by unfold EdgesOkU; decide +kernel) (by decide)
    (.cons ⟨sa.symm, rfl, by decide, by decide, rfl, rfl⟩ (.cons ⟨sb.symm, rfl, by decide, by decide, rfl, rfl⟩ .nil))
    (.cons ⟨⟨sb.symm, rfl, by decide, by decide, rfl, rfl⟩, rfl⟩
      (.cons ⟨⟨sa.symm, rfl, by decide, by decide, rfl, rfl⟩, rfl⟩ .nil))
    (C89_no_files rfl rfl rfl rfl) rfl rfl rfl rfl rfl rfl r r' hr hr').1
  refine ⟨r, r', hr, hr', key.2.2.1, key.1.trans_eq ?_⟩
  norm_num [instRefs, instHyps]

/-- C102 with rounding: the same, and the page is scanned with another resolution. -/
example : ∃ r r', mainWith Rnd.ieee S rng (icdarKit Rnd.ieee S) (instWorld "a d 0 0 2 2\nb d 0 0 2 2\n".toList
      "b d 0 0 2 2 0.5\na d 9 9 2 2 1.5\n".toList []) instOptions = .ok (.done r) ∧
    mainWith Rnd.ieee S rng (icdarKit Rnd.ieee S) (instWorld "b pd 5 3 4 6\na pd 5 3 4 6\n".toList
      "a pd 5 3 4 6 0.5\nb pd 23 30 4 6 1.5\n".toList []) instOptions = .ok (.done r') ∧
    r'.gNDCG.value = r.gNDCG.value ∧ |r'.gAP.value - r.gAP.value| ≤ 2 * (49 / 2 ^ 52) := by
  have y1 := instRefs_read
  have y2 := instHyps_read _ (.inr rfl)
  have z1 : Yields BoxEventText (lines "b pd 5 3 4 6\na pd 5 3 4 6\n".toList)
      [⟨['b'], ⟨⟨5, 3, 4, 6⟩, ['p', 'd']⟩⟩, ⟨['a'], ⟨⟨5, 3, 4, 6⟩, ['p', 'd']⟩⟩] :=
    (C48_accepts (Format.boxRefs (R := Rnd.ieee)) _ _).1 (by decide +kernel)
  have z2 : Yields (ScoredText Rnd.ieee BoxEventText) (lines "a pd 5 3 4 6 0.5\nb pd 23 30 4 6 1.5\n".toList)
      [⟨⟨['a'], ⟨⟨5, 3, 4, 6⟩, ['p', 'd']⟩⟩, .fin (1 / 2)⟩, ⟨⟨['b'], ⟨⟨23, 30, 4, 6⟩, ['p', 'd']⟩⟩, .fin (3 / 2)⟩] :=
    (C48_accepts (Format.boxHyps (R := Rnd.ieee)) _ _).1 (by decide +kernel)
  obtain ⟨r, hr, _⟩ := inst_box Rnd.ieee S rng _ _ [] _ _ y1 y2
  obtain ⟨r', hr', _⟩ := inst_box Rnd.ieee S rng _ _ [] _ _ z1 z2
  have sa : Equiv.swap ['a'] ['b'] ['a'] = ['b'] := Equiv.swap_apply_left _ _
  have sb : Equiv.swap ['a'] ['b'] ['b'] = ['a'] := Equiv.swap_apply_right _ _
  have key := (C102_box_rounded S S rng rng (ρ := Equiv.swap ['a'] ['b'])
    (δ := fun d => 'p' :: d) (γ := Equiv.swap ['a'] ['b']) (κ := fun _ => (2, 3)) (τ := fun _ => (5, 3))
    (Equiv.injective _) (fun a b h => (List.cons.inj h).2) (by simp) (Equiv.injective _) _ _ instOptions instOptions
    _ _ _ _ _ _ _ _ (inst_file _ _ _) (if_pos rfl) (inst_file _ _ _) (if_pos rfl) y1 z1 y2 z2 instRefs_edges
    (by unfold EdgesOkU; decide +kernel) (fun h hh => (instHyps_small h hh).1) (by unfold EdgesOkU; decide +kernel)
    (by decide)
    (.cons ⟨sa.symm, rfl, by decide, by decide, rfl, rfl⟩ (.cons ⟨sb.symm, rfl, by decide, by decide, rfl, rfl⟩ .nil))
    (.cons ⟨⟨sb.symm, rfl, by decide, by decide, rfl, rfl⟩, rfl⟩
      (.cons ⟨⟨sa.symm, rfl, by decide, by decide, rfl, rfl⟩, rfl⟩ .nil))
    (C89_no_files rfl rfl rfl rfl) rfl rfl rfl rfl rfl rfl r r' hr hr').1
  refine ⟨r, r', hr, hr', key.2.2.1, key.1.trans_eq ?_⟩
  norm_num [instRefs, instHyps]

/-- C109 with rounding: two references that overlap are handed in. -/
example : ∃ r : Report Str (DocBox Str UInt32),
    mainWith Rnd.ieee S rng (icdarKit Rnd.ieee S) (instWorld "q d 0 0 5 1\nq d 3 0 5 1\n".toList
      "q d 0 0 5 1 1\nq d 3 0 5 1 2\n".toList []) instOptions = .ok (.done r) ∧
    Shows r ⟨1, 1, 1, 1⟩ (49 / 2 ^ 52) := by
  have y1 : Yields BoxEventText (lines "q d 0 0 5 1\nq d 3 0 5 1\n".toList)
      [⟨['q'], ⟨⟨0, 0, 5, 1⟩, ['d']⟩⟩, ⟨['q'], ⟨⟨3, 0, 5, 1⟩, ['d']⟩⟩] :=
    (C48_accepts (Format.boxRefs (R := Rnd.exact)) _ _).1 (by decide +kernel)
  have y2 : Yields (ScoredText Rnd.ieee BoxEventText) (lines "q d 0 0 5 1 1\nq d 3 0 5 1 2\n".toList)
      [⟨⟨['q'], ⟨⟨0, 0, 5, 1⟩, ['d']⟩⟩, .fin 1⟩, ⟨⟨['q'], ⟨⟨3, 0, 5, 1⟩, ['d']⟩⟩, .fin 2⟩] :=
    (C48_accepts (Format.boxHyps (R := Rnd.ieee)) _ _).1 (by decide +kernel)
  obtain ⟨r, hr, _⟩ := inst_box Rnd.ieee S rng _ _ [] _ _ y1 y2
  have key := (C109_box_rounded_partial S rng _ instOptions _ _ _ _ (inst_file _ _ _) (if_pos rfl) y1 y2
    (by unfold EdgesOkU; decide +kernel) ⟨by decide +kernel, fun e => Iff.rfl⟩ (by rw [inst_listed]; decide) (by decide) r hr).2
    (by unfold Unnested; rw [inst_listed]; decide +kernel)
  refine ⟨r, hr, ?_⟩
  norm_num at key
  norm_num
  exact key

/-- C110 with rounding: one more right hypothesis. -/
example : ∃ r r' : Report Str (DocBox Str UInt32),
    mainWith Rnd.ieee S rng (icdarKit Rnd.ieee S) (instWorld "q d 0 0 1 1\nq d 0 0 5 1\n".toList
      "q d 0 0 5 1 1\nq e 0 0 5 1 2\n".toList []) instOptions = .ok (.done r) ∧
    mainWith Rnd.ieee S rng (icdarKit Rnd.ieee S) (instWorld "q d 0 0 1 1\nq d 0 0 5 1\n".toList
      "q d 0 0 1 1 3\nq d 0 0 5 1 1\nq e 0 0 5 1 2\n".toList []) instOptions = .ok (.done r') ∧
    r.gAP.value ≤ r'.gAP.value + 113 / 2 ^ 52 := by
  have y1 : Yields BoxEventText (lines "q d 0 0 1 1\nq d 0 0 5 1\n".toList)
      [⟨['q'], ⟨⟨0, 0, 1, 1⟩, ['d']⟩⟩, ⟨['q'], ⟨⟨0, 0, 5, 1⟩, ['d']⟩⟩] :=
    (C48_accepts (Format.boxRefs (R := Rnd.ieee)) _ _).1 (by decide +kernel)
  have y2 : Yields (ScoredText Rnd.ieee BoxEventText) (lines "q d 0 0 5 1 1\nq e 0 0 5 1 2\n".toList)
      [⟨⟨['q'], ⟨⟨0, 0, 5, 1⟩, ['d']⟩⟩, .fin 1⟩, ⟨⟨['q'], ⟨⟨0, 0, 5, 1⟩, ['e']⟩⟩, .fin 2⟩] :=
    (C48_accepts (Format.boxHyps (R := Rnd.ieee)) _ _).1 (by decide +kernel)
  have y3 : Yields (ScoredText Rnd.ieee BoxEventText)
      (lines "q d 0 0 1 1 3\nq d 0 0 5 1 1\nq e 0 0 5 1 2\n".toList)
      [⟨⟨['q'], ⟨⟨0, 0, 1, 1⟩, ['d']⟩⟩, .fin 3⟩, ⟨⟨['q'], ⟨⟨0, 0, 5, 1⟩, ['d']⟩⟩, .fin 1⟩,
        ⟨⟨['q'], ⟨⟨0, 0, 5, 1⟩, ['e']⟩⟩, .fin 2⟩] :=
    (C48_accepts (Format.boxHyps (R := Rnd.ieee)) _ _).1 (by decide +kernel)
  obtain ⟨r, hr, _⟩ := inst_box Rnd.ieee S rng _ _ [] _ _ y1 y2
  obtain ⟨r', hr', _⟩ := inst_box Rnd.ieee S rng _ _ [] _ _ y1 y3
  obtain ⟨k1, k2⟩ := C110_add [⟨['q'], ⟨⟨0, 0, 1, 1⟩, ['d']⟩⟩, ⟨['q'], ⟨⟨0, 0, 5, 1⟩, ['d']⟩⟩]
    [⟨⟨['q'], ⟨⟨0, 0, 5, 1⟩, ['d']⟩⟩, .fin 1⟩, ⟨⟨['q'], ⟨⟨0, 0, 5, 1⟩, ['e']⟩⟩, .fin 2⟩]
    ⟨⟨['q'], ⟨⟨0, 0, 1, 1⟩, ['d']⟩⟩, .fin 3⟩ (by decide +kernel)
  have key := (C110_box_rounded S S rng rng _ _ instOptions _ _ _
    ⟨⟨_, inst_file _ _ _, inst_file _ _ _, y1⟩, ⟨_, if_pos rfl, y2⟩, ⟨_, if_pos rfl, y3⟩, rfl, rfl⟩
    (by unfold EdgesOkU; decide +kernel) (by unfold EdgesOkU; decide +kernel) (by decide) (by decide)
    rfl rfl rfl k1 k2 r r' hr hr').1
  refine ⟨r, r', hr, hr', key.trans_eq ?_⟩
  norm_num

/-- C111 with rounding: a right hypothesis gets a higher score. -/
example : ∃ r r' : Report Str (DocBox Str UInt32),
    mainWith Rnd.ieee S rng (icdarKit Rnd.ieee S) (instWorld "q d 0 0 4 1\nq d 4 0 4 1\n".toList
      "q d 1 0 4 1 1\nq e 0 0 5 1 2\n".toList []) instOptions = .ok (.done r) ∧
    mainWith Rnd.ieee S rng (icdarKit Rnd.ieee S) (instWorld "q d 0 0 4 1\nq d 4 0 4 1\n".toList
      "q d 1 0 4 1 3\nq e 0 0 5 1 2\n".toList []) instOptions = .ok (.done r') ∧
    r.gAP.value ≤ r'.gAP.value + 98 / 2 ^ 52 := by
  have y1 : Yields BoxEventText (lines "q d 0 0 4 1\nq d 4 0 4 1\n".toList)
      [⟨['q'], ⟨⟨0, 0, 4, 1⟩, ['d']⟩⟩, ⟨['q'], ⟨⟨4, 0, 4, 1⟩, ['d']⟩⟩] :=
    (C48_accepts (Format.boxRefs (R := Rnd.ieee)) _ _).1 (by decide +kernel)
  have y2 : Yields (ScoredText Rnd.ieee BoxEventText) (lines "q d 1 0 4 1 1\nq e 0 0 5 1 2\n".toList)
      [⟨⟨['q'], ⟨⟨1, 0, 4, 1⟩, ['d']⟩⟩, .fin 1⟩, ⟨⟨['q'], ⟨⟨0, 0, 5, 1⟩, ['e']⟩⟩, .fin 2⟩] :=
    (C48_accepts (Format.boxHyps (R := Rnd.ieee)) _ _).1 (by decide +kernel)
  have y3 : Yields (ScoredText Rnd.ieee BoxEventText) (lines "q d 1 0 4 1 3\nq e 0 0 5 1 2\n".toList)
      [⟨⟨['q'], ⟨⟨1, 0, 4, 1⟩, ['d']⟩⟩, .fin 3⟩, ⟨⟨['q'], ⟨⟨0, 0, 5, 1⟩, ['e']⟩⟩, .fin 2⟩] :=
    (C48_accepts (Format.boxHyps (R := Rnd.ieee)) _ _).1 (by decide +kernel)
  obtain ⟨r, hr, _⟩ := inst_box Rnd.ieee S rng _ _ [] _ _ y1 y2
  obtain ⟨r', hr', _⟩ := inst_box Rnd.ieee S rng _ _ [] _ _ y1 y3
  obtain ⟨k1, k2⟩ := C111_adjust [⟨['q'], ⟨⟨0, 0, 4, 1⟩, ['d']⟩⟩, ⟨['q'], ⟨⟨4, 0, 4, 1⟩, ['d']⟩⟩]
    [⟨⟨['q'], ⟨⟨1, 0, 4, 1⟩, ['d']⟩⟩, .fin 1⟩, ⟨⟨['q'], ⟨⟨0, 0, 5, 1⟩, ['e']⟩⟩, .fin 2⟩]
    (fun h => if h.score = .fin 1 then .fin 3 else h.score) (by decide +kernel) (by decide +kernel)
    (by decide +kernel)
  have key := (C111_box_rounded_partial S S rng rng _ _ instOptions _ _ _
    ⟨⟨_, inst_file _ _ _, inst_file _ _ _, y1⟩, ⟨_, if_pos rfl, y2⟩, ⟨_, if_pos rfl, y3⟩, rfl, rfl⟩
    (by unfold EdgesOkU; decide +kernel) (by unfold EdgesOkU; decide +kernel) (by decide) (by decide)
    rfl rfl rfl k1 (by unfold FitsOne; decide +kernel) k2 r r' hr hr').1
  refine ⟨r, r', hr, hr', key.trans_eq ?_⟩
  norm_num

/-- C99: a second hypothesis, on the other reference. -/
example : ∃ (r r' : Report Str (DocBox Str UInt32))
    (ms rep ms' rep' : List (Match (Event Str (DocBox Str UInt32)) (ScoredEvent Str (DocBox Str UInt32)))),
    mainWith Rnd.ieee S rng (icdarKit Rnd.ieee S) (instWorld "a d 0 0 2 2\nb d 0 0 2 2\n".toList
      "b d 0 0 2 2 0.5\na d 9 9 2 2 1.5\n".toList []) instOptions = .ok (.done r) ∧
    mainWith Rnd.ieee S rng (icdarKit Rnd.ieee S) (instWorld "a d 0 0 2 2\nb d 0 0 2 2\n".toList
      "b d 0 0 2 2 0.5\na d 0 0 2 2 3\na d 9 9 2 2 1.5\n".toList []) instOptions = .ok (.done r') ∧
    r.dump = some (ms, rep) ∧ r'.dump = some (ms', rep') ∧ hitCount ms ≤ hitCount ms' ∧
    hitCount ms' ≤ hitCount ms + 1 := by
  have y1 := instRefs_read
  have y2 := instHyps_read _ (.inr rfl)
  have y3 : Yields (ScoredText Rnd.ieee BoxEventText) (lines "b d 0 0 2 2 0.5\na d 0 0 2 2 3\na d 9 9 2 2 1.5\n".toList)
      [⟨⟨['b'], ⟨⟨0, 0, 2, 2⟩, ['d']⟩⟩, .fin (1 / 2)⟩, ⟨⟨['a'], ⟨⟨0, 0, 2, 2⟩, ['d']⟩⟩, .fin 3⟩,
        ⟨⟨['a'], ⟨⟨9, 9, 2, 2⟩, ['d']⟩⟩, .fin (3 / 2)⟩] :=
    (C48_accepts (Format.boxHyps (R := Rnd.ieee)) _ _).1 (by decide +kernel)
  obtain ⟨r, hr, ms, rep, hd⟩ := inst_box Rnd.ieee S rng _ _ [] _ _ y1 y2
  obtain ⟨r', hr', ms', rep', hd'⟩ := inst_box Rnd.ieee S rng _ _ [] _ _ y1 y3
  exact ⟨r, r', ms, rep, ms', rep', hr, hr', hd, hd', C99_box_hypothesis Rnd.ieee S rng rng _ _ instOptions
    _ _ _ _ _ _ _ _ (inst_file _ _ _) (if_pos rfl) (inst_file _ _ _) (if_pos rfl) y1 y1 y2 y3
    (List.Perm.swap _ _ _) rfl instRefs_edges (by unfold InRangeU EdgesOkU; decide +kernel)
    (.inr ⟨rfl, by decide +kernel, by decide⟩) rfl rfl r r' hr hr' ms rep ms' rep' hd hd'⟩

theorem inst_boxRun {t u s : Str} {refs : List (Event Str (DocBox Str UInt32))}
    {hyps : List (ScoredEvent Str (DocBox Str UInt32))} {r : Report Str (DocBox Str UInt32)}
    (y1 : Yields BoxEventText (lines t) refs) (y2 : Yields (ScoredText Rnd.exact BoxEventText) (lines u) hyps)
    (h1 : ∀ r ∈ refs, EdgesOkU r.location.toBBox) (h2 : ∀ h ∈ hyps, InRangeU h.base)
    (h : mainWith Rnd.exact S rng (icdarKit Rnd.exact S) (instWorld t u s) instOptions = .ok (.done r)) :
    BoxRun Rnd.exact (instWorld t u s) instOptions refs hyps r 0 :=
  ⟨⟨_, inst_file _ _ _, y1⟩, ⟨_, if_pos rfl, y2⟩, h1, h2, fun e => absurd e exact_ne_ieee, .inl ⟨rfl, rfl⟩, G, S, rng, h⟩

/-- C120 for boxes: the collection and a copy with a prime. -/
example : ∃ r r' : Report Str (DocBox Str UInt32),
    mainWith Rnd.exact S rng (icdarKit Rnd.exact S) (instWorld "a d 0 0 2 2\nb d 0 0 2 2\n".toList
      "b d 0 0 2 2 0.5\na d 9 9 2 2 1.5\n".toList []) instOptions = .ok (.done r) ∧
    mainWith Rnd.exact S rng (icdarKit Rnd.exact S)
      (instWorld "a d 0 0 2 2\nb d 0 0 2 2\na' d 0 0 2 2\nb' d 0 0 2 2\n".toList
      "b d 0 0 2 2 0.5\na d 9 9 2 2 1.5\nb' d 0 0 2 2 0.5\na' d 9 9 2 2 1.5\n".toList []) instOptions = .ok (.done r') ∧
    SameButGlobalNDCG r 0 r' 0 := by
  have y1 := instRefs_read
  have y2 := instHyps_read _ (.inl rfl)
  have z1 : Yields BoxEventText (lines "a d 0 0 2 2\nb d 0 0 2 2\na' d 0 0 2 2\nb' d 0 0 2 2\n".toList)
      (instRefs ++ instRefs.map (byName (primed 1))) :=
    (C48_accepts (Format.boxRefs (R := Rnd.exact)) _ _).1 (by decide +kernel)
  have z2 : Yields (ScoredText Rnd.exact BoxEventText)
      (lines "b d 0 0 2 2 0.5\na d 9 9 2 2 1.5\nb' d 0 0 2 2 0.5\na' d 9 9 2 2 1.5\n".toList)
      (instHyps ++ instHyps.map (scoredByName (primed 1))) :=
    (C48_accepts (Format.boxHyps (R := Rnd.exact)) _ _).1 (by decide +kernel)
  obtain ⟨r, hr, _⟩ := inst_box Rnd.exact S rng _ _ [] _ _ y1 y2
  obtain ⟨r', hr', _⟩ := inst_box Rnd.exact S rng _ _ [] _ _ z1 z2
  have hcp : Copies primed instRefs (instRefs ++ instRefs.map (byName (primed 1))) instHyps
      (instHyps ++ instHyps.map (scoredByName (primed 1))) := by
    refine ⟨by unfold ApartOn; decide +kernel, fun r => ?_, by decide +kernel⟩
    have e : instRefs.map (byName (primed 0)) = instRefs := by decide +kernel
    rw [Fin.exists_fin_two, List.mem_append]
    refine or_congr ?_ ?_
    · conv_lhs => rw [← e]
      rw [List.mem_map]
      simp only [eq_comm]
    · rw [List.mem_map]
      simp only [eq_comm]
  exact ⟨r, r', hr, hr', C120_box two_ne_zero
    (inst_boxRun S rng y1 y2 instRefs_edges (by unfold InRangeU EdgesOkU; decide +kernel) hr)
    (inst_boxRun S rng z1 z2 (by unfold EdgesOkU; decide +kernel) (by unfold InRangeU EdgesOkU; decide +kernel) hr')
    rfl rfl hcp (C120_no_files hcp rfl rfl)⟩

/-- C116 for boxes: the evaluations of `a` and of `b`. -/
example : ∃ r r₂ r' : Report Str (DocBox Str UInt32),
    mainWith Rnd.exact S rng (icdarKit Rnd.exact S) (instWorld "a d 0 0 2 2\n".toList "a d 9 9 2 2 1.5\n".toList [])
      instOptions = .ok (.done r) ∧
    mainWith Rnd.exact S rng (icdarKit Rnd.exact S) (instWorld "b d 0 0 2 2\n".toList "b d 0 0 2 2 0.5\n".toList [])
      instOptions = .ok (.done r₂) ∧
    mainWith Rnd.exact S rng (icdarKit Rnd.exact S) (instWorld "a d 0 0 2 2\nb d 0 0 2 2\n".toList
      "b d 0 0 2 2 0.5\na d 9 9 2 2 1.5\n".toList []) instOptions = .ok (.done r') ∧
    MeansPooled r 1 0 r₂ 1 0 r' 0 := by
  have y1 : Yields BoxEventText (lines "a d 0 0 2 2\n".toList) [⟨['a'], ⟨⟨0, 0, 2, 2⟩, ['d']⟩⟩] :=
    (C48_accepts (Format.boxRefs (R := Rnd.exact)) _ _).1 (by decide +kernel)
  have y2 : Yields (ScoredText Rnd.exact BoxEventText) (lines "a d 9 9 2 2 1.5\n".toList)
      [⟨⟨['a'], ⟨⟨9, 9, 2, 2⟩, ['d']⟩⟩, .fin (3 / 2)⟩] :=
    (C48_accepts (Format.boxHyps (R := Rnd.exact)) _ _).1 (by decide +kernel)
  have x1 : Yields BoxEventText (lines "b d 0 0 2 2\n".toList) [⟨['b'], ⟨⟨0, 0, 2, 2⟩, ['d']⟩⟩] :=
    (C48_accepts (Format.boxRefs (R := Rnd.exact)) _ _).1 (by decide +kernel)
  have x2 : Yields (ScoredText Rnd.exact BoxEventText) (lines "b d 0 0 2 2 0.5\n".toList)
      [⟨⟨['b'], ⟨⟨0, 0, 2, 2⟩, ['d']⟩⟩, .fin (1 / 2)⟩] :=
    (C48_accepts (Format.boxHyps (R := Rnd.exact)) _ _).1 (by decide +kernel)
  have z1 := instRefs_read
  have z2 := instHyps_read _ (.inl rfl)
  obtain ⟨r, hr, _⟩ := inst_box Rnd.exact S rng _ _ [] _ _ y1 y2
  obtain ⟨r₂, hr₂, _⟩ := inst_box Rnd.exact S rng _ _ [] _ _ x1 x2
  obtain ⟨r', hr', _⟩ := inst_box Rnd.exact S rng _ _ [] _ _ z1 z2
  have key := (C116_box
    (inst_boxRun S rng y1 y2 (by unfold EdgesOkU; decide +kernel) (by unfold InRangeU EdgesOkU; decide +kernel) hr)
    (inst_boxRun S rng x1 x2 (by unfold EdgesOkU; decide +kernel) (by unfold InRangeU EdgesOkU; decide +kernel) hr₂)
    (inst_boxRun S rng z1 z2 instRefs_edges (by unfold InRangeU EdgesOkU; decide +kernel) hr')
    ((inst_group _ _ _).trans (inst_group _ _ _).symm) ((inst_group _ _ _).trans (inst_group _ _ _).symm)
    ((inst_listed _ _ _).trans (inst_listed _ _ _).symm) ((inst_listed _ _ _).trans (inst_listed _ _ _).symm) rfl rfl
    ⟨fun r => by simp [instRefs], List.Perm.swap _ _ _, by rw [inst_group]; decide +kernel⟩).2
  simp only [inst_group, inst_listed] at key
  generalize hg : groupCount (Q := Str) (L := DocBox Str UInt32) id _ _ = g at key
  generalize hg₂ : groupCount (Q := Str) (L := DocBox Str UInt32) id _ _ = g₂ at key
  have e : g = 1 := hg.symm.trans (by decide +kernel)
  have e₂ : g₂ = 1 := hg₂.symm.trans (by decide +kernel)
  subst e e₂
  exact ⟨r, r₂, r', hr, hr₂, hr', key⟩

end

/-! ## The segmentation-based tool -/

section
variable {G : Type} (S : StdSort) (rng : Rng G) (qf : Bool)

theorem inst_words (t u : Str) (h : (words t ++ words u).dedup.length ≤ 2 ^ 31) :
    (vocabulary (instWorld t u []) instOptions).dedup.length ≤ 2 ^ 31 := by
  have e : vocabulary (instWorld t u []) instOptions = words t ++ words u := by
    unfold vocabulary
    rw [show (instWorld t u []).file instOptions.refFilename = some t from inst_file _ _ _,
      show (instWorld t u []).file instOptions.querySet = none by rfl,
      show (instWorld t u []).file instOptions.queryGroups = none by rfl,
      show hypText (instWorld t u []) instOptions = some u from if_pos rfl]
    simp
  rw [e]
  exact h

def instSegRefs : List (Event Str Str) := [⟨['a'], ['l']⟩, ⟨['b'], ['l']⟩, ⟨['b'], ['m']⟩]

def instSegHyps : List (ScoredEvent Str Str) :=
  [⟨⟨['b'], ['l']⟩, .fin 2⟩, ⟨⟨['a'], ['m']⟩, .fin 3⟩, ⟨⟨['a'], ['l']⟩, .fin 1⟩]

theorem instSegRefs_read : Yields StrEventText (lines "a l\nb l\nb m\n".toList) instSegRefs :=
  (C48_accepts (Format.strRefs (R := Rnd.exact)) _ _).1 (by decide +kernel)

theorem instSegHyps_read (R : Rnd) (hR : R = Rnd.exact ∨ R = Rnd.ieee) : Yields (ScoredText R StrEventText)
    (lines "b l 2\na m 3\na l 1\n".toList) instSegHyps := by
  rcases hR with rfl | rfl
  · exact (C48_accepts (Format.strHyps (R := Rnd.exact)) _ _).1 (by decide +kernel)
  · exact (C48_accepts (Format.strHyps (R := Rnd.ieee)) _ _).1 (by decide +kernel)

/-- C68: other scores in the same order. -/
example : ∃ r r', mainWith Rnd.ieee S rng (simpleKit Rnd.ieee qf) (instWorld "a l\nb l\nb m\n".toList
      "b l 2\na m 3\na l 1\n".toList []) instOptions = .ok (.done r) ∧
    mainWith Rnd.ieee S rng (simpleKit Rnd.ieee qf) (instWorld "a l\nb l\nb m\n".toList
      "b l -12\na m 7\na l -19\n".toList []) instOptions = .ok (.done r') ∧ SameNumbers r r' := by
  have y1 := instSegRefs_read
  have y2 := instSegHyps_read _ (.inr rfl)
  have y3 : Yields (ScoredText Rnd.ieee StrEventText) (lines "b l -12\na m 7\na l -19\n".toList)
      (instSegHyps.map (rescored scoreChange)) :=
    (C48_accepts (Format.strHyps (R := Rnd.ieee)) _ _).1 (by decide +kernel)
  obtain ⟨r, hr⟩ := inst_seg Rnd.ieee S rng qf _ _ [] _ _ y1 y2 (inst_words _ _ (by decide +kernel))
  obtain ⟨r', hr'⟩ := inst_seg Rnd.ieee S rng qf _ _ [] _ _ y1 y3 (inst_words _ _ (by decide +kernel))
  refine ⟨r, r', hr, hr', (C68_segmentation Rnd.ieee S S rng rng qf _ _ instOptions _ _ _ _ instSegHyps scoreChange ?_
    (inst_file _ _ _) (inst_file _ _ _) (if_pos rfl) (if_pos rfl) y1 y2 y3 rfl rfl rfl
    (Or.inr ⟨ieee_faithful, by decide⟩) rfl rfl r r' hr hr').1⟩
  intro x _ y _ hxy
  unfold scoreChange
  have : x ^ 3 < y ^ 3 := (Odd.strictMono_pow (by decide)) hxy
  linarith

/-- C71 with rounding: a right hypothesis gets a higher score. -/
example : ∃ r r', mainWith Rnd.ieee S rng (simpleKit Rnd.ieee qf) (instWorld "a l\nb l\n".toList
      "b l 1\na m 2\na l 1\n".toList []) instOptions = .ok (.done r) ∧
    mainWith Rnd.ieee S rng (simpleKit Rnd.ieee qf) (instWorld "a l\nb l\n".toList
      "b l 3\na m 2\na l 1\n".toList []) instOptions = .ok (.done r') ∧
    r.gAP.value ≤ r'.gAP.value + 128 / 2 ^ 52 := by
  have y1 := betterExample_yields.1
  have y2 : Yields (ScoredText Rnd.ieee StrEventText) (lines "b l 1\na m 2\na l 1\n".toList) (betterHyps 1) :=
    (C48_accepts (Format.strHyps (R := Rnd.ieee)) _ _).1 (by decide +kernel)
  have y3 : Yields (ScoredText Rnd.ieee StrEventText) (lines "b l 3\na m 2\na l 1\n".toList) (betterHyps 3) :=
    (C48_accepts (Format.strHyps (R := Rnd.ieee)) _ _).1 (by decide +kernel)
  have v := inst_words "a l\nb l\n".toList "b l 1\na m 2\na l 1\n".toList (by decide +kernel)
  have v' := inst_words "a l\nb l\n".toList "b l 3\na m 2\na l 1\n".toList (by decide +kernel)
  obtain ⟨r, hr⟩ := inst_seg Rnd.ieee S rng qf _ _ [] _ _ y1 y2 v
  obtain ⟨r', hr'⟩ := inst_seg Rnd.ieee S rng qf _ _ [] _ _ y1 y3 v'
  have key := (C71_segmentation_rounded S S rng rng qf _ _ instOptions v v' _ _ _ _ _ _ (inst_file _ _ _)
    (inst_file _ _ _) (if_pos rfl) (if_pos rfl) y1 y2 y3 (by decide) (by decide)
    ((inst_group _ _ _).trans (inst_group _ _ _).symm) ((inst_listed _ _ _).trans (inst_listed _ _ _).symm) rfl rfl rfl
    better_improved r r' hr hr').1
  refine ⟨r, r', hr, hr', key.trans_eq ?_⟩
  norm_num [betterRefs, betterHyps]

/-- C109 with rounding: all references are handed in, one of them twice. -/
example : ∃ r, mainWith Rnd.ieee S rng (simpleKit Rnd.ieee qf) (instWorld "a l\nb l\nb m\n".toList
      "b m 1\nb l 2\na l 1\nb l 0\n".toList []) instOptions = .ok (.done r) ∧ Shows r ⟨1, 1, 1, 1⟩ (100 / 2 ^ 52) := by
  have y1 := instSegRefs_read
  have y2 : Yields (ScoredText Rnd.ieee StrEventText) (lines "b m 1\nb l 2\na l 1\nb l 0\n".toList)
      [⟨⟨['b'], ['m']⟩, .fin 1⟩, ⟨⟨['b'], ['l']⟩, .fin 2⟩, ⟨⟨['a'], ['l']⟩, .fin 1⟩, ⟨⟨['b'], ['l']⟩, .fin 0⟩] :=
    (C48_accepts (Format.strHyps (R := Rnd.ieee)) _ _).1 (by decide +kernel)
  have v := inst_words "a l\nb l\nb m\n".toList "b m 1\nb l 2\na l 1\nb l 0\n".toList (by decide +kernel)
  obtain ⟨r, hr⟩ := inst_seg Rnd.ieee S rng qf _ _ [] _ _ y1 y2 v
  have key := C109_segmentation_rounded S rng qf _ instOptions v _ _ _ _ (inst_file _ _ _) (if_pos rfl) y1 y2 (by
    refine fun e => ⟨fun h => ?_, fun h => ?_⟩ <;>
    · revert h
      revert e
      decide +kernel) (by rw [inst_listed]; decide) (by decide) r hr
  refine ⟨r, hr, ?_⟩
  norm_num [instSegRefs] at key
  norm_num
  exact key

theorem inst_segRun {t u : Str} {refs : List (Event Str Str)} {hyps : List (ScoredEvent Str Str)} {r : Report Nat Nat}
    (y1 : Yields StrEventText (lines t) refs) (y2 : Yields (ScoredText Rnd.exact StrEventText) (lines u) hyps)
    (v : (vocabulary (instWorld t u []) instOptions).dedup.length ≤ 2 ^ 31)
    (h : mainWith Rnd.exact S rng (simpleKit Rnd.exact qf) (instWorld t u []) instOptions = .ok (.done r)) :
    SegRun Rnd.exact (instWorld t u []) instOptions refs hyps r 0 :=
  ⟨⟨_, inst_file _ _ _, y1⟩, ⟨_, if_pos rfl, y2⟩, v, .inl ⟨rfl, rfl⟩, G, S, rng, qf, h⟩

/-- C112: references of a query for which there are no hypotheses. -/
example : ∃ r r', mainWith Rnd.exact S rng (simpleKit Rnd.exact qf) (instWorld "a l\nb l\nb m\n".toList
      "b l 2\na m 3\na l 1\n".toList []) instOptions = .ok (.done r) ∧
    mainWith Rnd.exact S rng (simpleKit Rnd.exact qf) (instWorld "a l\nb l\nb m\nc l\n".toList
      "b l 2\na m 3\na l 1\n".toList []) instOptions = .ok (.done r') ∧
    MeansDiluted r 2 0 r' 3 0 ∧ GlobalsDiluted r 3 0 r' 4 0 := by
  have y1 := instSegRefs_read
  have y2 := instSegHyps_read _ (.inl rfl)
  have z1 : Yields StrEventText (lines "a l\nb l\nb m\nc l\n".toList) (instSegRefs ++ [⟨['c'], ['l']⟩]) :=
    (C48_accepts (Format.strRefs (R := Rnd.exact)) _ _).1 (by decide +kernel)
  have v := inst_words "a l\nb l\nb m\n".toList "b l 2\na m 3\na l 1\n".toList (by decide +kernel)
  have v' := inst_words "a l\nb l\nb m\nc l\n".toList "b l 2\na m 3\na l 1\n".toList (by decide +kernel)
  obtain ⟨r, hr⟩ := inst_seg Rnd.exact S rng qf _ _ [] _ _ y1 y2 v
  obtain ⟨r', hr'⟩ := inst_seg Rnd.exact S rng qf _ _ [] _ _ z1 y2 v'
  have key := C112_segmentation (others := []) (inst_segRun S rng qf y1 y2 v hr) (inst_segRun S rng qf z1 y2 v' hr')
    ((inst_group _ _ _).trans (inst_group _ _ _).symm) ((inst_listed _ _ _).trans (inst_listed _ _ _).symm) rfl rfl
    ⟨fun r => List.mem_append, by rw [List.append_nil], by rw [inst_group]; decide +kernel⟩ (by simp)
  obtain ⟨k1, k2⟩ := key
  have k2 := k2 rfl
  simp only [inst_group, inst_listed] at k1 k2
  generalize hg' : groupCount (Q := Str) (L := Str) id _ _ = g' at k1
  generalize hg : groupCount (Q := Str) (L := Str) id _ _ = g at k1
  generalize hc' : Finset.card (α := Event Str Str) _ = c' at k2
  generalize hc : Finset.card (α := Event Str Str) _ = c at k2
  have e1 : g' = 2 := hg'.symm.trans (by decide +kernel)
  have e2 : g = 3 := hg.symm.trans (by decide +kernel)
  have e3 : c' = 3 := hc'.symm.trans (by decide +kernel)
  have e4 : c = 4 := hc.symm.trans (by decide +kernel)
  subst e1 e2 e3 e4
  exact ⟨r, r', hr, hr', k1, k2⟩

/-- C61: the tool with ids for strings and one without, on lines in another order. -/
example : EndAlike Rnd.ieee
    (mainWith Rnd.ieee S rng (strKit Rnd.ieee) (idsExample "a l\nb l\nc l\n".toList) idsOptions)
    (mainWith Rnd.ieee S rng (simpleKit Rnd.ieee qf) (idsExample "c l\na l\nb l\n".toList) idsOptions) :=
  C61_ids_partial Rnd.ieee S S rng rng qf _ _ idsOptions idsExample_reordered idsExample_vocabulary2 10
    (idsExample_lines _ (by decide +kernel)) (idsExample_lines _ (by decide +kernel))
    (idsExample_feasible _ _) (Or.inr ⟨ieee_faithful, by norm_num⟩) rfl rfl

/-- C58: only the query `b` of the set counts. -/
example : ∃ (f : Str → Nat) (q2g : List (Nat × Nat)), Function.Injective f ∧
    mainWith Rnd.ieee S rng (simpleKit Rnd.ieee qf) (instWorld "a l\nb l\nb m\n".toList "b l 2\na m 3\na l 1\n".toList
        "b c\n".toList) { instOptions with querySet := "s".toList } =
      matchAndAssess Rnd.ieee S rng (simpleKit Rnd.ieee qf) (instWorld "a l\nb l\nb m\n".toList
        "b l 2\na m 3\na l 1\n".toList "b c\n".toList) { instOptions with querySet := "s".toList } q2g
        [⟨f ['b'], f ['l']⟩, ⟨f ['b'], f ['m']⟩] [⟨⟨f ['b'], f ['l']⟩, .fin 2⟩] := by
  obtain ⟨f, q2g, h1, h2, _⟩ := C58_segmentation_query_set Rnd.ieee S rng qf (instWorld "a l\nb l\nb m\n".toList
    "b l 2\na m 3\na l 1\n".toList "b c\n".toList) { instOptions with querySet := "s".toList } (by decide +kernel)
    _ _ "b c\n".toList instSegRefs instSegHyps (by decide) (inst_file _ _ _) (if_pos rfl) (by decide +kernel)
    (by decide +kernel) (by decide) rfl (by decide +kernel)
  refine ⟨f, q2g, h1, h2.trans ?_⟩
  rw [show keep (·.query) (words "b c\n".toList) instSegRefs = [⟨['b'], ['l']⟩, ⟨['b'], ['m']⟩] by decide +kernel,
    show keep (·.base.query) (words "b c\n".toList) instSegHyps = [⟨⟨['b'], ['l']⟩, .fin 2⟩] by decide +kernel]
  rfl

/-- C58: `a` and `b` are in the group `x`. -/
example : ∃ (f : Str → Nat) (q2g : List (Nat × Nat)), Function.Injective f ∧
    mainWith Rnd.ieee S rng (simpleKit Rnd.ieee qf) (instWorld "a l\nb l\nb m\nc m\n".toList
        "b l 2\na m 3\na l 1\n".toList "x a b\n".toList) { instOptions with queryGroups := "s".toList } =
      matchAndAssess Rnd.ieee S rng (simpleKit Rnd.ieee qf) (instWorld "a l\nb l\nb m\nc m\n".toList
        "b l 2\na m 3\na l 1\n".toList "x a b\n".toList) { instOptions with queryGroups := "s".toList } q2g
        (instSegRefs.map (fun e => ⟨f e.query, f e.location⟩))
        (instSegHyps.map (fun e => ⟨⟨f e.base.query, f e.base.location⟩, e.score⟩)) ∧
      groupOf q2g (f ['a']) = f ['x'] ∧ groupOf q2g (f ['b']) = f ['x'] := by
  obtain ⟨f, q2g, h1, h2, h3⟩ := (C58_segmentation_query_groups Rnd.ieee S rng qf (instWorld
    "a l\nb l\nb m\nc m\n".toList "b l 2\na m 3\na l 1\n".toList "x a b\n".toList)
    { instOptions with queryGroups := "s".toList } (by decide +kernel)
    _ _ "x a b\n".toList (instSegRefs ++ [⟨['c'], ['m']⟩]) instSegHyps (by decide) (inst_file _ _ _) (if_pos rfl)
    (by decide +kernel) (by decide +kernel) (by decide) (by decide +kernel)).1
    (by unfold WellFormedGroups; decide +kernel)
  refine ⟨f, q2g, h1, h2.trans ?_, (h3 _).trans (congrArg f (by decide +kernel)),
    (h3 _).trans (congrArg f (by decide +kernel))⟩
  rw [show keep (·.query) (listedIn ((lines "x a b\n".toList).map words)) (instSegRefs ++ [⟨['c'], ['m']⟩]) =
      instSegRefs by decide +kernel,
    show keep (·.base.query) (listedIn ((lines "x a b\n".toList).map words)) instSegHyps = instSegHyps by decide +kernel]

/-- C58: no file with queries. -/
example := C58_segmentation_no_filter Rnd.ieee S rng qf (instWorld "a l\nb l\nb m\n".toList
  "b l 2\na m 3\na l 1\n".toList []) instOptions (inst_words _ _ (by decide +kernel)) _ _ instSegRefs instSegHyps (by decide)
  (inst_file _ _ _) (if_pos rfl) (by decide +kernel) (by decide +kernel) rfl rfl

/-- C61: strings and their images under two injections. -/
example : EndAlike Rnd.ieee
    (evaluate Rnd.ieee S rng (strKit Rnd.ieee) (instWorld [] [] []) idsOptions [] instSegRefs instSegHyps)
    (evaluate Rnd.ieee S rng (strKit Rnd.ieee) (instWorld [] [] []) idsOptions []
      [⟨['q', 'a'], ['d', 'l']⟩, ⟨['q', 'b'], ['d', 'm']⟩, ⟨['q', 'b'], ['d', 'l']⟩]
      [⟨⟨['q', 'a'], ['d', 'm']⟩, .fin 3⟩, ⟨⟨['q', 'b'], ['d', 'l']⟩, .fin 2⟩, ⟨⟨['q', 'a'], ['d', 'l']⟩, .fin 1⟩]) :=
  C61_renaming_partial Rnd.ieee S S rng rng (strKit Rnd.ieee) (strKit Rnd.ieee) (str_seg _) (str_seg _) _ idsOptions
    (f := fun q => 'q' :: q) (g := fun d => 'd' :: d) (fun a b h => (List.cons.inj h).2)
    (fun a b h => (List.cons.inj h).2) [] _ _ _ _
    (fun r => by
      simp only [instSegRefs, List.mem_cons, List.not_mem_nil, or_false, exists_eq_or_imp, exists_eq_left]
      tauto)
    (List.Perm.swap _ _ _) (by decide +kernel) 6 (by decide) (by decide)
    ⟨fun h => by simp [idsOptions] at h, fun h => absurd rfl h, fun h => absurd rfl h,
      fun h => by simp [idsOptions] at h⟩ (Or.inr ⟨ieee_faithful, by norm_num⟩) rfl rfl

/-- C73: both queries are in one group. -/
example : ∃ r, mainWith Rnd.ieee S rng (simpleKit Rnd.ieee qf) (instWorld "a l\nb l\nb m\n".toList
      "b l 2\na m 3\na l 1\n".toList "x a b\n".toList) { instOptions with queryGroups := "s".toList } = .ok (.done r) ∧
    r.mAP = r.gAP ∧ r.mNDCG = r.gNDCG := by
  have v : (vocabulary (instWorld "a l\nb l\nb m\n".toList "b l 2\na m 3\na l 1\n".toList "x a b\n".toList)
    { instOptions with queryGroups := "s".toList }).dedup.length ≤ 2 ^ 31 := by decide +kernel
  have y1 := instSegRefs_read
  have y2 := instSegHyps_read _ (.inr rfl)
  obtain ⟨r, hr, _⟩ := (C62_segmentation_partial Rnd.ieee S rng qf (instWorld "a l\nb l\nb m\n".toList
      "b l 2\na m 3\na l 1\n".toList "x a b\n".toList) { instOptions with queryGroups := "s".toList } v
    (fun t u _ _ => ⟨fun h => by simp [instOptions] at h, fun _ => rfl,
      fun h => absurd rfl h, fun h => by simp [instOptions] at h⟩)).1
    ⟨⟨by decide, ⟨_, inst_file _ _ _, yields_valid y1⟩, ⟨_, if_pos rfl, yields_valid y2⟩,
      fun h => absurd rfl h, fun _ => ⟨"x a b\n".toList, by decide +kernel,
        by unfold WellFormedGroups; decide +kernel⟩⟩, .inr rfl⟩
  have key := C73_segmentation Rnd.ieee ieee_precise S rng qf _ _ v _ _ _ _ (inst_file _ _ _) (if_pos rfl) y1 y2 ['x']
    (by decide +kernel) (by decide +kernel) r hr
  exact ⟨r, hr, key.1 rfl, key.2.1 rfl⟩

/-- For each query there is a file with its name. -/
def partsWorld : World where
  file f := if f = "r".toList then some "a l\nb l\nb m\n".toList
    else if f = "a".toList then some "a\n".toList else if f = "b".toList then some "b\n".toList else none
  stdin := "b l 2\na m 3\na l 1\n".toList
  writable _ := true

/-- The ids after reading the references. -/
def partsRefIds : IntMapper := ((simpleKit Rnd.ieee true).readRef IntMapper.new "a l\nb l\nb m\n".toList).1

/-- The ids after reading the hypotheses. -/
def partsHypIds : IntMapper := ((simpleKit Rnd.ieee true).readHyp partsRefIds "b l 2\na m 3\na l 1\n".toList).1

theorem partsRefIds_read : (simpleKit Rnd.ieee true).readRef IntMapper.new "a l\nb l\nb m\n".toList =
    (partsRefIds, [⟨0, 1⟩, ⟨2, 1⟩, ⟨2, 3⟩], .ok) := Prod.ext rfl (by decide +kernel)

theorem partsHypIds_read : (simpleKit Rnd.ieee true).readHyp partsRefIds "b l 2\na m 3\na l 1\n".toList =
    (partsHypIds, [⟨⟨2, 1⟩, .fin 2⟩, ⟨⟨0, 3⟩, .fin 3⟩, ⟨⟨0, 1⟩, .fin 1⟩], .ok) := Prod.ext rfl (by decide +kernel)

/-- C96: the evaluations of `a` and `b`, whose ids are 0 and 2. -/
example : ∃ (r : Report Nat Nat) (qs : List Nat) (rs : Nat → Report Nat Nat),
    mainWith Rnd.ieee S rng (simpleKit Rnd.ieee true) partsWorld instOptions = .ok (.done r) ∧
    qs.Nodup ∧ (∀ q, q ∈ qs ↔ q = 0 ∨ q = 2) ∧
    (∀ q ∈ qs, mainWith Rnd.ieee S rng (simpleKit Rnd.ieee true) partsWorld
      { instOptions with querySet := if q = 0 then "a".toList else "b".toList } = .ok (.done (rs q))) ∧
    r.mAP.value = roundedMean Rnd.ieee (qs.map (fun q => (rs q).gAP.value)) := by
  have hf : partsWorld.file instOptions.refFilename = some "a l\nb l\nb m\n".toList := by decide +kernel
  have v : (vocabulary partsWorld instOptions).dedup.length ≤ 2 ^ 31 := by decide +kernel
  obtain ⟨r, hr, _⟩ := (C62_segmentation_partial Rnd.ieee S rng true partsWorld instOptions v
    (fun t u _ _ => ⟨fun h => by simp [instOptions] at h, fun _ => rfl,
      fun h => absurd rfl h, fun h => by simp [instOptions] at h⟩)).1
    ⟨⟨by decide, ⟨_, hf, yields_valid instSegRefs_read⟩, ⟨_, if_pos rfl, yields_valid (instSegHyps_read _ (.inr rfl))⟩,
      fun h => absurd rfl h, fun h => absurd rfl h⟩, .inr rfl⟩
  have hocc : ∀ q : Nat, ((∃ e ∈ ([⟨0, 1⟩, ⟨2, 1⟩, ⟨2, 3⟩] : List (Event Nat Nat)), e.query = q) ∨
      ∃ h ∈ ([⟨⟨2, 1⟩, .fin 2⟩, ⟨⟨0, 3⟩, .fin 3⟩, ⟨⟨0, 1⟩, .fin 1⟩] : List (ScoredEvent Nat Nat)), h.base.query = q) ↔
      q = 0 ∨ q = 2 := by
    intro q
    simp only [List.mem_cons, List.not_mem_nil, or_false, exists_eq_or_imp, exists_eq_left]
    omega
  obtain ⟨qs, rs, a1, a2, a3, a4, _⟩ := C96_segmentation Rnd.ieee S rng true partsWorld instOptions
    ⟨rfl, rfl, rfl, rfl, rfl, rfl⟩ _ _ partsRefIds partsHypIds [⟨0, 1⟩, ⟨2, 1⟩, ⟨2, 3⟩]
    [⟨⟨2, 1⟩, .fin 2⟩, ⟨⟨0, 3⟩, .fin 3⟩, ⟨⟨0, 1⟩, .fin 1⟩] (by decide) hf (if_pos rfl)
    partsRefIds_read partsHypIds_read rfl rfl
    (fun q => if q = 0 then "a".toList else "b".toList) (fun q hq => by
      rcases (hocc q).1 hq with rfl | rfl
      · exact ⟨by decide, "a\n".toList, ['a'], by decide +kernel, by decide +kernel, by decide +kernel⟩
      · exact ⟨by decide, "b\n".toList, ['b'], by decide +kernel, by decide +kernel, by decide +kernel⟩) r hr
  exact ⟨r, qs, rs, hr, a1, fun q => (a2 q).trans (hocc q), a3, a4⟩

/-- C43: the values with and without confidence intervals. -/
example : ∃ r r', evaluate Rnd.ieee S rng (simpleKit Rnd.ieee qf) caseWorld (caseOptions Rnd.ieee "r" "h") []
      [⟨0, 1⟩, ⟨2, 1⟩] [⟨⟨2, 1⟩, .fin 2⟩, ⟨⟨0, 3⟩, .fin 3⟩] = .ok (.done r) ∧
    evaluate Rnd.ieee S rng (simpleKit Rnd.ieee qf) caseWorld instOptions []
      [⟨0, 1⟩, ⟨2, 1⟩] [⟨⟨2, 1⟩, .fin 2⟩, ⟨⟨0, 3⟩, .fin 3⟩] = .ok (.done r') ∧
    r.gAP.ci.isSome = true ∧ r'.gAP.ci.isSome = false ∧ r.gAP.value = r'.gAP.value := by
  have hn : ∀ h ∈ ([⟨⟨2, 1⟩, .fin 2⟩, ⟨⟨0, 3⟩, .fin 3⟩] : List (ScoredEvent Nat Nat)), h.score ≠ .nan := by decide +kernel
  obtain ⟨r, h, c⟩ := ((simple_seg Rnd.ieee qf).safe.evaluate_total Rnd.ieee S rng caseWorld (caseOptions Rnd.ieee "r" "h") []
    [⟨0, 1⟩, ⟨2, 1⟩] _ 4 (Feasible.assessable (case_feasible _ (.inr rfl) _ _ _ (by norm_num))) hn (by decide)).2 (.inr rfl)
  obtain ⟨r', h', c'⟩ := ((simple_seg Rnd.ieee qf).safe.evaluate_total Rnd.ieee S rng caseWorld instOptions []
    [⟨0, 1⟩, ⟨2, 1⟩] _ 4 (Feasible.assessable ⟨fun h => by simp [instOptions] at h, fun _ => rfl,
      fun h => absurd rfl h, fun h => by simp [instOptions] at h⟩) hn (by decide)).2 (.inr rfl)
  refine ⟨r, r', h, h', c.gap, c'.gap, (C43_tool_partial Rnd.ieee S rng rng (simpleKit Rnd.ieee qf) caseWorld caseWorld
    (caseOptions Rnd.ieee "r" "h") instOptions [] _ _ hn (.inr ⟨ieee_faithful, by decide,
      (simple_seg Rnd.ieee qf).safe.hard⟩) rfl rfl rfl rfl rfl rfl r r' h h').1⟩

/-- C94: the run of Instances with a larger alpha. -/
example : ∃ r r', toolMain Rnd.ieee S rng (icdarKit Rnd.ieee S) caseWorld (caseArguments "ref" "hyp") = .ok (.done r) ∧
    toolMain Rnd.ieee S rng (icdarKit Rnd.ieee S) caseWorld
      ("--bootstrap_alpha".toList :: "0.5".toList :: caseArguments "ref" "hyp") = .ok (.done r') ∧ ReportWithin r' r := by
  obtain ⟨p, h1, h2⟩ := caseArguments_ieee
  obtain ⟨r, hr, _⟩ := caseBox_run Rnd.ieee (.inr rfl) S rng
  have hr : toolMain Rnd.ieee S rng (icdarKit Rnd.ieee S) caseWorld (caseArguments "ref" "hyp") = .ok (.done r) := by
    rw [toolMain_accepted h1, h2, hr]
  have e : ToolOptions.ofParser ((toolParser Rnd.ieee).parse Rnd.ieee
      ("--bootstrap_alpha".toList :: "0.5".toList :: caseArguments "ref" "hyp")).2 =
      { caseOptions Rnd.ieee "ref" "hyp" with alpha := 1 / 2 } := by decide +kernel
  obtain ⟨r', h3, h4⟩ := C94_program S rng (icdarKit Rnd.ieee S) caseWorld (caseArguments "ref" "hyp")
    ("--bootstrap_alpha".toList :: "0.5".toList :: caseArguments "ref" "hyp") p _ h1
    (Prod.ext (by decide +kernel) rfl) (by rw [e, h2]) (by rw [h2]; decide)
    (by rw [e, h2]; decide +kernel) (by rw [e]; norm_num) r hr
  exact ⟨r, r', hr, h3, h4⟩

end

end Kws
