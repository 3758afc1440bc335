import Verif.Lemmas.Query

/-!
# C58, C59: query sets and query groups

For tools whose query mapper is the identity (the box tool); Props/Ids.lean carries this over to the
segmentation tool.
-/

namespace Kws
open Spec

section
variable {μ σ L G : Type} [Cmp L]

/-! ## C59 -/

/-- C59: a groups file whose lines all have two or more words gives the map from each listed query
to the first word of the last line listing it; any other groups file is rejected. -/
theorem C59_groups {mapQuery : μ → Str → μ × Cpp Str} (hid : ∀ m q, mapQuery m q = (m, .ok q))
    (m : μ) (text : Str) :
    (WellFormedGroups ((lines text).map words) → ∃ m' q2g,
      readQueryGroups mapQuery m text = (m', .ok (some q2g)) ∧
      ∀ q, AMap.find? q q2g = groupIn ((lines text).map words) q) ∧
    (¬ WellFormedGroups ((lines text).map words) → ∃ m',
      readQueryGroups mapQuery m text = (m', .ok none)) := by
  obtain ⟨h1, h2⟩ := readQueryGroups_names (names_identity hid _) m text rfl trivial
  refine ⟨fun hw => ?_, h2⟩
  obtain ⟨m', e⟩ := h1 hw
  refine ⟨m', _, e, fun q => ?_⟩
  rw [find?_groups]
  simp

/-- C59: the group of a query by the tool is the group it has in the file, or the query itself. -/
theorem C59_group (ls : List (List Str)) (q2g : List (Str × Str))
    (h : ∀ q, AMap.find? q q2g = groupIn ls q) (q : Str) :
    groupOf q2g q = (groupIn ls q).getD q := by
  unfold groupOf
  rw [h]
  cases groupIn ls q <;> rfl

/-- A file where a later line overrides an earlier one, and one with an empty line. -/
example :
    let ls := (lines "g a b\nh  b c\n".toList).map words
    WellFormedGroups ls ∧ groupIn ls "a".toList = some "g".toList ∧
      groupIn ls "b".toList = some "h".toList ∧ groupIn ls "g".toList = none := by
  refine ⟨?_, by decide +kernel, by decide +kernel, by decide +kernel⟩
  unfold WellFormedGroups
  decide +kernel

example : ¬ WellFormedGroups ((lines "g a b\n\nh b c\n".toList).map words) := by
  unfold WellFormedGroups
  decide +kernel

/-! ## C58 -/

/-- What `Main` does after both event files have been read. -/
theorem mainWith_inputs {Q : Type} [DecidableEq Q] [Cmp Q] (R : Rnd) (S : StdSort) (rng : Rng G)
    (kit : ToolKit μ σ Q L) (w : World) (o : ToolOptions) (refText hypText : Str) (m1 m2 : μ)
    (refs : List (Event Q L)) (hyps : List (ScoredEvent Q L)) (hr : o.refFilename ≠ [])
    (hrt : w.file o.refFilename = some refText)
    (hht : (if o.hypFilename = [] then some w.stdin else w.file o.hypFilename) = some hypText)
    (h1 : kit.readRef kit.mapper refText = (m1, refs, .ok))
    (h2 : kit.readHyp m1 hypText = (m2, hyps, .ok)) :
    mainWith R S rng kit w o = (readQueryMap kit.mapQuery w o m2).bind fun
      | none => .ok .failed
      | some q2g => evaluate R S rng kit w o q2g refs hyps := by
  unfold mainWith
  rw [if_neg hr, hrt]
  simp only [h1, hht, h2]
  rfl

/-- C58: with a query set, exactly the events whose query is in it are used (all events if the set is
empty), in the order of the files; every query is its own group. -/
theorem C58_query_set (R : Rnd) (S : StdSort) (rng : Rng G) (kit : ToolKit μ σ Str L) (w : World)
    (o : ToolOptions) (hid : ∀ m q, kit.mapQuery m q = (m, .ok q)) (refText hypText text : Str)
    (m1 m2 : μ) (refs : List (Event Str L)) (hyps : List (ScoredEvent Str L))
    (hr : o.refFilename ≠ []) (hrt : w.file o.refFilename = some refText)
    (hht : (if o.hypFilename = [] then some w.stdin else w.file o.hypFilename) = some hypText)
    (h1 : kit.readRef kit.mapper refText = (m1, refs, .ok))
    (h2 : kit.readHyp m1 hypText = (m2, hyps, .ok))
    (hs : o.querySet ≠ []) (hg : o.queryGroups = []) (hf : w.file o.querySet = some text) :
    ∃ q2g, mainWith R S rng kit w o = matchAndAssess R S rng kit w o q2g
        (keep (·.query) (words text) refs) (keep (·.base.query) (words text) hyps) ∧
      ∀ q, groupOf q2g q = q := by
  obtain ⟨m', e⟩ := readQuerySet_names (names_identity hid _) m2 text rfl trivial
  have hfind : ∀ q, AMap.find? q (((words text).map id).foldl
      (fun q2g q => AMap.set q q q2g) []) = if q ∈ words text then some q else none := by
    intro q
    have := find?_setAll ((words text).map id) (fun q => q) ([] : List (Str × Str)) q
    simpa [AMap.find?] using this
  have hlist : ∀ q, (AMap.find? q (((words text).map id).foldl
      (fun q2g q => AMap.set q q q2g) [])).isSome = true ↔ q ∈ words text := by
    intro q
    rw [hfind]
    split <;> simp [*]
  refine ⟨((words text).map id).foldl (fun q2g q => AMap.set q q q2g) [], ?_, fun q => ?_⟩
  · rw [mainWith_inputs R S rng kit w o refText hypText m1 m2 refs hyps hr hrt hht h1 h2]
    unfold readQueryMap
    rw [if_pos ⟨hs, hg⟩, hf]
    simp only [e, Except.map, Except.bind, evaluate]
    rw [filter_keep _ _ hlist, filter_keep _ _ hlist]
  · unfold groupOf
    rw [hfind]
    split
    · rename_i g h
      split at h
      · injection h with h; exact h.symm
      · cases h
    · rfl

/-- C58, C59: with a query groups file, exactly the events whose query is listed in it are used (all
events if the file is empty), in the order of the files; the groups are those of the file. A groups
file takes precedence over a query set. If a line has less than two words, the run fails. -/
theorem C58_query_groups (R : Rnd) (S : StdSort) (rng : Rng G) (kit : ToolKit μ σ Str L) (w : World)
    (o : ToolOptions) (hid : ∀ m q, kit.mapQuery m q = (m, .ok q)) (refText hypText text : Str)
    (m1 m2 : μ) (refs : List (Event Str L)) (hyps : List (ScoredEvent Str L))
    (hr : o.refFilename ≠ []) (hrt : w.file o.refFilename = some refText)
    (hht : (if o.hypFilename = [] then some w.stdin else w.file o.hypFilename) = some hypText)
    (h1 : kit.readRef kit.mapper refText = (m1, refs, .ok))
    (h2 : kit.readHyp m1 hypText = (m2, hyps, .ok))
    (hg : o.queryGroups ≠ []) (hf : w.file o.queryGroups = some text) :
    let ls := (lines text).map words
    (WellFormedGroups ls →
      ∃ q2g, mainWith R S rng kit w o = matchAndAssess R S rng kit w o q2g
          (keep (·.query) (listedIn ls) refs) (keep (·.base.query) (listedIn ls) hyps) ∧
        ∀ q, groupOf q2g q = (groupIn ls q).getD q) ∧
    (¬ WellFormedGroups ls → mainWith R S rng kit w o = .ok .failed) := by
  intro ls
  obtain ⟨g1, g2⟩ := C59_groups hid m2 text
  have hrun := mainWith_inputs R S rng kit w o refText hypText m1 m2 refs hyps hr hrt hht h1 h2
  have hmap : readQueryMap kit.mapQuery w o m2 = (readQueryGroups kit.mapQuery m2 text).2 := by
    unfold readQueryMap
    rw [if_neg (fun h => hg h.2), if_pos hg, hf]
  refine ⟨fun hw => ?_, fun hw => ?_⟩
  · obtain ⟨m', q2g, e, hq⟩ := g1 hw
    refine ⟨q2g, ?_, fun q => C59_group ls q2g hq q⟩
    rw [hrun, hmap, e]
    simp only [Except.bind, evaluate]
    have hlist : ∀ q, (AMap.find? q q2g).isSome = true ↔ q ∈ listedIn ls := fun q => by
      rw [hq]; exact groupIn_isSome ls q
    rw [filter_keep _ _ hlist, filter_keep _ _ hlist]
  · obtain ⟨m', e⟩ := g2 hw
    rw [hrun, hmap, e]
    rfl

/-- C58: without query set and groups all events are used and every query is its own group. -/
theorem C58_no_filter (R : Rnd) (S : StdSort) (rng : Rng G) (kit : ToolKit μ σ Str L) (w : World)
    (o : ToolOptions) (refText hypText : Str)
    (m1 m2 : μ) (refs : List (Event Str L)) (hyps : List (ScoredEvent Str L))
    (hr : o.refFilename ≠ []) (hrt : w.file o.refFilename = some refText)
    (hht : (if o.hypFilename = [] then some w.stdin else w.file o.hypFilename) = some hypText)
    (h1 : kit.readRef kit.mapper refText = (m1, refs, .ok))
    (h2 : kit.readHyp m1 hypText = (m2, hyps, .ok))
    (hs : o.querySet = []) (hg : o.queryGroups = []) :
    mainWith R S rng kit w o = matchAndAssess R S rng kit w o [] refs hyps ∧
      ∀ q : Str, groupOf [] q = q := by
  refine ⟨?_, fun q => rfl⟩
  rw [mainWith_inputs R S rng kit w o refText hypText m1 m2 refs hyps hr hrt hht h1 h2]
  unfold readQueryMap
  rw [if_neg (fun h => h.1 hs), if_neg (fun h => h hg)]
  rfl

end

/-- The box tool is such a tool. -/
example (R : Rnd) (S : StdSort) : ∀ m q, (icdarKit R S).mapQuery m q = (m, .ok q) := fun _ _ => rfl

example : keep (·.query) (words "b  c\n".toList)
    [(⟨"a".toList, 1⟩ : Event Str Nat), ⟨"b".toList, 2⟩, ⟨"b".toList, 1⟩] =
    [⟨"b".toList, 2⟩, ⟨"b".toList, 1⟩] := by
  have : words "b  c\n".toList = ["b".toList, "c".toList] := by decide +kernel
  rw [this]
  simp [keep]

/-- The files of the following case. -/
def queryExample : World where
  file f :=
    if f = "ref".toList then some "a d 0 0 2 2\nb d 0 0 2 2\n".toList
    else if f = "hyp".toList then some "b d 0 0 2 2 0.5\nc d 0 0 2 2 -1\n".toList
    else if f = "q".toList then some "b  z\n".toList
    else none
  stdin := []
  writable _ := false

/-- A run of the box tool with a query set: one reference and one hypothesis are used. -/
example {G : Type} (S : StdSort) (rng : Rng G) :
    let o : ToolOptions :=
      { refFilename := "ref".toList
        hypFilename := "hyp".toList
        querySet := "q".toList
        alpha := 1 / 20 }
    ∃ q2g, mainWith Rnd.exact S rng (icdarKit Rnd.exact S) queryExample o =
      matchAndAssess Rnd.exact S rng (icdarKit Rnd.exact S) queryExample o q2g
        [⟨"b".toList, ⟨⟨0, 0, 2, 2⟩, "d".toList⟩⟩]
        [⟨⟨"b".toList, ⟨⟨0, 0, 2, 2⟩, "d".toList⟩⟩, .fin (1 / 2)⟩] ∧ ∀ q, groupOf q2g q = q := by
  intro o
  have h1 : readEvents extractBoxEvent identityMap () "a d 0 0 2 2\nb d 0 0 2 2\n".toList =
      ((), [⟨"a".toList, ⟨⟨0, 0, 2, 2⟩, "d".toList⟩⟩, ⟨"b".toList, ⟨⟨0, 0, 2, 2⟩, "d".toList⟩⟩],
        .ok) := by decide +kernel
  have h2 : readEvents (extractScored Rnd.exact extractBoxEvent) identityMap ()
      "b d 0 0 2 2 0.5\nc d 0 0 2 2 -1\n".toList =
      ((), [⟨⟨"b".toList, ⟨⟨0, 0, 2, 2⟩, "d".toList⟩⟩, .fin (1 / 2)⟩,
        ⟨⟨"c".toList, ⟨⟨0, 0, 2, 2⟩, "d".toList⟩⟩, .fin (-1)⟩], .ok) := by decide +kernel
  obtain ⟨q2g, e, hq⟩ := C58_query_set Rnd.exact S rng (icdarKit Rnd.exact S) queryExample o
    (fun _ _ => rfl) _ _ "b  z\n".toList () () _ _ (by decide) rfl rfl h1 h2 (by decide) rfl rfl
  have hw : words "b  z\n".toList = ["b".toList, "z".toList] := by decide +kernel
  rw [hw] at e
  refine ⟨q2g, ?_, hq⟩
  rw [e]
  congr 1

end Kws
