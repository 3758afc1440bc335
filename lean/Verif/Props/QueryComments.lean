import Verif.Spec.QueryComments
import Verif.Props.QueryFiles
import Verif.Props.Moved
import Verif.Props.RunInstances

/-!
# C122: comments in query sets and groups of queries
-/

namespace Kws
open Spec

/-- What the lines have in common with the lines with comments. -/
theorem Spec.CommentsAdded.mem {ls ls' cs : List Str} (h : CommentsAdded ls ls' cs) (l : Str) :
    l ∈ ls' ↔ l ∈ ls ∨ l ∈ cs := by
  induction h with
  | nil => simp
  | keep l _ ih => simp [ih, or_assoc]
  | add c _ _ ih => simp [ih, or_left_comm]

theorem Spec.CommentsAdded.filter {ls ls' cs : List Str} (h : CommentsAdded ls ls' cs) (p : List Str → Bool)
    (hp : ∀ c ∈ cs, p (words c) = false) : (ls'.map words).filter p = (ls.map words).filter p := by
  induction h with
  | nil => rfl
  | keep l _ ih =>
    have := ih hp
    simp only [List.map_cons, List.filter_cons, this]
  | add c _ _ ih =>
    have := ih fun c hc => hp c (by simp [hc])
    simp only [List.map_cons, List.filter_cons, this, hp c (by simp), Bool.false_eq_true, if_false]

theorem Spec.CommentsAdded.groupIn {ls ls' cs : List Str} (h : CommentsAdded ls ls' cs) (q : Str)
    (hq : ∀ c ∈ cs, q ∉ words c) : groupIn (ls'.map words) q = groupIn (ls.map words) q := by
  unfold Spec.groupIn
  rw [h.filter]
  intro c hc
  simp only [decide_eq_false_iff_not]
  exact fun hm => hq c hc (List.mem_of_mem_tail hm)

theorem Spec.CommentedQueries.selection {w : World} {o : ToolOptions} {querySet queryGroups : Str}
    {P : Str → Prop} (h : CommentedQueries w o querySet queryGroups P) :
    ∃ f g, selection w o = some f ∧
      selection w { o with querySet := querySet, queryGroups := queryGroups } = some g ∧ SameSelection P f g := by
  rcases h with ⟨t, t', cs, h1, rfl, h3, h4, h5, h6, h7, h8, h9⟩ | ⟨t, t', cs, h1, h2, h3, h4, h5, h6, h7, h8⟩
  · refine ⟨setSelection (words t), setSelection (words t'), ?_, ?_, ?_⟩
    · unfold Spec.selection
      rw [if_neg (by simpa using h1), if_pos h3, h5]
      rfl
    · unfold Spec.selection
      rw [if_neg (by simp), if_pos h4, h6]
      rfl
    · have hmem : ∀ q, q ∈ words t' ↔ q ∈ words t ∨ ∃ c ∈ cs, q ∈ words c := by
        intro q
        rw [words_lines t, words_lines t']
        simp only [List.mem_flatten, List.mem_map, exists_exists_and_eq_and, h7.mem, or_and_right, exists_or]
      have hP : ∀ q, P q → (q ∈ words t' ↔ q ∈ words t) := by
        intro q hq
        rw [hmem]
        exact ⟨fun h => h.elim id fun ⟨c, hc, hw⟩ => absurd hq (h9 c hc q hw), Or.inl⟩
      have hne : words t' ≠ [] := by
        obtain ⟨q, hq⟩ := List.exists_mem_of_ne_nil _ h8
        exact List.ne_nil_of_mem ((hmem q).2 (Or.inl hq))
      have hval : ∀ q, P q → setSelection (words t') q = setSelection (words t) q := by
        intro q hq
        unfold setSelection
        rw [if_neg hne, if_neg h8]
        simp only [hP q hq]
      intro q hq
      rw [hval q hq]
      refine ⟨Iff.rfl, fun q' hq' _ _ => ?_⟩
      rw [hval q' hq']
  · have hl : lines t ≠ [] := by
      intro hc
      rw [words_lines, hc] at h6
      exact h6 rfl
    have hl' : lines t' ≠ [] := by
      obtain ⟨l, hm⟩ := List.exists_mem_of_ne_nil _ hl
      exact List.ne_nil_of_mem ((h5.mem l).2 (Or.inl hm))
    refine ⟨groupSelection ((lines t).map words), groupSelection ((lines t').map words), ?_, ?_, ?_⟩
    · unfold Spec.selection
      rw [if_pos h1, h3]
      refine if_pos ?_
      intro l hm
      obtain ⟨x, hx, rfl⟩ := List.mem_map.1 hm
      exact h7 x ((h5.mem x).2 (Or.inl hx))
    · unfold Spec.selection
      rw [if_pos h2, h4]
      refine if_pos ?_
      intro l hm
      obtain ⟨x, hx, rfl⟩ := List.mem_map.1 hm
      exact h7 x hx
    · have hval : ∀ q, P q → groupSelection ((lines t').map words) q = groupSelection ((lines t).map words) q := by
        intro q hq
        unfold groupSelection
        rw [if_neg (by simpa using hl'), if_neg (by simpa using hl)]
        exact h5.groupIn q fun c hc hw => h8 c hc q hw hq
      intro q hq
      rw [hval q hq]
      refine ⟨Iff.rfl, fun q' hq' _ _ => ?_⟩
      rw [hval q' hq']

/-- C122 for the box tool, what holds: comments without words that are queries of events can be added to a query set,
and comments with two or more words, none of them a query of an event, to a file of groups. Missing: comments with
words that are queries (see `C122_set_refuted`) and, in files of groups, comments that are one word (see
`C122_groups_refuted`). -/
theorem C122_box_partial {G : Type} (R : Rnd) (S : StdSort) (rng : Rng G) (w : World) (o : ToolOptions)
    (querySet queryGroups refText hypText : Str) (refs : List (Event Str (DocBox Str UInt32)))
    (hyps : List (ScoredEvent Str (DocBox Str UInt32)))
    (hr : o.refFilename ≠ []) (hrt : w.file o.refFilename = some refText)
    (hht : Spec.hypText w o = some hypText)
    (h1 : Yields BoxEventText (lines refText) refs)
    (h2 : Yields (ScoredText R BoxEventText) (lines hypText) hyps)
    (hc : CommentedQueries w o querySet queryGroups
      (fun q => (∃ e ∈ refs, e.query = q) ∨ ∃ h ∈ hyps, h.base.query = q)) :
    mainWith R S rng (icdarKit R S) w { o with querySet := querySet, queryGroups := queryGroups } =
      mainWith R S rng (icdarKit R S) w o := by
  obtain ⟨f, g, hf, hg, hfg⟩ := hc.selection
  exact C97_box R S rng w o querySet queryGroups refText hypText refs hyps hr hrt hht
    (Prod.ext rfl ((C48_accepts (Format.boxRefs (R := R)) _ _).2 h1)) (Prod.ext rfl ((C48_accepts (Format.boxHyps (R := R)) _ _).2 h2))
    f g hf hg hfg

/-- C122 for the segmentation-based tool, what holds. -/
theorem C122_segmentation_partial {G : Type} (R : Rnd) (S : StdSort) (rng : Rng G) (qf : Bool) (w : World)
    (o : ToolOptions) (querySet queryGroups refText hypText : Str)
    (hV : (vocabulary w o).dedup.length ≤ 2 ^ 31)
    (hV' : (vocabulary w { o with querySet := querySet, queryGroups := queryGroups }).dedup.length ≤ 2 ^ 31)
    (refs : List (Event Str Str)) (hyps : List (ScoredEvent Str Str))
    (hr : o.refFilename ≠ []) (hrt : w.file o.refFilename = some refText)
    (hht : Spec.hypText w o = some hypText)
    (h1 : Yields StrEventText (lines refText) refs)
    (h2 : Yields (ScoredText R StrEventText) (lines hypText) hyps)
    (hc : CommentedQueries w o querySet queryGroups
      (fun q => (∃ e ∈ refs, e.query = q) ∨ ∃ h ∈ hyps, h.base.query = q)) :
    mainWith R S rng (simpleKit R qf) w { o with querySet := querySet, queryGroups := queryGroups } =
      mainWith R S rng (simpleKit R qf) w o := by
  obtain ⟨f, g, hf, hg, hfg⟩ := hc.selection
  exact C97_segmentation R S rng qf w o querySet queryGroups hV hV' refText hypText refs hyps hr hrt hht
    (Prod.ext rfl ((C48_accepts (Format.strRefs (R := R)) _ _).2 h1)) (Prod.ext rfl ((C48_accepts (Format.strHyps (R := R)) _ _).2 h2))
    f g hf hg hfg

/-! ## What does not hold -/

/-- References and hypotheses of two queries, and files with one of them, to which comments are added. -/
def commentWorld : World where
  file f :=
    if f = "r".toList then some "a d 0 0 2 2\nb d 0 0 2 2\n".toList
    else if f = "set".toList then some "a\n".toList
    else if f = "set+".toList then some "# not b\na\n".toList
    else if f = "set*".toList then some "a\n# no other query\n".toList
    else if f = "groups".toList then some "x a\ny b\n".toList
    else if f = "groups+".toList then some "x a\n#\ny b\n".toList
    else if f = "groups*".toList then some "# the groups\nx a\ny b\n".toList
    else none
  stdin := "b d 0 0 2 2 0.5\na d 9 9 2 2 1.5\n".toList
  writable _ := true

def commentOptions (set groups : String) : ToolOptions where
  refFilename := "r".toList
  dumpMatches := "m".toList
  querySet := set.toList
  queryGroups := groups.toList
  alpha := 1 / 20

theorem comment_added : CommentsAdded (lines "a\n".toList) (lines "# not b\na\n".toList) ["# not b".toList] := by
  rw [show lines "a\n".toList = ["a".toList] by decide +kernel,
    show lines "# not b\na\n".toList = ["# not b".toList, "a".toList] by decide +kernel]
  exact .add _ ⟨[], _, rfl, fun _ h => absurd h (by simp)⟩ (.keep _ .nil)

theorem comment_added_groups :
    CommentsAdded (lines "x a\ny b\n".toList) (lines "x a\n#\ny b\n".toList) ["#".toList] := by
  rw [show lines "x a\ny b\n".toList = ["x a".toList, "y b".toList] by decide +kernel,
    show lines "x a\n#\ny b\n".toList = ["x a".toList, "#".toList, "y b".toList] by decide +kernel]
  exact .keep _ (.add _ ⟨[], [], rfl, fun _ h => absurd h (by simp)⟩ (.keep _ .nil))

theorem comment_feasible (R : Rnd) (s g : String) (n : ℕ) : Feasible R commentWorld (commentOptions s g) n :=
  ⟨fun h => by simp [commentOptions] at h, fun _ => rfl, fun h => absurd rfl h, fun h => by simp [commentOptions] at h⟩

theorem comment_file : commentWorld.file "r".toList = some "a d 0 0 2 2\nb d 0 0 2 2\n".toList := by
  unfold commentWorld
  dsimp only
  rw [if_pos rfl]

theorem comment_run {G : Type} (S : StdSort) (rng : Rng G) (s : String) (hs : ∃ t, commentWorld.file s.toList = some t) :
    ∃ r, mainWith Rnd.exact S rng (icdarKit Rnd.exact S) commentWorld (commentOptions s "") = .ok (.done r) := by
  obtain ⟨r, hr, _⟩ := (C62_box_partial Rnd.exact S rng commentWorld (commentOptions s "")
    (fun t u _ _ => comment_feasible _ _ _ _)).1
    ⟨⟨(by decide : "r".toList ≠ []), ⟨_, comment_file, yields_valid instRefs_read⟩,
      ⟨_, if_pos rfl, yields_valid (instHyps_read _ (.inl rfl))⟩, fun _ _ => hs, fun h => absurd rfl h⟩, .inr rfl⟩
  exact ⟨r, hr⟩

theorem comment_matching {G : Type} (S : StdSort) (rng : Rng G) (s : String) (t : Str) (h0 : s.toList ≠ [])
    (hs : commentWorld.file s.toList = some t)
    (r : Report Str (DocBox Str UInt32))
    (h : mainWith Rnd.exact S rng (icdarKit Rnd.exact S) commentWorld (commentOptions s "") = .ok (.done r)) :
    ∃ ms rep, r.dump = some (ms, rep) ∧
      ExactBoxMatching (keep (·.query) (words t) instRefs) (keep (·.base.query) (words t) instHyps) ms rep := by
  obtain ⟨ms, rep, a, b, _⟩ := box_ties Rnd.exact S rng commentWorld (commentOptions s "") _ _ _ _ comment_file
    (if_pos rfl) instRefs_read (instHyps_read _ (.inl rfl)) instRefs_edges
    (by unfold InRangeU EdgesOkU; decide +kernel) (fun _ h hh => (instHyps_small h hh).2) rfl rfl r 0
    (tolerance_of (.inl ⟨rfl, rfl⟩)) h
  have hl : listedQueries commentWorld (commentOptions s "") = words t := by
    unfold listedQueries
    rw [if_neg (fun h => h rfl), if_pos (show (commentOptions s "").querySet ≠ [] from h0)]
    show ((commentWorld.file s.toList).map words).getD [] = _
    rw [hs]
    rfl
  rw [hl] at a
  exact ⟨ms, rep, b.trans (if_neg (by decide : ¬ "m".toList = [])), a⟩

/-- C122 does not hold: a comment in a query set that mentions a query includes it in the evaluation. -/
theorem C122_set_refuted {G : Type} (S : StdSort) (rng : Rng G) :
    ∃ (w : World) (o : ToolOptions) (querySet : Str) (t t' : Str) (r r' : Report Str (DocBox Str UInt32)),
      w.file o.querySet = some t ∧ w.file querySet = some t' ∧ CommentsAdded (lines t) (lines t') ["# not b".toList] ∧
      mainWith Rnd.exact S rng (icdarKit Rnd.exact S) w o = .ok (.done r) ∧
      mainWith Rnd.exact S rng (icdarKit Rnd.exact S) w { o with querySet := querySet } = .ok (.done r') ∧
      ∃ ms rep ms' rep', r.dump = some (ms, rep) ∧ r'.dump = some (ms', rep') ∧
        (∀ m ∈ ms, ∀ e, m.ref = some e → e.query = ['a']) ∧ ∃ m ∈ ms', ∃ e, m.ref = some e ∧ e.query = ['b'] := by
  obtain ⟨r, hr⟩ := comment_run S rng "set" ⟨"a\n".toList, by decide +kernel⟩
  obtain ⟨r', hr'⟩ := comment_run S rng "set+" ⟨"# not b\na\n".toList, by decide +kernel⟩
  obtain ⟨ms, rep, d, e⟩ := comment_matching S rng "set" "a\n".toList (by decide) (by decide +kernel) r hr
  obtain ⟨ms', rep', d', e'⟩ := comment_matching S rng "set+" "# not b\na\n".toList (by decide) (by decide +kernel) r' hr'
  refine ⟨commentWorld, commentOptions "set" "", "set+".toList, "a\n".toList, "# not b\na\n".toList, r, r',
    by decide +kernel, by decide +kernel, comment_added, hr, hr', ms, rep, ms', rep', d, d', ?_, ?_⟩
  · intro m hm x hx
    exact (by decide +kernel : ∀ x ∈ keep (·.query) (words "a\n".toList) instRefs, x.query = ['a']) x
      ((exactBoxMatching_mem e m (.inl hm)).1 x hx)
  · obtain ⟨l, ov, en, mi, a1, a2, a3, a4, a5, a6, rfl⟩ := e'
    have hb : (⟨['b'], ⟨⟨0, 0, 2, 2⟩, ['d']⟩⟩ : Event Str (DocBox Str UInt32)) ∈
        keep (·.query) (words "# not b\na\n".toList) instRefs := by decide +kernel
    by_cases ht : Taken en ⟨['b'], ⟨⟨0, 0, 2, 2⟩, ['d']⟩⟩
    · obtain ⟨m, hm, hr⟩ := ht
      exact ⟨m, List.mem_append_left _ hm, _, hr, rfl⟩
    · exact ⟨_, List.mem_append_right _ (List.mem_map_of_mem ((a6 _).2 ⟨hb, ht⟩)), _, rfl, rfl⟩

/-- C122 does not hold: a comment of one word in a file of groups makes the tool fail. -/
theorem C122_groups_refuted {G : Type} (S : StdSort) (rng : Rng G) :
    ∃ (w : World) (o : ToolOptions) (queryGroups : Str) (t t' : Str) (r : Report Str (DocBox Str UInt32)),
      w.file o.queryGroups = some t ∧ w.file queryGroups = some t' ∧ CommentsAdded (lines t) (lines t') ["#".toList] ∧
      mainWith Rnd.exact S rng (icdarKit Rnd.exact S) w o = .ok (.done r) ∧
      mainWith Rnd.exact S rng (icdarKit Rnd.exact S) w { o with queryGroups := queryGroups } = .ok .failed := by
  obtain ⟨r, hr, _⟩ := (C62_box_partial Rnd.exact S rng commentWorld (commentOptions "" "groups")
    (fun t u _ _ => comment_feasible _ _ _ _)).1
    ⟨⟨(by decide : "r".toList ≠ []), ⟨_, comment_file, yields_valid instRefs_read⟩,
      ⟨_, if_pos rfl, yields_valid (instHyps_read _ (.inl rfl))⟩, fun h => absurd rfl h,
      fun _ => ⟨"x a\ny b\n".toList, by decide +kernel, by unfold WellFormedGroups; decide +kernel⟩⟩, .inr rfl⟩
  refine ⟨commentWorld, commentOptions "" "groups", "groups+".toList, "x a\ny b\n".toList, "x a\n#\ny b\n".toList, r,
    by decide +kernel, by decide +kernel, comment_added_groups, hr, ?_⟩
  refine (C62_box_partial Rnd.exact S rng commentWorld (commentOptions "" "groups+")
    (fun t u _ _ => comment_feasible _ _ _ _)).2 ?_
  rintro ⟨h, _⟩
  obtain ⟨t, h1, h2⟩ := h.queryGroups (by decide)
  obtain rfl : "x a\n#\ny b\n".toList = t := Option.some.inj ((by decide +kernel :
    some "x a\n#\ny b\n".toList = commentWorld.file "groups+".toList).trans h1)
  revert h2
  unfold WellFormedGroups
  decide +kernel

/-- Comments that can be added: no query of an event occurs in them. -/
example {G : Type} (S : StdSort) (rng : Rng G) : ∃ r,
    mainWith Rnd.exact S rng (icdarKit Rnd.exact S) commentWorld (commentOptions "set" "") = .ok (.done r) ∧
    mainWith Rnd.exact S rng (icdarKit Rnd.exact S) commentWorld (commentOptions "set*" "") = .ok (.done r) := by
  obtain ⟨r, hr⟩ := comment_run S rng "set" ⟨"a\n".toList, by decide +kernel⟩
  refine ⟨r, hr, ?_⟩
  rw [← hr]
  refine C122_box_partial Rnd.exact S rng commentWorld (commentOptions "set" "") "set*".toList [] _ _ _ _ (by decide)
    comment_file (if_pos rfl) instRefs_read (instHyps_read _ (.inl rfl)) (.inl ⟨"a\n".toList,
      "a\n# no other query\n".toList, ["# no other query".toList], rfl, rfl, by decide, by decide, by decide +kernel,
      by decide +kernel, ?_, by decide +kernel, by decide +kernel⟩)
  rw [show lines "a\n".toList = ["a".toList] by decide +kernel,
    show lines "a\n# no other query\n".toList = ["a".toList, "# no other query".toList] by decide +kernel]
  exact .keep _ (.add _ ⟨[], _, rfl, fun _ h => absurd h (by simp)⟩ .nil)

/-- The same files of queries with segments. -/
def commentSegments : World where
  file f := if f = "r".toList then some "a l\nb l\nb m\n".toList else commentWorld.file f
  stdin := "b l 2\na m 3\na l 1\n".toList
  writable _ := true

/-- The same for groups, with the segmentation-based tool. -/
example {G : Type} (S : StdSort) (rng : Rng G) (qf : Bool) :
    mainWith Rnd.ieee S rng (simpleKit Rnd.ieee qf) commentSegments (commentOptions "" "groups*") =
      mainWith Rnd.ieee S rng (simpleKit Rnd.ieee qf) commentSegments (commentOptions "" "groups") := by
  refine C122_segmentation_partial Rnd.ieee S rng qf commentSegments (commentOptions "" "groups") [] "groups*".toList
    "a l\nb l\nb m\n".toList _ (by decide +kernel) (by decide +kernel) _ _ (by decide) (by decide +kernel) (if_pos rfl)
    instSegRefs_read (instSegHyps_read _ (.inr rfl)) (.inr ⟨"x a\ny b\n".toList,
      "# the groups\nx a\ny b\n".toList, ["# the groups".toList], by decide, by decide, by decide +kernel,
      by decide +kernel, ?_, by decide +kernel, by decide +kernel, by decide +kernel⟩)
  rw [show lines "x a\ny b\n".toList = ["x a".toList, "y b".toList] by decide +kernel,
    show lines "# the groups\nx a\ny b\n".toList = ["# the groups".toList, "x a".toList, "y b".toList] by decide +kernel]
  exact .add _ ⟨[], _, rfl, fun _ h => absurd h (by simp)⟩ (.keep _ (.keep _ .nil))

end Kws
