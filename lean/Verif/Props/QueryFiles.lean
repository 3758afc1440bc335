import Verif.Lemmas.QueryFiles
import Verif.Props.Decompose

/-!
# C97: query files matter only through what they select
-/

namespace Kws
open Spec

/-- C97 for the box tool: two runs with different query options, whose files select the same of the
queries that occur and put the same ones together, end with the same report. -/
theorem C97_box {G : Type} (R : Rnd) (S : StdSort) (rng : Rng G) (w : World) (o : ToolOptions)
    (querySet queryGroups refText hypText : Str) (refs : List (Event Str (DocBox Str UInt32)))
    (hyps : List (ScoredEvent Str (DocBox Str UInt32)))
    (hr : o.refFilename ≠ []) (hrt : w.file o.refFilename = some refText)
    (hht : (if o.hypFilename = [] then some w.stdin else w.file o.hypFilename) = some hypText)
    (h1 : readEvents extractBoxEvent identityMap () refText = ((), refs, .ok))
    (h2 : readEvents (extractScored R extractBoxEvent) identityMap () hypText = ((), hyps, .ok))
    (f g : Str → Option Str) (hf : selection w o = some f)
    (hg : selection w { o with querySet := querySet, queryGroups := queryGroups } = some g)
    (hfg : SameSelection (fun q => (∃ e ∈ refs, e.query = q) ∨ ∃ h ∈ hyps, h.base.query = q) f g) :
    mainWith R S rng (icdarKit R S) w { o with querySet := querySet, queryGroups := queryGroups } =
      mainWith R S rng (icdarKit R S) w o := by
  obtain ⟨a, e1, k1⟩ := (readQueryMap_selection (mapQuery := (icdarKit R S).mapQuery)
    (fun _ _ => rfl) w o ()).1 f hf
  obtain ⟨b, e2, k2⟩ := (readQueryMap_selection (mapQuery := (icdarKit R S).mapQuery)
    (fun _ _ => rfl) w { o with querySet := querySet, queryGroups := queryGroups } ()).1 g hg
  rw [mainWith_inputs R S rng (icdarKit R S) w o refText hypText () () refs hyps hr hrt hht h1 h2,
    mainWith_inputs R S rng (icdarKit R S) w { o with querySet := querySet, queryGroups := queryGroups }
      refText hypText () () refs hyps hr hrt hht h1 h2, e1, e2]
  change evaluate R S rng (icdarKit R S) w o b refs hyps = evaluate R S rng (icdarKit R S) w o a refs hyps
  have hs : ∀ (h : Str → Option Str) (c : List (Str × Str)),
      (∀ q, h q = if c = [] ∨ (AMap.find? q c).isSome = true then some (groupOf c q) else none) →
      ∀ q, (h q).isSome = true ↔ (c = [] ∨ (AMap.find? q c).isSome = true) := by
    intro h c hc q
    rw [hc q]
    split <;> simp_all
  refine (evaluate_same R S rng _ (icdar_queryWise R S) w o a b refs hyps
    (fun q => (∃ e ∈ refs, e.query = q) ∨ ∃ h ∈ hyps, h.base.query = q)
    (fun e he => Or.inl ⟨e, he, rfl⟩) (fun x hx => Or.inr ⟨x, hx, rfl⟩) ?_ ?_).symm
  · intro q hq
    rw [← hs f a k1, ← hs g b k2]
    exact (hfg q hq).1
  · intro q q' hq hq' ha ha'
    have := (hfg q hq).2 q' hq' ((hs f a k1 q).2 ha) ((hs f a k1 q').2 ha')
    have hb := (hs g b k2 q).1 ((hfg q hq).1.1 ((hs f a k1 q).2 ha))
    have hb' := (hs g b k2 q').1 ((hfg q' hq').1.1 ((hs f a k1 q').2 ha'))
    rw [k1 q, k1 q', k2 q, k2 q', if_pos ha, if_pos ha', if_pos hb, if_pos hb'] at this
    simpa using this

/-- C97 for the segmentation-based tool. -/
theorem C97_segmentation {G : Type} (R : Rnd) (S : StdSort) (rng : Rng G) (qf : Bool) (w : World)
    (o : ToolOptions) (querySet queryGroups : Str)
    (hV : (vocabulary w o).dedup.length ≤ 2 ^ 31)
    (hV' : (vocabulary w { o with querySet := querySet, queryGroups := queryGroups }).dedup.length ≤
      2 ^ 31) (refText hypText' : Str) (refs : List (Event Str Str)) (hyps : List (ScoredEvent Str Str))
    (hr : o.refFilename ≠ []) (hrt : w.file o.refFilename = some refText)
    (hht : hypText w o = some hypText')
    (h1 : readEvents extractStrEvent identityMap () refText = ((), refs, .ok))
    (h2 : readEvents (extractScored R extractStrEvent) identityMap () hypText' = ((), hyps, .ok))
    (f g : Str → Option Str) (hf : selection w o = some f)
    (hg : selection w { o with querySet := querySet, queryGroups := queryGroups } = some g)
    (hfg : SameSelection (fun q => (∃ e ∈ refs, e.query = q) ∨ ∃ h ∈ hyps, h.base.query = q) f g) :
    mainWith R S rng (simpleKit R qf) w { o with querySet := querySet, queryGroups := queryGroups } =
      mainWith R S rng (simpleKit R qf) w o := by
  have v1 := (Format.strRefs (R := R)).valid_of_ok refText (by unfold readPlain; rw [h1])
  have v2 := (Format.strHyps (R := R)).valid_of_ok hypText' (by unfold readPlain; rw [h2])
  have e1 : eventsIn extractStrEvent refText = refs := by
    have := (Format.strRefs (R := R)).readPlain_ok refText v1
    unfold readPlain at this
    rw [h1] at this
    exact (congrArg Prod.fst this).symm
  have e2 : eventsIn (extractScored R extractStrEvent) hypText' = hyps := by
    have := (Format.strHyps (R := R)).readPlain_ok hypText' v2
    unfold readPlain at this
    rw [h2] at this
    exact (congrArg Prod.fst this).symm
  obtain ⟨a, p1, k1⟩ := (readQueryMap_selection (mapQuery := fun (m : Unit) q => (m, (.ok q : Cpp Str)))
    (fun _ _ => rfl) w o ()).1 f hf
  obtain ⟨b, p2, k2⟩ := (readQueryMap_selection (mapQuery := fun (m : Unit) q => (m, (.ok q : Cpp Str)))
    (fun _ _ => rfl) w { o with querySet := querySet, queryGroups := queryGroups } ()).1 g hg
  obtain ⟨i, N, m, m', hi, _, i1, i2, iq⟩ := simple_ids R qf w o hV refText hypText' hrt hht v1 v2
  obtain ⟨j, N', n, n', hj, _, j1, j2, jq⟩ := simple_ids R qf w
    { o with querySet := querySet, queryGroups := queryGroups } hV' refText hypText' hrt hht v1 v2
  rw [e1] at i1 j1
  rw [e2] at i2 j2
  obtain rfl : m = n := congrArg Prod.fst (i1.symm.trans j1)
  obtain rfl : m' = n' := congrArg Prod.fst (i2.symm.trans j2)
  have r1 : refs.map (Event.rename i i) = refs.map (Event.rename j j) :=
    congrArg (·.2.1) (i1.symm.trans j1)
  have r2 : hyps.map (ScoredEvent.rename i i) = hyps.map (ScoredEvent.rename j j) :=
    congrArg (·.2.1) (i2.symm.trans j2)
  have hij : ∀ q, ((∃ e ∈ refs, e.query = q) ∨ ∃ h ∈ hyps, h.base.query = q) → i q = j q := by
    rintro q (⟨e, he, rfl⟩ | ⟨e, he, rfl⟩)
    · have := List.map_inj_left.1 r1 e he
      exact congrArg (·.query) this
    · have := List.map_inj_left.1 r2 e he
      exact congrArg (·.base.query) this
  have qa : readQueryMap (simpleKit R qf).mapQuery w o m' = .ok (some (a.map (Prod.map i i))) := by
    rcases iq with ⟨c, c1, c2⟩ | ⟨c1, _⟩
    · rw [p1] at c1
      obtain rfl : a = c := by simpa using c1
      exact c2
    · rw [p1] at c1
      simp at c1
  have qb : readQueryMap (simpleKit R qf).mapQuery w
      { o with querySet := querySet, queryGroups := queryGroups } m' =
        .ok (some (b.map (Prod.map j j))) := by
    rcases jq with ⟨c, c1, c2⟩ | ⟨c1, _⟩
    · rw [p2] at c1
      obtain rfl : b = c := by simpa using c1
      exact c2
    · rw [p2] at c1
      simp at c1
  rw [mainWith_inputs R S rng (simpleKit R qf) w o refText hypText' m m' _ _ hr hrt hht i1 i2,
    mainWith_inputs R S rng (simpleKit R qf) w
      { o with querySet := querySet, queryGroups := queryGroups }
      refText hypText' m m' _ _ hr hrt hht i1 i2, qa, qb]
  change evaluate R S rng (simpleKit R qf) w o (b.map (Prod.map j j)) _ _ =
    evaluate R S rng (simpleKit R qf) w o (a.map (Prod.map i i)) _ _
  have hs : ∀ (h : Str → Option Str) (c : List (Str × Str)),
      (∀ q, h q = if c = [] ∨ (AMap.find? q c).isSome = true then some (groupOf c q) else none) →
      ∀ q, (h q).isSome = true ↔ (c = [] ∨ (AMap.find? q c).isSome = true) := by
    intro h c hc q
    rw [hc q]
    split <;> simp_all
  have hm : ∀ (k : Str → Nat), Function.Injective k → ∀ (c : List (Str × Str)) q,
      (c.map (Prod.map k k) = [] ∨ (AMap.find? (k q) (c.map (Prod.map k k))).isSome = true) ↔
        (c = [] ∨ (AMap.find? q c).isSome = true) := by
    intro k hk c q
    rw [find?_map_inj hk]
    simp
  refine (evaluate_same R S rng _ (simple_queryWise R qf) w o (a.map (Prod.map i i))
    (b.map (Prod.map j j)) _ _ (fun n => ∃ q, ((∃ e ∈ refs, e.query = q) ∨
      ∃ h ∈ hyps, h.base.query = q) ∧ n = i q) ?_ ?_ ?_ ?_).symm
  · intro e he
    obtain ⟨x, hx, rfl⟩ := List.mem_map.1 he
    exact ⟨_, Or.inl ⟨x, hx, rfl⟩, rfl⟩
  · intro e he
    obtain ⟨x, hx, rfl⟩ := List.mem_map.1 he
    exact ⟨_, Or.inr ⟨x, hx, rfl⟩, rfl⟩
  · rintro _ ⟨q, hq, rfl⟩
    rw [hm i hi, hij q hq, hm j hj, ← hs f a k1, ← hs g b k2]
    exact (hfg q hq).1
  · rintro _ _ ⟨q, hq, rfl⟩ ⟨q', hq', rfl⟩ ha ha'
    rw [hm i hi] at ha ha'
    have := (hfg q hq).2 q' hq' ((hs f a k1 q).2 ha) ((hs f a k1 q').2 ha')
    have hb := (hs g b k2 q).1 ((hfg q hq).1.1 ((hs f a k1 q).2 ha))
    have hb' := (hs g b k2 q').1 ((hfg q' hq').1.1 ((hs f a k1 q').2 ha'))
    rw [k1 q, k1 q', k2 q, k2 q', if_pos ha, if_pos ha', if_pos hb, if_pos hb'] at this
    rw [show ∀ q, groupOf (a.map (Prod.map i i)) (i q) = i (groupOf a q) from groupOf_rename hi a,
      show ∀ q, groupOf (a.map (Prod.map i i)) (i q) = i (groupOf a q) from groupOf_rename hi a,
      hij q hq, hij q' hq',
      show ∀ q, groupOf (b.map (Prod.map j j)) (j q) = j (groupOf b q) from groupOf_rename hj b,
      show ∀ q, groupOf (b.map (Prod.map j j)) (j q) = j (groupOf b q) from groupOf_rename hj b,
      hi.eq_iff, hj.eq_iff]
    simpa using this

/-! ## Files that select the same -/

/-- The order of a query set and repetitions in it do not matter. -/
theorem C97_set_order (w : World) (o : ToolOptions) (querySet text text' : Str)
    (hg : o.queryGroups = []) (hs : o.querySet ≠ []) (hs' : querySet ≠ [])
    (h : w.file o.querySet = some text) (h' : w.file querySet = some text')
    (hw : ∀ q, q ∈ words text ↔ q ∈ words text') :
    ∃ f, selection w o = some f ∧ selection w { o with querySet := querySet } = some f := by
  refine ⟨setSelection (words text'), ?_, ?_⟩
  rotate_left
  · unfold selection
    rw [if_neg (by simpa using hg), if_pos hs', h']
    rfl
  · unfold selection
    rw [if_neg (by simpa using hg), if_pos hs, h]
    have hnil : words text = [] ↔ words text' = [] := by
      simp only [List.eq_nil_iff_forall_not_mem, hw]
    simp only [Option.map_some, setSelection, hnil, hw]

/-- A query set that lists all queries that occur selects what no query set selects. -/
theorem C97_whole_set (w : World) (o : ToolOptions) (querySet text : Str) (P : Str → Prop)
    (hs : o.querySet = []) (hg : o.queryGroups = []) (hs' : querySet ≠ [])
    (h : w.file querySet = some text) (hw : ∀ q, P q → q ∈ words text) :
    ∃ f g, selection w o = some f ∧ selection w { o with querySet := querySet } = some g ∧
      SameSelection P f g := by
  refine ⟨some, setSelection (words text), ?_, ?_, ?_⟩
  rotate_left
  · unfold selection
    rw [if_neg (by simpa using hg), if_pos hs', h]
    rfl
  · intro q hq
    have hq' := hw q hq
    have hne : words text ≠ [] := List.ne_nil_of_mem hq'
    simp only [setSelection, if_neg hne, if_pos hq']
    refine ⟨by simp, fun q' h' _ _ => ?_⟩
    rw [if_pos (hw q' h')]
  · unfold selection
    rw [if_neg (by simpa using hg), if_neg (by simpa using hs)]

theorem groupIn_modifyHead {α : Type} [DecidableEq α] (r : α → α) (ls : List (List α)) (q : α) :
    groupIn (ls.map (fun l => l.modifyHead r)) q = (groupIn ls q).map r := by
  unfold groupIn
  rw [List.filter_map, List.getLast?_map]
  have e : ((fun l : List α => decide (q ∈ l.tail)) ∘ fun l => l.modifyHead r) =
      fun l : List α => decide (q ∈ l.tail) := by
    funext l
    cases l <;> rfl
  rw [e]
  cases (ls.filter (fun l => decide (q ∈ l.tail))).getLast? with
  | none => rfl
  | some l => cases l <;> simp

/-- Renaming the groups of a file one to one does not matter. -/
theorem C97_group_names (w : World) (o : ToolOptions) (queryGroups text text' : Str) (P : Str → Prop)
    (r : Str → Str) (hr : Function.Injective r) (hg : o.queryGroups ≠ []) (hg' : queryGroups ≠ [])
    (h : w.file o.queryGroups = some text) (h' : w.file queryGroups = some text')
    (hw : (lines text').map words = ((lines text).map words).map (fun l => l.modifyHead r))
    (hl : WellFormedGroups ((lines text).map words)) :
    ∃ f g, selection w o = some f ∧ selection w { o with queryGroups := queryGroups } = some g ∧
      SameSelection P f g := by
  have hl' : WellFormedGroups ((lines text').map words) := by
    rw [hw]
    intro l hl'
    obtain ⟨l, h, rfl⟩ := List.mem_map.1 hl'
    rw [List.length_modifyHead]
    exact hl l h
  have hnil : (lines text').map words = [] ↔ (lines text).map words = [] := by
    rw [hw, List.map_eq_nil_iff]
  have hin : ∀ q, groupIn ((lines text').map words) q = (groupIn ((lines text).map words) q).map r := by
    intro q
    rw [hw, groupIn_modifyHead]
  refine ⟨groupSelection ((lines text).map words), groupSelection ((lines text').map words), ?_, ?_, ?_⟩
  · unfold selection
    rw [if_pos hg, h]
    exact if_pos hl
  · unfold selection
    rw [if_pos hg', h']
    exact if_pos hl'
  · intro q _
    unfold groupSelection
    by_cases hn : (lines text).map words = []
    · rw [if_pos hn, if_pos (hnil.2 hn)]
      exact ⟨Iff.rfl, fun _ _ _ _ => Iff.rfl⟩
    · rw [if_neg hn, if_neg (fun h => hn (hnil.1 h))]
      refine ⟨by rw [hin]; simp, fun q' _ _ _ => ?_⟩
      rw [hin, hin, (Option.map_injective hr).eq_iff]

/-! ## A case -/

/-- Two queries, a file that lists both, and a file that makes each a group of its own. -/
def selectExample : World where
  file f :=
    if f = "ref".toList then some "a d 0 0 2 2\nb d 0 0 2 2\n".toList
    else if f = "set".toList then some "b c a b\n".toList
    else if f = "groups".toList then some "x b\ny a\n".toList
    else none
  stdin := "b d 0 0 2 2 0.5\n\n# x\na d 9 9 2 2 1.5\n".toList
  writable _ := false

/-- With either file, the run ends as without: with a report. -/
example {G : Type} (S : StdSort) (rng : Rng G) :
    let o : ToolOptions := { refFilename := "ref".toList, alpha := 1 / 20 }
    let kit := icdarKit Rnd.exact S
    ∃ r, mainWith Rnd.exact S rng kit selectExample o = .ok (.done r) ∧
      mainWith Rnd.exact S rng kit selectExample { o with querySet := "set".toList } = .ok (.done r) ∧
      mainWith Rnd.exact S rng kit selectExample { o with queryGroups := "groups".toList } =
        .ok (.done r) := by
  intro o kit
  obtain ⟨y1, y2⟩ := runExample_yields
  have hfile : selectExample.file "ref".toList = some "a d 0 0 2 2\nb d 0 0 2 2\n".toList := by
    unfold selectExample
    dsimp only
    rw [if_pos rfl]
  have hstdin : hypText selectExample o = some "b d 0 0 2 2 0.5\n\n# x\na d 9 9 2 2 1.5\n".toList :=
    if_pos rfl
  obtain ⟨r, hr, _⟩ := (C62_box_partial Rnd.exact S rng selectExample o (fun t t' _ _ =>
    ⟨fun h => by simp [o] at h, fun h => absurd rfl h, fun h => absurd rfl h,
      fun h => by simp [o] at h⟩)).1
    ⟨⟨by decide, ⟨_, hfile, yields_valid y1⟩, ⟨_, hstdin, yields_valid y2⟩,
      fun h => absurd rfl h, fun h => absurd rfl h⟩, Or.inl rfl⟩
  have h1 : readEvents extractBoxEvent identityMap () "a d 0 0 2 2\nb d 0 0 2 2\n".toList =
      ((), [⟨"a".toList, ⟨⟨0, 0, 2, 2⟩, "d".toList⟩⟩, ⟨"b".toList, ⟨⟨0, 0, 2, 2⟩, "d".toList⟩⟩],
        .ok) := by decide +kernel
  have h2 : readEvents (extractScored Rnd.exact extractBoxEvent) identityMap ()
      "b d 0 0 2 2 0.5\n\n# x\na d 9 9 2 2 1.5\n".toList =
      ((), [⟨⟨"b".toList, ⟨⟨0, 0, 2, 2⟩, "d".toList⟩⟩, .fin (1 / 2)⟩,
        ⟨⟨"a".toList, ⟨⟨9, 9, 2, 2⟩, "d".toList⟩⟩, .fin (3 / 2)⟩], .ok) := by decide +kernel
  have hocc : ∀ q : Str, ((∃ e ∈ ([⟨"a".toList, ⟨⟨0, 0, 2, 2⟩, "d".toList⟩⟩,
      ⟨"b".toList, ⟨⟨0, 0, 2, 2⟩, "d".toList⟩⟩] : List (Event Str (DocBox Str UInt32))), e.query = q) ∨
      ∃ h ∈ ([⟨⟨"b".toList, ⟨⟨0, 0, 2, 2⟩, "d".toList⟩⟩, .fin (1 / 2)⟩,
        ⟨⟨"a".toList, ⟨⟨9, 9, 2, 2⟩, "d".toList⟩⟩, .fin (3 / 2)⟩] :
        List (ScoredEvent Str (DocBox Str UInt32))), h.base.query = q) →
      q = "a".toList ∨ q = "b".toList := by
    rintro q (⟨e, he, rfl⟩ | ⟨e, he, rfl⟩) <;>
    · simp only [List.mem_cons, List.not_mem_nil, or_false] at he
      rcases he with rfl | rfl <;> simp
  have s0 : selection selectExample o = some some := rfl
  have s1 : selection selectExample { o with querySet := "set".toList } =
      some (setSelection ["b".toList, "c".toList, "a".toList, "b".toList]) := by
    have hw : words "b c a b\n".toList = ["b".toList, "c".toList, "a".toList, "b".toList] := by
      decide +kernel
    rw [← hw]
    rfl
  have s2 : selection selectExample { o with queryGroups := "groups".toList } =
      some (groupSelection [["x".toList, "b".toList], ["y".toList, "a".toList]]) := by
    have hw : (lines "x b\ny a\n".toList).map words =
      [["x".toList, "b".toList], ["y".toList, "a".toList]] := by decide +kernel
    have hf : selectExample.file "groups".toList = some "x b\ny a\n".toList := rfl
    unfold selection
    rw [if_pos (by decide)]
    dsimp only
    rw [hf]
    simp only [Option.bind_some, hw]
    rw [if_pos (by decide)]
  refine ⟨r, hr, ?_, ?_⟩
  · rw [← hr]
    refine C97_box Rnd.exact S rng selectExample o "set".toList [] _ _ _ _ (by decide) hfile hstdin h1 h2
      _ _ s0 s1 ?_
    intro q hq
    rcases hocc q hq with rfl | rfl <;>
    · refine ⟨by decide +kernel, fun q' hq' _ _ => ?_⟩
      rcases hocc q' hq' with rfl | rfl <;> decide +kernel
  · rw [← hr]
    refine C97_box Rnd.exact S rng selectExample o [] "groups".toList _ _ _ _ (by decide) hfile hstdin
      h1 h2 _ _ s0 s2 ?_
    intro q hq
    rcases hocc q hq with rfl | rfl <;>
    · refine ⟨by decide +kernel, fun q' hq' _ _ => ?_⟩
      rcases hocc q' hq' with rfl | rfl <;> decide +kernel

end Kws
