import Verif.Lemmas.Ids

/-!
# C58, C59, C61, C62 for the segmentation-based tool

The tool (`simpleKit R qf`) replaces strings by integer ids; `strKit R` (Spec/Tool.lean) is the same
tool without ids. `qf` is the order in which the compiler evaluates the arguments at
mapper/StringEventToIntMapper.h, so the ids depend on it and on the order of lines. `vocabulary w o`
are the words of all input files; the tool can tell 2^31 of them apart.
-/

namespace Kws
open Spec

section
variable {G : Type}

/-! ## C62 -/

/-- C62 for the segmentation-based tool, what holds: a feasible run ends with a complete report if
the inputs are valid and the matches, if asked for, can be written; otherwise it ends with status 1. -/
theorem C62_segmentation_partial (R : Rnd) (S : StdSort) (rng : Rng G) (qf : Bool) (w : World)
    (o : ToolOptions) (hV : (vocabulary w o).dedup.length ≤ 2 ^ 31)
    (hf : ∀ t t', w.file o.refFilename = some t → hypText w o = some t' →
      Feasible R w o ((lines t).length + (lines t').length)) :
    let good := ValidInputs StrEventText (ScoredText R StrEventText) w o ∧
      (o.dumpMatches = [] ∨ w.writable o.dumpMatches = true)
    (good → ∃ r, mainWith R S rng (simpleKit R qf) w o = .ok (.done r) ∧ Complete o r) ∧
    (¬ good → mainWith R S rng (simpleKit R qf) w o = .ok .failed) := by
  intro good
  by_cases hb : o.refFilename = [] ∨ w.file o.refFilename = none ∨
      ∃ t, w.file o.refFilename = some t ∧ ¬ ValidFile StrEventText t
  · refine ⟨fun hg => ?_, fun _ => simple_badRef R S rng qf w o hV hb⟩
    obtain ⟨t, ht, hv⟩ := hg.1.refs
    rcases hb with hb | hb | ⟨t', ht', hv'⟩
    · exact absurd hb hg.1.refName
    · rw [ht] at hb; cases hb
    · rw [ht] at ht'; injection ht' with ht'; subst ht'
      exact absurd hv hv'
  by_cases hb' : hypText w o = none ∨
      ∃ t, hypText w o = some t ∧ ¬ ValidFile (ScoredText R StrEventText) t
  · refine ⟨fun hg => ?_, fun _ => simple_badHyp R S rng qf w o hV hb'⟩
    obtain ⟨t, ht, hv⟩ := hg.1.hyps
    rcases hb' with hb' | ⟨t', ht', hv'⟩
    · rw [ht] at hb'; cases hb'
    · rw [ht] at ht'; injection ht' with ht'; subst ht'
      exact absurd hv hv'
  push Not at hb hb'
  obtain ⟨hr, h1, h2⟩ := hb
  obtain ⟨t, ht⟩ := Option.ne_none_iff_exists'.1 h1
  obtain ⟨u, hu⟩ := Option.ne_none_iff_exists'.1 hb'.1
  have hv := h2 t ht
  have hv' := hb'.2 u hu
  obtain ⟨f, N, hf', _, e⟩ := simple_good R S rng qf w o hV hr t u ht hu hv hv'
  obtain ⟨q1, q2⟩ := readQueryMap_plain (mapQuery := fun (m : Unit) q => (m, (.ok q : Cpp Str)))
    (fun _ _ => rfl) w o ()
  by_cases hqf : (o.querySet ≠ [] → o.queryGroups = [] → ∃ t, w.file o.querySet = some t) ∧
      (o.queryGroups ≠ [] → ∃ t, w.file o.queryGroups = some t ∧ WellFormedGroups ((lines t).map words))
  swap
  · refine ⟨fun hg => absurd ⟨hg.1.querySet, hg.1.queryGroups⟩ hqf, fun _ => ?_⟩
    rw [e, q2 hqf]
    rfl
  obtain ⟨q2g, eq⟩ := q1 hqf
  have hfin := (str_plain R).finite u hv'
  obtain ⟨v1, v2⟩ := (simple_seg R qf).safe.evaluate_total R S rng w o (q2g.map (Prod.map f f))
    ((eventsIn extractStrEvent t).map (Event.rename f f))
    ((eventsIn (extractScored R extractStrEvent) u).map (ScoredEvent.rename f f)) _
    (hf t u ht hu).assessable
    (fun x hx => by
      obtain ⟨y, hy, rfl⟩ := List.mem_map.1 hx
      exact hfin y hy)
    (by
      rw [List.length_map, List.length_map]
      exact Nat.add_le_add (List.length_filterMap_le _ _) (List.length_filterMap_le _ _))
  constructor
  · intro hg
    obtain ⟨r, hr, hc⟩ := v2 hg.2
    refine ⟨r, ?_, hc⟩
    rw [e, eq]
    exact hr
  · intro hg
    rw [e, eq]
    refine v1 ?_
    by_contra hc
    apply hg
    refine ⟨⟨hr, ⟨t, ht, hv⟩, ⟨u, hu, hv'⟩, hqf.1, hqf.2⟩, ?_⟩
    by_contra hd
    push Not at hd
    exact hc ⟨hd.1, by simpa using hd.2⟩

/-! ## C61 -/

theorem rename_between {f f' : Str → Nat} {N' : Nat} (hf : Function.Injective f)
    (hf' : Function.Injective f') (hN' : ∀ s n, f' s ≠ N' + (2 * n + 1)) :
    ∃ g : Nat → Nat, Function.Injective g ∧ ∀ s, g (f s) = f' s := by
  classical
  refine ⟨fun n => if h : ∃ s, f s = n then f' h.choose else N' + (2 * n + 1), ?_, ?_⟩
  · intro a b h
    simp only at h
    by_cases ha : ∃ s, f s = a <;> by_cases hb : ∃ s, f s = b
    · rw [dif_pos ha, dif_pos hb] at h
      rw [← ha.choose_spec, ← hb.choose_spec, hf' h]
    · rw [dif_pos ha, dif_neg hb] at h
      exact absurd h (hN' _ _)
    · rw [dif_neg ha, dif_pos hb] at h
      exact absurd h.symm (hN' _ _)
    · rw [dif_neg ha, dif_neg hb] at h
      omega
  · intro s
    have h : ∃ s', f s' = f s := ⟨s, rfl⟩
    simp only [dif_pos h]
    rw [hf h.choose_spec]

/-- The files of both runs are good, or both runs fail. -/
theorem reordered_good {R : Rnd} {o : ToolOptions} {w w' : World} (hw : Reordered o w w') :
    ((o.refFilename = [] ∨ w.file o.refFilename = none ∨
        ∃ t, w.file o.refFilename = some t ∧ ¬ ValidFile StrEventText t) ∧
      (o.refFilename = [] ∨ w'.file o.refFilename = none ∨
        ∃ t, w'.file o.refFilename = some t ∧ ¬ ValidFile StrEventText t)) ∨
    ((hypText w o = none ∨ ∃ t, hypText w o = some t ∧ ¬ ValidFile (ScoredText R StrEventText) t) ∧
      (hypText w' o = none ∨
        ∃ t, hypText w' o = some t ∧ ¬ ValidFile (ScoredText R StrEventText) t)) ∨
    (o.refFilename ≠ [] ∧ ∃ t t' u u', w.file o.refFilename = some t ∧ hypText w o = some t' ∧
      w'.file o.refFilename = some u ∧ hypText w' o = some u' ∧ ValidFile StrEventText t ∧
      ValidFile (ScoredText R StrEventText) t' ∧ ValidFile StrEventText u ∧
      ValidFile (ScoredText R StrEventText) u') := by
  by_cases hr : o.refFilename = []
  · exact Or.inl ⟨Or.inl hr, Or.inl hr⟩
  rcases hw.refs with ⟨h1, h2⟩ | ⟨t, u, ht, hu, hl⟩
  · exact Or.inl ⟨Or.inr (Or.inl h1), Or.inr (Or.inl h2)⟩
  have hvv : ValidFile StrEventText t ↔ ValidFile StrEventText u := by
    unfold ValidFile
    simp only [hl]
  by_cases hv : ValidFile StrEventText t
  swap
  · exact Or.inl ⟨Or.inr (Or.inr ⟨t, ht, hv⟩), Or.inr (Or.inr ⟨u, hu, fun h => hv (hvv.2 h)⟩)⟩
  rcases hw.hyps with ⟨h1, h2⟩ | ⟨t', u', ht', hu', hp⟩
  · exact Or.inr (Or.inl ⟨Or.inl h1, Or.inl h2⟩)
  have hvv' : ValidFile (ScoredText R StrEventText) t' ↔ ValidFile (ScoredText R StrEventText) u' := by
    unfold ValidFile
    simp only [hp.mem_iff]
  by_cases hv' : ValidFile (ScoredText R StrEventText) t'
  swap
  · exact Or.inr (Or.inl ⟨Or.inr ⟨t', ht', hv'⟩, Or.inr ⟨u', hu', fun h => hv' (hvv'.2 h)⟩⟩)
  exact Or.inr (Or.inr ⟨hr, t, t', u, u', ht, ht', hu, hu', hv, hv', hvv.1 hv, hvv'.1 hv'⟩)

/-- C61, what holds: two runs of the segmentation-based tool on files with the same lines in another
order end alike, with the same metrics up to the order in which the mean average precision (and the
mean curve) is added up. With exact arithmetic these are the same, too. -/
theorem C61_line_order_partial (R : Rnd) (S S' : StdSort) (rng rng' : Rng G) (qf qf' : Bool)
    (w w' : World) (o : ToolOptions) (hw : Reordered o w w')
    (hV : (vocabulary w o).dedup.length ≤ 2 ^ 31) (hV' : (vocabulary w' o).dedup.length ≤ 2 ^ 31)
    (n : Nat)
    (hn : ∀ t t', w.file o.refFilename = some t → hypText w o = some t' →
      (lines t).length + (lines t').length ≤ n)
    (hn' : ∀ t t', w'.file o.refFilename = some t → hypText w' o = some t' →
      (lines t).length + (lines t').length ≤ n)
    (hf : Feasible R w o n) (hR : R = Rnd.exact ∨ R.Faithful ∧ n ≤ 2 ^ 24)
    (hd : o.sort = "desc".toList) (hc : o.collapse = true) :
    EndAlike R (mainWith R S rng (simpleKit R qf) w o) (mainWith R S' rng' (simpleKit R qf') w' o) := by
  have hf' : Feasible R w' o n :=
    ⟨hf.ci, by rw [← hw.writable]; exact hf.grp, by rw [← hw.writable]; exact hf.mrp, hf.curves⟩
  rcases reordered_good (R := R) hw with ⟨h1, h2⟩ | ⟨h1, h2⟩ |
    ⟨hr, t, t', u, u', ht, ht', hu, hu', hv, hv', hvu, hvu'⟩
  · exact Or.inl ⟨simple_badRef R S rng qf w o hV h1, simple_badRef R S' rng' qf' w' o hV' h2⟩
  · exact Or.inl ⟨simple_badHyp R S rng qf w o hV h1, simple_badHyp R S' rng' qf' w' o hV' h2⟩
  · obtain ⟨f, N, i1, i2, e⟩ := simple_good R S rng qf w o hV hr t t' ht ht' hv hv'
    obtain ⟨f', N', i1', i2', e'⟩ := simple_good R S' rng' qf' w' o hV' hr u u' hu hu' hvu hvu'
    obtain ⟨g, hg, hgf⟩ := rename_between i1 i1' i2'
    exact main_agree R S S' rng rng' (simple_seg R qf) (simple_seg R qf') w w' o hw g hg hgf t t' u u'
      ht ht' hu hu' hv' n n (hn t t' ht ht') (hn' u u' hu hu') hf.assessable hf'.assessable
      (hR.imp id (fun h => ⟨h.1, h.2, h.2⟩)) hd hc e e'

/-- C61, what holds: the run of the tool that uses the strings themselves ends alike (also with the
lines in another order). -/
theorem C61_ids_partial (R : Rnd) (S S' : StdSort) (rng rng' : Rng G) (qf : Bool)
    (w w' : World) (o : ToolOptions) (hw : Reordered o w w')
    (hV : (vocabulary w' o).dedup.length ≤ 2 ^ 31) (n : Nat)
    (hn : ∀ t t', w.file o.refFilename = some t → hypText w o = some t' →
      (lines t).length + (lines t').length ≤ n)
    (hn' : ∀ t t', w'.file o.refFilename = some t → hypText w' o = some t' →
      (lines t).length + (lines t').length ≤ n)
    (hf : Feasible R w o n) (hR : R = Rnd.exact ∨ R.Faithful ∧ n ≤ 2 ^ 24)
    (hd : o.sort = "desc".toList) (hc : o.collapse = true) :
    EndAlike R (mainWith R S rng (strKit R) w o) (mainWith R S' rng' (simpleKit R qf) w' o) := by
  have hf' : Feasible R w' o n :=
    ⟨hf.ci, by rw [← hw.writable]; exact hf.grp, by rw [← hw.writable]; exact hf.mrp, hf.curves⟩
  rcases reordered_good (R := R) hw with ⟨h1, h2⟩ | ⟨h1, h2⟩ |
    ⟨hr, t, t', u, u', ht, ht', hu, hu', hv, hv', hvu, hvu'⟩
  · exact Or.inl ⟨(str_plain R).main_badRef S rng w o h1, simple_badRef R S' rng' qf w' o hV h2⟩
  · exact Or.inl ⟨(str_plain R).main_badHyp S rng w o h1, simple_badHyp R S' rng' qf w' o hV h2⟩
  · obtain ⟨f', N', i1', i2', e'⟩ := simple_good R S' rng' qf w' o hV hr u u' hu hu' hvu hvu'
    exact main_agree R S S' rng rng' (str_seg R) (simple_seg R qf) w w' o hw f' i1' (fun _ => rfl)
      t t' u u' ht ht' hu hu' hv' n n (hn t t' ht ht') (hn' u u' hu hu') hf.assessable hf'.assessable
      (hR.imp id (fun h => ⟨h.1, h.2, h.2⟩)) hd hc (str_good R S rng w o hr t t' ht ht' hv hv') e'

/-- C61 at the level of matching and assessing: renaming queries and locations by injective maps (in
events and query groups), repeating and reordering references and reordering hypotheses changes
neither the metrics nor the global curve. -/
theorem C61_renaming_partial {μ μ' Q L Q' L' : Type} [DecidableEq Q] [Cmp Q] [LawfulCmp Q]
    [DecidableEq L] [Cmp L] [LawfulCmp L] [DecidableEq Q'] [Cmp Q'] [LawfulCmp Q'] [DecidableEq L']
    [Cmp L'] [LawfulCmp L'] (R : Rnd) (S S' : StdSort) (rng rng' : Rng G)
    (kit : ToolKit μ (EventSet (Event Q L)) Q L) (kit' : ToolKit μ' (EventSet (Event Q' L')) Q' L')
    (hk : SegKit kit) (hk' : SegKit kit') (w : World) (o : ToolOptions) {f : Q → Q'} {g : L → L'}
    (hf : Function.Injective f) (hg : Function.Injective g)
    (q2g : List (Q × Q)) (refs : List (Event Q L)) (refs' : List (Event Q' L'))
    (hyps : List (ScoredEvent Q L)) (hyps' : List (ScoredEvent Q' L'))
    (hr : ∀ r, r ∈ refs' ↔ ∃ e ∈ refs, r = ⟨f e.query, g e.location⟩)
    (hp : hyps'.Perm (hyps.map (fun h => ⟨⟨f h.base.query, g h.base.location⟩, h.score⟩)))
    (hnan : ∀ h ∈ hyps, h.score ≠ .nan) (n : Nat) (hn : refs.length + hyps.length ≤ n)
    (hn' : refs'.length + hyps'.length ≤ n) (hF : Feasible R w o n)
    (hR : R = Rnd.exact ∨ R.Faithful ∧ n ≤ 2 ^ 24)
    (hd : o.sort = "desc".toList) (hc : o.collapse = true) :
    EndAlike R (evaluate R S rng kit w o q2g refs hyps)
      (evaluate R S' rng' kit' w o (q2g.map (fun p => (f p.1, f p.2))) refs' hyps') := by
  have hnan' : ∀ h ∈ hyps', h.score ≠ .nan := by
    intro x hx
    obtain ⟨y, hy, rfl⟩ := List.mem_map.1 (hp.mem_iff.1 hx)
    exact hnan y hy
  obtain ⟨v1, v2⟩ := hk.safe.evaluate_total R S rng w o q2g refs hyps n hF.assessable hnan hn
  obtain ⟨v1', v2'⟩ := hk'.safe.evaluate_total R S' rng' w o (q2g.map (fun p => (f p.1, f p.2))) refs'
    hyps' n hF.assessable hnan' hn'
  by_cases hdump : o.dumpMatches = [] ∨ w.writable o.dumpMatches = true
  · obtain ⟨r, er, _⟩ := v2 hdump
    obtain ⟨r', er', _⟩ := v2' hdump
    refine Or.inr ⟨r, r', er, er', ?_⟩
    refine evaluate_agree R S S' rng rng' kit kit' hk hk' w w o hf hg q2g refs refs' hyps hyps' ?_ hp
      hnan ?_ hd hc rfl r r' er er'
    · intro r
      rw [hr, List.mem_map]
      constructor
      · rintro ⟨e, he, rfl⟩; exact ⟨e, he, rfl⟩
      · rintro ⟨e, he, rfl⟩; exact ⟨e, he, rfl⟩
    · exact hR.imp id (fun h => ⟨h.1, hn.trans h.2, hn'.trans h.2⟩)
  · push Not at hdump
    have hdump : o.dumpMatches ≠ [] ∧ w.writable o.dumpMatches = false :=
      ⟨hdump.1, by simpa using hdump.2⟩
    exact Or.inl ⟨v1 hdump, v1' hdump⟩

/-! ## C58, C59 -/

/-- A run of the segmentation-based tool whose event files are read as `refs` and `hyps`, and whose
query files are read as `q2g`. -/
theorem simple_used (R : Rnd) (S : StdSort) (rng : Rng G) (qf : Bool) (w : World) (o : ToolOptions)
    (hV : (vocabulary w o).dedup.length ≤ 2 ^ 31) (refText hypText' : Str)
    (refs : List (Event Str Str)) (hyps : List (ScoredEvent Str Str))
    (hr : o.refFilename ≠ []) (hrt : w.file o.refFilename = some refText)
    (hht : hypText w o = some hypText')
    (h1 : readEvents extractStrEvent identityMap () refText = ((), refs, .ok))
    (h2 : readEvents (extractScored R extractStrEvent) identityMap () hypText' = ((), hyps, .ok)) :
    ∃ f : Str → Nat, Function.Injective f ∧
      (readQueryMap (fun (m : Unit) q => (m, .ok q)) w o () = .ok none →
        mainWith R S rng (simpleKit R qf) w o = .ok .failed) ∧
      ∀ q2g listed, readQueryMap (fun (m : Unit) q => (m, .ok q)) w o () = .ok (some q2g) →
        (∀ q, (AMap.find? q q2g).isSome = true ↔ q ∈ listed) →
        ∃ q2g', mainWith R S rng (simpleKit R qf) w o =
          matchAndAssess R S rng (simpleKit R qf) w o q2g'
            ((keep (·.query) listed refs).map (fun e => ⟨f e.query, f e.location⟩))
            ((keep (·.base.query) listed hyps).map
              (fun e => ⟨⟨f e.base.query, f e.base.location⟩, e.score⟩)) ∧
          ∀ q, groupOf q2g' (f q) = f (groupOf q2g q) := by
  have v1 := (Format.strRefs (R := R)).valid_of_ok refText (by unfold readPlain; rw [h1])
  have v2 := (Format.strHyps (R := R)).valid_of_ok hypText' (by unfold readPlain; rw [h2])
  have e1 : eventsIn extractStrEvent refText = refs := by
    have := (Format.strRefs (R := R)).readPlain_ok refText v1
    unfold readPlain at this
    rw [h1] at this
    exact (congrArg Prod.fst this).symm
  have e2 : eventsIn (extractScored R extractStrEvent) hypText' = hyps := by
    have := (Format.strHyps (R := R)).readPlain_ok hypText' v2
    unfold readPlain at this
    rw [h2] at this
    exact (congrArg Prod.fst this).symm
  obtain ⟨f, N, hf, _, e⟩ := simple_good R S rng qf w o hV hr _ _ hrt hht v1 v2
  refine ⟨f, hf, ?_, ?_⟩
  · intro h
    rw [e, h]
    rfl
  · intro q2g listed h hl
    refine ⟨q2g.map (Prod.map f f), ?_, fun q => groupOf_rename hf q2g q⟩
    rw [e, h, e1, e2]
    change matchAndAssess R S rng (simpleKit R qf) w o (q2g.map (Prod.map f f))
      (usedRefs (q2g.map (Prod.map f f)) (refs.map (Event.rename f f)))
      (usedHyps (q2g.map (Prod.map f f)) (hyps.map (ScoredEvent.rename f f))) = _
    rw [usedRefs_rename f hf, usedHyps_rename f hf]
    unfold usedRefs usedHyps
    rw [filter_keep _ _ hl, filter_keep _ _ hl]
    rfl

/-- C58 for the segmentation-based tool: with a query set, exactly the events whose query is in it
are used (all events if the set is empty), in the order of the files, with strings renamed one to
one; every query is its own group. -/
theorem C58_segmentation_query_set (R : Rnd) (S : StdSort) (rng : Rng G) (qf : Bool) (w : World)
    (o : ToolOptions) (hV : (vocabulary w o).dedup.length ≤ 2 ^ 31) (refText hypText' text : Str)
    (refs : List (Event Str Str)) (hyps : List (ScoredEvent Str Str))
    (hr : o.refFilename ≠ []) (hrt : w.file o.refFilename = some refText)
    (hht : hypText w o = some hypText')
    (h1 : readEvents extractStrEvent identityMap () refText = ((), refs, .ok))
    (h2 : readEvents (extractScored R extractStrEvent) identityMap () hypText' = ((), hyps, .ok))
    (hs : o.querySet ≠ []) (hg : o.queryGroups = []) (hf : w.file o.querySet = some text) :
    ∃ (f : Str → Nat) (q2g : List (Nat × Nat)), Function.Injective f ∧
      mainWith R S rng (simpleKit R qf) w o =
        matchAndAssess R S rng (simpleKit R qf) w o q2g
          ((keep (·.query) (words text) refs).map (fun e => ⟨f e.query, f e.location⟩))
          ((keep (·.base.query) (words text) hyps).map
            (fun e => ⟨⟨f e.base.query, f e.base.location⟩, e.score⟩)) ∧
      ∀ q, groupOf q2g (f q) = f q := by
  obtain ⟨f, hfi, _, h⟩ := simple_used R S rng qf w o hV refText hypText' refs hyps hr hrt hht h1 h2
  obtain ⟨m', e⟩ := readQuerySet_names (names_identity (mapQuery := fun (m : Unit) q =>
    (m, (.ok q : Cpp Str))) (fun _ _ => rfl) _) () text rfl trivial
  have hfind : ∀ q, AMap.find? q (((words text).map id).foldl
      (fun q2g q => AMap.set q q q2g) []) = if q ∈ words text then some q else none := by
    intro q
    have := find?_setAll ((words text).map id) (fun q => q) ([] : List (Str × Str)) q
    simpa [AMap.find?] using this
  obtain ⟨q2g', h3, h4⟩ := h _ (words text) (by
      unfold readQueryMap
      rw [if_pos ⟨hs, hg⟩, hf]
      simp only [e]
      rfl) (fun q => by
        rw [hfind]
        split <;> simp [*])
  refine ⟨f, q2g', hfi, h3, fun q => ?_⟩
  rw [h4]
  congr 1
  unfold groupOf
  rw [hfind]
  split
  · rename_i g h
    split at h
    · injection h with h; exact h.symm
    · cases h
  · rfl

/-- C58, C59 for the segmentation-based tool: with a query groups file, exactly the events whose
query is listed in it are used (all events if the file is empty), and the groups are those of the file.
If a line has less than two words, the run fails. -/
theorem C58_segmentation_query_groups (R : Rnd) (S : StdSort) (rng : Rng G) (qf : Bool) (w : World)
    (o : ToolOptions) (hV : (vocabulary w o).dedup.length ≤ 2 ^ 31) (refText hypText' text : Str)
    (refs : List (Event Str Str)) (hyps : List (ScoredEvent Str Str))
    (hr : o.refFilename ≠ []) (hrt : w.file o.refFilename = some refText)
    (hht : hypText w o = some hypText')
    (h1 : readEvents extractStrEvent identityMap () refText = ((), refs, .ok))
    (h2 : readEvents (extractScored R extractStrEvent) identityMap () hypText' = ((), hyps, .ok))
    (hg : o.queryGroups ≠ []) (hf : w.file o.queryGroups = some text) :
    let ls := (lines text).map words
    (WellFormedGroups ls → ∃ (f : Str → Nat) (q2g : List (Nat × Nat)), Function.Injective f ∧
      mainWith R S rng (simpleKit R qf) w o =
        matchAndAssess R S rng (simpleKit R qf) w o q2g
          ((keep (·.query) (listedIn ls) refs).map (fun e => ⟨f e.query, f e.location⟩))
          ((keep (·.base.query) (listedIn ls) hyps).map
            (fun e => ⟨⟨f e.base.query, f e.base.location⟩, e.score⟩)) ∧
      ∀ q, groupOf q2g (f q) = f ((groupIn ls q).getD q)) ∧
    (¬ WellFormedGroups ls → mainWith R S rng (simpleKit R qf) w o = .ok .failed) := by
  intro ls
  obtain ⟨f, hfi, hbad, h⟩ := simple_used R S rng qf w o hV refText hypText' refs hyps hr hrt hht h1 h2
  obtain ⟨g1, g2⟩ := C59_groups (mapQuery := fun (m : Unit) q => (m, (.ok q : Cpp Str)))
    (fun _ _ => rfl) () text
  have hmap : readQueryMap (fun (m : Unit) q => (m, (.ok q : Cpp Str))) w o () =
      (readQueryGroups (fun (m : Unit) q => (m, (.ok q : Cpp Str))) () text).2 := by
    unfold readQueryMap
    rw [if_neg (fun h => hg h.2), if_pos hg, hf]
  refine ⟨fun hw => ?_, fun hw => ?_⟩
  · obtain ⟨m', q2g, e, hq⟩ := g1 hw
    obtain ⟨q2g', h3, h4⟩ := h q2g (listedIn ls) (by rw [hmap, e]) (fun q => by
      rw [hq]; exact groupIn_isSome ls q)
    refine ⟨f, q2g', hfi, h3, fun q => ?_⟩
    rw [h4, C59_group ls q2g hq q]
  · obtain ⟨m', e⟩ := g2 hw
    exact hbad (by rw [hmap, e])

/-- C58 for the segmentation-based tool: without query set and groups all events are used and every
query is its own group. -/
theorem C58_segmentation_no_filter (R : Rnd) (S : StdSort) (rng : Rng G) (qf : Bool) (w : World)
    (o : ToolOptions) (hV : (vocabulary w o).dedup.length ≤ 2 ^ 31) (refText hypText' : Str)
    (refs : List (Event Str Str)) (hyps : List (ScoredEvent Str Str))
    (hr : o.refFilename ≠ []) (hrt : w.file o.refFilename = some refText)
    (hht : hypText w o = some hypText')
    (h1 : readEvents extractStrEvent identityMap () refText = ((), refs, .ok))
    (h2 : readEvents (extractScored R extractStrEvent) identityMap () hypText' = ((), hyps, .ok))
    (hs : o.querySet = []) (hg : o.queryGroups = []) :
    ∃ (f : Str → Nat) (q2g : List (Nat × Nat)), Function.Injective f ∧
      mainWith R S rng (simpleKit R qf) w o =
        matchAndAssess R S rng (simpleKit R qf) w o q2g
          (refs.map (fun e => ⟨f e.query, f e.location⟩))
          (hyps.map (fun e => ⟨⟨f e.base.query, f e.base.location⟩, e.score⟩)) ∧
      ∀ q, groupOf q2g (f q) = f q := by
  obtain ⟨f, hfi, _, h⟩ := simple_used R S rng qf w o hV refText hypText' refs hyps hr hrt hht h1 h2
  obtain ⟨q2g', h3, h4⟩ := h [] [] (by
    unfold readQueryMap
    rw [if_neg (fun h => h.1 hs), if_neg (fun h => h hg)]) (fun q => by simp [AMap.find?])
  refine ⟨f, q2g', hfi, ?_, fun q => by rw [h4]; rfl⟩
  rw [h3]
  rfl

end

/-! ## Runs -/

/-- The files of the following runs. The references are the same three, in two orders. -/
def idsExample (refs : Str) : World where
  file f := if f = "ref".toList then some refs else none
  stdin := "a l 1\nb l 1\nb m 1\nb n 1\nc l 1\nc m 1\nc n 1\n".toList
  writable _ := false

def idsOptions : ToolOptions where
  refFilename := "ref".toList
  alpha := 1 / 20

theorem idsExample_file (refs : Str) : (idsExample refs).file "ref".toList = some refs := by
  unfold idsExample
  dsimp only
  rw [if_pos rfl]

theorem idsExample_none (refs : Str) : (idsExample refs).file [] = none := by
  unfold idsExample
  dsimp only
  rw [if_neg (by decide)]

theorem idsExample_writable (refs : Str) : (idsExample refs).writable = fun _ => false := rfl

theorem idsExample_reordered :
    Reordered idsOptions (idsExample "a l\nb l\nc l\n".toList) (idsExample "c l\na l\nb l\n".toList) := by
  refine ⟨Or.inr ⟨_, _, idsExample_file _, idsExample_file _, ?_⟩,
    Or.inr ⟨"a l 1\nb l 1\nb m 1\nb n 1\nc l 1\nc m 1\nc n 1\n".toList,
      "a l 1\nb l 1\nb m 1\nb n 1\nc l 1\nc m 1\nc n 1\n".toList,
      if_pos rfl, if_pos rfl, List.Perm.refl _⟩,
    (idsExample_none _).trans (idsExample_none _).symm,
    (idsExample_none _).trans (idsExample_none _).symm,
    (idsExample_writable _).trans (idsExample_writable _).symm⟩
  have h1 : lines "a l\nb l\nc l\n".toList = ["a l".toList, "b l".toList, "c l".toList] := by
    decide +kernel
  have h2 : lines "c l\na l\nb l\n".toList = ["c l".toList, "a l".toList, "b l".toList] := by
    decide +kernel
  rw [h1, h2]
  generalize "a l".toList = a
  generalize "b l".toList = b
  generalize "c l".toList = c
  intro l
  simp only [List.mem_cons, List.not_mem_nil, or_false]
  tauto

theorem idsExample_vocabulary (refs : Str)
    (h : (words (refs ++ '\n' :: (idsExample refs).stdin)).dedup.length ≤ 2 ^ 31) :
    (vocabulary (idsExample refs) idsOptions).dedup.length ≤ 2 ^ 31 := by
  have e : vocabulary (idsExample refs) idsOptions =
      words (refs ++ '\n' :: (idsExample refs).stdin) := by
    rw [words_append_space _ _ _ (by decide)]
    unfold vocabulary
    rw [show (idsExample refs).file idsOptions.refFilename = some refs from idsExample_file refs,
      show (idsExample refs).file idsOptions.querySet = none from idsExample_none refs,
      show (idsExample refs).file idsOptions.queryGroups = none from idsExample_none refs,
      show hypText (idsExample refs) idsOptions = some (idsExample refs).stdin from if_pos rfl]
    simp
  rw [e]
  exact h

theorem idsExample_vocabulary1 :
    (vocabulary (idsExample "a l\nb l\nc l\n".toList) idsOptions).dedup.length ≤ 2 ^ 31 :=
  idsExample_vocabulary _ (by decide +kernel)

theorem idsExample_vocabulary2 :
    (vocabulary (idsExample "c l\na l\nb l\n".toList) idsOptions).dedup.length ≤ 2 ^ 31 :=
  idsExample_vocabulary _ (by decide +kernel)

theorem idsExample_hyps : ValidFile (ScoredText Rnd.ieee StrEventText)
    "a l 1\nb l 1\nb m 1\nb n 1\nc l 1\nc m 1\nc n 1\n".toList :=
  (Format.strHyps (R := Rnd.ieee)).valid_of_ok _ (by decide +kernel)

theorem idsExample_lines (refs : Str) (h : (lines refs).length = 3) (t t' : Str)
    (h1 : (idsExample refs).file idsOptions.refFilename = some t)
    (h2 : hypText (idsExample refs) idsOptions = some t') :
    (lines t).length + (lines t').length ≤ 10 := by
  rw [show (idsExample refs).file idsOptions.refFilename = some refs from idsExample_file refs] at h1
  rw [show hypText (idsExample refs) idsOptions = some (idsExample refs).stdin from if_pos rfl] at h2
  injection h1 with h1
  injection h2 with h2
  subst h1
  subst h2
  have : (lines (idsExample refs).stdin).length = 7 := by
    have : (lines "a l 1\nb l 1\nb m 1\nb n 1\nc l 1\nc m 1\nc n 1\n".toList).length = 7 := by decide +kernel
    exact this
  omega

theorem idsExample_feasible (R : Rnd) (refs : Str) : Feasible R (idsExample refs) idsOptions 10 :=
  ⟨fun h => by simp [idsOptions] at h, fun h => absurd rfl h, fun h => absurd rfl h,
    fun h => by simp [idsOptions] at h⟩

/-- Two runs with different ids: both end with a report. -/
example {G : Type} (S : StdSort) (rng : Rng G) : ∃ r r' : Report Nat Nat,
    mainWith Rnd.ieee S rng (simpleKit Rnd.ieee true) (idsExample "a l\nb l\nc l\n".toList)
      idsOptions = .ok (.done r) ∧
    mainWith Rnd.ieee S rng (simpleKit Rnd.ieee false) (idsExample "c l\na l\nb l\n".toList)
      idsOptions = .ok (.done r') ∧ Agree Rnd.ieee r r' := by
  have h := C61_line_order_partial Rnd.ieee S S rng rng true false _ _ idsOptions idsExample_reordered
    idsExample_vocabulary1 idsExample_vocabulary2 10
    (idsExample_lines _ (by decide +kernel)) (idsExample_lines _ (by decide +kernel))
    (idsExample_feasible _ _) (Or.inr ⟨ieee_faithful, by norm_num⟩) rfl rfl
  rcases h with ⟨h, _⟩ | h
  · exfalso
    obtain ⟨r, hr, _⟩ := (C62_segmentation_partial Rnd.ieee S rng true
      (idsExample "a l\nb l\nc l\n".toList) idsOptions idsExample_vocabulary1
      (fun t t' h1 h2 => by
        refine ⟨fun h => by simp [idsOptions] at h, fun h => absurd rfl h, fun h => absurd rfl h,
          fun h => by simp [idsOptions] at h⟩)).1
      ⟨⟨by decide, ⟨_, idsExample_file _, (Format.strRefs (R := Rnd.ieee)).valid_of_ok _
          (by decide +kernel)⟩, ⟨_, if_pos rfl, idsExample_hyps⟩, fun h => absurd rfl h,
          fun h => absurd rfl h⟩, Or.inl rfl⟩
    rw [hr] at h
    cases h
  · exact h

/-! ## C61 is false -/

/-- The mean average precision of a run without query groups. -/
def runMAP (R : Rnd) (refs : List (Event Nat Nat)) (hyps : List (ScoredEvent Nat Nat)) : Cpp ℚ := do
  let (_, ms, _) ← SimpleMatcher.run (plainIndex Nat Nat) trivialScorer EventSet.new refs
    (insSort ScoredEvent.gt hyps)
  let groups ← groupMatches [] ms
  return roundedMean R (groups.map (apOf R true true))

theorem runMAP_eq {G : Type} (R : Rnd) (S : StdSort) (rng : Rng G) (qf : Bool) (w : World)
    (refText hypText' : Str)
    (m m' : IntMapper) (refs : List (Event Nat Nat)) (hyps : List (ScoredEvent Nat Nat))
    (hrt : w.file idsOptions.refFilename = some refText) (hht : hypText w idsOptions = some hypText')
    (h1 : (simpleKit R qf).readRef (simpleKit R qf).mapper refText = (m, refs, .ok))
    (h2 : (simpleKit R qf).readHyp m hypText' = (m', hyps, .ok)) (hn : ∀ h ∈ hyps, h.score ≠ .nan)
    (r : Report Nat Nat) (h : mainWith R S rng (simpleKit R qf) w idsOptions = .ok (.done r)) :
    runMAP R refs hyps = .ok r.mAP.value := by
  rw [mainWith_inputs R _ rng (simpleKit R qf) w idsOptions _ _ m m' refs hyps (by decide) hrt hht h1
    h2] at h
  have e : readQueryMap (simpleKit R qf).mapQuery w idsOptions m' = .ok (some []) := by
    unfold readQueryMap
    rw [if_neg (fun h => h.1 rfl), if_neg (fun h => h rfl)]
  rw [e] at h
  obtain ⟨l, s', ms, rep, groups, a1, a2, a3, a4⟩ := evaluate_done _ _ _ _ _ _ _ _ _ _ h
  obtain ⟨_, b2, _⟩ := assess_ok _ _ _ _ _ _ _ _ _ a4
  have a1 : sortHyps S "desc".toList hyps = .ok l := a1
  have hl : l = insSort ScoredEvent.gt hyps := by
    obtain ⟨l', c1, c2, _⟩ := sortHyps_unique S insertionStdSort "desc".toList hyps hyps hn
      (List.Perm.refl _) (Or.inl rfl)
    rw [a1] at c1
    injection c1 with c1
    subst c1
    unfold sortHyps insertionStdSort at c2
    rw [if_pos rfl] at c2
    dsimp only at c2
    split at c2
    · injection c2 with c2; exact c2.symm
    · cases c2
  have a2 : SimpleMatcher.run (plainIndex Nat Nat) trivialScorer EventSet.new refs l =
    .ok (s', ms, rep) := a2
  rw [hl] at a2
  unfold runMAP
  simp only [a2, a3, bind, Except.bind]
  unfold meanStatistic at b2
  rw [if_neg (by decide)] at b2
  simp only [bind, Except.bind] at b2
  rw [show meanAP R S groups idsOptions.collapse idsOptions.interp idsOptions.trapezoid false = _ from
    meanAP_roundedMean R S true true groups] at b2
  simp only [pure, Except.pure, Except.ok.injEq] at b2
  rw [← b2]
  rfl

/-- The mean average precision of a run on the given files. -/
def filesMAP (R : Rnd) (qf : Bool) (refText hypText : Str) : Option ℚ :=
  match (simpleKit R qf).readRef (simpleKit R qf).mapper refText with
  | (m, refs, .ok) =>
    match (simpleKit R qf).readHyp m hypText with
    | (_, hyps, .ok) =>
      if ∀ h ∈ hyps, h.score ≠ .nan then
        match runMAP R refs hyps with
        | .ok v => some v
        | .error _ => none
      else none
    | _ => none
  | _ => none

theorem filesMAP_eq {G : Type} (R : Rnd) (S : StdSort) (rng : Rng G) (qf : Bool) (w : World)
    (refText hypText' : Str) (hrt : w.file idsOptions.refFilename = some refText)
    (hht : hypText w idsOptions = some hypText') (r : Report Nat Nat)
    (h : mainWith R S rng (simpleKit R qf) w idsOptions = .ok (.done r)) (v : ℚ)
    (hv : filesMAP R qf refText hypText' = some v) : r.mAP.value = v := by
  unfold filesMAP at hv
  split at hv
  · rename_i m refs h1
    split at hv
    · rename_i m' hyps h2
      split at hv
      · rename_i hn
        rw [runMAP_eq R S rng qf w refText hypText' m m' refs hyps hrt hht h1 h2 hn r h] at hv
        injection hv
      · cases hv
    · cases hv
  · cases hv

/-- C61 is false in IEEE arithmetic: exchanging lines of the references changes the mean average
precision, because the average precisions 1, 1/3 and 1/3 are added up in another order. -/
theorem C61_map_refuted {G : Type} (S : StdSort) (rng : Rng G) (qf : Bool) :
    ∃ (w w' : World) (o : ToolOptions) (r r' : Report Nat Nat), Reordered o w w' ∧
      mainWith Rnd.ieee S rng (simpleKit Rnd.ieee qf) w o = .ok (.done r) ∧
      mainWith Rnd.ieee S rng (simpleKit Rnd.ieee qf) w' o = .ok (.done r') ∧
      r.mAP.value ≠ r'.mAP.value := by
  have run : ∀ refs : Str, (vocabulary (idsExample refs) idsOptions).dedup.length ≤ 2 ^ 31 →
      ValidFile StrEventText refs → ∃ r, mainWith Rnd.ieee S rng (simpleKit Rnd.ieee qf)
        (idsExample refs) idsOptions = .ok (.done r) := by
    intro refs hV hv
    obtain ⟨r, hr, _⟩ := (C62_segmentation_partial Rnd.ieee S rng qf (idsExample refs) idsOptions hV
      (fun t t' h1 h2 => by
        refine ⟨fun h => by simp [idsOptions] at h, fun h => absurd rfl h, fun h => absurd rfl h,
          fun h => by simp [idsOptions] at h⟩)).1
      ⟨⟨by decide, ⟨_, idsExample_file _, hv⟩, ⟨_, if_pos rfl, idsExample_hyps⟩, fun h => absurd rfl h,
          fun h => absurd rfl h⟩, Or.inl rfl⟩
    exact ⟨r, hr⟩
  obtain ⟨r, hr⟩ := run _ idsExample_vocabulary1
    ((Format.strRefs (R := Rnd.ieee)).valid_of_ok _ (by decide +kernel))
  obtain ⟨r', hr'⟩ := run _ idsExample_vocabulary2
    ((Format.strRefs (R := Rnd.ieee)).valid_of_ok _ (by decide +kernel))
  refine ⟨_, _, idsOptions, r, r', idsExample_reordered, hr, hr', ?_⟩
  have e1 : r.mAP.value = 2501999792983609 / 4503599627370496 :=
    filesMAP_eq Rnd.ieee S rng qf _ _ _ (idsExample_file _) (if_pos rfl) r hr _ (by
      cases qf <;> decide +kernel)
  have e2 : r'.mAP.value = 5003999585967219 / 9007199254740992 :=
    filesMAP_eq Rnd.ieee S rng qf _ _ _ (idsExample_file _) (if_pos rfl) r' hr' _ (by
      cases qf <;> decide +kernel)
  rw [e1, e2]
  norm_num

end Kws
