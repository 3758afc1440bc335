import Verif.Lemmas.TailBox
import Verif.Props.OneWrong

/-! # C130: hypotheses that are added at the end of a ranking never lower a number -/

namespace Kws
open Spec

theorem NoneLower.shown {Q L : Type} {a b : Numbers} {r r' : Report Q L} {ε ε' : ℚ} (h : NoneLower a b 0)
    (h1 : Shows r a ε) (h2 : Shows r' b ε') : NoneLower (numbersShown r) (numbersShown r') (ε + ε') := by
  have a1 := abs_le.1 h1.gAP
  have a2 := abs_le.1 h1.mAP
  have b1 := abs_le.1 h2.gAP
  have b2 := abs_le.1 h2.mAP
  have c1 := h.gAP
  have c2 := h.mAP
  refine ⟨?_, ?_, ?_, ?_⟩
  · show r.gAP.value ≤ r'.gAP.value + (ε + ε')
    linarith
  · show r.mAP.value ≤ r'.mAP.value + (ε + ε')
    linarith
  · show r.gNDCG.value ≤ r'.gNDCG.value
    rw [h1.gNDCG, h2.gNDCG]
    exact h.gNDCG
  · show r.mNDCG.value ≤ r'.mNDCG.value
    rw [h1.mNDCG, h2.mNDCG]
    exact h.mNDCG

section
variable {Q L : Type} [DecidableEq Q] [DecidableEq L]

/-- C130: the numbers that the files define for the segmentation-based tool, with and without hypotheses of
lower scores. -/
theorem C130_numbers (grp : Q → Q) (interp trapezoid : Bool) (refs : List (Event Q L))
    (hyps hyps' extra : List (ScoredEvent Q L)) (hp : hyps'.Perm (hyps ++ extra))
    (hb : ScoredBelow extra hyps) (hn : ∀ y ∈ hyps', y.score ≠ .nan)
    (hg : ∀ x ∈ extra, grp x.base.query ∈ refs.map (grp ·.query) ++ hyps.map (grp ·.base.query)) :
    NoneLower (segNumbers grp interp trapezoid refs hyps) (segNumbers grp interp trapezoid refs hyps') 0 :=
  segNumbers_tail grp interp trapezoid refs hyps hyps' extra hp hb hn hg

end

section
variable {refs : List (Event Str (DocBox Str UInt32))}
  {hyps hyps' extra : List (ScoredEvent Str (DocBox Str UInt32))}
  {ms rep ms' rep' : List (KwsMatch Str (DocBox Str UInt32))}

/-- C130: the matches of the box-based tool with and without hypotheses of lower scores: all matches and all
repeated matches of the others stay as they are, and in the same places. What follows them are matches of
`extra` and the references that are left. -/
theorem C130_matching (hp : hyps'.Perm (hyps ++ extra)) (hb : ScoredBelow extra hyps)
    (hn : ∀ y ∈ hyps', y.score ≠ .nan)
    (h : ExactBoxMatching refs hyps ms rep) (h' : ExactBoxMatching refs hyps' ms' rep') :
    ∃ a b m m' r, ms = a ++ m ∧ ms' = a ++ b ++ m' ∧ rep' = rep ++ r ∧
      (∀ x ∈ a, ∃ y ∈ hyps, x.hyp = some y) ∧ (∀ x ∈ b ++ r, ∃ y ∈ extra, x.hyp = some y) ∧
      ∀ x ∈ m ++ m', x.hyp = none :=
  exact_tail hp hb hn h h'

/-- C130: the numbers of the matching. -/
theorem C130_boxNumbers (grp : Str → Str) (interp trapezoid : Bool) (hp : hyps'.Perm (hyps ++ extra))
    (hb : ScoredBelow extra hyps) (hn : ∀ y ∈ hyps', y.score ≠ .nan)
    (hg : ∀ x ∈ extra, ∃ r ∈ refs, grp r.query = grp x.base.query)
    (h : ExactBoxMatching refs hyps ms rep) (h' : ExactBoxMatching refs hyps' ms' rep') :
    NoneLower (matchNumbers grp interp trapezoid ms) (matchNumbers grp interp trapezoid ms') 0 :=
  matchNumbers_tail grp interp trapezoid hp hb hn hg h h'

end

section
variable {G : Type}

theorem seg_tail (R : Rnd) (S S' : StdSort) (rng rng' : Rng G) (qf : Bool) (w w' : World)
    (o : ToolOptions)
    (hV : (vocabulary w o).dedup.length ≤ 2 ^ 31) (hV' : (vocabulary w' o).dedup.length ≤ 2 ^ 31)
    (t u u' : Str) (refs : List (Event Str Str)) (hyps hyps' extra : List (ScoredEvent Str Str))
    (ht : w.file o.refFilename = some t) (ht' : w'.file o.refFilename = some t)
    (hu : hypText w o = some u) (hu' : hypText w' o = some u')
    (hrefs : Yields StrEventText (lines t) refs)
    (hhyps : Yields (ScoredText R StrEventText) (lines u) hyps)
    (hhyps' : Yields (ScoredText R StrEventText) (lines u') hyps')
    (hg : groupFor w' o = groupFor w o) (hq : listedQueries w' o = listedQueries w o)
    (hd : o.sort = "desc".toList) (hc : o.collapse = true)
    (hp : hyps'.Perm (hyps ++ extra)) (hb : ScoredBelow extra hyps)
    (hr : ∀ x ∈ keep (·.base.query) (listedQueries w o) extra,
      groupFor w o x.base.query ∈ (keep (·.query) (listedQueries w o) refs).map (groupFor w o ·.query) ++
        (keep (·.base.query) (listedQueries w o) hyps).map (groupFor w o ·.base.query))
    (r r' : Report Nat Nat) (ε ε' : ℚ)
    (hT : Tolerance R (refs.length + hyps.length) ε) (hT' : Tolerance R (refs.length + hyps'.length) ε')
    (h : mainWith R S rng (simpleKit R qf) w o = .ok (.done r))
    (h' : mainWith R S' rng' (simpleKit R qf) w' o = .ok (.done r')) :
    NoneLower (numbersShown r) (numbersShown r') (ε + ε') := by
  have a := segmentation_numbers R S rng qf w o hV t u refs hyps ht hu hrefs hhyps hd hc r ε hT h
  have b := segmentation_numbers R S' rng' qf w' o hV' t u' refs hyps' ht' hu' hrefs hhyps' hd hc r' ε' hT' h'
  rw [hg, hq] at b
  refine NoneLower.shown (C130_numbers (groupFor w o) o.interp o.trapezoid _ _ _
    (keep (·.base.query) (listedQueries w o) extra) ?_ ?_ ?_ hr) a b
  · rw [keep_filter, keep_filter, keep_filter, ← List.filter_append]
    exact hp.filter _
  · intro x hx y hy
    rw [keep_filter] at hx hy
    exact hb x (List.mem_of_mem_filter hx) y (List.mem_of_mem_filter hy)
  · intro y hy
    rw [keep_filter] at hy
    exact yields_finite _ u' hyps' hhyps' y (List.mem_of_mem_filter hy)

/-- C130: two runs of the segmentation-based tool, of which the second has more hypotheses, `extra`. All of
these have lower scores than the others, and their groups are there without them. With descending order and
collapsing, with or without interpolation and whatever the curve: no number is lower. -/
theorem C130_segmentation (S S' : StdSort) (rng rng' : Rng G) (qf : Bool) (w w' : World)
    (o : ToolOptions)
    (hV : (vocabulary w o).dedup.length ≤ 2 ^ 31) (hV' : (vocabulary w' o).dedup.length ≤ 2 ^ 31)
    (t u u' : Str) (refs : List (Event Str Str)) (hyps hyps' extra : List (ScoredEvent Str Str))
    (ht : w.file o.refFilename = some t) (ht' : w'.file o.refFilename = some t)
    (hu : hypText w o = some u) (hu' : hypText w' o = some u')
    (hrefs : Yields StrEventText (lines t) refs)
    (hhyps : Yields (ScoredText Rnd.exact StrEventText) (lines u) hyps)
    (hhyps' : Yields (ScoredText Rnd.exact StrEventText) (lines u') hyps')
    (hg : groupFor w' o = groupFor w o) (hq : listedQueries w' o = listedQueries w o)
    (hd : o.sort = "desc".toList) (hc : o.collapse = true)
    (hp : hyps'.Perm (hyps ++ extra)) (hb : ScoredBelow extra hyps)
    (hr : ∀ x ∈ keep (·.base.query) (listedQueries w o) extra,
      groupFor w o x.base.query ∈ (keep (·.query) (listedQueries w o) refs).map (groupFor w o ·.query) ++
        (keep (·.base.query) (listedQueries w o) hyps).map (groupFor w o ·.base.query))
    (r r' : Report Nat Nat)
    (h : mainWith Rnd.exact S rng (simpleKit Rnd.exact qf) w o = .ok (.done r))
    (h' : mainWith Rnd.exact S' rng' (simpleKit Rnd.exact qf) w' o = .ok (.done r')) :
    NoneLower (numbersShown r) (numbersShown r') 0 := by
  have := seg_tail Rnd.exact S S' rng rng' qf w w' o hV hV' t u u' refs hyps hyps' extra ht ht' hu hu' hrefs
    hhyps hhyps' hg hq hd hc hp hb hr r r' 0 0 (Or.inl ⟨rfl, rfl⟩) (Or.inl ⟨rfl, rfl⟩) h h'
  rwa [add_zero] at this

/-- C130 in IEEE arithmetic. -/
theorem C130_segmentation_rounded (S S' : StdSort) (rng rng' : Rng G) (qf : Bool) (w w' : World)
    (o : ToolOptions)
    (hV : (vocabulary w o).dedup.length ≤ 2 ^ 31) (hV' : (vocabulary w' o).dedup.length ≤ 2 ^ 31)
    (t u u' : Str) (refs : List (Event Str Str)) (hyps hyps' extra : List (ScoredEvent Str Str))
    (ht : w.file o.refFilename = some t) (ht' : w'.file o.refFilename = some t)
    (hu : hypText w o = some u) (hu' : hypText w' o = some u')
    (hrefs : Yields StrEventText (lines t) refs)
    (hhyps : Yields (ScoredText Rnd.ieee StrEventText) (lines u) hyps)
    (hhyps' : Yields (ScoredText Rnd.ieee StrEventText) (lines u') hyps')
    (hn : refs.length + hyps.length ≤ 2 ^ 24) (hn' : refs.length + hyps'.length ≤ 2 ^ 24)
    (hg : groupFor w' o = groupFor w o) (hq : listedQueries w' o = listedQueries w o)
    (hd : o.sort = "desc".toList) (hc : o.collapse = true)
    (hp : hyps'.Perm (hyps ++ extra)) (hb : ScoredBelow extra hyps)
    (hr : ∀ x ∈ keep (·.base.query) (listedQueries w o) extra,
      groupFor w o x.base.query ∈ (keep (·.query) (listedQueries w o) refs).map (groupFor w o ·.query) ++
        (keep (·.base.query) (listedQueries w o) hyps).map (groupFor w o ·.base.query))
    (r r' : Report Nat Nat)
    (h : mainWith Rnd.ieee S rng (simpleKit Rnd.ieee qf) w o = .ok (.done r))
    (h' : mainWith Rnd.ieee S' rng' (simpleKit Rnd.ieee qf) w' o = .ok (.done r')) :
    NoneLower (numbersShown r) (numbersShown r')
      ((refs.length + hyps.length + 3) ^ 2 / 2 ^ 52 + (refs.length + hyps'.length + 3) ^ 2 / 2 ^ 52) :=
  seg_tail Rnd.ieee S S' rng rng' qf w w' o hV hV' t u u' refs hyps hyps' extra ht ht' hu hu' hrefs
    hhyps hhyps' hg hq hd hc hp hb hr r r' _ _ (Or.inr ⟨rfl, hn, by push_cast; rfl⟩)
    (Or.inr ⟨rfl, hn', by push_cast; rfl⟩) h h'

theorem box_tail (R : Rnd) (S S' : StdSort) (rng rng' : Rng G) (w w' : World) (o : ToolOptions)
    (refs : List (Event Str (DocBox Str UInt32)))
    (hyps hyps' extra : List (ScoredEvent Str (DocBox Str UInt32)))
    (h2 : TwoRuns R w w' o refs hyps hyps')
    (hr : ∀ r ∈ refs, EdgesOkU r.location.toBBox) (hh : ∀ h ∈ hyps', InRangeU h.base)
    (h24 : R = Rnd.ieee → ∀ h ∈ hyps', areaU h.base ≤ 2 ^ 24)
    (hd : o.sort = "desc".toList) (hc : o.collapse = true)
    (hp : hyps'.Perm (hyps ++ extra)) (hb : ScoredBelow extra hyps)
    (hg : ∀ x ∈ keep (·.base.query) (listedQueries w o) extra,
      ∃ r ∈ keep (·.query) (listedQueries w o) refs, groupFor w o r.query = groupFor w o x.base.query)
    (r r' : Report Str (DocBox Str UInt32)) (ε ε' : ℚ)
    (hT : Tolerance R (refs.length + hyps.length) ε) (hT' : Tolerance R (refs.length + hyps'.length) ε')
    (h : mainWith R S rng (icdarKit R S) w o = .ok (.done r))
    (h' : mainWith R S' rng' (icdarKit R S') w' o = .ok (.done r')) :
    NoneLower (numbersShown r) (numbersShown r') (ε + ε') := by
  obtain ⟨⟨t, t1, t2, t3⟩, ⟨u, u1, u2⟩, ⟨u', v1, v2⟩, hgr, hq⟩ := h2
  have sub : ∀ y ∈ hyps, y ∈ hyps' := fun y hy => hp.mem_iff.2 (by simp [hy])
  obtain ⟨ms, rep, a1, _, a2⟩ := box_ties R S rng w o t u refs hyps t1 u1 t3 u2 hr
    (fun y hy => hh y (sub y hy)) (fun e y hy => h24 e y (sub y hy)) hd hc r ε hT h
  obtain ⟨ms', rep', b1, _, b2⟩ := box_ties R S' rng' w' o t u' refs hyps' t2 v1 t3 v2 hr
    hh h24 hd hc r' ε' hT' h'
  rw [hgr] at b2
  rw [hq] at b1
  refine NoneLower.shown (C130_boxNumbers (groupFor w o) o.interp o.trapezoid
    (extra := keep (·.base.query) (listedQueries w o) extra) ?_ ?_ ?_ hg a1 b1) a2 b2
  · rw [keep_filter, keep_filter, keep_filter, ← List.filter_append]
    exact hp.filter _
  · intro x hx y hy
    rw [keep_filter] at hx hy
    exact hb x (List.mem_of_mem_filter hx) y (List.mem_of_mem_filter hy)
  · intro y hy
    rw [keep_filter] at hy
    exact scores_finite S v2 y (List.mem_of_mem_filter hy)

/-- C130: two runs of the box-based tool, of which the second has more hypotheses, `extra`. All of these have
lower scores than the others, and there are references of their groups. -/
theorem C130_box (S S' : StdSort) (rng rng' : Rng G) (w w' : World) (o : ToolOptions)
    (refs : List (Event Str (DocBox Str UInt32)))
    (hyps hyps' extra : List (ScoredEvent Str (DocBox Str UInt32)))
    (h2 : TwoRuns Rnd.exact w w' o refs hyps hyps')
    (hr : ∀ r ∈ refs, EdgesOkU r.location.toBBox) (hh : ∀ h ∈ hyps', InRangeU h.base)
    (hd : o.sort = "desc".toList) (hc : o.collapse = true)
    (hp : hyps'.Perm (hyps ++ extra)) (hb : ScoredBelow extra hyps)
    (hg : ∀ x ∈ keep (·.base.query) (listedQueries w o) extra,
      ∃ r ∈ keep (·.query) (listedQueries w o) refs, groupFor w o r.query = groupFor w o x.base.query)
    (r r' : Report Str (DocBox Str UInt32))
    (h : mainWith Rnd.exact S rng (icdarKit Rnd.exact S) w o = .ok (.done r))
    (h' : mainWith Rnd.exact S' rng' (icdarKit Rnd.exact S') w' o = .ok (.done r')) :
    NoneLower (numbersShown r) (numbersShown r') 0 := by
  have := box_tail Rnd.exact S S' rng rng' w w' o refs hyps hyps' extra h2 hr hh
    (fun e => absurd e exact_ne_ieee) hd hc hp hb hg r r' 0 0 (Or.inl ⟨rfl, rfl⟩) (Or.inl ⟨rfl, rfl⟩) h h'
  rwa [add_zero] at this

/-- C130 for the box-based tool in IEEE arithmetic. -/
theorem C130_box_rounded (S S' : StdSort) (rng rng' : Rng G) (w w' : World) (o : ToolOptions)
    (refs : List (Event Str (DocBox Str UInt32)))
    (hyps hyps' extra : List (ScoredEvent Str (DocBox Str UInt32)))
    (h2 : TwoRuns Rnd.ieee w w' o refs hyps hyps')
    (hr : ∀ r ∈ refs, EdgesOkU r.location.toBBox)
    (hh : ∀ h ∈ hyps', EdgesOkU h.base.location.toBBox ∧ areaU h.base ≤ 2 ^ 24)
    (hn : refs.length + hyps.length ≤ 2 ^ 24) (hn' : refs.length + hyps'.length ≤ 2 ^ 24)
    (hd : o.sort = "desc".toList) (hc : o.collapse = true)
    (hp : hyps'.Perm (hyps ++ extra)) (hb : ScoredBelow extra hyps)
    (hg : ∀ x ∈ keep (·.base.query) (listedQueries w o) extra,
      ∃ r ∈ keep (·.query) (listedQueries w o) refs, groupFor w o r.query = groupFor w o x.base.query)
    (r r' : Report Str (DocBox Str UInt32))
    (h : mainWith Rnd.ieee S rng (icdarKit Rnd.ieee S) w o = .ok (.done r))
    (h' : mainWith Rnd.ieee S' rng' (icdarKit Rnd.ieee S') w' o = .ok (.done r')) :
    NoneLower (numbersShown r) (numbersShown r')
      ((refs.length + hyps.length + 3) ^ 2 / 2 ^ 52 + (refs.length + hyps'.length + 3) ^ 2 / 2 ^ 52) :=
  box_tail Rnd.ieee S S' rng rng' w w' o refs hyps hyps' extra h2 hr
    (fun y hy => ⟨(hh y hy).1, by have := (hh y hy).2; omega⟩) (fun _ y hy => (hh y hy).2) hd hc hp hb hg
    r r' _ _ (Or.inr ⟨rfl, hn, by push_cast; rfl⟩) (Or.inr ⟨rfl, hn', by push_cast; rfl⟩) h h'

end

/-! ## The conditions are needed -/

/-- C130: the scores must be lower. A wrong hypothesis with the same score as the right one lowers the
global average precision. -/
theorem C130_lower_needed (interp trapezoid : Bool) :
    (segNumbers id interp trapezoid [⟨0, 0⟩] [⟨⟨0, 0⟩, .fin 1⟩, ⟨⟨0, 1⟩, .fin 1⟩] : Numbers).gAP <
      (segNumbers id interp trapezoid [⟨0, 0⟩] [⟨⟨(0 : ℕ), (0 : ℕ)⟩, .fin 1⟩]).gAP := by
  unfold segNumbers Numbers.of
  revert interp trapezoid
  decide +kernel

/-- C130: the groups must be there. A hypothesis of a query that no one asks for lowers the mean average
precision, whatever its score. -/
theorem C130_group_needed (interp trapezoid : Bool) :
    (segNumbers id interp trapezoid [⟨0, 0⟩] [⟨⟨0, 0⟩, .fin 1⟩, ⟨⟨1, 1⟩, .fin 0⟩] : Numbers).mAP <
      (segNumbers id interp trapezoid [⟨0, 0⟩] [⟨⟨(0 : ℕ), (0 : ℕ)⟩, .fin 1⟩]).mAP := by
  unfold segNumbers Numbers.of
  revert interp trapezoid
  decide +kernel

/-! ## Runs -/

/-- Runs to which C130 applies: a wrong and a right hypothesis come in at the end. The global average
precision goes from 1/2 to 5/6, and the mean one from 1/2 to 3/4. -/
example {G : Type} (S : StdSort) (rng : Rng G) : ∃ r r',
    mainWith Rnd.exact S rng (simpleKit Rnd.exact true) (betterExample "b l 3\n".toList)
      idsOptions = .ok (.done r) ∧
    mainWith Rnd.exact S rng (simpleKit Rnd.exact true) (betterExample "b l 3\na m 2\na l 1\n".toList)
      idsOptions = .ok (.done r') ∧
    NoneLower (numbersShown r) (numbersShown r') 0 ∧
    r.gAP.value = 1 / 2 ∧ r'.gAP.value = 5 / 6 ∧ r.mAP.value = 1 / 2 ∧ r'.mAP.value = 3 / 4 := by
  obtain ⟨y1, _, y3⟩ := betterExample_yields
  have y2 : Yields (ScoredText Rnd.exact StrEventText) (lines "b l 3\n".toList)
      [⟨⟨"b".toList, "l".toList⟩, .fin 3⟩] :=
    (C48_accepts (Format.strHyps (R := Rnd.exact)) _ _).1 (by decide +kernel)
  have v := betterExample_vocabulary "b l 3\n".toList (by decide +kernel)
  have v' := betterExample_vocabulary "b l 3\na m 2\na l 1\n".toList (by decide +kernel)
  obtain ⟨r, h⟩ := betterExample_runs S rng _ v (yields_valid y2)
  obtain ⟨r', h'⟩ := betterExample_runs S rng _ v' (yields_valid y3)
  have hq : ∀ u, listedQueries (betterExample u) idsOptions = [] := fun _ => rfl
  have hg : ∀ u, groupFor (betterExample u) idsOptions = id := fun _ => rfl
  have key := C130_segmentation S S rng rng true _ _ idsOptions v v' _ _ _ _ _ _
    [⟨⟨"a".toList, "m".toList⟩, .fin 2⟩, ⟨⟨"a".toList, "l".toList⟩, .fin 1⟩]
    (betterExample_file _) (betterExample_file _) (if_pos rfl) (if_pos rfl) y1 y2 y3
    ((hg _).trans (hg _).symm) ((hq _).trans (hq _).symm) rfl rfl (.refl _)
    (by unfold ScoredBelow; decide +kernel) (by rw [hq, hg]; decide +kernel) r r' h h'
  obtain ⟨a1, a2, _⟩ := C66_segmentation S rng true _ idsOptions v _ _ _ _ (betterExample_file _) (if_pos rfl)
    y1 y2 rfl rfl r h
  obtain ⟨b1, b2, _⟩ := C66_segmentation S rng true _ idsOptions v' _ _ _ _ (betterExample_file _) (if_pos rfl)
    y1 y3 rfl rfl r' h'
  refine ⟨r, r', h, h', key, a1.trans ?_, b1.trans ?_, a2.trans ?_, b2.trans ?_⟩
  all_goals
    rw [hq]
    unfold segNumbers Numbers.of
    decide +kernel

/-- Runs of the box-based tool to which C130 applies: the second hypothesis finds the reference that the first
one leaves. -/
example {G : Type} (S : StdSort) (rng : Rng G) : ∃ r r' : Report Str (DocBox Str UInt32),
    mainWith Rnd.exact S rng (icdarKit Rnd.exact S) (dumpExample "q d 0 0 1 1\nq d 0 0 5 1\n".toList
      "q d 0 0 5 1 2\n".toList) dumpOptions = .ok (.done r) ∧
    mainWith Rnd.exact S rng (icdarKit Rnd.exact S) (dumpExample "q d 0 0 1 1\nq d 0 0 5 1\n".toList
      "q d 0 0 5 1 2\nq d 0 0 1 1 1\n".toList) dumpOptions = .ok (.done r') ∧
    NoneLower (numbersShown r) (numbersShown r') 0 := by
  have y1 : Yields BoxEventText (lines "q d 0 0 1 1\nq d 0 0 5 1\n".toList)
      [⟨['q'], ⟨⟨0, 0, 1, 1⟩, ['d']⟩⟩, ⟨['q'], ⟨⟨0, 0, 5, 1⟩, ['d']⟩⟩] :=
    (C48_accepts (Format.boxRefs (R := Rnd.exact)) _ _).1 (by decide +kernel)
  have y2 : Yields (ScoredText Rnd.exact BoxEventText) (lines "q d 0 0 5 1 2\n".toList)
      [⟨⟨['q'], ⟨⟨0, 0, 5, 1⟩, ['d']⟩⟩, .fin 2⟩] :=
    (C48_accepts (Format.boxHyps (R := Rnd.exact)) _ _).1 (by decide +kernel)
  have y3 : Yields (ScoredText Rnd.exact BoxEventText) (lines "q d 0 0 5 1 2\nq d 0 0 1 1 1\n".toList)
      [⟨⟨['q'], ⟨⟨0, 0, 5, 1⟩, ['d']⟩⟩, .fin 2⟩, ⟨⟨['q'], ⟨⟨0, 0, 1, 1⟩, ['d']⟩⟩, .fin 1⟩] :=
    (C48_accepts (Format.boxHyps (R := Rnd.exact)) _ _).1 (by decide +kernel)
  obtain ⟨r, hr⟩ := dump_run S rng _ _ _ _ y1 y2
  obtain ⟨r', hr'⟩ := dump_run S rng _ _ _ _ y1 y3
  have h1 : ∀ r ∈ ([⟨['q'], ⟨⟨0, 0, 1, 1⟩, ['d']⟩⟩, ⟨['q'], ⟨⟨0, 0, 5, 1⟩, ['d']⟩⟩] :
      List (Event Str (DocBox Str UInt32))), EdgesOkU r.location.toBBox := by
    intro r hr
    simp only [List.mem_cons, List.not_mem_nil, or_false] at hr
    rcases hr with rfl | rfl <;> exact ⟨by decide, by decide⟩
  have h2 : ∀ x ∈ ([⟨⟨['q'], ⟨⟨0, 0, 5, 1⟩, ['d']⟩⟩, .fin 2⟩, ⟨⟨['q'], ⟨⟨0, 0, 1, 1⟩, ['d']⟩⟩, .fin 1⟩] :
      List (ScoredEvent Str (DocBox Str UInt32))), InRangeU x.base := by
    intro x hx
    simp only [List.mem_cons, List.not_mem_nil, or_false] at hx
    rcases hx with rfl | rfl <;> exact ⟨⟨by decide, by decide⟩, by decide +kernel⟩
  refine ⟨r, r', hr, hr', C130_box S S rng rng _ _ dumpOptions _ _ _
    [⟨⟨['q'], ⟨⟨0, 0, 1, 1⟩, ['d']⟩⟩, .fin 1⟩]
    ⟨⟨_, dumpExample_file _ _, dumpExample_file _ _, y1⟩, ⟨_, if_pos rfl, y2⟩, ⟨_, if_pos rfl, y3⟩, rfl, rfl⟩
    h1 h2 rfl rfl (.refl _) (by unfold ScoredBelow; decide +kernel) (fun x hx => ?_) r r' hr hr'⟩
  have hx : x ∈ [(⟨⟨['q'], ⟨⟨0, 0, 1, 1⟩, ['d']⟩⟩, .fin 1⟩ : ScoredEvent Str (DocBox Str UInt32))] := hx
  rw [List.mem_singleton] at hx
  subst hx
  exact ⟨⟨['q'], ⟨⟨0, 0, 1, 1⟩, ['d']⟩⟩, List.mem_cons_self, rfl⟩

end Kws
