import Verif.Lemmas.WrongOne
import Verif.Props.BoxImprovement
import Verif.Props.Improvement

/-! # C127: one more wrong hypothesis costs at most one divided by its rank -/

namespace Kws
open Spec

theorem CostsLittle.shown {Q L : Type} {a b : Numbers} {n m k N M : ℕ} {alone aloneIn : Prop} {r r' : Report Q L}
    {ε ε' : ℚ} (h : CostsLittle a b n m k N M alone aloneIn 0) (h1 : Shows r a ε) (h2 : Shows r' b ε') :
    CostsLittle (numbersShown r) (numbersShown r') n m k N M alone aloneIn (ε + ε') := by
  have a1 := abs_le.1 h1.gAP
  have a2 := abs_le.1 h1.mAP
  have b1 := abs_le.1 h2.gAP
  have b2 := abs_le.1 h2.mAP
  have c1 := h.gAP_le
  have c2 := h.gAP_ge
  have c3 := h.mAP_le
  have c4 := h.mAP_ge
  refine ⟨?_, ?_, ?_, ?_, ?_, ?_, ?_, ?_⟩
  · show r'.gAP.value ≤ r.gAP.value + (ε + ε')
    linarith
  · show r.gAP.value ≤ r'.gAP.value + 1 / (n + 1) + (ε + ε')
    linarith
  · show r'.mAP.value ≤ r.mAP.value + (ε + ε')
    linarith
  · show r.mAP.value ≤ r'.mAP.value + 1 / (k * (m + 1)) + (ε + ε')
    linarith
  · show r'.gNDCG.value ≤ r.gNDCG.value
    rw [h1.gNDCG, h2.gNDCG]
    exact h.gNDCG_le
  · show alone → N ≠ 0 → r.gNDCG.value ≤ r'.gNDCG.value + 1 / (Real.logb 2 (n + 2) * idealGain N)
    rw [h1.gNDCG, h2.gNDCG]
    exact h.gNDCG_ge
  · show r'.mNDCG.value ≤ r.mNDCG.value
    rw [h1.mNDCG, h2.mNDCG]
    exact h.mNDCG_le
  · show aloneIn → M ≠ 0 → r.mNDCG.value ≤ r'.mNDCG.value + 1 / (k * (Real.logb 2 (m + 2) * idealGain M))
    rw [h1.mNDCG, h2.mNDCG]
    exact h.mNDCG_ge

section
variable {Q L : Type} [DecidableEq Q] [DecidableEq L]

/-- C127: the numbers that the files define for the segmentation-based tool, with and without a hypothesis
`x` that is no reference. -/
theorem C127_numbers (grp : Q → Q) (interp trapezoid : Bool) (refs : List (Event Q L))
    (hyps hyps' : List (ScoredEvent Q L)) (x : ScoredEvent Q L) (hp : hyps'.Perm (x :: hyps))
    (hx : x.base ∉ refs) (hn : ∀ y ∈ hyps', y.score ≠ .nan)
    (hg : grp x.base.query ∈ refs.map (grp ·.query) ++ hyps.map (grp ·.base.query)) :
    CostsLittle (segNumbers grp interp trapezoid refs hyps) (segNumbers grp interp trapezoid refs hyps')
      ((segTally refs hyps).reached x.score)
      ((segTally (refs.filter (grp ·.query = grp x.base.query))
        (hyps.filter (grp ·.base.query = grp x.base.query))).reached x.score)
      (refs.map (grp ·.query) ++ hyps.map (grp ·.base.query)).dedup.length
      refs.toFinset.card (refs.filter (grp ·.query = grp x.base.query)).toFinset.card
      (x.score ∉ hyps.map (·.score))
      (x.score ∉ (hyps.filter (grp ·.base.query = grp x.base.query)).map (·.score)) 0 :=
  segNumbers_oneWrong grp interp trapezoid refs hyps hyps' x hp hx hn hg

end

section
variable {refs : List (Event Str (DocBox Str UInt32))}
  {hyps hyps' : List (ScoredEvent Str (DocBox Str UInt32))}
  {ms rep ms' rep' : List (KwsMatch Str (DocBox Str UInt32))}

/-- C127: the matches of the box-based tool with and without a hypothesis `x` that fits no reference: those
of the others are the same, and one of `x` comes in. -/
theorem C127_matching (x : ScoredEvent Str (DocBox Str UInt32)) (hp : hyps'.Perm (x :: hyps))
    (hx : ¬ Fits refs x) (hn : ∀ y ∈ hyps', y.score ≠ .nan)
    (h : ExactBoxMatching refs hyps ms rep) (h' : ExactBoxMatching refs hyps' ms' rep') :
    ms'.Perm (⟨none, some x, Outcome.falsePos.error⟩ :: ms) := by
  obtain ⟨m, p, h1, h2⟩ := exact_without x hp hx h'
  obtain ⟨rfl, rfl⟩ := C88_determined _ _ _ _ _ _ _ _ (fun _ => Iff.rfl) (.refl _)
    (fun y hy => hn y (hp.mem_iff.2 (by simp [hy]))) h h1
  exact h2

/-- C127: the numbers of the matching. -/
theorem C127_boxNumbers (grp : Str → Str) (interp trapezoid : Bool)
    (x : ScoredEvent Str (DocBox Str UInt32)) (hp : hyps'.Perm (x :: hyps))
    (hx : ¬ Fits refs x) (hn : ∀ y ∈ hyps', y.score ≠ .nan)
    (hg : ∃ r ∈ refs, grp r.query = grp x.base.query)
    (h : ExactBoxMatching refs hyps ms rep) (h' : ExactBoxMatching refs hyps' ms' rep') :
    CostsLittle (matchNumbers grp interp trapezoid ms) (matchNumbers grp interp trapezoid ms')
      ((tallyOf ms).reached x.score)
      ((tallyOf (ms.filter (InGroup grp (grp x.base.query)))).reached x.score)
      ((ms.filterMap eventOf).map (grp ·.query)).dedup.length
      (tallyOf ms).refs (tallyOf (ms.filter (InGroup grp (grp x.base.query)))).refs (x.score ∉ scoresIn ms)
      (x.score ∉ scoresIn (ms.filter (InGroup grp (grp x.base.query)))) 0 := by
  refine matchNumbers_oneWrong grp interp trapezoid ms ms' x (C127_matching x hp hx hn h h') ?_ ?_
  · intro s hs
    obtain ⟨m, hm, e⟩ := List.mem_filterMap.1 hs
    obtain ⟨y, hy, rfl⟩ := Option.map_eq_some_iff.1 e
    exact hn y ((exactBoxMatching_mem h' m (.inl hm)).2 y hy)
  · obtain ⟨r, hr, e⟩ := hg
    obtain ⟨l, _, hb⟩ := C88_refines _ _ _ _ h
    obtain ⟨m, hm, e'⟩ := List.mem_filterMap.1 (((boxMatching_refs hb).2 r).2 hr)
    refine List.mem_map.2 ⟨r, List.mem_filterMap.2 ⟨m, hm, ?_⟩, e⟩
    unfold eventOf
    rw [e']
    rfl

end

section
variable {G : Type}

theorem seg_oneWrong (R : Rnd) (S S' : StdSort) (rng rng' : Rng G) (qf : Bool) (w w' : World)
    (o : ToolOptions)
    (hV : (vocabulary w o).dedup.length ≤ 2 ^ 31) (hV' : (vocabulary w' o).dedup.length ≤ 2 ^ 31)
    (t u u' : Str) (refs : List (Event Str Str)) (hyps hyps' : List (ScoredEvent Str Str))
    (ht : w.file o.refFilename = some t) (ht' : w'.file o.refFilename = some t)
    (hu : hypText w o = some u) (hu' : hypText w' o = some u')
    (hrefs : Yields StrEventText (lines t) refs)
    (hhyps : Yields (ScoredText R StrEventText) (lines u) hyps)
    (hhyps' : Yields (ScoredText R StrEventText) (lines u') hyps')
    (hg : groupFor w' o = groupFor w o) (hq : listedQueries w' o = listedQueries w o)
    (hd : o.sort = "desc".toList) (hc : o.collapse = true)
    (x : ScoredEvent Str Str) (hp : hyps'.Perm (x :: hyps)) (hx : x.base ∉ refs)
    (hl : listedQueries w o = [] ∨ x.base.query ∈ listedQueries w o)
    (hr : ∃ r ∈ keep (·.query) (listedQueries w o) refs, groupFor w o r.query = groupFor w o x.base.query)
    (r r' : Report Nat Nat) (ε ε' : ℚ)
    (hT : Tolerance R (refs.length + hyps.length) ε) (hT' : Tolerance R (refs.length + hyps'.length) ε')
    (h : mainWith R S rng (simpleKit R qf) w o = .ok (.done r))
    (h' : mainWith R S' rng' (simpleKit R qf) w' o = .ok (.done r')) :
    let grp := groupFor w o
    let refs := keep (·.query) (listedQueries w o) refs
    let hyps := keep (·.base.query) (listedQueries w o) hyps
    CostsLittle (numbersShown r) (numbersShown r') ((segTally refs hyps).reached x.score)
      ((segTally (refs.filter (grp ·.query = grp x.base.query))
        (hyps.filter (grp ·.base.query = grp x.base.query))).reached x.score)
      (refs.map (grp ·.query) ++ hyps.map (grp ·.base.query)).dedup.length
      refs.toFinset.card (refs.filter (grp ·.query = grp x.base.query)).toFinset.card
      (x.score ∉ hyps.map (·.score))
      (x.score ∉ (hyps.filter (grp ·.base.query = grp x.base.query)).map (·.score)) (ε + ε') := by
  intro grp refs0 hyps0
  have a := segmentation_numbers R S rng qf w o hV t u refs hyps ht hu hrefs hhyps hd hc r ε hT h
  have b := segmentation_numbers R S' rng' qf w' o hV' t u' refs hyps' ht' hu' hrefs hhyps' hd hc r' ε' hT' h'
  rw [hg, hq] at b
  refine CostsLittle.shown (C127_numbers grp o.interp o.trapezoid refs0 hyps0
    (keep (·.base.query) (listedQueries w o) hyps') x ?_ ?_ ?_ ?_) a b
  · simp only [hyps0, keep_filter]
    have := hp.filter (fun e => decide (listedQueries w o = [] ∨ e.base.query ∈ listedQueries w o))
    rwa [List.filter_cons_of_pos (by simpa using hl)] at this
  · intro hm
    simp only [refs0, keep_filter] at hm
    exact hx (List.mem_of_mem_filter hm)
  · intro y hy
    rw [keep_filter] at hy
    exact yields_finite _ u' hyps' hhyps' y (List.mem_of_mem_filter hy)
  · obtain ⟨e, he, h⟩ := hr
    exact List.mem_append_left _ (List.mem_map.2 ⟨e, he, h⟩)

/-- C127: two runs of the segmentation-based tool that differ in one hypothesis `x` that is no reference, of
a query whose group has references. With descending order and collapsing, with or without interpolation and
whatever the curve: no number is higher with `x`. The global average precision is lower by at most
`1 / (n + 1)`, where `n` hypotheses have at least the score of `x`; the mean one by at most
`1 / (k (m + 1))`, where `m` of them are of the group of `x` and there are `k` groups. -/
theorem C127_segmentation (S S' : StdSort) (rng rng' : Rng G) (qf : Bool) (w w' : World)
    (o : ToolOptions)
    (hV : (vocabulary w o).dedup.length ≤ 2 ^ 31) (hV' : (vocabulary w' o).dedup.length ≤ 2 ^ 31)
    (t u u' : Str) (refs : List (Event Str Str)) (hyps hyps' : List (ScoredEvent Str Str))
    (ht : w.file o.refFilename = some t) (ht' : w'.file o.refFilename = some t)
    (hu : hypText w o = some u) (hu' : hypText w' o = some u')
    (hrefs : Yields StrEventText (lines t) refs)
    (hhyps : Yields (ScoredText Rnd.exact StrEventText) (lines u) hyps)
    (hhyps' : Yields (ScoredText Rnd.exact StrEventText) (lines u') hyps')
    (hg : groupFor w' o = groupFor w o) (hq : listedQueries w' o = listedQueries w o)
    (hd : o.sort = "desc".toList) (hc : o.collapse = true)
    (x : ScoredEvent Str Str) (hp : hyps'.Perm (x :: hyps)) (hx : x.base ∉ refs)
    (hl : listedQueries w o = [] ∨ x.base.query ∈ listedQueries w o)
    (hr : ∃ r ∈ keep (·.query) (listedQueries w o) refs, groupFor w o r.query = groupFor w o x.base.query)
    (r r' : Report Nat Nat)
    (h : mainWith Rnd.exact S rng (simpleKit Rnd.exact qf) w o = .ok (.done r))
    (h' : mainWith Rnd.exact S' rng' (simpleKit Rnd.exact qf) w' o = .ok (.done r')) :
    let grp := groupFor w o
    let refs := keep (·.query) (listedQueries w o) refs
    let hyps := keep (·.base.query) (listedQueries w o) hyps
    CostsLittle (numbersShown r) (numbersShown r') ((segTally refs hyps).reached x.score)
      ((segTally (refs.filter (grp ·.query = grp x.base.query))
        (hyps.filter (grp ·.base.query = grp x.base.query))).reached x.score)
      (refs.map (grp ·.query) ++ hyps.map (grp ·.base.query)).dedup.length
      refs.toFinset.card (refs.filter (grp ·.query = grp x.base.query)).toFinset.card
      (x.score ∉ hyps.map (·.score))
      (x.score ∉ (hyps.filter (grp ·.base.query = grp x.base.query)).map (·.score)) 0 := by
  have := seg_oneWrong Rnd.exact S S' rng rng' qf w w' o hV hV' t u u' refs hyps hyps' ht ht' hu hu' hrefs
    hhyps hhyps' hg hq hd hc x hp hx hl hr r r' 0 0 (Or.inl ⟨rfl, rfl⟩) (Or.inl ⟨rfl, rfl⟩) h h'
  rwa [add_zero] at this

/-- C127 in IEEE arithmetic. -/
theorem C127_segmentation_rounded (S S' : StdSort) (rng rng' : Rng G) (qf : Bool) (w w' : World)
    (o : ToolOptions)
    (hV : (vocabulary w o).dedup.length ≤ 2 ^ 31) (hV' : (vocabulary w' o).dedup.length ≤ 2 ^ 31)
    (t u u' : Str) (refs : List (Event Str Str)) (hyps hyps' : List (ScoredEvent Str Str))
    (ht : w.file o.refFilename = some t) (ht' : w'.file o.refFilename = some t)
    (hu : hypText w o = some u) (hu' : hypText w' o = some u')
    (hrefs : Yields StrEventText (lines t) refs)
    (hhyps : Yields (ScoredText Rnd.ieee StrEventText) (lines u) hyps)
    (hhyps' : Yields (ScoredText Rnd.ieee StrEventText) (lines u') hyps')
    (hn : refs.length + hyps.length ≤ 2 ^ 24) (hn' : refs.length + hyps'.length ≤ 2 ^ 24)
    (hg : groupFor w' o = groupFor w o) (hq : listedQueries w' o = listedQueries w o)
    (hd : o.sort = "desc".toList) (hc : o.collapse = true)
    (x : ScoredEvent Str Str) (hp : hyps'.Perm (x :: hyps)) (hx : x.base ∉ refs)
    (hl : listedQueries w o = [] ∨ x.base.query ∈ listedQueries w o)
    (hr : ∃ r ∈ keep (·.query) (listedQueries w o) refs, groupFor w o r.query = groupFor w o x.base.query)
    (r r' : Report Nat Nat)
    (h : mainWith Rnd.ieee S rng (simpleKit Rnd.ieee qf) w o = .ok (.done r))
    (h' : mainWith Rnd.ieee S' rng' (simpleKit Rnd.ieee qf) w' o = .ok (.done r')) :
    let ε : ℚ := (refs.length + hyps.length + 3) ^ 2 / 2 ^ 52 + (refs.length + hyps'.length + 3) ^ 2 / 2 ^ 52
    let grp := groupFor w o
    let refs := keep (·.query) (listedQueries w o) refs
    let hyps := keep (·.base.query) (listedQueries w o) hyps
    CostsLittle (numbersShown r) (numbersShown r') ((segTally refs hyps).reached x.score)
      ((segTally (refs.filter (grp ·.query = grp x.base.query))
        (hyps.filter (grp ·.base.query = grp x.base.query))).reached x.score)
      (refs.map (grp ·.query) ++ hyps.map (grp ·.base.query)).dedup.length
      refs.toFinset.card (refs.filter (grp ·.query = grp x.base.query)).toFinset.card
      (x.score ∉ hyps.map (·.score))
      (x.score ∉ (hyps.filter (grp ·.base.query = grp x.base.query)).map (·.score)) ε :=
  seg_oneWrong Rnd.ieee S S' rng rng' qf w w' o hV hV' t u u' refs hyps hyps' ht ht' hu hu' hrefs
    hhyps hhyps' hg hq hd hc x hp hx hl hr r r' _ _ (Or.inr ⟨rfl, hn, by push_cast; rfl⟩)
    (Or.inr ⟨rfl, hn', by push_cast; rfl⟩) h h'

theorem box_oneWrong (R : Rnd) (S S' : StdSort) (rng rng' : Rng G) (w w' : World) (o : ToolOptions)
    (refs : List (Event Str (DocBox Str UInt32)))
    (hyps hyps' : List (ScoredEvent Str (DocBox Str UInt32)))
    (h2 : TwoRuns R w w' o refs hyps hyps')
    (hr : ∀ r ∈ refs, EdgesOkU r.location.toBBox) (hh : ∀ h ∈ hyps', InRangeU h.base)
    (h24 : R = Rnd.ieee → ∀ h ∈ hyps', areaU h.base ≤ 2 ^ 24)
    (hd : o.sort = "desc".toList) (hc : o.collapse = true)
    (x : ScoredEvent Str (DocBox Str UInt32)) (hp : hyps'.Perm (x :: hyps)) (hx : ¬ Fits refs x)
    (hl : listedQueries w o = [] ∨ x.base.query ∈ listedQueries w o)
    (hg : ∃ r ∈ keep (·.query) (listedQueries w o) refs, groupFor w o r.query = groupFor w o x.base.query)
    (r r' : Report Str (DocBox Str UInt32)) (ε ε' : ℚ)
    (hT : Tolerance R (refs.length + hyps.length) ε) (hT' : Tolerance R (refs.length + hyps'.length) ε')
    (h : mainWith R S rng (icdarKit R S) w o = .ok (.done r))
    (h' : mainWith R S' rng' (icdarKit R S') w' o = .ok (.done r')) :
    ∃ ms rep,
      ExactBoxMatching (keep (·.query) (listedQueries w o) refs)
        (keep (·.base.query) (listedQueries w o) hyps) ms rep ∧
      r.dump = (if o.dumpMatches = [] then none else some (ms, rep)) ∧
      CostsLittle (numbersShown r) (numbersShown r') ((tallyOf ms).reached x.score)
        ((tallyOf (ms.filter (InGroup (groupFor w o) (groupFor w o x.base.query)))).reached x.score)
        ((ms.filterMap eventOf).map (groupFor w o ·.query)).dedup.length
        (tallyOf ms).refs
        (tallyOf (ms.filter (InGroup (groupFor w o) (groupFor w o x.base.query)))).refs
        (x.score ∉ scoresIn ms)
        (x.score ∉ scoresIn (ms.filter (InGroup (groupFor w o) (groupFor w o x.base.query)))) (ε + ε') := by
  obtain ⟨⟨t, t1, t2, t3⟩, ⟨u, u1, u2⟩, ⟨u', v1, v2⟩, hgr, hq⟩ := h2
  have sub : ∀ y ∈ hyps, y ∈ hyps' := fun y hy => hp.mem_iff.2 (by simp [hy])
  obtain ⟨ms, rep, a1, a3, a2⟩ := box_ties R S rng w o t u refs hyps t1 u1 t3 u2 hr
    (fun y hy => hh y (sub y hy)) (fun e y hy => h24 e y (sub y hy)) hd hc r ε hT h
  obtain ⟨ms', rep', b1, _, b2⟩ := box_ties R S' rng' w' o t u' refs hyps' t2 v1 t3 v2 hr
    hh h24 hd hc r' ε' hT' h'
  rw [hgr] at b2
  rw [hq] at b1
  refine ⟨ms, rep, a1, a3, CostsLittle.shown (C127_boxNumbers (groupFor w o) o.interp o.trapezoid x ?_ ?_ ?_ hg
    a1 b1) a2 b2⟩
  · rw [keep_filter, keep_filter]
    have := hp.filter (fun e => decide (listedQueries w o = [] ∨ e.base.query ∈ listedQueries w o))
    rwa [List.filter_cons_of_pos (by simpa using hl)] at this
  · rintro ⟨e, he, hb⟩
    rw [keep_filter] at he
    exact hx ⟨e, List.mem_of_mem_filter he, hb⟩
  · intro y hy
    rw [keep_filter] at hy
    exact scores_finite S v2 y (List.mem_of_mem_filter hy)

/-- C127: two runs of the box-based tool that differ in one hypothesis `x` that fits no reference. -/
theorem C127_box (S S' : StdSort) (rng rng' : Rng G) (w w' : World) (o : ToolOptions)
    (refs : List (Event Str (DocBox Str UInt32)))
    (hyps hyps' : List (ScoredEvent Str (DocBox Str UInt32)))
    (h2 : TwoRuns Rnd.exact w w' o refs hyps hyps')
    (hr : ∀ r ∈ refs, EdgesOkU r.location.toBBox) (hh : ∀ h ∈ hyps', InRangeU h.base)
    (hd : o.sort = "desc".toList) (hc : o.collapse = true)
    (x : ScoredEvent Str (DocBox Str UInt32)) (hp : hyps'.Perm (x :: hyps)) (hx : ¬ Fits refs x)
    (hl : listedQueries w o = [] ∨ x.base.query ∈ listedQueries w o)
    (hg : ∃ r ∈ keep (·.query) (listedQueries w o) refs, groupFor w o r.query = groupFor w o x.base.query)
    (r r' : Report Str (DocBox Str UInt32))
    (h : mainWith Rnd.exact S rng (icdarKit Rnd.exact S) w o = .ok (.done r))
    (h' : mainWith Rnd.exact S' rng' (icdarKit Rnd.exact S') w' o = .ok (.done r')) :
    ∃ ms rep,
      ExactBoxMatching (keep (·.query) (listedQueries w o) refs)
        (keep (·.base.query) (listedQueries w o) hyps) ms rep ∧
      r.dump = (if o.dumpMatches = [] then none else some (ms, rep)) ∧
      CostsLittle (numbersShown r) (numbersShown r') ((tallyOf ms).reached x.score)
        ((tallyOf (ms.filter (InGroup (groupFor w o) (groupFor w o x.base.query)))).reached x.score)
        ((ms.filterMap eventOf).map (groupFor w o ·.query)).dedup.length
        (tallyOf ms).refs
        (tallyOf (ms.filter (InGroup (groupFor w o) (groupFor w o x.base.query)))).refs
        (x.score ∉ scoresIn ms)
        (x.score ∉ scoresIn (ms.filter (InGroup (groupFor w o) (groupFor w o x.base.query)))) 0 := by
  have := box_oneWrong Rnd.exact S S' rng rng' w w' o refs hyps hyps' h2 hr hh
    (fun e => absurd e exact_ne_ieee) hd hc x hp hx hl hg r r' 0 0 (Or.inl ⟨rfl, rfl⟩) (Or.inl ⟨rfl, rfl⟩) h h'
  rwa [add_zero] at this

/-- C127 for the box-based tool in IEEE arithmetic. -/
theorem C127_box_rounded (S S' : StdSort) (rng rng' : Rng G) (w w' : World) (o : ToolOptions)
    (refs : List (Event Str (DocBox Str UInt32)))
    (hyps hyps' : List (ScoredEvent Str (DocBox Str UInt32)))
    (h2 : TwoRuns Rnd.ieee w w' o refs hyps hyps')
    (hr : ∀ r ∈ refs, EdgesOkU r.location.toBBox)
    (hh : ∀ h ∈ hyps', EdgesOkU h.base.location.toBBox ∧ areaU h.base ≤ 2 ^ 24)
    (hn : refs.length + hyps.length ≤ 2 ^ 24) (hn' : refs.length + hyps'.length ≤ 2 ^ 24)
    (hd : o.sort = "desc".toList) (hc : o.collapse = true)
    (x : ScoredEvent Str (DocBox Str UInt32)) (hp : hyps'.Perm (x :: hyps)) (hx : ¬ Fits refs x)
    (hl : listedQueries w o = [] ∨ x.base.query ∈ listedQueries w o)
    (hg : ∃ r ∈ keep (·.query) (listedQueries w o) refs, groupFor w o r.query = groupFor w o x.base.query)
    (r r' : Report Str (DocBox Str UInt32))
    (h : mainWith Rnd.ieee S rng (icdarKit Rnd.ieee S) w o = .ok (.done r))
    (h' : mainWith Rnd.ieee S' rng' (icdarKit Rnd.ieee S') w' o = .ok (.done r')) :
    ∃ ms rep,
      ExactBoxMatching (keep (·.query) (listedQueries w o) refs)
        (keep (·.base.query) (listedQueries w o) hyps) ms rep ∧
      r.dump = (if o.dumpMatches = [] then none else some (ms, rep)) ∧
      CostsLittle (numbersShown r) (numbersShown r') ((tallyOf ms).reached x.score)
        ((tallyOf (ms.filter (InGroup (groupFor w o) (groupFor w o x.base.query)))).reached x.score)
        ((ms.filterMap eventOf).map (groupFor w o ·.query)).dedup.length
        (tallyOf ms).refs
        (tallyOf (ms.filter (InGroup (groupFor w o) (groupFor w o x.base.query)))).refs
        (x.score ∉ scoresIn ms)
        (x.score ∉ scoresIn (ms.filter (InGroup (groupFor w o) (groupFor w o x.base.query))))
        ((refs.length + hyps.length + 3) ^ 2 / 2 ^ 52 + (refs.length + hyps'.length + 3) ^ 2 / 2 ^ 52) :=
  box_oneWrong Rnd.ieee S S' rng rng' w w' o refs hyps hyps' h2 hr
    (fun y hy => ⟨(hh y hy).1, by have := (hh y hy).2; omega⟩) (fun _ y hy => (hh y hy).2) hd hc x hp hx hl hg
    r r' _ _ (Or.inr ⟨rfl, hn, by push_cast; rfl⟩) (Or.inr ⟨rfl, hn', by push_cast; rfl⟩) h h'

end

/-! ## Shared scores -/

theorem logb_two_le (n q p : ℕ) (hn : 0 < n) (hq : 0 < q) (h : n ^ q ≤ 2 ^ p) :
    Real.logb 2 n ≤ p / q := by
  rw [le_div_iff₀ (by exact_mod_cast hq), mul_comm, ← Real.logb_pow]
  have h1 : Real.logb 2 ((n : ℝ) ^ q) ≤ Real.logb 2 ((2 : ℝ) ^ p) :=
    Real.logb_le_logb_of_le (by norm_num) (by positivity) (by exact_mod_cast h)
  have e : Real.logb 2 ((2 : ℝ) ^ p) = p := by
    rw [Real.logb_pow, Real.logb_self_eq_one (by norm_num), mul_one]
  rwa [e] at h1

theorem le_logb_two (n q p : ℕ) (hq : 0 < q) (h : 2 ^ p ≤ n ^ q) :
    (p : ℝ) / q ≤ Real.logb 2 n := by
  rw [div_le_iff₀ (by exact_mod_cast hq), mul_comm, ← Real.logb_pow]
  have h1 : Real.logb 2 ((2 : ℝ) ^ p) ≤ Real.logb 2 ((n : ℝ) ^ q) :=
    Real.logb_le_logb_of_le (by norm_num) (by positivity) (by exact_mod_cast h)
  have e : Real.logb 2 ((2 : ℝ) ^ p) = p := by
    rw [Real.logb_pow, Real.logb_self_eq_one (by norm_num), mul_one]
  rwa [e] at h1

theorem segNumbers_gNDCG {Q L : Type} [DecidableEq Q] [DecidableEq L] (grp : Q → Q) (interp t : Bool)
    (refs : List (Event Q L)) (hyps : List (ScoredEvent Q L)) :
    (segNumbers grp interp t refs hyps).gNDCG =
      (segTally refs hyps).ndcg (descending (hyps.map (·.score))) := rfl

theorem shared_bound : ((2 : ℝ) ^ ((10 : ℝ) / 11) - 1) * (idealGain 10 + (Real.logb 2 12)⁻¹) / idealGain 10 +
    1 / (Real.logb 2 (((10 : ℕ) : ℝ) + 2) * idealGain 10) < 1 ∧ idealGain 10 ≠ 0 := by
  have a3 : Real.logb 2 3 ≤ 8 / 5 := by exact_mod_cast logb_two_le 3 5 8 (by norm_num) (by norm_num) (by norm_num)
  have a4 : Real.logb 2 4 ≤ 2 := by
    have := logb_two_le 4 1 2 (by norm_num) (by norm_num) (by norm_num)
    norm_num at this
    exact this
  have a5 : Real.logb 2 5 ≤ 7 / 3 := by exact_mod_cast logb_two_le 5 3 7 (by norm_num) (by norm_num) (by norm_num)
  have a6 : Real.logb 2 6 ≤ 13 / 5 := by exact_mod_cast logb_two_le 6 5 13 (by norm_num) (by norm_num) (by norm_num)
  have a7 : Real.logb 2 7 ≤ 17 / 6 := by exact_mod_cast logb_two_le 7 6 17 (by norm_num) (by norm_num) (by norm_num)
  have a8 : Real.logb 2 8 ≤ 3 := by
    have := logb_two_le 8 1 3 (by norm_num) (by norm_num) (by norm_num)
    norm_num at this
    exact this
  have a9 : Real.logb 2 9 ≤ 16 / 5 := by exact_mod_cast logb_two_le 9 5 16 (by norm_num) (by norm_num) (by norm_num)
  have a10 : Real.logb 2 10 ≤ 10 / 3 := by
    exact_mod_cast logb_two_le 10 3 10 (by norm_num) (by norm_num) (by norm_num)
  have a11 : Real.logb 2 11 ≤ 7 / 2 := by
    exact_mod_cast logb_two_le 11 2 7 (by norm_num) (by norm_num) (by norm_num)
  have a12 : 43 / 12 ≤ Real.logb 2 12 := by
    exact_mod_cast le_logb_two 12 12 43 (by norm_num) (by norm_num)
  have pos : ∀ y : ℝ, 1 < y → 0 < Real.logb 2 y := fun y hy => Real.logb_pos (by norm_num) hy
  have inv : ∀ y b : ℝ, 1 < y → Real.logb 2 y ≤ b → b⁻¹ ≤ (Real.logb 2 y)⁻¹ := fun y b hy hb =>
    inv_anti₀ (pos y hy) hb
  have hI10 : (4.52 : ℝ) ≤ idealGain 10 := by
    unfold idealGain
    simp only [Finset.sum_range_succ, Finset.sum_range_zero]
    have b3 := inv 3 _ (by norm_num) a3
    have b4 := inv 4 _ (by norm_num) a4
    have b5 := inv 5 _ (by norm_num) a5
    have b6 := inv 6 _ (by norm_num) a6
    have b7 := inv 7 _ (by norm_num) a7
    have b8 := inv 8 _ (by norm_num) a8
    have b9 := inv 9 _ (by norm_num) a9
    have b10 := inv 10 _ (by norm_num) a10
    have b11 := inv 11 _ (by norm_num) a11
    have b2 : Real.logb 2 2 = 1 := Real.logb_self_eq_one (by norm_num)
    norm_num [b2] at b3 b4 b5 b6 b7 b8 b9 b10 b11 ⊢
    linarith
  have hd : (Real.logb 2 12)⁻¹ ≤ 12 / 43 := by
    have := inv_anti₀ (by norm_num) a12
    norm_num at this ⊢
    exact this
  have hq : (2 : ℝ) ^ ((10 : ℝ) / 11) ≤ 1.879 := by
    have h : ((2 : ℝ) ^ ((10 : ℝ) / 11)) ^ 11 = 2 ^ 10 := by
      rw [← Real.rpow_natCast, ← Real.rpow_mul (by norm_num)]
      norm_num
    refine le_of_pow_le_pow_left₀ (n := 11) (by norm_num) (by norm_num) ?_
    rw [h]
    norm_num
  have hpos : 0 < idealGain 10 := by linarith
  have hq1 : (1 : ℝ) ≤ (2 : ℝ) ^ ((10 : ℝ) / 11) := Real.one_le_rpow (by norm_num) (by norm_num)
  have hdp : 0 < (Real.logb 2 12)⁻¹ := inv_pos.2 (pos 12 (by norm_num))
  have e3 : 1 / (Real.logb 2 (((10 : ℕ) : ℝ) + 2) * idealGain 10) =
      (Real.logb 2 12)⁻¹ / idealGain 10 := by
    norm_num [div_eq_mul_inv, mul_comm]
  refine ⟨?_, hpos.ne'⟩
  rw [e3, ← add_div, div_lt_one hpos]
  generalize (2 : ℝ) ^ ((10 : ℝ) / 11) = q at hq hq1 ⊢
  generalize (Real.logb 2 12)⁻¹ = d at hd hdp ⊢
  generalize idealGain 10 = I at hI10 ⊢
  nlinarith

theorem shared_gain :
    (∑ k ∈ Finset.Ico (0 + 0 : ℕ) (10 + 0), ((2 : ℝ) ^ ((((10 : ℕ) : ℝ) - ((0 : ℕ) : ℝ)) /
      ((((10 : ℕ) : ℝ) - ((0 : ℕ) : ℝ)) + (((0 : ℕ) : ℝ) - ((0 : ℕ) : ℝ)))) - 1) / Real.logb 2 ((k : ℝ) + 2)) =
      idealGain 10 := by
    unfold idealGain
    rw [Finset.range_eq_Ico]
    refine Finset.sum_congr (by norm_num) fun k _ => ?_
    norm_num

theorem shared_gain' :
    (∑ k ∈ Finset.Ico (0 + 0 : ℕ) (10 + 1), ((2 : ℝ) ^ ((((10 : ℕ) : ℝ) - ((0 : ℕ) : ℝ)) /
      ((((10 : ℕ) : ℝ) - ((0 : ℕ) : ℝ)) + (((1 : ℕ) : ℝ) - ((0 : ℕ) : ℝ)))) - 1) / Real.logb 2 ((k : ℝ) + 2)) =
      ((2 : ℝ) ^ ((10 : ℝ) / 11) - 1) * (idealGain 10 + (Real.logb 2 12)⁻¹) := by
    have : idealGain 10 + (Real.logb 2 12)⁻¹ = ∑ k ∈ Finset.range 11, 1 / Real.logb 2 ((k : ℝ) + 2) := by
      rw [Finset.sum_range_succ]
      unfold idealGain
      norm_num
    rw [this, Finset.mul_sum, Finset.range_eq_Ico]
    refine Finset.sum_congr (by norm_num) fun k _ => ?_
    rw [mul_one_div]
    norm_num

/-- Ten references. -/
def sharedRefs : List (Event ℕ ℕ) := (List.range 10).map (⟨0, ·⟩)

/-- They are found with the same score. -/
def sharedHyps : List (ScoredEvent ℕ ℕ) := sharedRefs.map (⟨·, .fin 1⟩)

/-- A wrong hypothesis with this score. -/
def sharedWrong : ScoredEvent ℕ ℕ := ⟨⟨0, 10⟩, .fin 1⟩

/-- C127: that no other hypothesis has the score of `x` is needed for the bound of gNDCG. There are ten
references, which are found with the same score; a wrong hypothesis with this score lowers the gain of all
of them, and gNDCG by more than the bound. -/
theorem C127_alone_needed : ∃ (refs : List (Event ℕ ℕ)) (hyps : List (ScoredEvent ℕ ℕ))
    (x : ScoredEvent ℕ ℕ), x.base ∉ refs ∧ (∀ y ∈ x :: hyps, y.score = .fin 1) ∧
    ∀ (grp : ℕ → ℕ) (interp trapezoid : Bool),
    (segNumbers grp interp trapezoid refs (x :: hyps)).gNDCG +
      1 / (Real.logb 2 ((segTally refs hyps).reached x.score + 2) * idealGain refs.toFinset.card) <
    (segNumbers grp interp trapezoid refs hyps).gNDCG := by
  refine ⟨sharedRefs, sharedHyps, sharedWrong, by decide +kernel, by decide +kernel, fun grp interp trapezoid => ?_⟩
  have d1 : descending (sharedHyps.map (·.score)) = [.fin 1] := by decide +kernel
  have d2 : descending ((sharedWrong :: sharedHyps).map (·.score)) = [.fin 1] := by decide +kernel
  have t1 : (segTally sharedRefs sharedHyps).hits (.fin 1) = 10 := by decide +kernel
  have t2 : (segTally sharedRefs sharedHyps).wrong (.fin 1) = 0 := by decide +kernel
  have t3 : (segTally sharedRefs sharedHyps).refs = 10 := by decide +kernel
  have t4 : (segTally sharedRefs (sharedWrong :: sharedHyps)).hits (.fin 1) = 10 := by decide +kernel
  have t5 : (segTally sharedRefs (sharedWrong :: sharedHyps)).wrong (.fin 1) = 1 := by decide +kernel
  have t6 : (segTally sharedRefs (sharedWrong :: sharedHyps)).refs = 10 := by decide +kernel
  have t7 : sharedRefs.toFinset.card = 10 := by decide +kernel
  have hx : sharedWrong.score = .fin 1 := rfl
  rw [segNumbers_gNDCG, segNumbers_gNDCG, d1, d2, t7, hx]
  unfold Tally.reached
  simp only [Tally.ndcg, Tally.gain, t1, t2, t3, t4, t5, t6]
  have hI : (∑ k ∈ Finset.range 10, 1 / Real.logb 2 ((k : ℝ) + 2)) = idealGain 10 := rfl
  rw [shared_gain, shared_gain', hI, if_neg (by norm_num), if_neg (by norm_num), add_zero, add_zero, add_zero,
    div_self shared_bound.2]
  exact shared_bound.1

/-! ## Runs -/

/-- Runs to which C127 applies: a wrong hypothesis comes in second. The global average precision goes from
1 to 5/6, not below 1/2, and the mean one from 1 to 3/4, not below 1/2. -/
example {G : Type} (S : StdSort) (rng : Rng G) : ∃ r r',
    mainWith Rnd.exact S rng (simpleKit Rnd.exact true) (betterExample "b l 3\na l 1\n".toList)
      idsOptions = .ok (.done r) ∧
    mainWith Rnd.exact S rng (simpleKit Rnd.exact true) (betterExample "b l 3\na m 2\na l 1\n".toList)
      idsOptions = .ok (.done r') ∧
    CostsLittle (numbersShown r) (numbersShown r') 1 0 2 2 1 True True 0 ∧
    r.gAP.value = 1 ∧ r'.gAP.value = 5 / 6 ∧ r.mAP.value = 1 ∧ r'.mAP.value = 3 / 4 := by
  obtain ⟨y1, _, y3⟩ := betterExample_yields
  have y2 : Yields (ScoredText Rnd.exact StrEventText) (lines "b l 3\na l 1\n".toList)
      [⟨⟨"b".toList, "l".toList⟩, .fin 3⟩, ⟨⟨"a".toList, "l".toList⟩, .fin 1⟩] :=
    (C48_accepts (Format.strHyps (R := Rnd.exact)) _ _).1 (by decide +kernel)
  have v := betterExample_vocabulary "b l 3\na l 1\n".toList (by decide +kernel)
  have v' := betterExample_vocabulary "b l 3\na m 2\na l 1\n".toList (by decide +kernel)
  obtain ⟨r, h⟩ := betterExample_runs S rng _ v (yields_valid y2)
  obtain ⟨r', h'⟩ := betterExample_runs S rng _ v' (yields_valid y3)
  have hq : ∀ u, listedQueries (betterExample u) idsOptions = [] := fun _ => rfl
  have hg : ∀ u, groupFor (betterExample u) idsOptions = id := fun _ => rfl
  have key := C127_segmentation S S rng rng true _ _ idsOptions v v' _ _ _ _ _ _
    (betterExample_file _) (betterExample_file _) (if_pos rfl) (if_pos rfl) y1 y2 y3
    ((hg _).trans (hg _).symm) ((hq _).trans (hq _).symm) rfl rfl
    ⟨⟨"a".toList, "m".toList⟩, .fin 2⟩ (List.Perm.swap _ _ _) (by decide +kernel) (Or.inl (hq _))
    ⟨⟨"a".toList, "l".toList⟩, by rw [hq]; decide +kernel, rfl⟩ r r' h h'
  obtain ⟨a1, a2, _⟩ := C66_segmentation S rng true _ idsOptions v _ _ _ _ (betterExample_file _) (if_pos rfl)
    y1 y2 rfl rfl r h
  obtain ⟨b1, b2, _⟩ := C66_segmentation S rng true _ idsOptions v' _ _ _ _ (betterExample_file _) (if_pos rfl)
    y1 y3 rfl rfl r' h'
  refine ⟨r, r', h, h', ?_, a1.trans ?_, b1.trans ?_, a2.trans ?_, b2.trans ?_⟩
  · rw [hq, hg] at key
    have e1 : (segTally (keep (·.query) [] betterRefs) (keep (·.base.query) []
        [⟨⟨"b".toList, "l".toList⟩, .fin 3⟩, ⟨⟨"a".toList, "l".toList⟩, .fin 1⟩])).reached (.fin 2) = 1 := by
      decide +kernel
    convert key using 1
    · exact e1.symm
    · decide +kernel
    · decide +kernel
    · decide +kernel
    · decide +kernel
    · exact ⟨fun _ => by decide +kernel, fun _ => trivial⟩
    · exact ⟨fun _ => by decide +kernel, fun _ => trivial⟩
  all_goals
    rw [hq]
    unfold segNumbers Numbers.of
    decide +kernel

/-- Runs of the box-based tool to which C127 applies: the right box, but in another document. -/
example {G : Type} (S : StdSort) (rng : Rng G) : ∃ r r' : Report Str (DocBox Str UInt32),
    mainWith Rnd.exact S rng (icdarKit Rnd.exact S) (dumpExample "q d 0 0 1 1\nq d 0 0 5 1\n".toList
      "q d 0 0 5 1 1\n".toList) dumpOptions = .ok (.done r) ∧
    mainWith Rnd.exact S rng (icdarKit Rnd.exact S) (dumpExample "q d 0 0 1 1\nq d 0 0 5 1\n".toList
      "q d 0 0 5 1 1\nq e 0 0 5 1 2\n".toList) dumpOptions = .ok (.done r') ∧
    ∃ n m k N M alone aloneIn,
      CostsLittle (numbersShown r) (numbersShown r') n m k N M alone aloneIn 0 := by
  have y1 : Yields BoxEventText (lines "q d 0 0 1 1\nq d 0 0 5 1\n".toList)
      [⟨['q'], ⟨⟨0, 0, 1, 1⟩, ['d']⟩⟩, ⟨['q'], ⟨⟨0, 0, 5, 1⟩, ['d']⟩⟩] :=
    (C48_accepts (Format.boxRefs (R := Rnd.exact)) _ _).1 (by decide +kernel)
  have y2 : Yields (ScoredText Rnd.exact BoxEventText) (lines "q d 0 0 5 1 1\n".toList)
      [⟨⟨['q'], ⟨⟨0, 0, 5, 1⟩, ['d']⟩⟩, .fin 1⟩] :=
    (C48_accepts (Format.boxHyps (R := Rnd.exact)) _ _).1 (by decide +kernel)
  have y3 : Yields (ScoredText Rnd.exact BoxEventText) (lines "q d 0 0 5 1 1\nq e 0 0 5 1 2\n".toList)
      [⟨⟨['q'], ⟨⟨0, 0, 5, 1⟩, ['d']⟩⟩, .fin 1⟩, ⟨⟨['q'], ⟨⟨0, 0, 5, 1⟩, ['e']⟩⟩, .fin 2⟩] :=
    (C48_accepts (Format.boxHyps (R := Rnd.exact)) _ _).1 (by decide +kernel)
  obtain ⟨r, hr⟩ := dump_run S rng _ _ _ _ y1 y2
  obtain ⟨r', hr'⟩ := dump_run S rng _ _ _ _ y1 y3
  have h1 : ∀ r ∈ ([⟨['q'], ⟨⟨0, 0, 1, 1⟩, ['d']⟩⟩, ⟨['q'], ⟨⟨0, 0, 5, 1⟩, ['d']⟩⟩] :
      List (Event Str (DocBox Str UInt32))), EdgesOkU r.location.toBBox := by
    intro r hr
    simp only [List.mem_cons, List.not_mem_nil, or_false] at hr
    rcases hr with rfl | rfl <;> exact ⟨by decide, by decide⟩
  have h2 : ∀ x ∈ ([⟨⟨['q'], ⟨⟨0, 0, 5, 1⟩, ['d']⟩⟩, .fin 1⟩, ⟨⟨['q'], ⟨⟨0, 0, 5, 1⟩, ['e']⟩⟩, .fin 2⟩] :
      List (ScoredEvent Str (DocBox Str UInt32))), InRangeU x.base := by
    intro x hx
    simp only [List.mem_cons, List.not_mem_nil, or_false] at hx
    rcases hx with rfl | rfl <;> exact ⟨⟨by decide, by decide⟩, by decide +kernel⟩
  obtain ⟨_, _, _, _, h⟩ := C127_box S S rng rng _ _ dumpOptions _ _ _
    ⟨⟨_, dumpExample_file _ _, dumpExample_file _ _, y1⟩, ⟨_, if_pos rfl, y2⟩, ⟨_, if_pos rfl, y3⟩, rfl, rfl⟩
    h1 h2 rfl rfl ⟨⟨['q'], ⟨⟨0, 0, 5, 1⟩, ['e']⟩⟩, .fin 2⟩ (List.Perm.swap _ _ _) (by decide +kernel)
    (Or.inl rfl) ⟨⟨['q'], ⟨⟨0, 0, 1, 1⟩, ['d']⟩⟩, List.mem_cons_self, rfl⟩ r r' hr hr'
  exact ⟨r, r', hr, hr', _, _, _, _, _, _, _, h⟩

end Kws
