import Verif.Lemmas.BoxImproved
import Verif.Props.HandedIn
import Verif.Props.Moved

/-! # C110, C111: better hypotheses for the box tool -/

namespace Kws
open Spec

section
variable {refs : List (Event Str (DocBox Str UInt32))}
  {hyps hyps' : List (ScoredEvent Str (DocBox Str UInt32))}
  {ms rep ms' rep' : List (KwsMatch Str (DocBox Str UInt32))}

/-- C110: adding a hypothesis that is right, whatever its score. -/
theorem C110_add (refs : List (Event Str (DocBox Str UInt32)))
    (hyps : List (ScoredEvent Str (DocBox Str UInt32))) (x : ScoredEvent Str (DocBox Str UInt32))
    (hx : Fits refs x) : KeepsRight refs hyps (x :: hyps) ∧ NoMoreWrong refs hyps (x :: hyps) :=
  ⟨fun _ _ => List.count_le_count_cons, fun q s _ => by rw [List.countP_cons_of_neg (by simp [hx])]⟩

/-- C110: dropping hypotheses that are wrong. -/
theorem C110_drop (refs : List (Event Str (DocBox Str UInt32)))
    (hyps : List (ScoredEvent Str (DocBox Str UInt32))) (p : ScoredEvent Str (DocBox Str UInt32) → Bool)
    (hp : ∀ h ∈ hyps, Fits refs h → p h = true) :
    KeepsRight refs hyps (hyps.filter p) ∧ NoMoreWrong refs hyps (hyps.filter p) := by
  refine ⟨fun x hx => ?_, fun q s _ => List.Sublist.countP_le List.filter_sublist⟩
  by_cases hm : x ∈ hyps
  · rw [List.count_filter (hp x hm hx)]
  · rw [List.count_eq_zero.2 hm]
    exact Nat.zero_le _

/-- C111: raising the scores of right hypotheses and lowering those of wrong ones. -/
theorem C111_adjust (refs : List (Event Str (DocBox Str UInt32)))
    (hyps : List (ScoredEvent Str (DocBox Str UInt32))) (f : ScoredEvent Str (DocBox Str UInt32) → Flt)
    (hn : ∀ h ∈ hyps, f h ≠ .nan)
    (hr : ∀ h ∈ hyps, Fits refs h → Flt.lt (f h) h.score = false)
    (hw : ∀ h ∈ hyps, ¬ Fits refs h → Flt.lt h.score (f h) = false) :
    RaisesRight refs hyps (hyps.map (fun h => ⟨h.base, f h⟩)) ∧
      NoMoreWrong refs hyps (hyps.map (fun h => ⟨h.base, f h⟩)) := by
  refine ⟨fun x hx r hr' hp => ⟨_, List.mem_map_of_mem hx, hp, hr x hx ⟨r, hr', hp⟩⟩, fun q s _ => ?_⟩
  rw [List.countP_map]
  refine List.countP_mono_left fun h hh hp => ?_
  simp only [Function.comp_apply, decide_eq_true_eq] at hp ⊢
  have h1 : ¬ Fits refs h := fun ⟨r, a, b⟩ => hp.1 ⟨r, a, b⟩
  exact ⟨h1, hp.2.1, Flt.lt_false_trans (hn h hh) (hw h hh h1) hp.2.2⟩

theorem exact_references (h : ExactBoxMatching refs hyps ms rep) (h' : ExactBoxMatching refs hyps' ms' rep') :
    references ms' = references ms := by
  obtain ⟨l, _, h⟩ := C88_refines _ _ _ _ h
  obtain ⟨l', _, h'⟩ := C88_refines _ _ _ _ h'
  obtain ⟨a1, a2⟩ := boxMatching_refs h
  obtain ⟨b1, b2⟩ := boxMatching_refs h'
  have key : ∀ k : List (KwsMatch Str (DocBox Str UInt32)),
      references k = (k.filterMap (·.ref)).length := by
    intro k
    unfold references
    induction k with
    | nil => rfl
    | cons m k ih => cases hm : m.ref <;> simp [hm, ih]
  rw [key, key]
  exact ((List.perm_ext_iff_of_nodup b1 a1).2 fun r => by rw [a2, b2]).length_eq

theorem exact_noNaN (h : ExactBoxMatching refs hyps ms rep) (hn : ∀ x ∈ hyps, x.score ≠ .nan) : NoNaN ms := by
  intro m hm
  cases hx : m.hyp with
  | none => unfold rank; rw [hx]; simp
  | some x =>
    rw [rank_of_hyp hx]
    exact hn x ((exactBoxMatching_mem h m (.inl hm)).2 x hx)

/-- Better matches, from what is found in each part. -/
theorem exact_better (h : ExactBoxMatching refs hyps ms rep) (h' : ExactBoxMatching refs hyps' ms' rep')
    (hn : ∀ x ∈ hyps, x.score ≠ .nan) (hn' : ∀ x ∈ hyps', x.score ≠ .nan)
    (hw : NoMoreWrong refs hyps hyps')
    (hf : ∀ (P : Str → Bool) (s : Flt),
      foundAbove s (ms.filter (about P)) ≤ foundAbove s (ms'.filter (about P))) : BetterMatches ms ms' where
  found P s _ := hf P s
  wrong P s hs := by
    obtain ⟨_, _, _, _, _, _, a⟩ := exact_above (exactBoxMatching_filter h P)
      fun x hx => hn x (List.mem_of_mem_filter hx)
    obtain ⟨_, _, _, _, _, _, b⟩ := exact_above (exactBoxMatching_filter h' P)
      fun x hx => hn' x (List.mem_of_mem_filter hx)
    rw [a, b]
    exact (hw.filter P).total s hs
  refs P := exact_references (exactBoxMatching_filter h P) (exactBoxMatching_filter h' P)

/-- C110 for the matching: with more right and fewer wrong hypotheses, the interpolated average precisions
are not lower. -/
theorem C110_matching (h : ExactBoxMatching refs hyps ms rep) (h' : ExactBoxMatching refs hyps' ms' rep')
    (hn : ∀ x ∈ hyps, x.score ≠ .nan) (hn' : ∀ x ∈ hyps', x.score ≠ .nan)
    (hk : KeepsRight refs hyps hyps') (hw : NoMoreWrong refs hyps hyps') (grp : Str → Str) (t : Bool) :
    (matchNumbers grp true t ms).gAP ≤ (matchNumbers grp true t ms').gAP ∧
    (matchNumbers grp true t ms).mAP ≤ (matchNumbers grp true t ms').mAP :=
  (exact_better h h' hn hn' hw fun P s => found_keeps (exactBoxMatching_filter h P)
    (exactBoxMatching_filter h' P) (fun x hx => hn x (List.mem_of_mem_filter hx))
    (fun x hx => hn' x (List.mem_of_mem_filter hx)) (hk.filter P) s).numbers
    (exact_noNaN h hn) (exact_noNaN h' hn') grp t

/-- C111 for the matching: with higher scores for right hypotheses and lower ones for wrong ones, the
interpolated average precisions are not lower, if no hypothesis fits two references. -/
theorem C111_matching_partial (h : ExactBoxMatching refs hyps ms rep)
    (h' : ExactBoxMatching refs hyps' ms' rep') (hn : ∀ x ∈ hyps, x.score ≠ .nan)
    (hn' : ∀ x ∈ hyps', x.score ≠ .nan) (hk : RaisesRight refs hyps hyps') (ho : FitsOne refs hyps')
    (hw : NoMoreWrong refs hyps hyps') (grp : Str → Str) (t : Bool) :
    (matchNumbers grp true t ms).gAP ≤ (matchNumbers grp true t ms').gAP ∧
    (matchNumbers grp true t ms).mAP ≤ (matchNumbers grp true t ms').mAP :=
  (exact_better h h' hn hn' hw fun P s => found_raises (exactBoxMatching_filter h P)
    (exactBoxMatching_filter h' P) (fun x hx => hn x (List.mem_of_mem_filter hx))
    (fun x hx => hn' x (List.mem_of_mem_filter hx)) (hk.filter P) (ho.filter P) s).numbers
    (exact_noNaN h hn) (exact_noNaN h' hn') grp t

end

/-! ## The program -/

section
variable {G : Type}

/-- Two runs with the same references, queries and options: the assumptions that do not depend on the
arithmetic. -/
structure TwoRuns (R : Rnd) (w w' : World) (o : ToolOptions)
    (refs : List (Event Str (DocBox Str UInt32)))
    (hyps hyps' : List (ScoredEvent Str (DocBox Str UInt32))) : Prop where
  refs : ∃ t, w.file o.refFilename = some t ∧ w'.file o.refFilename = some t ∧
    Yields BoxEventText (lines t) refs
  hyps : ∃ u, hypText w o = some u ∧ Yields (ScoredText R BoxEventText) (lines u) hyps
  hyps' : ∃ u, hypText w' o = some u ∧ Yields (ScoredText R BoxEventText) (lines u) hyps'
  groups : groupFor w' o = groupFor w o
  queries : listedQueries w' o = listedQueries w o

theorem box_better (R : Rnd) (S S' : StdSort) (rng rng' : Rng G) (w w' : World) (o : ToolOptions)
    (refs : List (Event Str (DocBox Str UInt32)))
    (hyps hyps' : List (ScoredEvent Str (DocBox Str UInt32)))
    (h2 : TwoRuns R w w' o refs hyps hyps')
    (hr : ∀ r ∈ refs, EdgesOkU r.location.toBBox) (hh : ∀ h ∈ hyps ++ hyps', InRangeU h.base)
    (h24 : R = Rnd.ieee → ∀ h ∈ hyps ++ hyps', areaU h.base ≤ 2 ^ 24)
    (hd : o.sort = "desc".toList) (hc : o.collapse = true) (hi : o.interp = true)
    (r r' : Report Str (DocBox Str UInt32)) (ε ε' : ℚ)
    (hT : Tolerance R (refs.length + hyps.length) ε) (hT' : Tolerance R (refs.length + hyps'.length) ε')
    (h : mainWith R S rng (icdarKit R S) w o = .ok (.done r))
    (h' : mainWith R S' rng' (icdarKit R S') w' o = .ok (.done r'))
    (hk : KeepsRight refs hyps hyps' ∨ RaisesRight refs hyps hyps' ∧ FitsOne refs hyps')
    (hw : NoMoreWrong refs hyps hyps') :
    r.gAP.value ≤ r'.gAP.value + (ε + ε') ∧ r.mAP.value ≤ r'.mAP.value + (ε + ε') := by
  obtain ⟨⟨t, t1, t2, t3⟩, ⟨u, u1, u2⟩, ⟨u', v1, v2⟩, hg, hq⟩ := h2
  obtain ⟨ms, rep, a1, _, a2⟩ := box_ties R S rng w o t u refs hyps t1 u1 t3 u2 hr
    (fun x hx => hh x (by simp [hx])) (fun e x hx => h24 e x (by simp [hx])) hd hc r ε hT h
  obtain ⟨ms', rep', b1, _, b2⟩ := box_ties R S' rng' w' o t u' refs hyps' t2 v1 t3 v2 hr
    (fun x hx => hh x (by simp [hx])) (fun e x hx => h24 e x (by simp [hx])) hd hc r' ε' hT' h'
  rw [hg] at b2
  rw [hq] at b1
  rw [keep_filter, keep_filter] at a1 b1
  rw [hi] at a2 b2
  have n1 : ∀ x ∈ hyps.filter (fun x => decide (listedQueries w o = [] ∨ x.base.query ∈ listedQueries w o)),
      x.score ≠ .nan := fun x hx => scores_finite S u2 x (List.mem_of_mem_filter hx)
  have n2 : ∀ x ∈ hyps'.filter (fun x => decide (listedQueries w o = [] ∨ x.base.query ∈ listedQueries w o)),
      x.score ≠ .nan := fun x hx => scores_finite S v2 x (List.mem_of_mem_filter hx)
  have hw := hw.filter (fun q => decide (listedQueries w o = [] ∨ q ∈ listedQueries w o))
  have key : (matchNumbers (groupFor w o) true o.trapezoid ms).gAP ≤
      (matchNumbers (groupFor w o) true o.trapezoid ms').gAP ∧
      (matchNumbers (groupFor w o) true o.trapezoid ms).mAP ≤
      (matchNumbers (groupFor w o) true o.trapezoid ms').mAP := by
    rcases hk with hk | ⟨hk, ho⟩
    · exact C110_matching a1 b1 n1 n2
        (hk.filter (fun q => decide (listedQueries w o = [] ∨ q ∈ listedQueries w o))) hw _ _
    · exact C111_matching_partial a1 b1 n1 n2
        (hk.filter (fun q => decide (listedQueries w o = [] ∨ q ∈ listedQueries w o)))
        (ho.filter (fun q => decide (listedQueries w o = [] ∨ q ∈ listedQueries w o))) hw _ _
  have a3 := abs_le.1 a2.gAP
  have a4 := abs_le.1 a2.mAP
  have b3 := abs_le.1 b2.gAP
  have b4 := abs_le.1 b2.mAP
  exact ⟨by linarith [key.1, a3.2, b3.1], by linarith [key.2, a4.2, b4.1]⟩

/-- C110: two runs of the box tool with the same references, queries and options: with descending order,
collapsing and interpolation (the defaults), hypotheses with more right and fewer wrong ones among them get
no lower average precisions. -/
theorem C110_box (S S' : StdSort) (rng rng' : Rng G) (w w' : World) (o : ToolOptions)
    (refs : List (Event Str (DocBox Str UInt32)))
    (hyps hyps' : List (ScoredEvent Str (DocBox Str UInt32)))
    (h2 : TwoRuns Rnd.exact w w' o refs hyps hyps')
    (hr : ∀ r ∈ refs, EdgesOkU r.location.toBBox) (hh : ∀ h ∈ hyps ++ hyps', InRangeU h.base)
    (hd : o.sort = "desc".toList) (hc : o.collapse = true) (hi : o.interp = true)
    (hk : KeepsRight refs hyps hyps') (hw : NoMoreWrong refs hyps hyps')
    (r r' : Report Str (DocBox Str UInt32))
    (h : mainWith Rnd.exact S rng (icdarKit Rnd.exact S) w o = .ok (.done r))
    (h' : mainWith Rnd.exact S' rng' (icdarKit Rnd.exact S') w' o = .ok (.done r')) :
    r.gAP.value ≤ r'.gAP.value ∧ r.mAP.value ≤ r'.mAP.value := by
  have := box_better Rnd.exact S S' rng rng' w w' o refs hyps hyps' h2 hr hh
    (fun e => absurd e exact_ne_ieee) hd hc hi r r' 0 0 (Or.inl ⟨rfl, rfl⟩) (Or.inl ⟨rfl, rfl⟩) h h'
    (Or.inl hk) hw
  simpa using this

/-- C110 in IEEE arithmetic: the average precisions get lower by rounding errors only. -/
theorem C110_box_rounded (S S' : StdSort) (rng rng' : Rng G) (w w' : World) (o : ToolOptions)
    (refs : List (Event Str (DocBox Str UInt32)))
    (hyps hyps' : List (ScoredEvent Str (DocBox Str UInt32)))
    (h2 : TwoRuns Rnd.ieee w w' o refs hyps hyps')
    (hr : ∀ r ∈ refs, EdgesOkU r.location.toBBox)
    (hh : ∀ h ∈ hyps ++ hyps', EdgesOkU h.base.location.toBBox ∧ areaU h.base ≤ 2 ^ 24)
    (hl : refs.length + hyps.length ≤ 2 ^ 24) (hl' : refs.length + hyps'.length ≤ 2 ^ 24)
    (hd : o.sort = "desc".toList) (hc : o.collapse = true) (hi : o.interp = true)
    (hk : KeepsRight refs hyps hyps') (hw : NoMoreWrong refs hyps hyps')
    (r r' : Report Str (DocBox Str UInt32))
    (h : mainWith Rnd.ieee S rng (icdarKit Rnd.ieee S) w o = .ok (.done r))
    (h' : mainWith Rnd.ieee S' rng' (icdarKit Rnd.ieee S') w' o = .ok (.done r')) :
    let ε : ℚ := (refs.length + hyps.length + 3) ^ 2 / 2 ^ 52 + (refs.length + hyps'.length + 3) ^ 2 / 2 ^ 52
    r.gAP.value ≤ r'.gAP.value + ε ∧ r.mAP.value ≤ r'.mAP.value + ε :=
  box_better Rnd.ieee S S' rng rng' w w' o refs hyps hyps' h2 hr
    (fun x hx => ⟨(hh x hx).1, by have := (hh x hx).2; omega⟩) (fun _ x hx => (hh x hx).2) hd hc hi r r' _ _
    (Or.inr ⟨rfl, hl, by push_cast; rfl⟩) (Or.inr ⟨rfl, hl', by push_cast; rfl⟩) h h' (Or.inl hk) hw

/-- C111: as C110, but the right hypotheses may also get higher scores, provided that no hypothesis fits two
references. Without this it is false, see `C111_box_refuted`. -/
theorem C111_box_partial (S S' : StdSort) (rng rng' : Rng G) (w w' : World) (o : ToolOptions)
    (refs : List (Event Str (DocBox Str UInt32)))
    (hyps hyps' : List (ScoredEvent Str (DocBox Str UInt32)))
    (h2 : TwoRuns Rnd.exact w w' o refs hyps hyps')
    (hr : ∀ r ∈ refs, EdgesOkU r.location.toBBox) (hh : ∀ h ∈ hyps ++ hyps', InRangeU h.base)
    (hd : o.sort = "desc".toList) (hc : o.collapse = true) (hi : o.interp = true)
    (hk : RaisesRight refs hyps hyps') (ho : FitsOne refs hyps') (hw : NoMoreWrong refs hyps hyps')
    (r r' : Report Str (DocBox Str UInt32))
    (h : mainWith Rnd.exact S rng (icdarKit Rnd.exact S) w o = .ok (.done r))
    (h' : mainWith Rnd.exact S' rng' (icdarKit Rnd.exact S') w' o = .ok (.done r')) :
    r.gAP.value ≤ r'.gAP.value ∧ r.mAP.value ≤ r'.mAP.value := by
  have := box_better Rnd.exact S S' rng rng' w w' o refs hyps hyps' h2 hr hh
    (fun e => absurd e exact_ne_ieee) hd hc hi r r' 0 0 (Or.inl ⟨rfl, rfl⟩) (Or.inl ⟨rfl, rfl⟩) h h'
    (Or.inr ⟨hk, ho⟩) hw
  simpa using this

/-- C111 in IEEE arithmetic. -/
theorem C111_box_rounded_partial (S S' : StdSort) (rng rng' : Rng G) (w w' : World) (o : ToolOptions)
    (refs : List (Event Str (DocBox Str UInt32)))
    (hyps hyps' : List (ScoredEvent Str (DocBox Str UInt32)))
    (h2 : TwoRuns Rnd.ieee w w' o refs hyps hyps')
    (hr : ∀ r ∈ refs, EdgesOkU r.location.toBBox)
    (hh : ∀ h ∈ hyps ++ hyps', EdgesOkU h.base.location.toBBox ∧ areaU h.base ≤ 2 ^ 24)
    (hl : refs.length + hyps.length ≤ 2 ^ 24) (hl' : refs.length + hyps'.length ≤ 2 ^ 24)
    (hd : o.sort = "desc".toList) (hc : o.collapse = true) (hi : o.interp = true)
    (hk : RaisesRight refs hyps hyps') (ho : FitsOne refs hyps') (hw : NoMoreWrong refs hyps hyps')
    (r r' : Report Str (DocBox Str UInt32))
    (h : mainWith Rnd.ieee S rng (icdarKit Rnd.ieee S) w o = .ok (.done r))
    (h' : mainWith Rnd.ieee S' rng' (icdarKit Rnd.ieee S') w' o = .ok (.done r')) :
    let ε : ℚ := (refs.length + hyps.length + 3) ^ 2 / 2 ^ 52 + (refs.length + hyps'.length + 3) ^ 2 / 2 ^ 52
    r.gAP.value ≤ r'.gAP.value + ε ∧ r.mAP.value ≤ r'.mAP.value + ε :=
  box_better Rnd.ieee S S' rng rng' w w' o refs hyps hyps' h2 hr
    (fun x hx => ⟨(hh x hx).1, by have := (hh x hx).2; omega⟩) (fun _ x hx => (hh x hx).2) hd hc hi r r' _ _
    (Or.inr ⟨rfl, hl, by push_cast; rfl⟩) (Or.inr ⟨rfl, hl', by push_cast; rfl⟩) h h'
    (Or.inr ⟨hk, ho⟩) hw

end

/-! ## A higher score that costs a hit -/

/-- The greater hypothesis takes its own reference and leaves the smaller one to the other hypothesis. -/
theorem unraised_matching :
    let e (w : UInt32) : Event Str (DocBox Str UInt32) := ⟨['q'], ⟨⟨0, 0, w, 1⟩, ['d']⟩⟩
    ExactBoxMatching [e 1, e 5] [⟨e 1, .fin 0⟩, ⟨e 5, .fin 1⟩]
      [⟨some (e 5), some ⟨e 5, .fin 1⟩, ⟨0, 0⟩⟩, ⟨some (e 1), some ⟨e 1, .fin 0⟩, ⟨0, 0⟩⟩]
      [⟨some (e 5), some ⟨e 1, .fin 0⟩, ⟨0, 0⟩⟩] := by
  intro e
  have hord : ∀ (b : Event Str (DocBox Str UInt32)), b = e 1 ∨ b = e 5 →
      [e 5, e 1].Pairwise (OverlapBefore (· < ·) BoxEventLt (commonU · b)) := by
    intro b hb
    simp only [List.pairwise_cons, List.mem_singleton, forall_eq, List.not_mem_nil, false_implies,
      implies_true, List.Pairwise.nil, and_true]
    rcases hb with rfl | rfl
    · refine Or.inr ⟨by decide +kernel, ?_⟩
      exact Or.inr ⟨rfl, Or.inr ⟨rfl, Or.inr ⟨rfl, Or.inr ⟨rfl, Or.inl (by decide)⟩⟩⟩⟩
    · exact Or.inl (by decide +kernel)
  have key : ∀ (b : Event Str (DocBox Str UInt32)),
      (∀ r ∈ [e 1, e 5], r.query = b.query ∧ 0 < commonU r b) →
      ∀ r, r ∈ [e 5, e 1] ↔ r ∈ [e 1, e 5] ∧ r.query = b.query ∧ 0 < commonU r b := by
    intro b h2 r
    constructor
    · intro h
      have : r ∈ [e 1, e 5] := by simpa [or_comm] using h
      exact ⟨this, h2 r this⟩
    · rintro ⟨h, _⟩
      simpa [or_comm] using h
  refine ⟨[⟨e 5, .fin 1⟩, ⟨e 1, .fin 0⟩], fun _ => [e 5, e 1],
    [⟨some (e 5), some ⟨e 5, .fin 1⟩, ⟨0, 0⟩⟩, ⟨some (e 1), some ⟨e 1, .fin 0⟩, ⟨0, 0⟩⟩], [],
    List.Perm.swap _ _ _, ?_, ?_, ?_, by simp, ?_, rfl⟩
  · simp only [List.pairwise_cons, List.mem_singleton, forall_eq, List.not_mem_nil, false_implies,
      implies_true, List.Pairwise.nil, and_true]
    exact Or.inl ((turnBefore_iff _ _ (by decide)).1 (by decide +kernel))
  · intro h hh
    simp only [List.mem_cons, List.not_mem_nil, or_false] at hh
    rcases hh with rfl | rfl
    · exact ⟨key _ (by decide +kernel), hord _ (Or.inr rfl)⟩
    · exact ⟨key _ (by decide +kernel), hord _ (Or.inl rfl)⟩
  · refine .cons _ _ _ [_] [] [_] _ (Or.inr (Or.inl ⟨[], e 5, [e 1], by decide +kernel,
      by decide +kernel, by simp [Taken], by simp, by decide +kernel⟩))
      ⟨[], [e 5, e 1], by decide +kernel, by simp, ?_, by simp⟩ ?_
    · intro r hr
      simp only [List.head?_cons, Option.some.injEq] at hr
      subst hr
      exact ⟨by decide +kernel, by simp [Taken]⟩
    refine .cons _ _ _ [_] [_] [] [] (Or.inr (Or.inl ⟨[e 5], e 1, [], by decide +kernel,
      by decide +kernel, by unfold Taken; decide +kernel, by unfold Taken; decide +kernel,
      by decide +kernel⟩))
      ⟨[e 5], [e 1], by decide +kernel, by unfold Taken; decide +kernel, ?_, by decide +kernel⟩
      (.nil _)
    intro r hr
    simp only [List.head?_cons, Option.some.injEq] at hr
    subst hr
    exact ⟨by decide +kernel, by unfold Taken; decide +kernel⟩
  · intro r
    simp only [Taken, List.mem_cons, List.not_mem_nil, or_false, exists_eq_or_imp, exists_eq_left,
      Option.some.injEq, false_iff]
    rintro ⟨rfl | rfl, h⟩
    · exact h (Or.inr rfl)
    · exact h (Or.inl rfl)

/-- C111 is false for the box tool: a run where raising the score of a right hypothesis (and nothing else)
takes both average precisions from 1 to 1/2. -/
theorem C111_box_refuted {G : Type} (S : StdSort) (rng : Rng G) : ∃ (w w' : World)
    (refs : List (Event Str (DocBox Str UInt32)))
    (hyps hyps' : List (ScoredEvent Str (DocBox Str UInt32))) (r r' : Report Str (DocBox Str UInt32)),
    TwoRuns Rnd.exact w w' dumpOptions refs hyps hyps' ∧
    (∀ r ∈ refs, InRangeU r) ∧ (∀ x ∈ hyps ++ hyps', InRangeU x.base) ∧
    RaisesRight refs hyps hyps' ∧ NoMoreWrong refs hyps hyps' ∧
    mainWith Rnd.exact S rng (icdarKit Rnd.exact S) w dumpOptions = .ok (.done r) ∧
    mainWith Rnd.exact S rng (icdarKit Rnd.exact S) w' dumpOptions = .ok (.done r') ∧
    r.gAP.value = 1 ∧ r.mAP.value = 1 ∧ r'.gAP.value = 1 / 2 ∧ r'.mAP.value = 1 / 2 := by
  have y1 : Yields BoxEventText (lines "q d 0 0 1 1\nq d 0 0 5 1\n".toList)
      [⟨['q'], ⟨⟨0, 0, 1, 1⟩, ['d']⟩⟩, ⟨['q'], ⟨⟨0, 0, 5, 1⟩, ['d']⟩⟩] :=
    (C48_accepts (Format.boxRefs (R := Rnd.exact)) _ _).1 (by decide +kernel)
  have y2 : Yields (ScoredText Rnd.exact BoxEventText) (lines "q d 0 0 1 1 0\nq d 0 0 5 1 1\n".toList)
      [⟨⟨['q'], ⟨⟨0, 0, 1, 1⟩, ['d']⟩⟩, .fin 0⟩, ⟨⟨['q'], ⟨⟨0, 0, 5, 1⟩, ['d']⟩⟩, .fin 1⟩] :=
    (C48_accepts (Format.boxHyps (R := Rnd.exact)) _ _).1 (by decide +kernel)
  have y3 : Yields (ScoredText Rnd.exact BoxEventText) (lines "q d 0 0 1 1 2\nq d 0 0 5 1 1\n".toList)
      [⟨⟨['q'], ⟨⟨0, 0, 1, 1⟩, ['d']⟩⟩, .fin 2⟩, ⟨⟨['q'], ⟨⟨0, 0, 5, 1⟩, ['d']⟩⟩, .fin 1⟩] :=
    (C48_accepts (Format.boxHyps (R := Rnd.exact)) _ _).1 (by decide +kernel)
  obtain ⟨r, hr⟩ := dump_run S rng _ _ _ _ y1 y2
  obtain ⟨r', hr'⟩ := dump_run S rng _ _ _ _ y1 y3
  have hr1 : ∀ r ∈ ([⟨['q'], ⟨⟨0, 0, 1, 1⟩, ['d']⟩⟩, ⟨['q'], ⟨⟨0, 0, 5, 1⟩, ['d']⟩⟩] :
      List (Event Str (DocBox Str UInt32))), InRangeU r := by
    intro r hr
    simp only [List.mem_cons, List.not_mem_nil, or_false] at hr
    rcases hr with rfl | rfl <;> exact ⟨⟨by decide, by decide⟩, by decide +kernel⟩
  have hh : ∀ s s' : Flt, ∀ x ∈ ([⟨⟨['q'], ⟨⟨0, 0, 1, 1⟩, ['d']⟩⟩, s⟩, ⟨⟨['q'], ⟨⟨0, 0, 5, 1⟩, ['d']⟩⟩, s'⟩] :
      List (ScoredEvent Str (DocBox Str UInt32))), InRangeU x.base := by
    intro s s' x hx
    refine hr1 _ ?_
    simp only [List.mem_cons, List.not_mem_nil, or_false] at hx ⊢
    rcases hx with rfl | rfl <;> simp
  obtain ⟨ms, rep, h1, _, h2, h3, _⟩ := C88_box S rng _ dumpOptions _ _ _ _ (dumpExample_file _ _)
    (if_pos rfl) y1 y2 (fun r hx => (hr1 r hx).1) (hh _ _) rfl rfl r hr
  obtain ⟨ms', rep', h1', _, h2', h3', _⟩ := C88_box S rng _ dumpOptions _ _ _ _ (dumpExample_file _ _)
    (if_pos rfl) y1 y3 (fun r hx => (hr1 r hx).1) (hh _ _) rfl rfl r' hr'
  have hl : ∀ a b, listedQueries (dumpExample a b) dumpOptions = [] := fun _ _ => rfl
  rw [hl] at h1 h1'
  obtain ⟨rfl, rfl⟩ := C88_determined _ _ _ _ _ _ _ _ (fun _ => Iff.rfl) (.refl _)
    (by simp [keep]) h1 unraised_matching
  obtain ⟨rfl, rfl⟩ := C88_determined _ _ _ _ _ _ _ _ (fun _ => Iff.rfl) (.refl _)
    (by simp [keep]) h1' nested_matching
  have adj := C111_adjust [⟨['q'], ⟨⟨0, 0, 1, 1⟩, ['d']⟩⟩, ⟨['q'], ⟨⟨0, 0, 5, 1⟩, ['d']⟩⟩]
    [⟨⟨['q'], ⟨⟨0, 0, 1, 1⟩, ['d']⟩⟩, .fin 0⟩, ⟨⟨['q'], ⟨⟨0, 0, 5, 1⟩, ['d']⟩⟩, .fin 1⟩]
    (fun h => if h.score = .fin 0 then .fin 2 else h.score) (by decide +kernel) (by decide +kernel)
    (by decide +kernel)
  refine ⟨_, _, _, _, _, r, r', ⟨⟨_, dumpExample_file _ _, dumpExample_file _ _, y1⟩, ⟨_, if_pos rfl, y2⟩,
    ⟨_, if_pos rfl, y3⟩, rfl, rfl⟩, hr1, ?_, adj.1, adj.2, hr, hr', h2.trans ?_, h3.trans ?_, h2'.trans ?_,
    h3'.trans ?_⟩
  · intro x hx
    rcases List.mem_append.1 hx with hx | hx
    · exact hh _ _ x hx
    · exact hh _ _ x hx
  all_goals
    unfold matchNumbers Numbers.of
    decide +kernel

/-- Runs to which C110 applies: one more right hypothesis, with the highest score, and one that is wrong. -/
example {G : Type} (S : StdSort) (rng : Rng G) : ∃ r r' : Report Str (DocBox Str UInt32),
    mainWith Rnd.exact S rng (icdarKit Rnd.exact S) (dumpExample "q d 0 0 1 1\nq d 0 0 5 1\n".toList
      "q d 0 0 5 1 1\nq e 0 0 5 1 2\n".toList) dumpOptions = .ok (.done r) ∧
    mainWith Rnd.exact S rng (icdarKit Rnd.exact S) (dumpExample "q d 0 0 1 1\nq d 0 0 5 1\n".toList
      "q d 0 0 1 1 3\nq d 0 0 5 1 1\nq e 0 0 5 1 2\n".toList) dumpOptions = .ok (.done r') ∧
    r.gAP.value ≤ r'.gAP.value ∧ r.mAP.value ≤ r'.mAP.value := by
  have y1 : Yields BoxEventText (lines "q d 0 0 1 1\nq d 0 0 5 1\n".toList)
      [⟨['q'], ⟨⟨0, 0, 1, 1⟩, ['d']⟩⟩, ⟨['q'], ⟨⟨0, 0, 5, 1⟩, ['d']⟩⟩] :=
    (C48_accepts (Format.boxRefs (R := Rnd.exact)) _ _).1 (by decide +kernel)
  have y2 : Yields (ScoredText Rnd.exact BoxEventText) (lines "q d 0 0 5 1 1\nq e 0 0 5 1 2\n".toList)
      [⟨⟨['q'], ⟨⟨0, 0, 5, 1⟩, ['d']⟩⟩, .fin 1⟩, ⟨⟨['q'], ⟨⟨0, 0, 5, 1⟩, ['e']⟩⟩, .fin 2⟩] :=
    (C48_accepts (Format.boxHyps (R := Rnd.exact)) _ _).1 (by decide +kernel)
  have y3 : Yields (ScoredText Rnd.exact BoxEventText)
      (lines "q d 0 0 1 1 3\nq d 0 0 5 1 1\nq e 0 0 5 1 2\n".toList)
      [⟨⟨['q'], ⟨⟨0, 0, 1, 1⟩, ['d']⟩⟩, .fin 3⟩, ⟨⟨['q'], ⟨⟨0, 0, 5, 1⟩, ['d']⟩⟩, .fin 1⟩,
        ⟨⟨['q'], ⟨⟨0, 0, 5, 1⟩, ['e']⟩⟩, .fin 2⟩] :=
    (C48_accepts (Format.boxHyps (R := Rnd.exact)) _ _).1 (by decide +kernel)
  obtain ⟨r, hr⟩ := dump_run S rng _ _ _ _ y1 y2
  obtain ⟨r', hr'⟩ := dump_run S rng _ _ _ _ y1 y3
  obtain ⟨k1, k2⟩ := C110_add [⟨['q'], ⟨⟨0, 0, 1, 1⟩, ['d']⟩⟩, ⟨['q'], ⟨⟨0, 0, 5, 1⟩, ['d']⟩⟩]
    [⟨⟨['q'], ⟨⟨0, 0, 5, 1⟩, ['d']⟩⟩, .fin 1⟩, ⟨⟨['q'], ⟨⟨0, 0, 5, 1⟩, ['e']⟩⟩, .fin 2⟩]
    ⟨⟨['q'], ⟨⟨0, 0, 1, 1⟩, ['d']⟩⟩, .fin 3⟩ (by decide +kernel)
  refine ⟨r, r', hr, hr', C110_box S S rng rng _ _ dumpOptions _ _ _
    ⟨⟨_, dumpExample_file _ _, dumpExample_file _ _, y1⟩, ⟨_, if_pos rfl, y2⟩, ⟨_, if_pos rfl, y3⟩, rfl, rfl⟩
    ?_ ?_ rfl rfl rfl k1 k2 r r' hr hr'⟩
  · intro r hr
    simp only [List.mem_cons, List.not_mem_nil, or_false] at hr
    rcases hr with rfl | rfl <;> exact ⟨by decide, by decide⟩
  · intro x hx
    simp only [List.mem_append, List.mem_cons, List.not_mem_nil, or_false] at hx
    rcases hx with (rfl | rfl) | rfl | rfl | rfl <;> exact ⟨⟨by decide, by decide⟩, by decide +kernel⟩

/-- Runs to which C111 applies: the right hypothesis overtakes the wrong one. -/
example {G : Type} (S : StdSort) (rng : Rng G) : ∃ r r' : Report Str (DocBox Str UInt32),
    mainWith Rnd.exact S rng (icdarKit Rnd.exact S) (dumpExample "q d 0 0 4 1\nq d 4 0 4 1\n".toList
      "q d 1 0 4 1 1\nq e 0 0 5 1 2\n".toList) dumpOptions = .ok (.done r) ∧
    mainWith Rnd.exact S rng (icdarKit Rnd.exact S) (dumpExample "q d 0 0 4 1\nq d 4 0 4 1\n".toList
      "q d 1 0 4 1 3\nq e 0 0 5 1 2\n".toList) dumpOptions = .ok (.done r') ∧
    r.gAP.value ≤ r'.gAP.value ∧ r.mAP.value ≤ r'.mAP.value := by
  have y1 : Yields BoxEventText (lines "q d 0 0 4 1\nq d 4 0 4 1\n".toList)
      [⟨['q'], ⟨⟨0, 0, 4, 1⟩, ['d']⟩⟩, ⟨['q'], ⟨⟨4, 0, 4, 1⟩, ['d']⟩⟩] :=
    (C48_accepts (Format.boxRefs (R := Rnd.exact)) _ _).1 (by decide +kernel)
  have y2 : Yields (ScoredText Rnd.exact BoxEventText) (lines "q d 1 0 4 1 1\nq e 0 0 5 1 2\n".toList)
      [⟨⟨['q'], ⟨⟨1, 0, 4, 1⟩, ['d']⟩⟩, .fin 1⟩, ⟨⟨['q'], ⟨⟨0, 0, 5, 1⟩, ['e']⟩⟩, .fin 2⟩] :=
    (C48_accepts (Format.boxHyps (R := Rnd.exact)) _ _).1 (by decide +kernel)
  have y3 : Yields (ScoredText Rnd.exact BoxEventText) (lines "q d 1 0 4 1 3\nq e 0 0 5 1 2\n".toList)
      [⟨⟨['q'], ⟨⟨1, 0, 4, 1⟩, ['d']⟩⟩, .fin 3⟩, ⟨⟨['q'], ⟨⟨0, 0, 5, 1⟩, ['e']⟩⟩, .fin 2⟩] :=
    (C48_accepts (Format.boxHyps (R := Rnd.exact)) _ _).1 (by decide +kernel)
  obtain ⟨r, hr⟩ := dump_run S rng _ _ _ _ y1 y2
  obtain ⟨r', hr'⟩ := dump_run S rng _ _ _ _ y1 y3
  obtain ⟨k1, k2⟩ := C111_adjust [⟨['q'], ⟨⟨0, 0, 4, 1⟩, ['d']⟩⟩, ⟨['q'], ⟨⟨4, 0, 4, 1⟩, ['d']⟩⟩]
    [⟨⟨['q'], ⟨⟨1, 0, 4, 1⟩, ['d']⟩⟩, .fin 1⟩, ⟨⟨['q'], ⟨⟨0, 0, 5, 1⟩, ['e']⟩⟩, .fin 2⟩]
    (fun h => if h.score = .fin 1 then .fin 3 else h.score) (by decide +kernel) (by decide +kernel)
    (by decide +kernel)
  refine ⟨r, r', hr, hr', C111_box_partial S S rng rng _ _ dumpOptions _ _ _
    ⟨⟨_, dumpExample_file _ _, dumpExample_file _ _, y1⟩, ⟨_, if_pos rfl, y2⟩, ⟨_, if_pos rfl, y3⟩, rfl, rfl⟩
    ?_ ?_ rfl rfl rfl k1 (by unfold FitsOne; decide +kernel) k2 r r' hr hr'⟩
  · intro r hr
    simp only [List.mem_cons, List.not_mem_nil, or_false] at hr
    rcases hr with rfl | rfl <;> exact ⟨by decide, by decide⟩
  · intro x hx
    simp only [List.mem_append, List.mem_cons, List.not_mem_nil, or_false] at hx
    rcases hx with (rfl | rfl) | rfl | rfl <;> exact ⟨⟨by decide, by decide⟩, by decide +kernel⟩

end Kws
