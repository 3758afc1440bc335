import Verif.Lemmas.Initial
import Verif.Props.CutOff
import Verif.Props.CurveFiles

/-! # C133: what comes first in a ranking is not changed by what comes later -/

namespace Kws
open Spec

section
variable {Q L : Type} [DecidableEq Q] [DecidableEq L]

/-- C133: the curves that the files define for the segmentation-based tool. If there are hypotheses and
references, more hypotheses of lower scores leave the global curve as it is up to the recall that had been
reached, unless precisions are interpolated; beyond this recall it had been 0. -/
theorem C133_curve (grp : Q → Q) (n : ℕ) (linear : Bool) (refs : List (Event Q L))
    (hyps hyps' extra : List (ScoredEvent Q L)) (hp : hyps'.Perm (hyps ++ extra))
    (hb : ScoredBelow extra hyps) (hn : ∀ y ∈ hyps', y.score ≠ .nan) (h0 : hyps ≠ []) (hr : refs ≠ []) :
    Continued (recallAtEnd refs hyps) (segCurves grp n false linear refs hyps).all
      (segCurves grp n false linear refs hyps').all := by
  have hpr := segTally_prolongs refs hyps hyps' extra hp hb hn
  have hN : (segTally refs hyps).refs ≠ 0 := by
    obtain ⟨r, hrr⟩ := List.exists_mem_of_ne_nil refs hr
    exact (Finset.card_pos.2 ⟨r, List.mem_toFinset.2 hrr⟩).ne'
  have := hpr.continued (by simpa using h0) (seg_lowest refs hyps fun s hs => hpr.num s (hpr.sub s hs)) hN n linear
  have e : refs.toFinset.filter (fun r => ∃ h ∈ hyps, h.base = r) =
      refs.toFinset ∩ (hyps.map (·.base)).toFinset := by
    ext r
    simp [Finset.mem_filter]
  unfold recallAtEnd
  rw [e]
  exact this

/-- C133: with or without interpolation, no point of the global curve is lower. -/
theorem C133_curve_notBelow (grp : Q → Q) (n : ℕ) (interp linear : Bool) (refs : List (Event Q L))
    (hyps hyps' extra : List (ScoredEvent Q L)) (hp : hyps'.Perm (hyps ++ extra))
    (hb : ScoredBelow extra hyps) (hn : ∀ y ∈ hyps', y.score ≠ .nan) (h0 : hyps ≠ []) :
    NotBelow (segCurves grp n interp linear refs hyps).all (segCurves grp n interp linear refs hyps').all :=
  (segTally_prolongs refs hyps hyps' extra hp hb hn).notBelow (by simpa using h0) n interp linear

end

section
variable {G : Type}

/-- The matching of a run of the box tool and the curves that belong to it. -/
theorem box_tie_curves (S : StdSort) (rng : Rng G) (w : World) (o : ToolOptions) (t u : Str)
    (refs : List (Event Str (DocBox Str UInt32))) (hyps : List (ScoredEvent Str (DocBox Str UInt32)))
    (ht : w.file o.refFilename = some t) (hu : hypText w o = some u)
    (hrefs : Yields BoxEventText (lines t) refs)
    (hhyps : Yields (ScoredText Rnd.exact BoxEventText) (lines u) hyps)
    (hr : ∀ r ∈ refs, EdgesOkU r.location.toBBox) (hh : ∀ h ∈ hyps, InRangeU h.base)
    (hd : o.sort = "desc".toList) (hc : o.collapse = true) (r : Report Str (DocBox Str UInt32))
    (h : mainWith Rnd.exact S rng (icdarKit Rnd.exact S) w o = .ok (.done r)) :
    ∃ ms rep,
      ExactBoxMatching (keep (·.query) (listedQueries w o) refs)
        (keep (·.base.query) (listedQueries w o) hyps) ms rep ∧
      HasCurves o r (matchCurves (groupFor w o) o.curveSamples o.interp o.trapezoid ms) := by
  have hr0 : o.refFilename ≠ [] := by
    intro hr
    unfold mainWith at h
    rw [if_pos hr] at h
    cases h
  have v1 := yields_valid hrefs
  have v2 := yields_valid hhyps
  rw [(icdar_plain Rnd.exact S).main_good S rng w o hr0 t u ht hu v1 v2,
    yields_events (Format.boxRefs (R := Rnd.exact)) hrefs, yields_events Format.boxHyps hhyps,
    (icdar_plain Rnd.exact S).mapQuery] at h
  cases hq : readQueryMap (fun (m : Unit) q => (m, (.ok q : Cpp Str))) w o () with
  | error x => rw [hq] at h; cases h
  | ok x =>
    rw [hq] at h
    cases x with
    | none => cases h
    | some q2g =>
      obtain ⟨q1, q2⟩ := readQueryMap_spec w o q2g hq
      have hfin := (icdar_plain Rnd.exact S).finite u v2
      rw [yields_events Format.boxHyps hhyps] at hfin
      obtain ⟨l, s', ms, rep, groups, e1, e2, e3, e4⟩ := evaluate_done _ _ _ _ _ _ _ _ _ _ h
      rw [hd] at e1
      obtain ⟨a1, a2, a3⟩ := evaluate_ranked Rnd.exact S (icdarKit Rnd.exact S) (icdar_safe Rnd.exact S) q2g
        refs hyps l s' ms rep hfin (Or.inl rfl) e1 e2
      have hm := run_hardMatch _ _ _ _ _ _ _ _ e2 (by
          intro a b e he hf
          obtain ⟨i, hi⟩ := inter_ok a b.base
          have := ioh_eq Rnd.exact (1 / 2) a b i hi
          rw [show (icdarKit Rnd.exact S).scorer a b = iohScorer Rnd.exact (1 / 2) a b from rfl, this] at he
          injection he with he
          subst he
          unfold verdict at hf ⊢
          split
          · rfl
          · rename_i hne; rw [if_neg hne] at hf; norm_num at hf)
      have k1 : usedRefs q2g refs = keep (·.query) (listedQueries w o) refs := by
        unfold usedRefs
        rw [filter_keep _ _ q1]
      have k2 : usedHyps q2g hyps = keep (·.base.query) (listedQueries w o) hyps := by
        unfold usedHyps
        rw [filter_keep _ _ q1]
      have hsub : ∀ x ∈ usedHyps q2g hyps, x ∈ hyps := fun x hx => usedHyps_mem q2g hyps x hx
      have hsubr : ∀ x ∈ usedRefs q2g refs, x ∈ refs := by
        intro x hx
        rw [k1] at hx
        exact keep_subset _ _ _ x hx
      have hg : groupOf q2g = groupFor w o := funext q2
      refine ⟨ms, rep, ?_, ?_⟩
      · obtain ⟨s1, ms1, rep1, f1, f2⟩ := box_exact Rnd.exact S DocEventSet.new (usedRefs q2g refs)
          (usedHyps q2g hyps) l e1 (fun x hx => hfin x (hsub x hx)) (fun x hx => hr x (hsubr x hx))
          (fun x hx => hh x (hsub x hx)) (Or.inl rfl)
        rw [show SimpleMatcher.run (icdarKit Rnd.exact S).index (icdarKit Rnd.exact S).scorer
          (icdarKit Rnd.exact S).refsSet (usedRefs q2g refs) l = _ from f1, Except.ok.injEq, Prod.mk.injEq,
          Prod.mk.injEq] at e2
        obtain ⟨_, rfl, rfl⟩ := e2
        rw [← k1, ← k2]
        exact f2
      · rw [← hg, ← exactCurves_tally _ o ms hc hm a1.noNaN a1.byRank]
        exact assess_curvesSpec S rng w o q2g ms groups _ r hm e3 e4

/-- The hypothesis whose turn is first is in a match. -/
theorem exactBoxMatching_scores {refs : List (Event Str (DocBox Str UInt32))}
    {hyps : List (ScoredEvent Str (DocBox Str UInt32))} {ms rep : List (KwsMatch Str (DocBox Str UInt32))}
    (h : ExactBoxMatching refs hyps ms rep) (h0 : hyps ≠ []) : scoresIn ms ≠ [] := by
  obtain ⟨l, ov, en, mi, a1, a2, a3, a4, a5, a6, rfl⟩ := h
  have hl : l ≠ [] := fun e => h0 (by subst e; exact a1.nil_eq.symm)
  have key : ∃ m ∈ en, m.hyp.isSome = true := by
    cases a4 with
    | nil => exact absurd rfl hl
    | cons _ _ _ _ _ _ _ d _ _ =>
      rcases d with ⟨_, rfl⟩ | ⟨_, r, _, _, _, _, _, rfl⟩ | ⟨⟨r, hr, hs⟩, ht, _⟩
      · exact ⟨_, List.mem_append_left _ (List.mem_singleton.2 rfl), rfl⟩
      · exact ⟨_, List.mem_append_left _ (List.mem_singleton.2 rfl), rfl⟩
      · obtain ⟨m, hm, _⟩ := ht r hr hs
        cases hm
  obtain ⟨m, hm, e⟩ := key
  obtain ⟨y, hy⟩ := Option.isSome_iff_exists.1 e
  exact List.ne_nil_of_mem (List.mem_filterMap.2 ⟨m, List.mem_append_left _ hm, by rw [hy]; rfl⟩)

theorem keep_append_perm {α : Type} (f : α → Str) (qs : List Str) {a b c : List α} (h : a.Perm (b ++ c)) :
    (keep f qs a).Perm (keep f qs b ++ keep f qs c) := by
  rw [keep_filter, keep_filter, keep_filter, ← List.filter_append]
  exact h.filter _

/-- C133: two runs of the segmentation-based tool that write the global curve. The second has more hypotheses,
`extra`, with lower scores than the others. Some hypothesis and some reference are kept. -/
theorem C133_segmentation (S S' : StdSort) (rng rng' : Rng G) (qf : Bool) (w w' : World)
    (o : ToolOptions)
    (hV : (vocabulary w o).dedup.length ≤ 2 ^ 31) (hV' : (vocabulary w' o).dedup.length ≤ 2 ^ 31)
    (t u u' : Str) (refs : List (Event Str Str)) (hyps hyps' extra : List (ScoredEvent Str Str))
    (ht : w.file o.refFilename = some t) (ht' : w'.file o.refFilename = some t)
    (hu : hypText w o = some u) (hu' : hypText w' o = some u')
    (hrefs : Yields StrEventText (lines t) refs)
    (hhyps : Yields (ScoredText Rnd.exact StrEventText) (lines u) hyps)
    (hhyps' : Yields (ScoredText Rnd.exact StrEventText) (lines u') hyps')
    (hq : listedQueries w' o = listedQueries w o)
    (hd : o.sort = "desc".toList) (hc : o.collapse = true) (hf : o.outputGrp ≠ [])
    (hp : hyps'.Perm (hyps ++ extra)) (hb : ScoredBelow extra hyps)
    (h0 : keep (·.base.query) (listedQueries w o) hyps ≠ [])
    (hr : keep (·.query) (listedQueries w o) refs ≠ [])
    (r r' : Report Nat Nat)
    (h : mainWith Rnd.exact S rng (simpleKit Rnd.exact qf) w o = .ok (.done r))
    (h' : mainWith Rnd.exact S' rng' (simpleKit Rnd.exact qf) w' o = .ok (.done r')) :
    ∃ c c', r.globalCurve = some c ∧ r'.globalCurve = some c' ∧ NotBelow c c' ∧
      (o.interp = false → Continued (recallAtEnd (keep (·.query) (listedQueries w o) refs)
        (keep (·.base.query) (listedQueries w o) hyps)) c c') := by
  have a := (C78_segmentation S rng qf w o hV t u refs hyps ht hu hrefs hhyps hd hc r h).all
  have b := (C78_segmentation S' rng' qf w' o hV' t u' refs hyps' ht' hu' hrefs hhyps' hd hc r' h').all
  rw [if_neg hf] at a b
  rw [hq] at b
  have p := keep_append_perm (fun x : ScoredEvent Str Str => x.base.query) (listedQueries w o) hp
  have q : ScoredBelow (keep (·.base.query) (listedQueries w o) extra)
      (keep (·.base.query) (listedQueries w o) hyps) := fun x hx y hy =>
    hb x (keep_subset _ _ _ x hx) y (keep_subset _ _ _ y hy)
  have n : ∀ y ∈ keep (·.base.query) (listedQueries w o) hyps', y.score ≠ .nan := fun y hy =>
    yields_finite _ u' hyps' hhyps' y (keep_subset _ _ _ y hy)
  refine ⟨_, _, a, b, C133_curve_notBelow (groupFor w o) _ o.interp _ _ _ _ _ p q n h0, fun hi => ?_⟩
  rw [hi]
  exact C133_curve (groupFor w o) _ _ _ _ _ _ p q n h0 hr

/-- C133: two runs of the box-based tool that write the global curve. The recall that is reached is the number
of hits divided by the number of references. -/
theorem C133_box (S S' : StdSort) (rng rng' : Rng G) (w w' : World) (o : ToolOptions)
    (refs : List (Event Str (DocBox Str UInt32)))
    (hyps hyps' extra : List (ScoredEvent Str (DocBox Str UInt32)))
    (h2 : TwoRuns Rnd.exact w w' o refs hyps hyps')
    (hr : ∀ r ∈ refs, EdgesOkU r.location.toBBox) (hh : ∀ h ∈ hyps', InRangeU h.base)
    (hd : o.sort = "desc".toList) (hc : o.collapse = true) (hf : o.outputGrp ≠ [])
    (hp : hyps'.Perm (hyps ++ extra)) (hb : ScoredBelow extra hyps)
    (h1 : keep (·.base.query) (listedQueries w o) hyps ≠ [])
    (h0 : keep (·.query) (listedQueries w o) refs ≠ [])
    (r r' : Report Str (DocBox Str UInt32))
    (h : mainWith Rnd.exact S rng (icdarKit Rnd.exact S) w o = .ok (.done r))
    (h' : mainWith Rnd.exact S' rng' (icdarKit Rnd.exact S') w' o = .ok (.done r')) :
    let kr := keep (Event.query (L := DocBox Str UInt32)) (listedQueries w o) refs
    let kh := keep (fun x : ScoredEvent Str (DocBox Str UInt32) => x.base.query) (listedQueries w o)
    ∃ c c' ms rep, r.globalCurve = some c ∧ r'.globalCurve = some c' ∧ ExactBoxMatching kr (kh hyps) ms rep ∧
      NotBelow c c' ∧ (o.interp = false → Continued ((hitCount ms : ℚ) / kr.toFinset.card) c c') := by
  intro kr kh
  obtain ⟨⟨t, t1, t2, t3⟩, ⟨u, u1, u2⟩, ⟨u', v1, v2⟩, _, hq⟩ := h2
  have sub : ∀ y ∈ hyps, y ∈ hyps' := fun y hy => hp.mem_iff.2 (by simp [hy])
  obtain ⟨ms, rep, a1, a2⟩ := box_tie_curves S rng w o t u refs hyps t1 u1 t3 u2 hr
    (fun y hy => hh y (sub y hy)) hd hc r h
  obtain ⟨ms', rep', b1, b2⟩ := box_tie_curves S' rng' w' o t u' refs hyps' t2 v1 t3 v2 hr hh hd hc r' h'
  rw [hq] at b1
  have a3 := a2.all
  have b3 := b2.all
  rw [if_neg hf] at a3 b3
  obtain ⟨c1, c2⟩ := box_prolongs
    (keep_append_perm (fun x : ScoredEvent Str (DocBox Str UInt32) => x.base.query) (listedQueries w o) hp)
    (fun x hx y hy => hb x (keep_subset _ _ _ x hx) y (keep_subset _ _ _ y hy))
    (fun y hy => scores_finite S v2 y (keep_subset _ _ _ y hy)) a1 b1
  have hne := exactBoxMatching_scores a1 h1
  refine ⟨_, _, ms, rep, a3, b3, a1, c2.notBelow hne _ o.interp _, fun hi => ?_⟩
  have hN : (tallyOf ms).refs ≠ 0 := by
    rw [c1]
    obtain ⟨r, hrr⟩ := List.exists_mem_of_ne_nil _ h0
    exact (Finset.card_pos.2 ⟨r, List.mem_toFinset.2 hrr⟩).ne'
  have := c2.continued hne (match_lowest ms fun s hs => c2.num s (c2.sub s hs)) hN o.curveSamples o.trapezoid
  rw [c1] at this
  rw [hi]
  exact this

/-- C133: two runs of the box-based tool that write the matches, in exact or IEEE arithmetic. Both files begin
with the same matches. -/
theorem C133_box_matches (R : Rnd) (S S' : StdSort) (rng rng' : Rng G) (w w' : World) (o : ToolOptions)
    (refs : List (Event Str (DocBox Str UInt32)))
    (hyps hyps' extra : List (ScoredEvent Str (DocBox Str UInt32)))
    (h2 : TwoRuns R w w' o refs hyps hyps')
    (hr : ∀ r ∈ refs, EdgesOkU r.location.toBBox) (hh : ∀ h ∈ hyps', InRangeU h.base)
    (h24 : R = Rnd.ieee → ∀ h ∈ hyps', areaU h.base ≤ 2 ^ 24)
    (hd : o.sort = "desc".toList) (hc : o.collapse = true) (hf : o.dumpMatches ≠ [])
    (hp : hyps'.Perm (hyps ++ extra)) (hb : ScoredBelow extra hyps)
    (r r' : Report Str (DocBox Str UInt32)) (ε ε' : ℚ)
    (hT : Tolerance R (refs.length + hyps.length) ε) (hT' : Tolerance R (refs.length + hyps'.length) ε')
    (h : mainWith R S rng (icdarKit R S) w o = .ok (.done r))
    (h' : mainWith R S' rng' (icdarKit R S') w' o = .ok (.done r')) :
    ∃ ms rep ms' rep', r.dump = some (ms, rep) ∧ r'.dump = some (ms', rep') ∧
      SameStart hyps extra ms rep ms' rep' := by
  obtain ⟨⟨t, t1, t2, t3⟩, ⟨u, u1, u2⟩, ⟨u', v1, v2⟩, _, hq⟩ := h2
  have sub : ∀ y ∈ hyps, y ∈ hyps' := fun y hy => hp.mem_iff.2 (by simp [hy])
  obtain ⟨ms, rep, a1, a2, _⟩ := box_ties R S rng w o t u refs hyps t1 u1 t3 u2 hr
    (fun y hy => hh y (sub y hy)) (fun e y hy => h24 e y (sub y hy)) hd hc r ε hT h
  obtain ⟨ms', rep', b1, b2, _⟩ := box_ties R S' rng' w' o t u' refs hyps' t2 v1 t3 v2 hr
    hh h24 hd hc r' ε' hT' h'
  rw [hq] at b1
  rw [if_neg hf] at a2 b2
  obtain ⟨a, b, m, m', x, e1, e2, e3, e4, e5, e6⟩ := exact_tail
    (keep_append_perm (fun x : ScoredEvent Str (DocBox Str UInt32) => x.base.query) (listedQueries w o) hp)
    (fun x hx y hy => hb x (keep_subset _ _ _ x hx) y (keep_subset _ _ _ y hy))
    (fun y hy => scores_finite S v2 y (keep_subset _ _ _ y hy)) a1 b1
  refine ⟨ms, rep, ms', rep', a2, b2, a, b, m, m', x, e1, e2, e3, fun z hz => ?_, fun z hz => ?_, e6⟩
  · obtain ⟨y, hy, e⟩ := e4 z hz
    exact ⟨y, keep_subset _ _ _ y hy, e⟩
  · obtain ⟨y, hy, e⟩ := e5 z hz
    exact ⟨y, keep_subset _ _ _ y hy, e⟩

end

/-! ## The conditions are needed -/

/-- C133: with interpolation, a right hypothesis at the end raises the precision of those before. -/
theorem C133_interpolation (linear : Bool) :
    (segCurves id 2 true linear [⟨0, 0⟩, ⟨0, 1⟩] [⟨⟨0, 2⟩, .fin 3⟩, ⟨⟨(0 : ℕ), (0 : ℕ)⟩, .fin 2⟩]).all =
      [(0, 1 / 2), (1, 0)] ∧
    (segCurves id 2 true linear [⟨0, 0⟩, ⟨0, 1⟩]
      [⟨⟨0, 2⟩, .fin 3⟩, ⟨⟨(0 : ℕ), (0 : ℕ)⟩, .fin 2⟩, ⟨⟨0, 1⟩, .fin 1⟩]).all = [(0, 2 / 3), (1, 2 / 3)] := by
  revert linear
  decide +kernel

/-- C133: there must be a hypothesis. The curve of an empty submission begins with precision 1. -/
theorem C133_empty (interp linear : Bool) :
    (segCurves id 2 interp linear [⟨(0 : ℕ), (0 : ℕ)⟩] []).all = [(0, 1), (1, 0)] ∧
    (segCurves id 2 interp linear [⟨(0 : ℕ), (0 : ℕ)⟩] [⟨⟨0, 1⟩, .fin 1⟩]).all = [(0, 0), (1, 0)] := by
  revert interp linear
  decide +kernel

/-! ## Examples -/

/-- Curves to which C133 applies: up to recall 1/2 they agree. -/
example (linear : Bool) :
    Continued (1 / 2) (segCurves id 3 false linear [⟨0, 0⟩, ⟨0, 1⟩] [⟨⟨(0 : ℕ), (0 : ℕ)⟩, .fin 2⟩]).all
      (segCurves id 3 false linear [⟨0, 0⟩, ⟨0, 1⟩] [⟨⟨0, 0⟩, .fin 2⟩, ⟨⟨0, 2⟩, .fin 1⟩, ⟨⟨0, 1⟩, .fin 1⟩]).all := by
  have := C133_curve id 3 linear [⟨0, 0⟩, ⟨0, 1⟩] [⟨⟨(0 : ℕ), (0 : ℕ)⟩, .fin 2⟩] _
    [⟨⟨0, 2⟩, .fin 1⟩, ⟨⟨0, 1⟩, .fin 1⟩] (.refl _) (by unfold ScoredBelow; decide +kernel) (by decide +kernel)
    (by simp) (by simp)
  have e : recallAtEnd [⟨0, 0⟩, ⟨0, 1⟩] [⟨⟨(0 : ℕ), (0 : ℕ)⟩, .fin 2⟩] = 1 / 2 := by decide +kernel
  rw [e] at this
  exact this

/-- Runs of the box-based tool to which C133 applies: the second hypothesis finds the reference that the first
one leaves. -/
example {G : Type} (S : StdSort) (rng : Rng G) : ∃ r r' : Report Str (DocBox Str UInt32),
    mainWith Rnd.exact S rng (icdarKit Rnd.exact S) (dumpExample "q d 0 0 1 1\nq d 0 0 5 1\n".toList
      "q d 0 0 5 1 2\n".toList) dumpOptions = .ok (.done r) ∧
    mainWith Rnd.exact S rng (icdarKit Rnd.exact S) (dumpExample "q d 0 0 1 1\nq d 0 0 5 1\n".toList
      "q d 0 0 5 1 2\nq d 0 0 1 1 1\n".toList) dumpOptions = .ok (.done r') ∧
    ∃ ms rep ms' rep', r.dump = some (ms, rep) ∧ r'.dump = some (ms', rep') ∧
      SameStart [⟨⟨['q'], ⟨⟨0, 0, 5, 1⟩, ['d']⟩⟩, .fin 2⟩] [⟨⟨['q'], ⟨⟨0, 0, 1, 1⟩, ['d']⟩⟩, .fin 1⟩]
        ms rep ms' rep' := by
  have y1 : Yields BoxEventText (lines "q d 0 0 1 1\nq d 0 0 5 1\n".toList)
      [⟨['q'], ⟨⟨0, 0, 1, 1⟩, ['d']⟩⟩, ⟨['q'], ⟨⟨0, 0, 5, 1⟩, ['d']⟩⟩] :=
    (C48_accepts (Format.boxRefs (R := Rnd.exact)) _ _).1 (by decide +kernel)
  have y2 : Yields (ScoredText Rnd.exact BoxEventText) (lines "q d 0 0 5 1 2\n".toList)
      [⟨⟨['q'], ⟨⟨0, 0, 5, 1⟩, ['d']⟩⟩, .fin 2⟩] :=
    (C48_accepts (Format.boxHyps (R := Rnd.exact)) _ _).1 (by decide +kernel)
  have y3 : Yields (ScoredText Rnd.exact BoxEventText) (lines "q d 0 0 5 1 2\nq d 0 0 1 1 1\n".toList)
      [⟨⟨['q'], ⟨⟨0, 0, 5, 1⟩, ['d']⟩⟩, .fin 2⟩, ⟨⟨['q'], ⟨⟨0, 0, 1, 1⟩, ['d']⟩⟩, .fin 1⟩] :=
    (C48_accepts (Format.boxHyps (R := Rnd.exact)) _ _).1 (by decide +kernel)
  obtain ⟨r, hr⟩ := dump_run S rng _ _ _ _ y1 y2
  obtain ⟨r', hr'⟩ := dump_run S rng _ _ _ _ y1 y3
  have h1 : ∀ r ∈ ([⟨['q'], ⟨⟨0, 0, 1, 1⟩, ['d']⟩⟩, ⟨['q'], ⟨⟨0, 0, 5, 1⟩, ['d']⟩⟩] :
      List (Event Str (DocBox Str UInt32))), EdgesOkU r.location.toBBox := by
    intro r hr
    simp only [List.mem_cons, List.not_mem_nil, or_false] at hr
    rcases hr with rfl | rfl <;> exact ⟨by decide, by decide⟩
  have h2 : ∀ x ∈ ([⟨⟨['q'], ⟨⟨0, 0, 5, 1⟩, ['d']⟩⟩, .fin 2⟩, ⟨⟨['q'], ⟨⟨0, 0, 1, 1⟩, ['d']⟩⟩, .fin 1⟩] :
      List (ScoredEvent Str (DocBox Str UInt32))), InRangeU x.base := by
    intro x hx
    simp only [List.mem_cons, List.not_mem_nil, or_false] at hx
    rcases hx with rfl | rfl <;> exact ⟨⟨by decide, by decide⟩, by decide +kernel⟩
  have key := C133_box_matches Rnd.exact S S rng rng _ _ dumpOptions _ _ _
    [⟨⟨['q'], ⟨⟨0, 0, 1, 1⟩, ['d']⟩⟩, .fin 1⟩]
    ⟨⟨_, dumpExample_file _ _, dumpExample_file _ _, y1⟩, ⟨_, if_pos rfl, y2⟩, ⟨_, if_pos rfl, y3⟩, rfl, rfl⟩
    h1 h2 (fun e => absurd e exact_ne_ieee) rfl rfl (by decide) (.refl _) (by unfold ScoredBelow; decide +kernel)
    r r' 0 0 (Or.inl ⟨rfl, rfl⟩) (Or.inl ⟨rfl, rfl⟩) hr hr'
  exact ⟨r, r', hr, hr', key⟩

/-- Options for a curve of three points without interpolation. -/
def plainCurveOptions : ToolOptions where
  refFilename := "ref".toList
  outputGrp := "grp".toList
  curveSamples := 3
  interp := false
  alpha := 1 / 20

theorem plainCurve_run {G : Type} (S : StdSort) (rng : Rng G) (t u : Str)
    (refs : List (Event Str (DocBox Str UInt32))) (hyps : List (ScoredEvent Str (DocBox Str UInt32)))
    (y1 : Yields BoxEventText (lines t) refs)
    (y2 : Yields (ScoredText Rnd.exact BoxEventText) (lines u) hyps) (hl : (lines t).length + (lines u).length ≤ 2 ^ 24) :
    ∃ r, mainWith Rnd.exact S rng (icdarKit Rnd.exact S) (dumpExample t u) plainCurveOptions = .ok (.done r) := by
  obtain ⟨r, hr, _⟩ := (C62_box_partial Rnd.exact S rng (dumpExample t u) plainCurveOptions
    (fun t' u' h1 h2 => by
      obtain rfl := Option.some.inj ((dumpExample_file _ _).symm.trans h1)
      obtain rfl := Option.some.inj h2
      exact ⟨fun h => by simp [plainCurveOptions] at h, fun _ => rfl, fun h => absurd rfl h,
        fun _ => ⟨exact_precise, hl⟩⟩)).1
    ⟨⟨by decide, ⟨_, dumpExample_file _ _, yields_valid y1⟩, ⟨_, if_pos rfl, yields_valid y2⟩,
      fun h => absurd rfl h, fun h => absurd rfl h⟩, Or.inl rfl⟩
  exact ⟨r, hr⟩

/-- Runs of the box-based tool that write curves to which C133 applies. -/
example {G : Type} (S : StdSort) (rng : Rng G) : ∃ r r' : Report Str (DocBox Str UInt32),
    mainWith Rnd.exact S rng (icdarKit Rnd.exact S) (dumpExample "q d 0 0 1 1\nq d 0 0 5 1\n".toList
      "q d 0 0 5 1 2\n".toList) plainCurveOptions = .ok (.done r) ∧
    mainWith Rnd.exact S rng (icdarKit Rnd.exact S) (dumpExample "q d 0 0 1 1\nq d 0 0 5 1\n".toList
      "q d 0 0 5 1 2\nq d 0 0 1 1 1\n".toList) plainCurveOptions = .ok (.done r') ∧
    ∃ c c' ms rep, r.globalCurve = some c ∧ r'.globalCurve = some c' ∧
      ExactBoxMatching [⟨['q'], ⟨⟨0, 0, 1, 1⟩, ['d']⟩⟩, ⟨['q'], ⟨⟨0, 0, 5, 1⟩, ['d']⟩⟩]
        [⟨⟨['q'], ⟨⟨0, 0, 5, 1⟩, ['d']⟩⟩, .fin 2⟩] ms rep ∧
      NotBelow c c' ∧ Continued ((hitCount ms : ℚ) / 2) c c' := by
  have y1 : Yields BoxEventText (lines "q d 0 0 1 1\nq d 0 0 5 1\n".toList)
      [⟨['q'], ⟨⟨0, 0, 1, 1⟩, ['d']⟩⟩, ⟨['q'], ⟨⟨0, 0, 5, 1⟩, ['d']⟩⟩] :=
    (C48_accepts (Format.boxRefs (R := Rnd.exact)) _ _).1 (by decide +kernel)
  have y2 : Yields (ScoredText Rnd.exact BoxEventText) (lines "q d 0 0 5 1 2\n".toList)
      [⟨⟨['q'], ⟨⟨0, 0, 5, 1⟩, ['d']⟩⟩, .fin 2⟩] :=
    (C48_accepts (Format.boxHyps (R := Rnd.exact)) _ _).1 (by decide +kernel)
  have y3 : Yields (ScoredText Rnd.exact BoxEventText) (lines "q d 0 0 5 1 2\nq d 0 0 1 1 1\n".toList)
      [⟨⟨['q'], ⟨⟨0, 0, 5, 1⟩, ['d']⟩⟩, .fin 2⟩, ⟨⟨['q'], ⟨⟨0, 0, 1, 1⟩, ['d']⟩⟩, .fin 1⟩] :=
    (C48_accepts (Format.boxHyps (R := Rnd.exact)) _ _).1 (by decide +kernel)
  obtain ⟨r, hr⟩ := plainCurve_run S rng _ _ _ _ y1 y2 (by decide +kernel)
  obtain ⟨r', hr'⟩ := plainCurve_run S rng _ _ _ _ y1 y3 (by decide +kernel)
  have h1 : ∀ r ∈ ([⟨['q'], ⟨⟨0, 0, 1, 1⟩, ['d']⟩⟩, ⟨['q'], ⟨⟨0, 0, 5, 1⟩, ['d']⟩⟩] :
      List (Event Str (DocBox Str UInt32))), EdgesOkU r.location.toBBox := by
    intro r hr
    simp only [List.mem_cons, List.not_mem_nil, or_false] at hr
    rcases hr with rfl | rfl <;> exact ⟨by decide, by decide⟩
  have h2 : ∀ x ∈ ([⟨⟨['q'], ⟨⟨0, 0, 5, 1⟩, ['d']⟩⟩, .fin 2⟩, ⟨⟨['q'], ⟨⟨0, 0, 1, 1⟩, ['d']⟩⟩, .fin 1⟩] :
      List (ScoredEvent Str (DocBox Str UInt32))), InRangeU x.base := by
    intro x hx
    simp only [List.mem_cons, List.not_mem_nil, or_false] at hx
    rcases hx with rfl | rfl <;> exact ⟨⟨by decide, by decide⟩, by decide +kernel⟩
  have hq : ∀ t u, listedQueries (dumpExample t u) plainCurveOptions = [] := fun _ _ => rfl
  have hne : keep (Event.query (L := DocBox Str UInt32)) (listedQueries (dumpExample
      "q d 0 0 1 1\nq d 0 0 5 1\n".toList "q d 0 0 5 1 2\n".toList) plainCurveOptions)
      [⟨['q'], ⟨⟨0, 0, 1, 1⟩, ['d']⟩⟩, ⟨['q'], ⟨⟨0, 0, 5, 1⟩, ['d']⟩⟩] ≠ [] := by
    rw [hq]
    decide +kernel
  have key := C133_box S S rng rng _ _ plainCurveOptions _ _ _
    [⟨⟨['q'], ⟨⟨0, 0, 1, 1⟩, ['d']⟩⟩, .fin 1⟩]
    ⟨⟨_, dumpExample_file _ _, dumpExample_file _ _, y1⟩, ⟨_, if_pos rfl, y2⟩, ⟨_, if_pos rfl, y3⟩, rfl, rfl⟩
    h1 h2 rfl rfl (by decide) (.refl _) (by unfold ScoredBelow; decide +kernel)
    (by rw [hq]; decide +kernel) hne r r' hr hr'
  rw [hq] at key
  have hk : (keep (Event.query (L := DocBox Str UInt32)) [] [⟨['q'], ⟨⟨0, 0, 1, 1⟩, ['d']⟩⟩,
      ⟨['q'], ⟨⟨0, 0, 5, 1⟩, ['d']⟩⟩]).toFinset.card = 2 := by decide +kernel
  dsimp only at key
  rw [hk] at key
  obtain ⟨c, c', ms, rep, e1, e2, e3, e4, e5⟩ := key
  exact ⟨r, r', hr, hr', c, c', ms, rep, e1, e2, e3, e4, e5 rfl⟩

end Kws
