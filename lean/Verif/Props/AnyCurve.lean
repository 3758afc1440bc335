import Verif.Props.AnyOrder
import Verif.Props.CurveFiles

/-!
# C105: the curves for every sorting, with or without collapsing

`Spec/Cuts.lean` defines the curves of a list of matches in any order from the counts of hits and false
positives among its first matches.
-/

namespace Kws
open Spec

/-! ## Shape -/

section
variable {Q L : Type}

theorem cuts_points_rising (collapse : Bool) (ms : List (KwsMatch Q L)) :
    ((cuts collapse ms).map (cutPoint (references ms))).Pairwise (fun p q => p.2 ≤ q.2) := by
  unfold cuts
  rw [List.map_map, List.pairwise_map]
  refine (List.pairwise_lt_range.sublist List.filter_sublist).imp fun {a b} hab => ?_
  simp only [Function.comp, cutPoint]
  split
  · exact le_rfl
  · have : (ms.take (a + 1)).countP IsHit ≤ (ms.take (b + 1)).countP IsHit :=
      (List.take_sublist_take_left (by omega)).countP_le
    have : (((ms.take (a + 1)).countP IsHit : ℕ) : ℚ) ≤ ((ms.take (b + 1)).countP IsHit : ℕ) := by
      exact_mod_cast this
    gcongr

theorem cutPoint_unit (refs : ℕ) (c : ℕ × ℕ) : 0 ≤ (cutPoint refs c).1 ∧ (cutPoint refs c).1 ≤ 1 := by
  unfold cutPoint
  simp only
  split
  · exact ⟨zero_le_one, le_rfl⟩
  · refine ⟨by positivity, div_le_one_of_le₀ ?_ (by positivity)⟩
    have : (0 : ℚ) ≤ c.2 := by positivity
    linarith

theorem listCurve_unit (collapse interp : Bool) (ms : List (KwsMatch Q L)) :
    ∀ p ∈ listCurve collapse interp ms, 0 ≤ p.2 ∧ p.2 ≤ 1 := by
  intro p hp
  unfold listCurve at hp
  obtain ⟨q, hq, rfl⟩ := List.mem_map.1 hp
  show 0 ≤ q.1 ∧ q.1 ≤ 1
  split at hq
  · obtain ⟨q', hq', e⟩ := topped_mem hq
    obtain ⟨c, _, rfl⟩ := List.mem_map.1 hq'
    rw [← e]
    exact cutPoint_unit _ _
  · obtain ⟨c, _, rfl⟩ := List.mem_map.1 hq
    exact cutPoint_unit _ _

theorem listCurves_unit [DecidableEq Q] (grp : Q → Q) (n : ℕ) (collapse interp linear : Bool)
    (ms : List (KwsMatch Q L)) : InUnit (listCurves grp n collapse interp linear ms) := by
  have key : ∀ (l : List (KwsMatch Q L)) x,
      0 ≤ valueAt linear x none (listCurve collapse interp l) ∧
      valueAt linear x none (listCurve collapse interp l) ≤ 1 := fun l x =>
    valueAt_unit linear x _ none (by simpa using listCurve_unit collapse interp l) (by simp)
  unfold listCurves
  constructor
  · dsimp only
    intro p hp
    rw [sampled_mem hp]
    exact key _ _
  · dsimp only
    intro p hp
    rw [sampled_mem hp]
    split
    · exact Or.inl rfl
    · refine Or.inr ⟨_, rfl, average_unit _ fun y hy => ?_⟩
      obtain ⟨g, _, rfl⟩ := List.mem_map.1 hy
      exact key _ _

theorem listCurves_decreasing [DecidableEq Q] (grp : Q → Q) (n : ℕ) (collapse linear : Bool)
    (ms : List (KwsMatch Q L)) : Decreasing (listCurves grp n collapse true linear ms) := by
  have key : ∀ (l : List (KwsMatch Q L)) {x x' : ℚ}, x ≤ x' →
      valueAt linear x' none (listCurve collapse true l) ≤
        valueAt linear x none (listCurve collapse true l) := fun l x x' hx =>
    valueAt_antitone linear x x' hx _ none (topped_falling (cuts_points_rising collapse l))
      (fun p hp => (listCurve_unit collapse true l p hp).1) (by simp)
  constructor
  · exact sampled_pairwise n _ (fun a b => b ≤ a) fun x x' hx => key ms hx
  · unfold listCurves
    dsimp only
    refine sampled_pairwise n _ (fun a b => Flt.lt a b = false) fun x x' hx => ?_
    split
    · rfl
    · simp only [Flt.lt, decide_eq_false_iff_not, not_lt]
      exact average_le _ _ _ fun g _ => key _ hx

/-- C105: with interpolation but without trapezoids, the value of the curve at recall `x` is the best
precision of a point of the list with at least this recall, or 0 if there is none. -/
theorem C105_best [DecidableEq Q] (grp : Q → Q) (n : ℕ) (collapse : Bool) (ms : List (KwsMatch Q L)) :
    ∀ p ∈ (listCurves grp n collapse true false ms).all,
      (∀ c ∈ cuts collapse ms, (cutPoint (references ms) c).2 < p.1) ∧ p.2 = 0 ∨
      (∃ c ∈ cuts collapse ms, p.1 ≤ (cutPoint (references ms) c).2 ∧
        p.2 = (cutPoint (references ms) c).1) ∧
      ∀ c ∈ cuts collapse ms, p.1 ≤ (cutPoint (references ms) c).2 →
        (cutPoint (references ms) c).1 ≤ p.2 := by
  intro p hp
  have e : p.2 = valueAt false p.1 none (listCurve collapse true ms) :=
    sampled_mem (f := fun x => valueAt false x none (listCurve collapse true ms)) hp
  have := valueAt_topped p.1 _ (cuts_points_rising collapse ms) none
  rw [show ((topped ((cuts collapse ms).map (cutPoint (references ms)))).map Prod.swap) =
    listCurve collapse true ms from rfl, ← e] at this
  simpa only [List.mem_map, exists_exists_and_eq_and, forall_exists_index, and_imp,
    forall_apply_eq_imp_iff₂] using this

end

/-! ## The tools -/

section
variable {G : Type}

/-- C105: whatever the sorting and collapsing, the curves of the box tool are those of the list of matches
whose numbers it reports. -/
theorem C105_box (S : StdSort) (rng : Rng G) (w : World) (o : ToolOptions) (t u : Str)
    (refs : List (Event Str (DocBox Str UInt32))) (hyps : List (ScoredEvent Str (DocBox Str UInt32)))
    (ht : w.file o.refFilename = some t) (hu : hypText w o = some u)
    (hrefs : Yields BoxEventText (lines t) refs)
    (hhyps : Yields (ScoredText Rnd.exact BoxEventText) (lines u) hyps)
    (hr : ∀ r ∈ refs, EdgesOkU r.location.toBBox) (hh : ∀ h ∈ hyps, InRangeU h.base)
    (r : Report Str (DocBox Str UInt32))
    (h : mainWith Rnd.exact S rng (icdarKit Rnd.exact S) w o = .ok (.done r)) :
    ∃ l ms rep, InOrder o.sort (keep (·.base.query) (listedQueries w o) hyps) l ∧
      BoxMatching (keep (·.query) (listedQueries w o) refs) l ms rep ∧
      (o.dumpMatches ≠ [] → r.dump = some (ms, rep)) ∧ ShowsList (groupFor w o) o r ms 0 ∧
      HasCurves o r (listCurves (groupFor w o) o.curveSamples o.collapse o.interp o.trapezoid ms) := by
  obtain ⟨l, ms, rep, a, b, c, d, e⟩ := box_list Rnd.exact S rng w o t u refs hyps ht hu hrefs hhyps hr hh
    (fun h => absurd h exact_ne_ieee) r 0 (Or.inl ⟨rfl, rfl⟩) h
  exact ⟨l, ms, rep, a, b, c, d, e.1 rfl⟩

/-- C105 in IEEE arithmetic: for areas of at most `2^24` the matching is the same, and up to `2^24` lines
and points no coordinate is off by more than `(n + 3) / 2^49`. -/
theorem C105_box_rounded (S : StdSort) (rng : Rng G) (w : World) (o : ToolOptions) (t u : Str)
    (refs : List (Event Str (DocBox Str UInt32))) (hyps : List (ScoredEvent Str (DocBox Str UInt32)))
    (ht : w.file o.refFilename = some t) (hu : hypText w o = some u)
    (hrefs : Yields BoxEventText (lines t) refs)
    (hhyps : Yields (ScoredText Rnd.ieee BoxEventText) (lines u) hyps)
    (hr : ∀ r ∈ refs, EdgesOkU r.location.toBBox)
    (hh : ∀ h ∈ hyps, EdgesOkU h.base.location.toBBox ∧ areaU h.base ≤ 2 ^ 24)
    (hl : refs.length + hyps.length ≤ 2 ^ 24) (hs : o.curveSamples ≤ 2 ^ 24)
    (r : Report Str (DocBox Str UInt32))
    (h : mainWith Rnd.ieee S rng (icdarKit Rnd.ieee S) w o = .ok (.done r)) :
    ∃ l ms rep, InOrder o.sort (keep (·.base.query) (listedQueries w o) hyps) l ∧
      BoxMatching (keep (·.query) (listedQueries w o) refs) l ms rep ∧
      (o.dumpMatches ≠ [] → r.dump = some (ms, rep)) ∧
      HasCurvesNear o r (listCurves (groupFor w o) o.curveSamples o.collapse o.interp o.trapezoid ms)
        ((refs.length + hyps.length + 3) / 2 ^ 49) := by
  obtain ⟨l, ms, rep, a, b, c, _, e⟩ := box_list Rnd.ieee S rng w o t u refs hyps ht hu hrefs hhyps hr
    (fun x hx => ⟨(hh x hx).1, by have := (hh x hx).2; omega⟩) (fun _ x hx => (hh x hx).2) r
    ((refs.length + hyps.length + 3) ^ 2 / 2 ^ 52) (Or.inr ⟨rfl, hl, by push_cast; rfl⟩) h
  have e := e.2 rfl hl hs
  unfold curvesError at e
  push_cast at e
  exact ⟨l, ms, rep, a, b, c, e⟩

/-- C105 for the segmentation-based tool. -/
theorem C105_segmentation (S : StdSort) (rng : Rng G) (qf : Bool) (w : World) (o : ToolOptions)
    (hV : (vocabulary w o).dedup.length ≤ 2 ^ 31) (t u : Str)
    (refs : List (Event Str Str)) (hyps : List (ScoredEvent Str Str))
    (ht : w.file o.refFilename = some t) (hu : hypText w o = some u)
    (hrefs : Yields StrEventText (lines t) refs)
    (hhyps : Yields (ScoredText Rnd.exact StrEventText) (lines u) hyps) (r : Report Nat Nat)
    (h : mainWith Rnd.exact S rng (simpleKit Rnd.exact qf) w o = .ok (.done r)) :
    ∃ l ms, InOrder o.sort (keep (·.base.query) (listedQueries w o) hyps) l ∧
      SegMatching (keep (·.query) (listedQueries w o) refs) l ms ∧
      ShowsList (groupFor w o) o r ms 0 ∧
      HasCurves o r (listCurves (groupFor w o) o.curveSamples o.collapse o.interp o.trapezoid ms) := by
  obtain ⟨l, ms, a, b, c, e⟩ := segmentation_list Rnd.exact S rng qf w o hV t u refs hyps ht hu hrefs hhyps r 0
    (Or.inl ⟨rfl, rfl⟩) h
  exact ⟨l, ms, a, b, c, e.1 rfl⟩

/-- C105 for the segmentation-based tool in IEEE arithmetic. -/
theorem C105_segmentation_rounded (S : StdSort) (rng : Rng G) (qf : Bool) (w : World) (o : ToolOptions)
    (hV : (vocabulary w o).dedup.length ≤ 2 ^ 31) (t u : Str)
    (refs : List (Event Str Str)) (hyps : List (ScoredEvent Str Str))
    (ht : w.file o.refFilename = some t) (hu : hypText w o = some u)
    (hrefs : Yields StrEventText (lines t) refs)
    (hhyps : Yields (ScoredText Rnd.ieee StrEventText) (lines u) hyps)
    (hl : refs.length + hyps.length ≤ 2 ^ 24) (hs : o.curveSamples ≤ 2 ^ 24) (r : Report Nat Nat)
    (h : mainWith Rnd.ieee S rng (simpleKit Rnd.ieee qf) w o = .ok (.done r)) :
    ∃ l ms, InOrder o.sort (keep (·.base.query) (listedQueries w o) hyps) l ∧
      SegMatching (keep (·.query) (listedQueries w o) refs) l ms ∧
      HasCurvesNear o r (listCurves (groupFor w o) o.curveSamples o.collapse o.interp o.trapezoid ms)
        ((refs.length + hyps.length + 3) / 2 ^ 49) := by
  obtain ⟨l, ms, a, b, _, e⟩ := segmentation_list Rnd.ieee S rng qf w o hV t u refs hyps ht hu hrefs hhyps r
    ((refs.length + hyps.length + 3) ^ 2 / 2 ^ 52) (Or.inr ⟨rfl, hl, by push_cast; rfl⟩) h
  have e := e.2 rfl hl hs
  unfold curvesError at e
  push_cast at e
  exact ⟨l, ms, a, b, e⟩

/-- C105: with interpolation, the curves of the box tool do not increase, and their values are between 0 and
1, whatever the sorting and collapsing. -/
theorem C105_box_shape (S : StdSort) (rng : Rng G) (w : World) (o : ToolOptions) (t u : Str)
    (refs : List (Event Str (DocBox Str UInt32))) (hyps : List (ScoredEvent Str (DocBox Str UInt32)))
    (ht : w.file o.refFilename = some t) (hu : hypText w o = some u)
    (hrefs : Yields BoxEventText (lines t) refs)
    (hhyps : Yields (ScoredText Rnd.exact BoxEventText) (lines u) hyps)
    (hr : ∀ r ∈ refs, EdgesOkU r.location.toBBox) (hh : ∀ h ∈ hyps, InRangeU h.base)
    (r : Report Str (DocBox Str UInt32))
    (h : mainWith Rnd.exact S rng (icdarKit Rnd.exact S) w o = .ok (.done r)) : Shape o r := by
  obtain ⟨l, ms, rep, _, _, _, _, e⟩ := C105_box S rng w o t u refs hyps ht hu hrefs hhyps hr hh r h
  refine hasCurves_shape e (fun hi => ?_) (listCurves_unit _ _ _ _ _ _)
  rw [hi]
  exact listCurves_decreasing _ _ _ _ _

/-- C105: the same for the segmentation-based tool. -/
theorem C105_segmentation_shape (S : StdSort) (rng : Rng G) (qf : Bool) (w : World) (o : ToolOptions)
    (hV : (vocabulary w o).dedup.length ≤ 2 ^ 31) (t u : Str)
    (refs : List (Event Str Str)) (hyps : List (ScoredEvent Str Str))
    (ht : w.file o.refFilename = some t) (hu : hypText w o = some u)
    (hrefs : Yields StrEventText (lines t) refs)
    (hhyps : Yields (ScoredText Rnd.exact StrEventText) (lines u) hyps) (r : Report Nat Nat)
    (h : mainWith Rnd.exact S rng (simpleKit Rnd.exact qf) w o = .ok (.done r)) : Shape o r := by
  obtain ⟨l, ms, _, _, _, e⟩ := C105_segmentation S rng qf w o hV t u refs hyps ht hu hrefs hhyps r h
  refine hasCurves_shape e (fun hi => ?_) (listCurves_unit _ _ _ _ _ _)
  rw [hi]
  exact listCurves_decreasing _ _ _ _ _

/-- C105: the files that a run of the box tool writes after the one with the matches have the text of these
curves. -/
theorem C105_box_files (S : StdSort) (rng : Rng G) (w : World) (prog : Str) (argv : List Str)
    (p : Parser) (o : ToolOptions)
    (hp : (toolParser Rnd.exact).parse Rnd.exact argv = (.accepted, p)) (ho : o = ToolOptions.ofParser p)
    (t u : Str)
    (refs : List (Event Str (DocBox Str UInt32))) (hyps : List (ScoredEvent Str (DocBox Str UInt32)))
    (ht : w.file o.refFilename = some t) (hu : hypText w o = some u)
    (hrefs : Yields BoxEventText (lines t) refs)
    (hhyps : Yields (ScoredText Rnd.exact BoxEventText) (lines u) hyps)
    (hr : ∀ r ∈ refs, EdgesOkU r.location.toBBox) (hh : ∀ h ∈ hyps, InRangeU h.base)
    (r : Report Str (DocBox Str UInt32))
    (h : toolMain Rnd.exact S rng (icdarKit Rnd.exact S) w argv = .ok (.done r)) :
    ∃ dump files l ms rep, filesOf (traceMain Rnd.exact S rng (icdarKit Rnd.exact S) icdarTexts w prog
        argv).effects = dump ++ files ∧ (∀ f ∈ dump, f.1 = o.dumpMatches) ∧
      InOrder o.sort (keep (·.base.query) (listedQueries w o) hyps) l ∧
      BoxMatching (keep (·.query) (listedQueries w o) refs) l ms rep ∧
      CurveFiles o (listCurves (groupFor w o) o.curveSamples o.collapse o.interp o.trapezoid ms) files := by
  have hw := ((traceMain_writes Rnd.exact S rng _ icdarTexts w prog argv).done r h).2.1
  rw [toolMain_accepted hp, ← ho] at h
  have hopt : optionsOf Rnd.exact argv = o := by
    unfold optionsOf
    rw [hp, ho]
  rw [hopt] at hw
  obtain ⟨l, ms, rep, h1, h2, _, _, h4⟩ := C105_box S rng w o t u refs hyps ht hu hrefs hhyps hr hh r h
  refine ⟨_, _, l, ms, rep, hw, ?_, h1, h2, curveFiles_spec h4⟩
  intro f hf
  obtain ⟨d, _, rfl⟩ := List.mem_map.1 hf
  rfl

/-- C105: the same for the segmentation-based tool. -/
theorem C105_segmentation_files (S : StdSort) (rng : Rng G) (qf : Bool) (w : World) (prog : Str)
    (argv : List Str) (p : Parser) (o : ToolOptions)
    (hp : (toolParser Rnd.exact).parse Rnd.exact argv = (.accepted, p)) (ho : o = ToolOptions.ofParser p)
    (hV : (vocabulary w o).dedup.length ≤ 2 ^ 31) (t u : Str)
    (refs : List (Event Str Str)) (hyps : List (ScoredEvent Str Str))
    (ht : w.file o.refFilename = some t) (hu : hypText w o = some u)
    (hrefs : Yields StrEventText (lines t) refs)
    (hhyps : Yields (ScoredText Rnd.exact StrEventText) (lines u) hyps) (r : Report Nat Nat)
    (h : toolMain Rnd.exact S rng (simpleKit Rnd.exact qf) w argv = .ok (.done r)) :
    ∃ dump files l ms, filesOf (traceMain Rnd.exact S rng (simpleKit Rnd.exact qf) simpleTexts w prog
        argv).effects = dump ++ files ∧ (∀ f ∈ dump, f.1 = o.dumpMatches) ∧
      InOrder o.sort (keep (·.base.query) (listedQueries w o) hyps) l ∧
      SegMatching (keep (·.query) (listedQueries w o) refs) l ms ∧
      CurveFiles o (listCurves (groupFor w o) o.curveSamples o.collapse o.interp o.trapezoid ms) files := by
  have hw := ((traceMain_writes Rnd.exact S rng _ simpleTexts w prog argv).done r h).2.1
  rw [toolMain_accepted hp, ← ho] at h
  have hopt : optionsOf Rnd.exact argv = o := by
    unfold optionsOf
    rw [hp, ho]
  rw [hopt] at hw
  obtain ⟨l, ms, h1, h2, _, h4⟩ := C105_segmentation S rng qf w o hV t u refs hyps ht hu hrefs hhyps r h
  refine ⟨_, _, l, ms, hw, ?_, h1, h2, curveFiles_spec h4⟩
  intro f hf
  obtain ⟨d, _, rfl⟩ := List.mem_map.1 hf
  rfl

end

/-- The list of C104's example: one by one its curve is that through (0, 0), (1/3, 1/2), (2/3, 2/3) and
(2/3, 2/3); taken together there is no point at recall 0. -/
example :
    let e (q : Nat) : Event Nat Nat := ⟨q, 0⟩
    let ms : List (KwsMatch Nat Nat) := [⟨none, some ⟨e 1, .fin 1⟩, ⟨1, 0⟩⟩,
      ⟨some (e 2), some ⟨e 2, .fin 1⟩, ⟨0, 0⟩⟩, ⟨some (e 3), some ⟨e 3, .fin 2⟩, ⟨0, 0⟩⟩,
      ⟨some (e 4), none, ⟨0, 1⟩⟩]
    listCurve false false ms = [(0, 0), (1 / 3, 1 / 2), (2 / 3, 2 / 3), (2 / 3, 2 / 3)] ∧
    listCurve true false ms = [(1 / 3, 1 / 2), (2 / 3, 2 / 3), (2 / 3, 2 / 3)] ∧
    (listCurves id 3 false false true ms).all = [(0, 0), (1 / 2, 7 / 12), (1, 0)] ∧
    (listCurves id 3 true true false ms).all = [(0, 2 / 3), (1 / 2, 2 / 3), (1, 0)] ∧
    (listCurves id 2 false false false ms).mean = [(0, .fin (3 / 4)), (1, .fin (1 / 2))] := by
  decide +kernel

def fileOrderHyps : Str := "a m 2\na l 3\nb l 1\n".toList

def fileOrderOptions : ToolOptions := { curveOptions with
  sort := "none".toList
  collapse := false
  interp := false
  trapezoid := false }

theorem fileOrder_yields : Yields (ScoredText Rnd.exact StrEventText) (lines fileOrderHyps)
    [⟨⟨"a".toList, "m".toList⟩, .fin 2⟩, ⟨⟨"a".toList, "l".toList⟩, .fin 3⟩,
      ⟨⟨"b".toList, "l".toList⟩, .fin 1⟩] :=
  (C48_accepts (Format.strHyps (R := Rnd.exact)) _ _).1 (by decide +kernel)

/-- A run of the segmentation-based tool with the hypotheses in the order of the file and without collapsing:
the references are `a l`, `b l` and `c l`, the hypotheses `a m`, `a l` and `b l`. The points of the curve
(recall, precision) are (0, 0), (1/3, 1/2), (2/3, 2/3) and (2/3, 2/3). -/
example {G : Type} (S : StdSort) (rng : Rng G) : ∃ r : Report Nat Nat,
    mainWith Rnd.exact S rng (simpleKit Rnd.exact true) (dumpExample curveRefs fileOrderHyps)
      fileOrderOptions = .ok (.done r) ∧
    r.globalCurve = some [(0, 0), (1 / 2, 2 / 3), (1, 0)] ∧
    r.meanCurve = some [(0, .fin (2 / 3)), (1 / 2, .fin (1 / 2)), (1, .fin (1 / 2))] := by
  have y1 := curveExample_yields.1
  have y2 := fileOrder_yields
  have hV : (vocabulary (dumpExample curveRefs fileOrderHyps) fileOrderOptions).dedup.length ≤ 2 ^ 31 := by
    have e : vocabulary (dumpExample curveRefs fileOrderHyps) fileOrderOptions =
        words (curveRefs ++ '\n' :: fileOrderHyps) := by
      rw [words_append_space _ _ _ (by decide)]
      unfold vocabulary
      rw [show (dumpExample curveRefs fileOrderHyps).file fileOrderOptions.refFilename = some curveRefs from
          dumpExample_file _ _,
        show (dumpExample curveRefs fileOrderHyps).file fileOrderOptions.querySet = none from rfl,
        show (dumpExample curveRefs fileOrderHyps).file fileOrderOptions.queryGroups = none from rfl,
        show hypText (dumpExample curveRefs fileOrderHyps) fileOrderOptions = some fileOrderHyps from
          if_pos rfl]
      simp
    rw [e]
    decide +kernel
  obtain ⟨r, hr, _⟩ := (C62_segmentation_partial Rnd.exact S rng true
    (dumpExample curveRefs fileOrderHyps) fileOrderOptions hV
    (fun t u h1 h2 => by
      obtain rfl := Option.some.inj ((dumpExample_file _ _).symm.trans h1)
      obtain rfl := Option.some.inj h2
      exact ⟨fun h => by simp [fileOrderOptions, curveOptions] at h, fun _ => rfl, fun _ => rfl,
        fun _ => ⟨exact_precise, by decide +kernel⟩⟩)).1
    ⟨⟨by decide, ⟨_, dumpExample_file _ _, yields_valid y1⟩, ⟨_, if_pos rfl, yields_valid y2⟩,
      fun h => absurd rfl h, fun h => absurd rfl h⟩, Or.inl rfl⟩
  obtain ⟨l, ms, h1, ⟨missed, h0, h2, h3⟩, _, h4⟩ := C105_segmentation S rng true
    (dumpExample curveRefs fileOrderHyps) fileOrderOptions hV _ _ _ _ (dumpExample_file _ _)
    (if_pos rfl) y1 y2 r hr
  refine ⟨r, hr, ?_⟩
  have hl : listedQueries (dumpExample curveRefs fileOrderHyps) fileOrderOptions = [] := rfl
  have hg : groupFor (dumpExample curveRefs fileOrderHyps) fileOrderOptions = id := rfl
  rw [hl] at h1 h2 h3
  rw [hg] at h4
  unfold InOrder at h1
  rw [if_neg (by decide), if_neg (by decide)] at h1
  subst h1
  have hm : missed = [⟨"c".toList, "l".toList⟩] := by
    refine List.perm_singleton.1 ((List.perm_ext_iff_of_nodup h0 (by simp)).2 fun x => ?_)
    rw [h2 x, List.mem_singleton]
    constructor
    · rintro ⟨a, b⟩
      revert b
      revert x
      decide +kernel
    · rintro rfl
      decide +kernel
  subst hm h3
  rw [h4.all, h4.mean, if_neg (by decide), if_neg (by decide)]
  decide +kernel

end Kws
