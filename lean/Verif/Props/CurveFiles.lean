import Verif.Lemmas.Curve
import Verif.Props.Dump

/-!
# C78: the files with the recall-precision curves

`Spec/Curves.lean` defines the curves from the numbers of hits and false positives with at least a
given score, without sorting, collapsing or matching, and says how they are printed.
-/

namespace Kws
open Spec

/-! ## The text -/

theorem coord_prints (v : Flt) : PrintsCoord v (showFlt showScientific v) := by
  cases v with
  | fin x => exact C74_scientific x
  | nan => rfl
  | pinf => rfl
  | ninf => rfl

/-- C78: the text of a curve has one line per point, with its two coordinates to seven digits. -/
theorem C78_text (pts : List (ℚ × Flt)) :
    CurveText pts (showCurve showScientific (showFlt showScientific) pts) := by
  refine ⟨pts.map (fun p => showScientific p.1 ++ ' ' :: showFlt showScientific p.2), ?_, ?_⟩
  · unfold showCurve endl
    rw [List.map_map, List.flatMap_def]
    rfl
  · rw [List.forall₂_map_right_iff]
    exact List.forall₂_same.2 fun p _ => ⟨_, _, C74_scientific p.1, coord_prints p.2, by simp⟩

/-- C78: the text of a curve whose ordinates are numbers. -/
theorem C78_text_numbers (pts : List (ℚ × ℚ)) :
    CurveText (pts.map fun p => (p.1, .fin p.2)) (showCurve showScientific showScientific pts) := by
  have := C78_text (pts.map fun p => (p.1, .fin p.2))
  have e : showCurve showScientific (showFlt showScientific) (pts.map fun p => (p.1, Flt.fin p.2)) =
      showCurve showScientific showScientific pts := by
    unfold showCurve
    rw [List.flatMap_map]
    rfl
  rwa [e] at this

theorem coord_newline {v : Flt} {b : Str} (h : PrintsCoord v b) : '\n' ∉ b := by
  cases v with
  | fin x =>
    obtain ⟨q, h, _⟩ := h
    intro hc
    exact absurd (h.word.2 _ hc) (by decide)
  | nan => rw [show b = _ from h]; decide
  | pinf => rw [show b = _ from h]; decide
  | ninf => rw [show b = _ from h]; decide

/-- C78: the lines of the text of a curve are those of its points. -/
theorem C78_lines (pts : List (ℚ × Flt)) (text : Str) (h : CurveText pts text) :
    List.Forall₂ (fun p l => ∃ a b, Prints 7 p.1 a ∧ PrintsCoord p.2 b ∧ l = a ++ " ".toList ++ b) pts
      (lines text) := by
  obtain ⟨ls, rfl, h⟩ := h
  suffices lines (ls.map (· ++ "\n".toList)).flatten = ls by rwa [this]
  induction h with
  | nil => rfl
  | @cons p l pts ls hp _ ih =>
    obtain ⟨a, b, ⟨q, h1, _⟩, h2, rfl⟩ := hp
    have ha : '\n' ∉ a := fun hc => absurd (h1.word.2 _ hc) (by decide)
    have hb := coord_newline h2
    rw [List.map_cons, List.flatten_cons, List.append_assoc]
    show lines (_ ++ '\n' :: (ls.map (· ++ "\n".toList)).flatten) = _
    rw [lines_cons (by simp [ha, hb]), ih]

/-! ## The curves of a run -/

theorem curveFiles_spec {Q L : Type} {o : ToolOptions} {r : Report Q L} {c : Curves}
    (h : HasCurves o r c) : CurveFiles o c (curveFiles o r) := by
  refine ⟨_, _, rfl, ?_, ?_⟩
  · rw [h.all]
    split
    · rfl
    · exact ⟨_, rfl, C78_text_numbers _⟩
  · rw [h.mean]
    split
    · rfl
    · exact ⟨_, rfl, C78_text _⟩

section
variable {G : Type}

/-- C78: the curves of the segmentation-based tool, with its default sorting and collapsing. -/
theorem C78_segmentation (S : StdSort) (rng : Rng G) (qf : Bool) (w : World)
    (o : ToolOptions) (hV : (vocabulary w o).dedup.length ≤ 2 ^ 31) (t u : Str)
    (refs : List (Event Str Str)) (hyps : List (ScoredEvent Str Str))
    (ht : w.file o.refFilename = some t) (hu : hypText w o = some u)
    (hrefs : Yields StrEventText (lines t) refs)
    (hhyps : Yields (ScoredText Rnd.exact StrEventText) (lines u) hyps)
    (hd : o.sort = "desc".toList) (hc : o.collapse = true) (r : Report Nat Nat)
    (h : mainWith Rnd.exact S rng (simpleKit Rnd.exact qf) w o = .ok (.done r)) :
    HasCurves o r (segCurves (groupFor w o) o.curveSamples o.interp o.trapezoid
      (keep (·.query) (listedQueries w o) refs) (keep (·.base.query) (listedQueries w o) hyps)) := by
  have hr : o.refFilename ≠ [] := by
    intro hr
    unfold mainWith at h
    rw [if_pos hr] at h
    cases h
  have v1 := yields_valid hrefs
  have v2 := yields_valid hhyps
  obtain ⟨f, N, hf, _, e⟩ := simple_good Rnd.exact S rng qf w o hV hr t u ht hu v1 v2
  rw [yields_events (Format.strRefs (R := Rnd.exact)) hrefs, yields_events Format.strHyps hhyps] at e
  rw [e] at h
  cases hq : readQueryMap (fun (m : Unit) q => (m, (.ok q : Cpp Str))) w o () with
  | error x => rw [hq] at h; cases h
  | ok x =>
    rw [hq] at h
    cases x with
    | none => cases h
    | some q2g =>
      obtain ⟨q1, q2⟩ := readQueryMap_spec w o q2g hq
      have hfin := (str_plain Rnd.exact).finite u v2
      rw [yields_events Format.strHyps hhyps] at hfin
      have := seg_curves S rng (simpleKit Rnd.exact qf) (simple_seg Rnd.exact qf) w o
        (q2g.map (Prod.map f f)) _ _ r (fun x hx => by
          obtain ⟨y, hy, rfl⟩ := List.mem_map.1 hx
          exact hfin y hy) hd hc h
      rw [usedRefs_rename f hf, usedHyps_rename f hf,
        segCurves_rename hf hf (groupFor w o) _ (fun q => by rw [groupOf_rename hf, q2])] at this
      unfold usedRefs usedHyps at this
      rw [filter_keep _ _ q1, filter_keep _ _ q1] at this
      exact this

/-- C78: the curves of the box tool, with its default sorting and collapsing, are those of matches as
`BoxMatching` describes them. -/
theorem C78_box (S : StdSort) (rng : Rng G) (w : World) (o : ToolOptions) (t u : Str)
    (refs : List (Event Str (DocBox Str UInt32))) (hyps : List (ScoredEvent Str (DocBox Str UInt32)))
    (ht : w.file o.refFilename = some t) (hu : hypText w o = some u)
    (hrefs : Yields BoxEventText (lines t) refs)
    (hhyps : Yields (ScoredText Rnd.exact BoxEventText) (lines u) hyps)
    (hr : ∀ r ∈ refs, EdgesOkU r.location.toBBox) (hh : ∀ h ∈ hyps, InRangeU h.base)
    (hd : o.sort = "desc".toList) (hc : o.collapse = true) (r : Report Str (DocBox Str UInt32))
    (h : mainWith Rnd.exact S rng (icdarKit Rnd.exact S) w o = .ok (.done r)) :
    ∃ l ms rep,
      l.Perm (keep (·.base.query) (listedQueries w o) hyps) ∧
      l.Pairwise (fun a b => Flt.lt a.score b.score = false) ∧
      BoxMatching (keep (·.query) (listedQueries w o) refs) l ms rep ∧
      HasCurves o r (matchCurves (groupFor w o) o.curveSamples o.interp o.trapezoid ms) := by
  have hr0 : o.refFilename ≠ [] := by
    intro hr
    unfold mainWith at h
    rw [if_pos hr] at h
    cases h
  have v1 := yields_valid hrefs
  have v2 := yields_valid hhyps
  rw [(icdar_plain Rnd.exact S).main_good S rng w o hr0 t u ht hu v1 v2,
    yields_events (Format.boxRefs (R := Rnd.exact)) hrefs, yields_events Format.boxHyps hhyps,
    (icdar_plain Rnd.exact S).mapQuery] at h
  cases hq : readQueryMap (fun (m : Unit) q => (m, (.ok q : Cpp Str))) w o () with
  | error x => rw [hq] at h; cases h
  | ok x =>
    rw [hq] at h
    cases x with
    | none => cases h
    | some q2g =>
      obtain ⟨q1, q2⟩ := readQueryMap_spec w o q2g hq
      have hfin := (icdar_plain Rnd.exact S).finite u v2
      rw [yields_events Format.boxHyps hhyps] at hfin
      obtain ⟨l, s', ms, rep, e2, e3, e4, e5, e7⟩ := evaluate_curves S rng (icdarKit Rnd.exact S)
        (icdar_safe Rnd.exact S) (by
          intro a b e he hf
          obtain ⟨i, hi⟩ := inter_ok a b.base
          have := ioh_eq Rnd.exact (1 / 2) a b i hi
          rw [show (icdarKit Rnd.exact S).scorer a b = iohScorer Rnd.exact (1 / 2) a b from rfl, this] at he
          injection he with he
          subst he
          unfold verdict at hf ⊢
          split
          · rfl
          · rename_i hne; rw [if_neg hne] at hf; norm_num at hf) w o q2g refs hyps r hfin hd hc h
      have k1 : usedRefs q2g refs = keep (·.query) (listedQueries w o) refs := by
        unfold usedRefs
        rw [filter_keep _ _ q1]
      have k2 : usedHyps q2g hyps = keep (·.base.query) (listedQueries w o) hyps := by
        unfold usedHyps
        rw [filter_keep _ _ q1]
      have hsub : ∀ x ∈ l, x ∈ hyps := fun x hx => usedHyps_mem q2g hyps x (e2.mem_iff.1 hx)
      rw [k2] at e2
      rw [k1] at e4
      have hg : groupOf q2g = groupFor w o := funext q2
      rw [hg] at e7
      refine ⟨l, ms, rep, e2, e3, ?_, e7⟩
      obtain ⟨s1, ms1, rep1, f1, f2⟩ := C17_box_matching Rnd.exact S DocEventSet.new
        (keep (·.query) (listedQueries w o) refs) l (fun x hx => hr x (keep_subset _ _ _ x hx))
        (fun x hx => hh x (hsub x hx)) (Or.inl rfl)
      rw [show SimpleMatcher.run (icdarKit Rnd.exact S).index (icdarKit Rnd.exact S).scorer
        (icdarKit Rnd.exact S).refsSet (keep (·.query) (listedQueries w o) refs) l = _ from f1,
        Except.ok.injEq, Prod.mk.injEq, Prod.mk.injEq] at e4
      obtain ⟨_, rfl, rfl⟩ := e4
      exact f2

/-- C78: the files that a run of the segmentation-based tool writes after the one with the matches have
the text of these curves. -/
theorem C78_segmentation_files (S : StdSort) (rng : Rng G) (qf : Bool) (w : World) (prog : Str)
    (argv : List Str) (p : Parser) (o : ToolOptions)
    (hp : (toolParser Rnd.exact).parse Rnd.exact argv = (.accepted, p)) (ho : o = ToolOptions.ofParser p)
    (hV : (vocabulary w o).dedup.length ≤ 2 ^ 31) (t u : Str)
    (refs : List (Event Str Str)) (hyps : List (ScoredEvent Str Str))
    (ht : w.file o.refFilename = some t) (hu : hypText w o = some u)
    (hrefs : Yields StrEventText (lines t) refs)
    (hhyps : Yields (ScoredText Rnd.exact StrEventText) (lines u) hyps)
    (hd : o.sort = "desc".toList) (hc : o.collapse = true) (r : Report Nat Nat)
    (h : toolMain Rnd.exact S rng (simpleKit Rnd.exact qf) w argv = .ok (.done r)) :
    ∃ dump files, filesOf (traceMain Rnd.exact S rng (simpleKit Rnd.exact qf) simpleTexts w prog
        argv).effects = dump ++ files ∧ (∀ f ∈ dump, f.1 = o.dumpMatches) ∧
      CurveFiles o (segCurves (groupFor w o) o.curveSamples o.interp o.trapezoid
        (keep (·.query) (listedQueries w o) refs) (keep (·.base.query) (listedQueries w o) hyps))
        files := by
  have hw := ((traceMain_writes Rnd.exact S rng _ simpleTexts w prog argv).done r h).2.1
  rw [toolMain_accepted hp, ← ho] at h
  have hopt : optionsOf Rnd.exact argv = o := by
    unfold optionsOf
    rw [hp, ho]
  rw [hopt] at hw
  refine ⟨_, _, hw, ?_, curveFiles_spec (C78_segmentation S rng qf w o hV t u refs hyps ht hu hrefs hhyps
    hd hc r h)⟩
  intro f hf
  obtain ⟨d, _, rfl⟩ := List.mem_map.1 hf
  rfl

/-- C78: the same for the box tool. -/
theorem C78_box_files (S : StdSort) (rng : Rng G) (w : World) (prog : Str) (argv : List Str)
    (p : Parser) (o : ToolOptions)
    (hp : (toolParser Rnd.exact).parse Rnd.exact argv = (.accepted, p)) (ho : o = ToolOptions.ofParser p)
    (t u : Str)
    (refs : List (Event Str (DocBox Str UInt32))) (hyps : List (ScoredEvent Str (DocBox Str UInt32)))
    (ht : w.file o.refFilename = some t) (hu : hypText w o = some u)
    (hrefs : Yields BoxEventText (lines t) refs)
    (hhyps : Yields (ScoredText Rnd.exact BoxEventText) (lines u) hyps)
    (hr : ∀ r ∈ refs, EdgesOkU r.location.toBBox) (hh : ∀ h ∈ hyps, InRangeU h.base)
    (hd : o.sort = "desc".toList) (hc : o.collapse = true) (r : Report Str (DocBox Str UInt32))
    (h : toolMain Rnd.exact S rng (icdarKit Rnd.exact S) w argv = .ok (.done r)) :
    ∃ dump files l ms rep, filesOf (traceMain Rnd.exact S rng (icdarKit Rnd.exact S) icdarTexts w prog
        argv).effects = dump ++ files ∧ (∀ f ∈ dump, f.1 = o.dumpMatches) ∧
      l.Perm (keep (·.base.query) (listedQueries w o) hyps) ∧
      l.Pairwise (fun a b => Flt.lt a.score b.score = false) ∧
      BoxMatching (keep (·.query) (listedQueries w o) refs) l ms rep ∧
      CurveFiles o (matchCurves (groupFor w o) o.curveSamples o.interp o.trapezoid ms) files := by
  have hw := ((traceMain_writes Rnd.exact S rng _ icdarTexts w prog argv).done r h).2.1
  rw [toolMain_accepted hp, ← ho] at h
  have hopt : optionsOf Rnd.exact argv = o := by
    unfold optionsOf
    rw [hp, ho]
  rw [hopt] at hw
  obtain ⟨l, ms, rep, h1, h2, h3, h4⟩ := C78_box S rng w o t u refs hyps ht hu hrefs hhyps hr hh hd hc r h
  refine ⟨_, _, l, ms, rep, hw, ?_, h1, h2, h3, curveFiles_spec h4⟩
  intro f hf
  obtain ⟨d, _, rfl⟩ := List.mem_map.1 hf
  rfl

end

/-! ## Their shape -/

theorem scoresIn_numbers {Q L : Type} {ms : List (KwsMatch Q L)} (hn : ∀ s ∈ scoresIn ms, s ≠ .nan)
    (P : KwsMatch Q L → Bool) : ∀ s ∈ scoresIn (ms.filter P), s ≠ .nan := fun s hs =>
  hn s (by
    obtain ⟨m, hm, e⟩ := List.mem_filterMap.1 hs
    exact List.mem_filterMap.2 ⟨m, (List.mem_filter.1 hm).1, e⟩)

theorem matchCurves_decreasing {Q L : Type} [DecidableEq Q] (grp : Q → Q) (n : ℕ) (linear : Bool)
    (ms : List (KwsMatch Q L)) (hn : ∀ s ∈ scoresIn ms, s ≠ .nan) :
    Decreasing (matchCurves grp n true linear ms) := by
  refine curves_decreasing n linear _ _ ⟨tallyOf_rising ms, hn⟩ fun g hg => ?_
  obtain ⟨q, _, rfl⟩ := List.mem_map.1 hg
  exact ⟨tallyOf_rising _, scoresIn_numbers hn _⟩

theorem segCurves_decreasing {Q L : Type} [DecidableEq Q] [DecidableEq L] (grp : Q → Q) (n : ℕ)
    (linear : Bool) (refs : List (Event Q L)) (hyps : List (ScoredEvent Q L))
    (hn : ∀ h ∈ hyps, h.score ≠ .nan) : Decreasing (segCurves grp n true linear refs hyps) := by
  have key : ∀ l : List (ScoredEvent Q L), (∀ h ∈ l, h ∈ hyps) →
      ∀ s ∈ l.map (·.score), s ≠ .nan := by
    intro l hl s hs
    obtain ⟨h, hh, rfl⟩ := List.mem_map.1 hs
    exact hn h (hl h hh)
  refine curves_decreasing n linear _ _ ⟨segTally_rising _ _, key _ fun _ h => h⟩ fun g hg => ?_
  obtain ⟨q, _, rfl⟩ := List.mem_map.1 hg
  exact ⟨segTally_rising _ _, key _ fun h hh => (List.mem_filter.1 hh).1⟩

theorem hasCurves_shape {Q L : Type} {o : ToolOptions} {r : Report Q L} {c : Curves}
    (h : HasCurves o r c) (h1 : o.interp = true → Decreasing c) (h2 : InUnit c) : Shape o r := by
  constructor
  · intro d hd
    rw [h.all] at hd
    split at hd
    · cases hd
    · injection hd with hd
      subst hd
      exact ⟨fun hi => (h1 hi).all, h2.all⟩
  · intro d hd
    rw [h.mean] at hd
    split at hd
    · cases hd
    · injection hd with hd
      subst hd
      exact ⟨fun hi => (h1 hi).mean, h2.mean⟩

section
variable {G : Type}

/-- C78: with interpolation, the curves of the segmentation-based tool do not increase, and their values
are between 0 and 1. -/
theorem C78_segmentation_shape (S : StdSort) (rng : Rng G) (qf : Bool) (w : World)
    (o : ToolOptions) (hV : (vocabulary w o).dedup.length ≤ 2 ^ 31) (t u : Str)
    (refs : List (Event Str Str)) (hyps : List (ScoredEvent Str Str))
    (ht : w.file o.refFilename = some t) (hu : hypText w o = some u)
    (hrefs : Yields StrEventText (lines t) refs)
    (hhyps : Yields (ScoredText Rnd.exact StrEventText) (lines u) hyps)
    (hd : o.sort = "desc".toList) (hc : o.collapse = true) (r : Report Nat Nat)
    (h : mainWith Rnd.exact S rng (simpleKit Rnd.exact qf) w o = .ok (.done r)) : Shape o r := by
  have hfin := (str_plain Rnd.exact).finite u (yields_valid hhyps)
  rw [yields_events Format.strHyps hhyps] at hfin
  refine hasCurves_shape (C78_segmentation S rng qf w o hV t u refs hyps ht hu hrefs hhyps hd hc r h)
    (fun hi => ?_) (curves_unit _ _ _ _ _)
  rw [hi]
  exact segCurves_decreasing _ _ _ _ _ fun x hx => hfin x (keep_subset _ _ _ x hx)

/-- C78: the same for the box tool. -/
theorem C78_box_shape (S : StdSort) (rng : Rng G) (w : World) (o : ToolOptions) (t u : Str)
    (refs : List (Event Str (DocBox Str UInt32))) (hyps : List (ScoredEvent Str (DocBox Str UInt32)))
    (ht : w.file o.refFilename = some t) (hu : hypText w o = some u)
    (hrefs : Yields BoxEventText (lines t) refs)
    (hhyps : Yields (ScoredText Rnd.exact BoxEventText) (lines u) hyps)
    (hr : ∀ r ∈ refs, EdgesOkU r.location.toBBox) (hh : ∀ h ∈ hyps, InRangeU h.base)
    (hd : o.sort = "desc".toList) (hc : o.collapse = true) (r : Report Str (DocBox Str UInt32))
    (h : mainWith Rnd.exact S rng (icdarKit Rnd.exact S) w o = .ok (.done r)) : Shape o r := by
  have hfin := (icdar_plain Rnd.exact S).finite u (yields_valid hhyps)
  rw [yields_events Format.boxHyps hhyps] at hfin
  obtain ⟨l, ms, rep, h1, h2, h3, h4⟩ := C78_box S rng w o t u refs hyps ht hu hrefs hhyps hr hh hd hc r h
  refine hasCurves_shape h4 (fun hi => ?_) (curves_unit _ _ _ _ _)
  rw [hi]
  refine matchCurves_decreasing _ _ _ _ fun s hs => ?_
  obtain ⟨m, hm, e⟩ := List.mem_filterMap.1 hs
  obtain ⟨x, hx, rfl⟩ := Option.map_eq_some_iff.1 e
  exact hfin x (keep_subset _ _ _ x (h1.mem_iff.1
    ((boxMatching_events h3 m (List.mem_append_left _ hm)).1 x hx)))

/-- C78: with interpolation but without trapezoids, the value of the curve at recall `x` is the best
precision of a threshold with at least this recall, or 0 if no threshold has it. -/
theorem C78_segmentation_best (S : StdSort) (rng : Rng G) (qf : Bool) (w : World)
    (o : ToolOptions) (hV : (vocabulary w o).dedup.length ≤ 2 ^ 31) (t u : Str)
    (refs : List (Event Str Str)) (hyps : List (ScoredEvent Str Str))
    (ht : w.file o.refFilename = some t) (hu : hypText w o = some u)
    (hrefs : Yields StrEventText (lines t) refs)
    (hhyps : Yields (ScoredText Rnd.exact StrEventText) (lines u) hyps)
    (hd : o.sort = "desc".toList) (hc : o.collapse = true) (hi : o.interp = true)
    (hz : o.trapezoid = false) (r : Report Nat Nat)
    (h : mainWith Rnd.exact S rng (simpleKit Rnd.exact qf) w o = .ok (.done r))
    (c : List (ℚ × ℚ)) (hcv : r.globalCurve = some c) :
    let used := keep (·.base.query) (listedQueries w o) hyps
    let point (s : Flt) := (segTally (keep (·.query) (listedQueries w o) refs) used).point s
    used ≠ [] → ∀ p ∈ c,
      (∀ h ∈ used, (point h.score).2 < p.1) ∧ p.2 = 0 ∨
      (∃ h ∈ used, p.1 ≤ (point h.score).2 ∧ p.2 = (point h.score).1) ∧
        ∀ h ∈ used, p.1 ≤ (point h.score).2 → (point h.score).1 ≤ p.2 := by
  intro used point hne p hp
  have hfin := (str_plain Rnd.exact).finite u (yields_valid hhyps)
  rw [yields_events Format.strHyps hhyps] at hfin
  have hall := (C78_segmentation S rng qf w o hV t u refs hyps ht hu hrefs hhyps hd hc r h).all
  rw [hcv] at hall
  split at hall
  · cases hall
  · injection hall with hall
    rw [hall] at hp
    have e : p.2 = valueAt o.trapezoid p.1 none (Tally.curve
        (segTally (keep (·.query) (listedQueries w o) refs) used) o.interp
        (descending (used.map (·.score)))) := sampled_mem (f := fun x => valueAt o.trapezoid x none _) hp
    rw [hi, hz] at e
    have := value_best (g := (segTally (keep (·.query) (listedQueries w o) refs) used,
      used.map (·.score))) ⟨segTally_rising _ _, by
        intro s hs
        obtain ⟨x, hx, rfl⟩ := List.mem_map.1 hs
        exact hfin x (keep_subset _ _ _ x hx)⟩ (by simpa using hne) p.1
    rw [← e] at this
    simpa [point] using this

end

/-- The command line `simple-kws-eval --output_grp grp --output_mrp mrp --rp_curve_samples 3 ref`. -/
def curveArgv : List Str := ["--output_grp".toList, "grp".toList, "--output_mrp".toList, "mrp".toList,
  "--rp_curve_samples".toList, "3".toList, "ref".toList]

def curveParser : Parser :=
  ⟨AMap.set "rp_curve_samples".toList (.size 3) (AMap.set "output_mrp".toList (.str "mrp".toList)
    (AMap.set "output_grp".toList (.str "grp".toList) (toolParser Rnd.exact).opts)),
    [.str "ref".toList], (toolParser Rnd.exact).optArgs⟩

def curveOptions : ToolOptions where
  refFilename := "ref".toList
  outputGrp := "grp".toList
  outputMrp := "mrp".toList
  curveSamples := 3
  alpha := 1 / 20

theorem curveExample_parse :
    (toolParser Rnd.exact).parse Rnd.exact curveArgv = (.accepted, curveParser) := by
  have h : Parser.parseOptions Rnd.exact (toolParser Rnd.exact).opts false curveArgv =
      .done curveParser.opts false ["ref".toList] := by
    unfold curveArgv
    have hf : AMap.find? ("--output_grp".toList.drop 2) (toolParser Rnd.exact).opts =
      some (.str []) := by decide +kernel
    rw [Parser.parseOptions, if_neg (by decide), if_neg (by decide), if_neg (by decide), hf]
    dsimp only
    rw [if_neg (by decide)]
    have hv : OptVal.parseOpt Rnd.exact (.str []) "grp".toList = (true, .str "grp".toList) := by
      decide +kernel
    rw [hv]
    dsimp only
    rw [if_pos rfl]
    have hf : AMap.find? ("--output_mrp".toList.drop 2) (AMap.set ("--output_grp".toList.drop 2)
      (.str "grp".toList) (toolParser Rnd.exact).opts) = some (.str []) := by decide +kernel
    rw [Parser.parseOptions, if_neg (by decide), if_neg (by decide), if_neg (by decide), hf]
    dsimp only
    rw [if_neg (by decide)]
    have hv : OptVal.parseOpt Rnd.exact (.str []) "mrp".toList = (true, .str "mrp".toList) := by
      decide +kernel
    rw [hv]
    dsimp only
    rw [if_pos rfl]
    have hf : AMap.find? ("--rp_curve_samples".toList.drop 2) (AMap.set ("--output_mrp".toList.drop 2)
      (.str "mrp".toList) (AMap.set ("--output_grp".toList.drop 2)
      (.str "grp".toList) (toolParser Rnd.exact).opts)) = some (.size 10000) := by decide +kernel
    rw [Parser.parseOptions, if_neg (by decide), if_neg (by decide), if_neg (by decide), hf]
    dsimp only
    rw [if_neg (by decide)]
    have hv : OptVal.parseOpt Rnd.exact (.size 10000) "3".toList = (true, .size 3) := by
      decide +kernel
    rw [hv]
    dsimp only
    rw [if_pos rfl, Parser.parseOptions, if_pos (by decide)]
    rfl
  unfold Parser.parse
  rw [h]
  decide +kernel

theorem curveExample_options : ToolOptions.ofParser curveParser = curveOptions := by
  decide +kernel

def curveRefs : Str := "a l\nb l\nc l\n".toList
def curveHyps : Str := "a l 3\na m 2\nb l 1\n".toList

theorem curveExample_yields :
    Yields StrEventText (lines curveRefs)
      [⟨"a".toList, "l".toList⟩, ⟨"b".toList, "l".toList⟩, ⟨"c".toList, "l".toList⟩] ∧
    Yields (ScoredText Rnd.exact StrEventText) (lines curveHyps)
      [⟨⟨"a".toList, "l".toList⟩, .fin 3⟩, ⟨⟨"a".toList, "m".toList⟩, .fin 2⟩,
        ⟨⟨"b".toList, "l".toList⟩, .fin 1⟩] :=
  ⟨(C48_accepts (Format.strRefs (R := Rnd.exact)) _ _).1 (by decide +kernel),
    (C48_accepts (Format.strHyps (R := Rnd.exact)) _ _).1 (by decide +kernel)⟩

theorem curveExample_vocabulary :
    (vocabulary (dumpExample curveRefs curveHyps) curveOptions).dedup.length ≤ 2 ^ 31 := by
  have e : vocabulary (dumpExample curveRefs curveHyps) curveOptions =
      words (curveRefs ++ '\n' :: curveHyps) := by
    rw [words_append_space _ _ _ (by decide)]
    unfold vocabulary
    rw [show (dumpExample curveRefs curveHyps).file curveOptions.refFilename = some curveRefs from
        dumpExample_file _ _,
      show (dumpExample curveRefs curveHyps).file curveOptions.querySet = none from rfl,
      show (dumpExample curveRefs curveHyps).file curveOptions.queryGroups = none from rfl,
      show hypText (dumpExample curveRefs curveHyps) curveOptions = some curveHyps from if_pos rfl]
    simp
  rw [e]
  decide +kernel

/-- A run of the segmentation-based tool: the references are `a l`, `b l` and `c l`, the hypotheses
`a l`, `a m` and `b l`, in this order of scores. The points of the interpolated curve (recall,
precision) are (1/3, 1), (1/3, 2/3) and (2/3, 2/3). -/
theorem curveExample_run {G : Type} (S : StdSort) (rng : Rng G) : ∃ r,
    toolMain Rnd.exact S rng (simpleKit Rnd.exact true) (dumpExample curveRefs curveHyps) curveArgv =
      .ok (.done r) ∧ r.dump = none ∧ curveFiles curveOptions r =
      [("grp".toList, ("0.000000e+00 1.000000e+00\n5.000000e-01 6.666667e-01\n" ++
          "1.000000e+00 0.000000e+00\n").toList),
        ("mrp".toList, ("0.000000e+00 1.000000e+00\n5.000000e-01 6.666667e-01\n" ++
          "1.000000e+00 6.666667e-01\n").toList)] := by
  have hp := curveExample_parse
  have ho := curveExample_options
  obtain ⟨y1, y2⟩ := curveExample_yields
  obtain ⟨r, hr, hcp⟩ := (C62_segmentation_partial Rnd.exact S rng true (dumpExample curveRefs curveHyps)
    curveOptions curveExample_vocabulary
    (fun t u h1 h2 => by
      obtain rfl := Option.some.inj ((dumpExample_file _ _).symm.trans h1)
      obtain rfl := Option.some.inj h2
      exact ⟨fun h => by simp [curveOptions] at h, fun _ => rfl, fun _ => rfl,
        fun _ => ⟨exact_precise, by decide +kernel⟩⟩)).1
    ⟨⟨by decide, ⟨_, dumpExample_file _ _, yields_valid y1⟩, ⟨_, if_pos rfl, yields_valid y2⟩,
      fun h => absurd rfl h, fun h => absurd rfl h⟩, Or.inl rfl⟩
  have hC := C78_segmentation S rng true (dumpExample curveRefs curveHyps) curveOptions
    curveExample_vocabulary _ _ _ _ (dumpExample_file _ _) (if_pos rfl) y1 y2 rfl rfl r hr
  rw [show groupFor (dumpExample curveRefs curveHyps) curveOptions = id from rfl,
    show listedQueries (dumpExample curveRefs curveHyps) curveOptions = [] from rfl] at hC
  rw [← ho, ← toolMain_accepted hp] at hr
  have hd : r.dump = none := by
    have := hcp.dump
    cases h : r.dump with
    | none => rfl
    | some x => rw [h] at this; exact absurd (this.1 rfl) (by decide)
  refine ⟨r, hr, hd, ?_⟩
  unfold curveFiles
  rw [hC.all, hC.mean, if_neg (by decide), if_neg (by decide)]
  unfold segCurves Curves.of
  decide +kernel

theorem curveExample_optionsOf : optionsOf Rnd.exact curveArgv = curveOptions := by
  unfold optionsOf
  rw [curveExample_parse, ← curveExample_options]

/-- What this run writes. -/
example {G : Type} (S : StdSort) (rng : Rng G) (prog : Str) :
    filesOf (traceMain Rnd.exact S rng (simpleKit Rnd.exact true) simpleTexts
        (dumpExample curveRefs curveHyps) prog curveArgv).effects =
      [("grp".toList, ("0.000000e+00 1.000000e+00\n5.000000e-01 6.666667e-01\n" ++
          "1.000000e+00 0.000000e+00\n").toList),
        ("mrp".toList, ("0.000000e+00 1.000000e+00\n5.000000e-01 6.666667e-01\n" ++
          "1.000000e+00 6.666667e-01\n").toList)] := by
  obtain ⟨r, hr, hd, hf⟩ := curveExample_run S rng
  have hw := ((traceMain_writes Rnd.exact S rng _ simpleTexts _ prog curveArgv).done r hr).2.1
  rw [hw, curveExample_optionsOf, hf]
  unfold dumpFiles
  rw [hd]
  rfl

/-- The same command line for the box tool: what it writes are the curves of matches as in C17. -/
example {G : Type} (S : StdSort) (rng : Rng G) (prog : Str) :
    let w := dumpExample "a d 0 0 2 2\nb d 0 0 2 2\n".toList
      "b d 0 0 2 2 0.5\n\n# x\na d 9 9 2 2 1.5\n".toList
    ∃ dump files l ms rep, filesOf
        (traceMain Rnd.exact S rng (icdarKit Rnd.exact S) icdarTexts w prog curveArgv).effects =
        dump ++ files ∧ (∀ f ∈ dump, f.1 = curveOptions.dumpMatches) ∧ l.length = 2 ∧
      BoxMatching [⟨"a".toList, ⟨⟨0, 0, 2, 2⟩, "d".toList⟩⟩, ⟨"b".toList, ⟨⟨0, 0, 2, 2⟩, "d".toList⟩⟩]
        l ms rep ∧ CurveFiles curveOptions (matchCurves id 3 true true ms) files := by
  intro w
  obtain ⟨y1, y2⟩ := runExample_yields
  have hp := curveExample_parse
  have ho := curveExample_options
  obtain ⟨r, hr, _⟩ := (C62_box_partial Rnd.exact S rng w curveOptions
    (fun t u h1 h2 => by
      obtain rfl := Option.some.inj ((dumpExample_file _ _).symm.trans h1)
      obtain rfl := Option.some.inj h2
      exact ⟨fun h => by simp [curveOptions] at h, fun _ => rfl, fun _ => rfl,
        fun _ => ⟨exact_precise, by decide +kernel⟩⟩)).1
    ⟨⟨by decide, ⟨_, dumpExample_file _ _, yields_valid y1⟩, ⟨_, if_pos rfl, yields_valid y2⟩,
      fun h => absurd rfl h, fun h => absurd rfl h⟩, Or.inl rfl⟩
  rw [← ho, ← toolMain_accepted hp] at hr
  obtain ⟨dump, files, l, ms, rep, h1, h2, h3, _, h4, h5⟩ := C78_box_files S rng w prog curveArgv _ _ hp
    ho.symm _ _ _ _ (dumpExample_file _ _) (if_pos rfl) y1 y2 (by
      intro r hr
      simp only [List.mem_cons, List.not_mem_nil, or_false] at hr
      rcases hr with rfl | rfl <;> exact ⟨by decide, by decide⟩) (by
      intro r hr
      simp only [List.mem_cons, List.not_mem_nil, or_false] at hr
      rcases hr with rfl | rfl <;> exact ⟨⟨by decide, by decide⟩, by decide +kernel⟩) rfl rfl r hr
  have hl : listedQueries w curveOptions = [] := rfl
  rw [hl] at h3 h4
  exact ⟨dump, files, l, ms, rep, h1, h2, h3.length_eq, h4, h5⟩

end Kws
