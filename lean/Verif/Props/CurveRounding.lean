import Verif.Lemmas.CurveRounding
import Verif.Props.CurveFiles

/-!
# C78: the recall-precision curves in floating-point arithmetic

Recalls are fractions with the number of references as denominator, sample points are fractions with
the number of samples less one. Rounding does not change their order, so that the same points are used
for interpolation, and the errors stay small.
-/

namespace Kws
open Spec

/-- The curves of the segmentation-based evaluation. -/
theorem seg_curvesNear {μ Q L G : Type} [DecidableEq Q] [Cmp Q] [LawfulCmp Q] [DecidableEq L] [Cmp L]
    [LawfulCmp L] (S : StdSort) (rng : Rng G) (kit : ToolKit μ (EventSet (Event Q L)) Q L)
    (hk : SegKit kit) (w : World) (o : ToolOptions) (q2g : List (Q × Q)) (refs : List (Event Q L))
    (hyps : List (ScoredEvent Q L)) (r : Report Q L) (n : ℕ) (hn : refs.length + hyps.length ≤ n)
    (hn' : n ≤ 2 ^ 24) (hs : o.curveSamples ≤ 2 ^ 24) (hnan : ∀ h ∈ hyps, h.score ≠ .nan)
    (hd : o.sort = "desc".toList) (hc : o.collapse = true)
    (h : evaluate Rnd.ieee S rng kit w o q2g refs hyps = .ok (.done r)) :
    HasCurvesNear o r (segCurves (groupOf q2g) o.curveSamples o.interp o.trapezoid (usedRefs q2g refs)
      (usedHyps q2g hyps)) (curvesError n) := by
  obtain ⟨l, s', ms, rep, h2, h3, h4, h5, h6⟩ := evaluate_curvesNear S rng kit hk.safe (by
    intro r x e he hf
    rw [hk.scorer, C24_trivial_scorer] at he
    injection he with he
    subst he
    unfold verdict at hf ⊢
    split
    · rfl
    · rename_i hne; rw [if_neg hne] at hf; norm_num at hf) w o q2g refs hyps r n hn hn' hs hnan hd hc h
  rw [hk.index, hk.scorer] at h4
  obtain ⟨s2, missed, rep2, c1, c2, c3⟩ := C24_segmentation_result kit.refsSet (usedRefs q2g refs) l
  rw [c1, Except.ok.injEq, Prod.mk.injEq, Prod.mk.injEq] at h4
  obtain ⟨rfl, rfl, rfl⟩ := h4
  have hl : ∀ h ∈ l, h.score ≠ .nan := fun x hx => hnan x (usedHyps_mem q2g hyps x (h2.mem_iff.1 hx))
  have := segMatches_curves (groupOf q2g) o.curveSamples o.interp o.trapezoid (usedRefs q2g refs) missed l
    h3 hl ⟨c2.imp (fun {a b} hab => by
      rintro rfl
      rw [LawfulCmp.irrefl] at hab
      exact absurd hab (by decide)), c3⟩ h5
  rw [segCurves_congr _ _ _ _ _ _ _ _ hl (fun _ => Iff.rfl) h2] at this
  rw [← this]
  exact h6

section
variable {G : Type}

/-- C78: in IEEE-754 arithmetic, the curves of the segmentation-based tool, with its default sorting and
collapsing, have as many points, and no coordinate is off by more than `(n + 3) / 2^49` for `n` events. -/
theorem C78_segmentation_rounded (S : StdSort) (rng : Rng G) (qf : Bool) (w : World)
    (o : ToolOptions) (hV : (vocabulary w o).dedup.length ≤ 2 ^ 31) (t u : Str)
    (refs : List (Event Str Str)) (hyps : List (ScoredEvent Str Str))
    (ht : w.file o.refFilename = some t) (hu : hypText w o = some u)
    (hrefs : Yields StrEventText (lines t) refs)
    (hhyps : Yields (ScoredText Rnd.ieee StrEventText) (lines u) hyps)
    (hn : refs.length + hyps.length ≤ 2 ^ 24) (hm : o.curveSamples ≤ 2 ^ 24)
    (hd : o.sort = "desc".toList) (hc : o.collapse = true) (r : Report Nat Nat)
    (h : mainWith Rnd.ieee S rng (simpleKit Rnd.ieee qf) w o = .ok (.done r)) :
    HasCurvesNear o r (segCurves (groupFor w o) o.curveSamples o.interp o.trapezoid
      (keep (·.query) (listedQueries w o) refs) (keep (·.base.query) (listedQueries w o) hyps))
      ((refs.length + hyps.length + 3) / 2 ^ 49) := by
  have hr : o.refFilename ≠ [] := by
    intro hr
    unfold mainWith at h
    rw [if_pos hr] at h
    cases h
  have v1 := yields_valid hrefs
  have v2 := yields_valid hhyps
  obtain ⟨f, N, hf, _, e⟩ := simple_good Rnd.ieee S rng qf w o hV hr t u ht hu v1 v2
  rw [yields_events (Format.strRefs (R := Rnd.ieee)) hrefs, yields_events Format.strHyps hhyps] at e
  rw [e] at h
  cases hq : readQueryMap (fun (m : Unit) q => (m, (.ok q : Cpp Str))) w o () with
  | error x => rw [hq] at h; cases h
  | ok x =>
    rw [hq] at h
    cases x with
    | none => cases h
    | some q2g =>
      obtain ⟨q1, q2⟩ := readQueryMap_spec w o q2g hq
      have hfin := (str_plain Rnd.ieee).finite u v2
      rw [yields_events Format.strHyps hhyps] at hfin
      have := seg_curvesNear S rng (simpleKit Rnd.ieee qf) (simple_seg Rnd.ieee qf) w o
        (q2g.map (Prod.map f f)) _ _ r (refs.length + hyps.length) (by simp) hn hm (fun x hx => by
          obtain ⟨y, hy, rfl⟩ := List.mem_map.1 hx
          exact hfin y hy) hd hc h
      rw [usedRefs_rename f hf, usedHyps_rename f hf,
        segCurves_rename hf hf (groupFor w o) _ (fun q => by rw [groupOf_rename hf, q2])] at this
      unfold usedRefs usedHyps at this
      rw [filter_keep _ _ q1, filter_keep _ _ q1] at this
      unfold curvesError at this
      push_cast at this
      exact this

/-- C78: in IEEE-754 arithmetic, the curves of the box tool, with its default sorting and collapsing, are
close to those of matches as `BoxMatching` describes them. -/
theorem C78_box_rounded (S : StdSort) (rng : Rng G) (w : World) (o : ToolOptions) (t u : Str)
    (refs : List (Event Str (DocBox Str UInt32))) (hyps : List (ScoredEvent Str (DocBox Str UInt32)))
    (ht : w.file o.refFilename = some t) (hu : hypText w o = some u)
    (hrefs : Yields BoxEventText (lines t) refs)
    (hhyps : Yields (ScoredText Rnd.ieee BoxEventText) (lines u) hyps)
    (hr : ∀ r ∈ refs, EdgesOkU r.location.toBBox) (hh : ∀ h ∈ hyps, InRangeU h.base)
    (hn : refs.length + hyps.length ≤ 2 ^ 24) (hm : o.curveSamples ≤ 2 ^ 24)
    (h24 : ∀ h ∈ hyps, areaU h.base ≤ 2 ^ 24)
    (hd : o.sort = "desc".toList) (hc : o.collapse = true) (r : Report Str (DocBox Str UInt32))
    (h : mainWith Rnd.ieee S rng (icdarKit Rnd.ieee S) w o = .ok (.done r)) :
    ∃ l ms rep,
      l.Perm (keep (·.base.query) (listedQueries w o) hyps) ∧
      l.Pairwise (fun a b => Flt.lt a.score b.score = false) ∧
      BoxMatching (keep (·.query) (listedQueries w o) refs) l ms rep ∧
      HasCurvesNear o r (matchCurves (groupFor w o) o.curveSamples o.interp o.trapezoid ms)
        ((refs.length + hyps.length + 3) / 2 ^ 49) := by
  have hr0 : o.refFilename ≠ [] := by
    intro hr
    unfold mainWith at h
    rw [if_pos hr] at h
    cases h
  have v1 := yields_valid hrefs
  have v2 := yields_valid hhyps
  rw [(icdar_plain Rnd.ieee S).main_good S rng w o hr0 t u ht hu v1 v2,
    yields_events (Format.boxRefs (R := Rnd.ieee)) hrefs, yields_events Format.boxHyps hhyps,
    (icdar_plain Rnd.ieee S).mapQuery] at h
  cases hq : readQueryMap (fun (m : Unit) q => (m, (.ok q : Cpp Str))) w o () with
  | error x => rw [hq] at h; cases h
  | ok x =>
    rw [hq] at h
    cases x with
    | none => cases h
    | some q2g =>
      obtain ⟨q1, q2⟩ := readQueryMap_spec w o q2g hq
      have hfin := (icdar_plain Rnd.ieee S).finite u v2
      rw [yields_events Format.boxHyps hhyps] at hfin
      obtain ⟨l, s', ms, rep, e2, e3, e4, e5, e7⟩ := evaluate_curvesNear S rng (icdarKit Rnd.ieee S)
        (icdar_safe Rnd.ieee S) (by
          intro a b e he hf
          obtain ⟨i, hi⟩ := inter_ok a b.base
          have := ioh_eq Rnd.ieee (1 / 2) a b i hi
          rw [show (icdarKit Rnd.ieee S).scorer a b = iohScorer Rnd.ieee (1 / 2) a b from rfl, this] at he
          injection he with he
          subst he
          unfold verdict at hf ⊢
          split
          · rfl
          · rename_i hne; rw [if_neg hne] at hf; norm_num at hf) w o q2g refs hyps r
        (refs.length + hyps.length) le_rfl hn hm hfin hd hc h
      have k1 : usedRefs q2g refs = keep (·.query) (listedQueries w o) refs := by
        unfold usedRefs
        rw [filter_keep _ _ q1]
      have k2 : usedHyps q2g hyps = keep (·.base.query) (listedQueries w o) hyps := by
        unfold usedHyps
        rw [filter_keep _ _ q1]
      have hsub : ∀ x ∈ l, x ∈ hyps := fun x hx => usedHyps_mem q2g hyps x (e2.mem_iff.1 hx)
      rw [k2] at e2
      rw [k1] at e4
      have hg : groupOf q2g = groupFor w o := funext q2
      rw [hg] at e7
      unfold curvesError at e7
      push_cast at e7
      refine ⟨l, ms, rep, e2, e3, ?_, e7⟩
      obtain ⟨s1, ms1, rep1, f1, f2⟩ := C17_box_matching Rnd.ieee S DocEventSet.new
        (keep (·.query) (listedQueries w o) refs) l (fun x hx => hr x (keep_subset _ _ _ x hx))
        (fun x hx => hh x (hsub x hx)) (Or.inr ⟨ieee_faithful, fun x hx => h24 x (hsub x hx)⟩)
      rw [show SimpleMatcher.run (icdarKit Rnd.ieee S).index (icdarKit Rnd.ieee S).scorer
        (icdarKit Rnd.ieee S).refsSet (keep (·.query) (listedQueries w o) refs) l = _ from f1,
        Except.ok.injEq, Prod.mk.injEq, Prod.mk.injEq] at e4
      obtain ⟨_, rfl, rfl⟩ := e4
      exact f2

end

/-- The run of `Props/CurveFiles.lean` in IEEE-754 arithmetic: the ordinates are within `2^-45` of 1, 2/3
and 0. -/
example {G : Type} (S : StdSort) (rng : Rng G) :
    ∃ r pts, mainWith Rnd.ieee S rng (simpleKit Rnd.ieee true) (dumpExample curveRefs curveHyps)
        curveOptions = .ok (.done r) ∧ r.globalCurve = some pts ∧
      List.Forall₂ (fun p q => |p.1 - q.1| ≤ 1 / 2 ^ 45 ∧ |p.2 - q.2| ≤ 1 / 2 ^ 45) pts
        [(0, 1), (1 / 2, 2 / 3), (1, 0)] := by
  obtain ⟨y1, _⟩ := curveExample_yields
  have y2 : Yields (ScoredText Rnd.ieee StrEventText) (lines curveHyps)
      [⟨⟨"a".toList, "l".toList⟩, .fin 3⟩, ⟨⟨"a".toList, "m".toList⟩, .fin 2⟩,
        ⟨⟨"b".toList, "l".toList⟩, .fin 1⟩] :=
    (C48_accepts (Format.strHyps (R := Rnd.ieee)) _ _).1 (by decide +kernel)
  obtain ⟨r, hr, hcp⟩ := (C62_segmentation_partial Rnd.ieee S rng true (dumpExample curveRefs curveHyps)
    curveOptions curveExample_vocabulary
    (fun t u h1 h2 => by
      obtain rfl := Option.some.inj ((dumpExample_file _ _).symm.trans h1)
      obtain rfl := Option.some.inj h2
      exact ⟨fun h => by simp [curveOptions] at h, fun _ => rfl, fun _ => rfl,
        fun _ => ⟨ieee_precise, by decide +kernel⟩⟩)).1
    ⟨⟨by decide, ⟨_, dumpExample_file _ _, yields_valid y1⟩, ⟨_, if_pos rfl, yields_valid y2⟩,
      fun h => absurd rfl h, fun h => absurd rfl h⟩, Or.inl rfl⟩
  have hC := (C78_segmentation_rounded S rng true (dumpExample curveRefs curveHyps) curveOptions
    curveExample_vocabulary _ _ _ _ (dumpExample_file _ _) (if_pos rfl) y1 y2 (by decide) (by decide) rfl
    rfl r hr).all
  rw [show groupFor (dumpExample curveRefs curveHyps) curveOptions = id from rfl,
    show listedQueries (dumpExample curveRefs curveHyps) curveOptions = [] from rfl,
    if_neg (by decide)] at hC
  obtain ⟨pts, h1, h2⟩ := hC
  refine ⟨r, pts, hr, h1, ?_⟩
  have e : (segCurves id curveOptions.curveSamples curveOptions.interp curveOptions.trapezoid
      (keep (·.query) [] [⟨"a".toList, "l".toList⟩, ⟨"b".toList, "l".toList⟩, ⟨"c".toList, "l".toList⟩])
      (keep (·.base.query) [] [⟨⟨"a".toList, "l".toList⟩, .fin 3⟩, ⟨⟨"a".toList, "m".toList⟩, .fin 2⟩,
        ⟨⟨"b".toList, "l".toList⟩, .fin 1⟩])).all = [(0, 1), (1 / 2, 2 / 3), (1, 0)] := by
    unfold segCurves Curves.of
    decide +kernel
  rw [e] at h2
  refine forall₂_relax h2 fun p q hpq => ⟨hpq.1.trans ?_, hpq.2.trans ?_⟩ <;> norm_num

end Kws
