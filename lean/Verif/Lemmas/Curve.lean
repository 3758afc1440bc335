import Verif.Lemmas.Numbers
import Verif.Spec.Curves
import Verif.Props.Sampling

/-!
Facts about the recall-precision curves of a run.
-/

set_option linter.unusedSectionVars false

namespace Kws
open Spec

theorem Stutter.mapped {α β : Type} (f : α → β) {l l' : List α} (h : Stutter l l') :
    Stutter (l.map f) (l'.map f) := by
  induction h with
  | nil => exact .nil
  | cons x l l' _ ih => exact .cons _ _ _ ih
  | dup x l l' _ ih => exact .dup _ _ _ ih

theorem Stutter.trans_eq_nil {α : Type} {l l' : List α} (h : Stutter l l') : l = [] ↔ l' = [] := by
  cases h <;> simp

theorem Stutter.valueAt {linear : Bool} {x : ℚ} {l l' : List (ℚ × ℚ)} (h : Stutter l l') :
    ∀ prev, valueAt linear x prev l = valueAt linear x prev l' := by
  induction h with
  | nil => intro prev; rfl
  | cons p l l' _ ih =>
    intro prev
    unfold Spec.valueAt
    rw [ih]
  | dup p l l' _ ih =>
    intro prev
    rw [ih]
    by_cases hp : p.1 < x
    · simp only [Spec.valueAt, if_pos hp]
    · simp only [Spec.valueAt, if_neg hp]

/-- The value of a curve is on the curve. -/
theorem valueAt_onCurve (linear : Bool) (x : ℚ) (l : List (ℚ × ℚ)) : ∀ pre : List (ℚ × ℚ),
    (∀ p ∈ pre, p.1 < x) → OnCurve linear (pre ++ l) x (valueAt linear x pre.getLast? l) := by
  induction l with
  | nil =>
    intro pre h
    exact Or.inl ⟨by simpa using h, rfl⟩
  | cons p l ih =>
    intro pre h
    unfold valueAt
    by_cases hp : p.1 < x
    · rw [if_pos hp]
      have := ih (pre ++ [p]) (by
        intro q hq
        rcases List.mem_append.1 hq with hq | hq
        · exact h q hq
        · rw [List.mem_singleton.1 hq]; exact hp)
      simpa using this
    · rw [if_neg hp]
      refine Or.inr ⟨pre, p.1, p.2, l, rfl, h, not_lt.1 hp, ?_⟩
      cases hg : pre.getLast? with
      | none =>
        rw [List.getLast?_eq_none_iff] at hg
        simp [hg]
      | some q =>
        have hne : pre ≠ [] := by rintro rfl; simp at hg
        have hq := h q (List.mem_of_getLast? hg)
        cases linear with
        | false => simp
        | true =>
          rw [if_pos ⟨rfl, hne⟩]
          have : p.1 - q.1 ≠ 0 := by
            have := not_lt.1 hp
            intro h0
            linarith
          refine ⟨q.1, q.2, rfl, by linarith [not_lt.1 hp], ?_⟩
          simp only [if_true]
          field_simp
          ring

theorem onCurve_valueAt {linear : Bool} {src : List (ℚ × ℚ)} {x y : ℚ} (h : OnCurve linear src x y) :
    y = valueAt linear x none src :=
  C37_unique linear src x y _ h (by simpa using valueAt_onCurve linear x src [] (by simp))

section
variable {Q L : Type}

/-- The curve of a list of hits, false positives and false negatives, from the tally. -/
theorem matchesPR_curve (ms : List (KwsMatch Q L)) (h : ∀ m ∈ ms, HardMatch m) (hn : NoNaN ms)
    (hs : ByRank ms) (scores : List Flt) (hsc : Thresholds (MatchScores ms) scores) (interp : Bool) :
    Stutter ((tallyOf ms).curve interp scores)
      ((matchesPR Rnd.exact ms true interp).2.zip (matchesPR Rnd.exact ms true interp).1) := by
  obtain ⟨ranks, h1, h2, _⟩ := globalAP_ranks ms h hn hs false false
  have hp : matchesPR Rnd.exact ms true interp =
      ((if interp then topped (ranks.map (tallyOf ms).point) else ranks.map (tallyOf ms).point).map
        Prod.fst,
      (if interp then topped (ranks.map (tallyOf ms).point) else ranks.map (tallyOf ms).point).map
        Prod.snd) := by
    unfold matchesPR
    rw [if_pos rfl, h2, computePR_points,
      points_eq ms h ranks h1.sorted (fun m hm => (h1.mem _).2 ⟨m, hm, rfl⟩)]
  have hz : ∀ l : List (ℚ × ℚ), (l.map Prod.snd).zip (l.map Prod.fst) = l.map Prod.swap := by
    intro l
    induction l with
    | nil => rfl
    | cons p l ih => simp only [List.map_cons, List.zip_cons_cons, ih]; rfl
  rw [hp]
  simp only
  rw [hz]
  unfold Tally.curve
  simp only
  refine Stutter.mapped _ ?_
  have key : Stutter (if scores = [] ∧ (tallyOf ms).refs ≠ 0 then [(1, 0)]
      else scores.map (tallyOf ms).point) (ranks.map (tallyOf ms).point) := by
    rcases ranks_scores ms h ranks scores h1 hsc with ⟨rfl, hh0, hw0, hr⟩ | ⟨hne, hsub, hhead⟩
    · rcases hr with ⟨rfl, hrefs⟩ | ⟨rfl, hrefs⟩
      · rw [if_neg (by simp [hrefs])]
        exact .nil
      · rw [if_pos ⟨rfl, hrefs⟩]
        have : (tallyOf ms).point .ninf = (1, 0) := by
          unfold Tally.point
          simp [hh0, hw0, hrefs]
        rw [List.map_cons, this]
        exact Stutter.refl _
    · rw [if_neg (by simp [hne])]
      exact tally_stutter ms scores ranks h1.sorted hsc hsub hhead
  cases interp
  · exact key
  · exact key.topped

/-- The curve of a list of matches, in exact arithmetic. -/
def exactCurve (collapse interp : Bool) (ms : List (KwsMatch Q L)) : List (ℚ × ℚ) :=
  (matchesPR Rnd.exact ms collapse interp).2.zip (matchesPR Rnd.exact ms collapse interp).1

theorem sampled_grid (n : ℕ) : evenPoints Rnd.exact n = (sampled n (fun x => x)).map Prod.fst := by
  unfold evenPoints sampled
  by_cases h : n ≤ 1
  · rw [if_neg (by omega), if_pos h]
    rfl
  · rw [if_pos (by omega), if_neg h, List.map_map]
    refine List.map_congr_left fun k _ => ?_
    simp only [Rnd.exact, id, Function.comp]
    rw [Nat.cast_sub (by omega), Nat.cast_one]

/-- A list of points over the grid with a given ordinate at each abscissa. -/
theorem sampled_of {α : Type} (n : ℕ) (f : ℚ → α) (pts : List (ℚ × α))
    (h1 : pts.map Prod.fst = evenPoints Rnd.exact n) (h2 : ∀ p ∈ pts, p.2 = f p.1) :
    pts = sampled n f := by
  have e : pts = (pts.map Prod.fst).map (fun x => (x, f x)) := by
    rw [List.map_map]
    conv_lhs => rw [← List.map_id pts]
    refine List.map_congr_left fun p hp => ?_
    exact Prod.ext rfl (h2 p hp)
  rw [e, h1, sampled_grid]
  unfold sampled
  split
  · rfl
  · simp only [List.map_map]
    rfl

variable [DecidableEq Q] {G : Type}

/-- The curves of an assessment, computed without rounding. -/
def exactCurves (grp : Q → Q) (o : ToolOptions) (ms : List (KwsMatch Q L)) : Curves where
  all := sampled o.curveSamples fun x => valueAt o.trapezoid x none (exactCurve o.collapse o.interp ms)
  mean := sampled o.curveSamples fun x =>
    if ((ms.filterMap eventOf).map (grp ·.query)).dedup = [] then .nan
    else .fin (average (((ms.filterMap eventOf).map (grp ·.query)).dedup.map fun g =>
      valueAt o.trapezoid x none (exactCurve o.collapse o.interp (ms.filter (InGroup grp g)))))

/-- The curves of an assessment. -/
theorem assess_curvesSpec (S : StdSort) (rng : Rng G) (w : World) (o : ToolOptions)
    (q2g : List (Q × Q)) (ms : List (KwsMatch Q L)) (groups : List (List (KwsMatch Q L)))
    (dump : Option (List (KwsMatch Q L) × List (KwsMatch Q L))) (r : Report Q L)
    (hh : ∀ m ∈ ms, HardMatch m) (hg : groupMatches q2g ms = .ok groups)
    (h : assess Rnd.exact S rng w o ms groups dump = .ok r) :
    HasCurves o r (exactCurves (groupOf q2g) o ms) := by
  obtain ⟨g1, g2, _⟩ := groupMatches_facts _ _ _ hg
  obtain ⟨keys, k1, k2, k3⟩ := groupMatches_events q2g ms (fun m hm => (hh m hm).event)
  rw [hg] at k3
  injection k3 with k3
  have hrates : ∀ m ∈ ms, Rates m.error := by
    intro m hm
    rcases (hh m hm).outcome with e | e | e <;> rw [e] <;> norm_num [Rates, Outcome.error]
  have hperm : keys.Perm ((ms.filterMap eventOf).map (groupOf q2g ·.query)).dedup :=
    (List.perm_ext_iff_of_nodup k1 (List.nodup_dedup _)).2 (fun k => by rw [k2, List.mem_dedup])
  obtain ⟨c1, c2, c3, c4⟩ := assess_curves _ _ _ _ _ _ _ _ _ h
  have hw : ∀ {K K' : Type} (f : Str) (x : List K) (y : List K') c,
      writeCurveFile w f x y = .ok c → w.writable f = true := by
    intro K K' f x y c h
    unfold writeCurveFile at h
    simp only [bind, Except.bind] at h
    split at h
    · cases h
    · split at h
      · assumption
      · cases h
  constructor
  · by_cases ho : o.outputGrp = []
    · rw [if_pos ho, c1 ho]
    · rw [if_neg ho]
      obtain ⟨c, e1, e2⟩ := c2 ho
      have hwr : w.writable o.outputGrp = true := by
        unfold globalRPCurve at e1
        simp only [bind, Except.bind] at e1
        split at e1
        · cases e1
        · exact hw _ _ _ _ e1
      obtain ⟨pts, f1, f2, f3⟩ := C39_global w o.outputGrp ms o.curveSamples o.collapse o.interp o.trapezoid ho
        hwr hrates
      rw [f1] at e1
      injection e1 with e1
      rw [e2, ← e1]
      congr 1
      unfold exactCurves
      simp only
      refine sampled_of _ _ _ f2 fun p hp => ?_
      exact onCurve_valueAt (f3 p hp).1
  · by_cases ho : o.outputMrp = []
    · rw [if_pos ho, c3 ho]
    · rw [if_neg ho]
      obtain ⟨c, e1, e2⟩ := c4 ho
      have hwr : w.writable o.outputMrp = true := by
        unfold meanRPCurve at e1
        simp only [bind, Except.bind] at e1
        split at e1
        · cases e1
        · split at e1
          · cases e1
          · exact hw _ _ _ _ e1
      obtain ⟨pts, f1, f2, f3⟩ := C39_mean w o.outputMrp groups o.curveSamples o.collapse o.interp o.trapezoid ho
        hwr (fun g hg m hm => hrates m ((g2 g hg).subset hm))
      rw [f1] at e1
      injection e1 with e1
      rw [e2, ← e1]
      congr 1
      unfold exactCurves
      simp only
      refine sampled_of _ _ _ f2 fun p hp => ?_
      obtain ⟨p1, p2⟩ := f3 p hp
      by_cases hk : ((ms.filterMap eventOf).map (groupOf q2g ·.query)).dedup = []
      · rw [if_pos hk, p1]
        rw [hk, List.perm_nil] at hperm
        rw [k3, hperm]
        rfl
      · rw [if_neg hk]
        obtain ⟨ys, y1, y2, y3⟩ := p2 (by
          intro hg0
          rw [k3, List.map_eq_nil_iff] at hg0
          rw [hg0] at hperm
          exact hk (List.nil_perm.1 hperm))
        rw [y2]
        congr 1
        have : ys = keys.map (fun k => valueAt o.trapezoid p.1 none
            (exactCurve o.collapse o.interp (ms.filter (InGroup (groupOf q2g) k)))) := by
          rw [k3, List.forall₂_map_left_iff] at y1
          clear y2 y3 k1 k2 k3 hperm
          induction y1 with
          | nil => rfl
          | @cons k y ks ys hab _ ih =>
            rw [List.map_cons, ← ih]
            congr 1
            exact onCurve_valueAt hab
        rw [this]
        show average _ = _
        exact average_perm (hperm.map _)

/-- With collapsing, the curves of ranked matches are those of their tallies. -/
theorem exactCurves_tally (grp : Q → Q) (o : ToolOptions) (ms : List (KwsMatch Q L))
    (hc : o.collapse = true) (hh : ∀ m ∈ ms, HardMatch m) (hn : NoNaN ms) (hs : ByRank ms) :
    exactCurves grp o ms = matchCurves grp o.curveSamples o.interp o.trapezoid ms := by
  classical
  have key : ∀ l : List (KwsMatch Q L), l.Sublist ms → ∀ x,
      valueAt o.trapezoid x none (exactCurve o.collapse o.interp l) =
        valueAt o.trapezoid x none ((tallyOf l).curve o.interp (descending (scoresIn l))) := by
    intro l hl x
    rw [hc]
    exact ((matchesPR_curve l (fun m hm => hh m (hl.subset hm)) (fun m hm => hn m (hl.subset hm))
      (List.Pairwise.sublist hl hs) _ (scoresIn_thresholds l (fun m hm => hn m (hl.subset hm)))
      o.interp).valueAt none).symm
  unfold exactCurves matchCurves Curves.of
  simp only [List.map_map, List.map_eq_nil_iff]
  congr 1
  · congr 1
    funext x
    exact key ms (List.Sublist.refl _) x
  · congr 1
    funext x
    refine if_congr Iff.rfl rfl ?_
    congr 2
    refine List.map_congr_left fun g _ => ?_
    exact key _ List.filter_sublist x

end

/-! ## Evaluating -/

section
variable {μ σ Q L G : Type} [DecidableEq Q] [Cmp Q] [LawfulCmp Q] [DecidableEq L] [Cmp L] [LawfulCmp L]

/-- The curves of an evaluation are those of the matches of a run on the hypotheses in decreasing
order of score. -/
theorem evaluate_curves (S : StdSort) (rng : Rng G) (kit : ToolKit μ σ Q L)
    (hk : SafeKit kit) (hh : ∀ r x e, kit.scorer r x = .ok e → e.fp < 1 → e = ⟨0, 0⟩) (w : World)
    (o : ToolOptions) (q2g : List (Q × Q)) (refs : List (Event Q L)) (hyps : List (ScoredEvent Q L))
    (r : Report Q L) (hnan : ∀ h ∈ hyps, h.score ≠ .nan) (hd : o.sort = "desc".toList)
    (hc : o.collapse = true) (h : evaluate Rnd.exact S rng kit w o q2g refs hyps = .ok (.done r)) :
    ∃ (l : List (ScoredEvent Q L)) (s' : σ) (ms rep : List (KwsMatch Q L)),
      l.Perm (usedHyps q2g hyps) ∧ l.Pairwise (fun a b => Flt.lt a.score b.score = false) ∧
      SimpleMatcher.run kit.index kit.scorer kit.refsSet (usedRefs q2g refs) l = .ok (s', ms, rep) ∧
      NoNaN ms ∧ HasCurves o r (matchCurves (groupOf q2g) o.curveSamples o.interp o.trapezoid ms) := by
  obtain ⟨l, s', ms, rep, groups, h1, h2, h3, h4⟩ := evaluate_done _ _ _ _ _ _ _ _ _ _ h
  rw [hd] at h1
  obtain ⟨a1, a2, a3⟩ := evaluate_ranked Rnd.exact S kit hk q2g refs hyps l s' ms rep hnan
    (Or.inl rfl) h1 h2
  have hm := run_hardMatch _ _ _ _ _ _ _ _ h2 hh
  refine ⟨l, s', ms, rep, a2, a3, h2, a1.noNaN, ?_⟩
  rw [← exactCurves_tally _ o ms hc hm a1.noNaN a1.byRank]
  exact assess_curvesSpec S rng w o q2g ms groups _ r hm h3 h4

omit [Cmp Q] [LawfulCmp Q] [Cmp L] [LawfulCmp L] in
/-- The value of the curve of the segmentation-based evaluation. -/
theorem segMatches_value (refs missed : List (Event Q L)) (l : List (ScoredEvent Q L))
    (hs : l.Pairwise (fun a b => Flt.lt a.score b.score = false)) (hn : ∀ h ∈ l, h.score ≠ .nan)
    (hm : Missed refs missed l) (hnan : NoNaN (segMatches refs missed l)) (interp linear : Bool) (x : ℚ) :
    let ms := segMatches refs missed l
    valueAt linear x none ((tallyOf ms).curve interp (descending (scoresIn ms))) =
      valueAt linear x none ((segTally refs l).curve interp (descending (l.map (·.score)))) := by
  intro ms
  have hst := segMatches_stutter refs missed l hs hn hm hnan
  have hrefs : (tallyOf ms).refs = (segTally refs l).refs := by
    rw [segMatches_tally_eq refs missed l hs hn hm]
  refine Stutter.valueAt (Stutter.mapped _ ?_) none
  have hnil := hst.trans_eq_nil
  rw [List.map_eq_nil_iff, List.map_eq_nil_iff] at hnil
  have key : Stutter (if descending (scoresIn ms) = [] ∧ (tallyOf ms).refs ≠ 0 then [(1, 0)]
      else (descending (scoresIn ms)).map (tallyOf ms).point)
      (if descending (l.map (·.score)) = [] ∧ (segTally refs l).refs ≠ 0 then [(1, 0)]
      else (descending (l.map (·.score))).map (segTally refs l).point) := by
    rw [hrefs]
    by_cases hc : descending (scoresIn ms) = [] ∧ (segTally refs l).refs ≠ 0
    · rw [if_pos hc, if_pos ⟨hnil.1 hc.1, hc.2⟩]
      exact Stutter.refl _
    · rw [if_neg hc, if_neg (fun h => hc ⟨hnil.2 h.1, h.2⟩)]
      exact hst
  cases interp
  · exact key
  · exact key.topped

/-- The curves of the matches of the segmentation-based evaluation. -/
theorem segMatches_curves (grp : Q → Q) (n : ℕ) (interp linear : Bool) (refs missed : List (Event Q L))
    (l : List (ScoredEvent Q L)) (hs : l.Pairwise (fun a b => Flt.lt a.score b.score = false))
    (hn : ∀ h ∈ l, h.score ≠ .nan) (hm : Missed refs missed l)
    (hnan : NoNaN (segMatches refs missed l)) :
    matchCurves grp n interp linear (segMatches refs missed l) =
      segCurves grp n interp linear refs l := by
  have hgrp : ∀ g, (segMatches refs missed l).filter (InGroup grp g) =
      segMatches (refs.filter (grp ·.query = g)) (missed.filter (grp ·.query = g))
        (l.filter (grp ·.base.query = g)) := by
    intro g
    exact segMatches_filter refs missed (fun e => grp e.query = g) l
  have hg : ∀ g x, let ms := (segMatches refs missed l).filter (InGroup grp g)
      valueAt linear x none ((tallyOf ms).curve interp (descending (scoresIn ms))) =
        valueAt linear x none
          ((segTally (refs.filter (grp ·.query = g)) (l.filter (grp ·.base.query = g))).curve interp
            (descending ((l.filter (grp ·.base.query = g)).map (·.score)))) := by
    intro g x ms
    have e : ms = segMatches _ _ _ := hgrp g
    rw [e]
    refine segMatches_value _ _ _ (hs.sublist List.filter_sublist)
      (fun h hh => hn h (List.mem_filter.1 hh).1) (hm.filter (fun e => grp e.query = g)) ?_ _ _ _
    intro m hm'
    rw [← hgrp] at hm'
    exact hnan m (List.mem_filter.1 hm').1
  have hperm : (((segMatches refs missed l).filterMap eventOf).map (grp ·.query)).dedup.Perm
      (refs.map (grp ·.query) ++ l.map (grp ·.base.query)).dedup := by
    rw [List.perm_ext_iff_of_nodup (List.nodup_dedup _) (List.nodup_dedup _)]
    intro k
    simp only [List.mem_dedup, List.mem_map, List.mem_append, segMatches_events refs missed l hm]
    constructor
    · rintro ⟨e, h | ⟨x, hx, rfl⟩, rfl⟩
      · exact Or.inl ⟨e, h, rfl⟩
      · exact Or.inr ⟨x, hx, rfl⟩
    · rintro (⟨e, h, rfl⟩ | ⟨x, hx, rfl⟩)
      · exact ⟨e, Or.inl h, rfl⟩
      · exact ⟨x.base, Or.inr ⟨x, hx, rfl⟩, rfl⟩
  unfold matchCurves segCurves Curves.of
  simp only [List.map_map]
  congr 1
  · congr 1
    funext x
    exact segMatches_value refs missed l hs hn hm hnan interp linear x
  · congr 1
    funext x
    simp only [List.map_eq_nil_iff]
    have hnil : (((segMatches refs missed l).filterMap eventOf).map (grp ·.query)).dedup = [] ↔
        (refs.map (grp ·.query) ++ l.map (grp ·.base.query)).dedup = [] := by
      rw [← List.length_eq_zero_iff, ← List.length_eq_zero_iff, hperm.length_eq]
    simp only [hnil]
    split
    · rfl
    · congr 1
      rw [average_perm (hperm.map _)]
      congr 1
      exact List.map_congr_left fun g _ => hg g x

omit [Cmp Q] [LawfulCmp Q] [Cmp L] [LawfulCmp L] in
/-- The order of the hypotheses and the order and repetition of references do not matter. -/
theorem segCurves_congr (grp : Q → Q) (n : ℕ) (interp linear : Bool) (refs refs' : List (Event Q L))
    (hyps hyps' : List (ScoredEvent Q L)) (hn : ∀ h ∈ hyps, h.score ≠ .nan)
    (hr : ∀ r, r ∈ refs ↔ r ∈ refs') (hp : hyps.Perm hyps') :
    segCurves grp n interp linear refs hyps = segCurves grp n interp linear refs' hyps' := by
  have hperm : (refs.map (grp ·.query) ++ hyps.map (grp ·.base.query)).dedup.Perm
      (refs'.map (grp ·.query) ++ hyps'.map (grp ·.base.query)).dedup := by
    rw [List.perm_ext_iff_of_nodup (List.nodup_dedup _) (List.nodup_dedup _)]
    intro k
    simp only [List.mem_dedup, List.mem_map, List.mem_append, hr, hp.mem_iff]
  have e1 := segTally_congr refs refs' hyps hyps' hr hp
  have e2 : ∀ g, segTally (refs.filter (grp ·.query = g)) (hyps.filter (grp ·.base.query = g)) =
      segTally (refs'.filter (grp ·.query = g)) (hyps'.filter (grp ·.base.query = g)) :=
    fun g => segTally_congr _ _ _ _ (fun r => by simp only [List.mem_filter, hr]) (hp.filter _)
  have e3 : ∀ a b : List (ScoredEvent Q L), (∀ h ∈ a, h.score ≠ .nan) → a.Perm b →
      descending (a.map (·.score)) = descending (b.map (·.score)) := by
    intro a b ha hab
    refine descending_congr ?_ (fun s => (hab.map _).mem_iff)
    intro s hs
    obtain ⟨x, hx, rfl⟩ := List.mem_map.1 hs
    exact ha x hx
  have e4 := e3 hyps hyps' hn hp
  have e5 : ∀ g, descending ((hyps.filter (grp ·.base.query = g)).map (·.score)) =
      descending ((hyps'.filter (grp ·.base.query = g)).map (·.score)) :=
    fun g => e3 _ _ (fun h hh => hn h (List.mem_filter.1 hh).1) (hp.filter _)
  unfold segCurves Curves.of
  simp only [List.map_map]
  have hnil : (refs.map (grp ·.query) ++ hyps.map (grp ·.base.query)).dedup = [] ↔
      (refs'.map (grp ·.query) ++ hyps'.map (grp ·.base.query)).dedup = [] := by
    rw [← List.length_eq_zero_iff, ← List.length_eq_zero_iff, hperm.length_eq]
  rw [e1, e4]
  congr 2
  funext x
  simp only [List.map_eq_nil_iff, hnil]
  split
  · rfl
  · congr 1
    rw [average_perm (hperm.map _)]
    congr 1
    refine List.map_congr_left fun g _ => ?_
    simp only [Function.comp]
    rw [e2, e5]

/-- The curves of the segmentation-based evaluation. -/
theorem seg_curves (S : StdSort) (rng : Rng G) (kit : ToolKit μ (EventSet (Event Q L)) Q L)
    (hk : SegKit kit) (w : World) (o : ToolOptions) (q2g : List (Q × Q)) (refs : List (Event Q L))
    (hyps : List (ScoredEvent Q L)) (r : Report Q L) (hnan : ∀ h ∈ hyps, h.score ≠ .nan)
    (hd : o.sort = "desc".toList) (hc : o.collapse = true)
    (h : evaluate Rnd.exact S rng kit w o q2g refs hyps = .ok (.done r)) :
    HasCurves o r (segCurves (groupOf q2g) o.curveSamples o.interp o.trapezoid (usedRefs q2g refs)
      (usedHyps q2g hyps)) := by
  obtain ⟨l, s', ms, rep, h2, h3, h4, h5, h6⟩ := evaluate_curves S rng kit hk.safe (by
    intro r x e he hf
    rw [hk.scorer, C24_trivial_scorer] at he
    injection he with he
    subst he
    unfold verdict at hf ⊢
    split
    · rfl
    · rename_i hne; rw [if_neg hne] at hf; norm_num at hf) w o q2g refs hyps r hnan hd hc h
  rw [hk.index, hk.scorer] at h4
  obtain ⟨s2, missed, rep2, c1, c2, c3⟩ := C24_segmentation_result kit.refsSet (usedRefs q2g refs) l
  rw [c1, Except.ok.injEq, Prod.mk.injEq, Prod.mk.injEq] at h4
  obtain ⟨rfl, rfl, rfl⟩ := h4
  have hl : ∀ h ∈ l, h.score ≠ .nan := fun x hx => hnan x (usedHyps_mem q2g hyps x (h2.mem_iff.1 hx))
  have := segMatches_curves (groupOf q2g) o.curveSamples o.interp o.trapezoid (usedRefs q2g refs) missed l
    h3 hl ⟨c2.imp (fun {a b} hab => by
      rintro rfl
      rw [LawfulCmp.irrefl] at hab
      exact absurd hab (by decide)), c3⟩ h5
  rw [segCurves_congr _ _ _ _ _ _ _ _ hl (fun _ => Iff.rfl) h2] at this
  rw [← this]
  exact h6

end

/-! ## Renaming -/

section
variable {Q L Q' L' : Type} [DecidableEq Q] [DecidableEq L] [DecidableEq Q'] [DecidableEq L']

theorem segCurves_rename {f : Q → Q'} {g : L → L'} (hf : Function.Injective f)
    (hg : Function.Injective g) (grp : Q → Q) (grp' : Q' → Q') (hgrp : ∀ q, grp' (f q) = f (grp q))
    (n : ℕ) (interp linear : Bool) (refs : List (Event Q L)) (hyps : List (ScoredEvent Q L)) :
    segCurves grp' n interp linear (refs.map (Event.rename f g)) (hyps.map (ScoredEvent.rename f g)) =
      segCurves grp n interp linear refs hyps := by
  have e1 : ∀ q, (refs.map (Event.rename f g)).filter (grp' ·.query = f q) =
      (refs.filter (grp ·.query = q)).map (Event.rename f g) := by
    intro q
    rw [List.filter_map]
    congr 1
    refine List.filter_congr fun r _ => ?_
    simp [Event.rename, hgrp, hf.eq_iff]
  have e2 : ∀ q, (hyps.map (ScoredEvent.rename f g)).filter (grp' ·.base.query = f q) =
      (hyps.filter (grp ·.base.query = q)).map (ScoredEvent.rename f g) := by
    intro q
    rw [List.filter_map]
    congr 1
    refine List.filter_congr fun r _ => ?_
    simp [ScoredEvent.rename, Event.rename, hgrp, hf.eq_iff]
  have e3 : ∀ l : List (ScoredEvent Q L), (l.map (ScoredEvent.rename f g)).map (·.score) =
      l.map (·.score) := fun l => by rw [List.map_map]; rfl
  have e4 : ((refs.map (Event.rename f g)).map (grp' ·.query) ++
      (hyps.map (ScoredEvent.rename f g)).map (grp' ·.base.query)).dedup =
      ((refs.map (grp ·.query) ++ hyps.map (grp ·.base.query)).dedup).map f := by
    rw [← List.dedup_map_of_injective hf]
    congr 1
    rw [List.map_append, List.map_map, List.map_map, List.map_map, List.map_map]
    congr 1 <;> refine List.map_congr_left fun r _ => hgrp _
  unfold segCurves
  rw [e4, segTally_rename hf hg, e3, List.map_map]
  congr 1
  refine List.map_congr_left fun q _ => ?_
  simp only [Function.comp]
  rw [e1, e2, segTally_rename hf hg, e3]

end

/-! ## Interpolation -/

/-- Along the points of a curve the recall does not decrease and the precision does not increase. -/
def Falling (l : List (ℚ × ℚ)) : Prop := l.Pairwise (fun p q => p.1 ≤ q.1 ∧ q.2 ≤ p.2)

theorem valueAt_le (linear : Bool) (x : ℚ) (l : List (ℚ × ℚ)) : ∀ q : ℚ × ℚ, Falling (q :: l) →
    (∀ p ∈ q :: l, 0 ≤ p.2) → q.1 < x →
    0 ≤ valueAt linear x (some q) l ∧ valueAt linear x (some q) l ≤ q.2 := by
  induction l with
  | nil => intro q _ h0 _; exact ⟨le_rfl, h0 q (by simp)⟩
  | cons p l ih =>
    intro q hf h0 hq
    have hf' := List.pairwise_cons.1 hf
    have hpq := hf'.1 p (by simp)
    have hp0 := h0 p (by simp)
    unfold valueAt
    by_cases hp : p.1 < x
    · rw [if_pos hp]
      have := ih p hf'.2 (fun r hr => h0 r (List.mem_cons_of_mem _ hr)) hp
      exact ⟨this.1, this.2.trans hpq.2⟩
    · rw [if_neg hp]
      dsimp only
      split
      · have hd : 0 < p.1 - q.1 := by linarith [not_lt.1 hp]
        have h1 : 0 ≤ (x - q.1) / (p.1 - q.1) := div_nonneg (by linarith) hd.le
        have h2 : (x - q.1) / (p.1 - q.1) ≤ 1 := by
          rw [div_le_one hd]
          linarith [not_lt.1 hp]
        rw [mul_div_assoc]
        constructor <;> nlinarith
      · exact ⟨hp0, hpq.2⟩

theorem valueAt_antitone (linear : Bool) (x x' : ℚ) (hx : x ≤ x') (l : List (ℚ × ℚ)) :
    ∀ prev : Option (ℚ × ℚ), Falling (prev.toList ++ l) → (∀ p ∈ l, 0 ≤ p.2) →
    (∀ q, prev = some q → q.1 < x) → valueAt linear x' prev l ≤ valueAt linear x prev l := by
  induction l with
  | nil => intro _ _ _ _; exact le_rfl
  | cons p l ih =>
    intro prev hf h0 hq
    have hf2 : Falling (p :: l) := hf.sublist (List.sublist_append_right _ _)
    by_cases hp : p.1 < x
    · have hp' : p.1 < x' := by linarith
      simp only [valueAt, if_pos hp, if_pos hp']
      exact ih (some p) hf2 (fun r hr => h0 r (List.mem_cons_of_mem _ hr)) (by
        rintro q h; injection h with h; rw [← h]; exact hp)
    · have hxp := not_lt.1 hp
      have hge : p.2 ≤ valueAt linear x prev (p :: l) := by
        simp only [valueAt, if_neg hp]
        cases prev with
        | none => exact le_rfl
        | some q =>
          dsimp only
          have hpq := (List.pairwise_cons.1 hf).1 p (by simp)
          have hq := hq q rfl
          split
          · have hd : 0 < p.1 - q.1 := by linarith
            have h2 : (x - q.1) / (p.1 - q.1) ≤ 1 := by
              rw [div_le_one hd]
              linarith
            rw [mul_div_assoc]
            nlinarith [hpq.2]
          · exact le_rfl
      by_cases hp' : p.1 < x'
      · refine le_trans ?_ hge
        simp only [valueAt, if_pos hp']
        exact (valueAt_le linear x' l p hf2 h0 hp').2
      · simp only [valueAt, if_neg hp, if_neg hp']
        cases prev with
        | none => exact le_rfl
        | some q =>
          dsimp only
          have hpq := (List.pairwise_cons.1 hf).1 p (by simp)
          have hq := hq q rfl
          split
          · have hd : 0 < p.1 - q.1 := by linarith
            rw [mul_div_assoc, mul_div_assoc]
            have h2 : (x - q.1) / (p.1 - q.1) ≤ (x' - q.1) / (p.1 - q.1) := by
              gcongr
            nlinarith [hpq.2]
          · exact le_rfl

theorem topped_mem {l : List (ℚ × ℚ)} {p : ℚ × ℚ} (h : p ∈ topped l) : ∃ q ∈ l, q.1 = p.1 := by
  induction l with
  | nil => cases h
  | cons a l ih =>
    rw [topped_cons] at h
    rcases List.mem_cons.1 h with rfl | h
    · show ∃ q ∈ a :: l, q.1 = maxFst a.1 l
      clear ih h
      induction l with
      | nil => exact ⟨a, by simp, rfl⟩
      | cons b l ih =>
        obtain ⟨q, hq, e⟩ := ih
        have : maxFst a.1 (b :: l) = max b.1 (maxFst a.1 l) := rfl
        rw [this]
        rcases le_total b.1 (maxFst a.1 l) with hb | hb
        · rw [max_eq_right hb]
          refine ⟨q, ?_, e⟩
          rcases List.mem_cons.1 hq with rfl | hq
          · simp
          · simp [hq]
        · rw [max_eq_left hb]
          exact ⟨b, by simp, rfl⟩
    · obtain ⟨q, hq, e⟩ := ih h
      exact ⟨q, List.mem_cons_of_mem _ hq, e⟩

theorem topped_falling {l : List (ℚ × ℚ)} (h : l.Pairwise (fun p q => p.2 ≤ q.2)) :
    Falling ((topped l).map Prod.swap) := by
  induction l with
  | nil => exact List.Pairwise.nil
  | cons p l ih =>
    rw [List.pairwise_cons] at h
    rw [topped_cons, List.map_cons]
    refine List.pairwise_cons.2 ⟨?_, ih h.2⟩
    intro q hq
    obtain ⟨q', hq', rfl⟩ := List.mem_map.1 hq
    have := (maxFst_le p.1 l _).1 le_rfl
    constructor
    · have h2 : q'.2 ∈ l.map Prod.snd := by
        rw [← topped_snd]
        exact List.mem_map_of_mem hq'
      obtain ⟨r, hr, e⟩ := List.mem_map.1 h2
      show p.2 ≤ q'.2
      rw [← e]
      exact h.1 r hr
    · obtain ⟨r, hr, e⟩ := topped_mem hq'
      show q'.1 ≤ maxFst p.1 l
      rw [← e]
      exact this.2 r hr

/-- The value of an interpolated curve without trapezoids is the largest precision with at least the
given recall. -/
theorem valueAt_topped (x : ℚ) (l : List (ℚ × ℚ)) (h : l.Pairwise (fun p q => p.2 ≤ q.2)) :
    ∀ prev, (∀ p ∈ l, p.2 < x) ∧ valueAt false x prev ((topped l).map Prod.swap) = 0 ∨
    (∃ p ∈ l, x ≤ p.2 ∧ valueAt false x prev ((topped l).map Prod.swap) = p.1) ∧
    ∀ p ∈ l, x ≤ p.2 → p.1 ≤ valueAt false x prev ((topped l).map Prod.swap) := by
  induction l with
  | nil => intro prev; exact Or.inl ⟨by simp, rfl⟩
  | cons a l ih =>
    intro prev
    rw [List.pairwise_cons] at h
    rw [topped_cons, List.map_cons]
    by_cases ha : a.2 < x
    · simp only [valueAt, Prod.swap, if_pos ha]
      rcases ih h.2 (some (a.2, maxFst a.1 l)) with ⟨h1, h2⟩ | ⟨⟨p, h1, h2, h3⟩, h4⟩
      · exact Or.inl ⟨by simpa [ha] using h1, h2⟩
      · refine Or.inr ⟨⟨p, by simp [h1], h2, h3⟩, fun q hq hx => ?_⟩
        rcases List.mem_cons.1 hq with rfl | hq
        · exact absurd ha (not_lt.2 hx)
        · exact h4 q hq hx
    · have e : valueAt false x prev (Prod.swap (maxFst a.1 l, a.2) :: (topped l).map Prod.swap) =
          maxFst a.1 l := by
        simp only [valueAt, Prod.swap, if_neg ha]
        cases prev <;> rfl
      rw [e]
      have hle := (maxFst_le a.1 l _).1 le_rfl
      obtain ⟨p, hp, e⟩ := topped_mem (l := a :: l) (p := (maxFst a.1 l, a.2))
        (by rw [topped_cons]; simp)
      refine Or.inr ⟨⟨p, hp, ?_, e.symm⟩, fun q hq _ => ?_⟩
      · rcases List.mem_cons.1 hp with rfl | hp
        · exact not_lt.1 ha
        · exact (not_lt.1 ha).trans (h.1 p hp)
      · rcases List.mem_cons.1 hq with rfl | hq
        · exact hle.1
        · exact hle.2 q hq

/-- Lower thresholds have at least as many hits. -/
def Rising (c : Tally) : Prop := ∀ s t, Flt.lt t s = true → c.hits s ≤ c.hits t

theorem Rising.points {c : Tally} (h : Rising c) {scores : List Flt}
    (hs : scores.Pairwise (fun a b => Flt.lt b a = true)) :
    (scores.map c.point).Pairwise (fun p q => p.2 ≤ q.2) := by
  rw [List.pairwise_map]
  refine hs.imp fun {a b} hab => ?_
  unfold Tally.point
  simp only
  split
  · exact le_rfl
  · have : (c.hits a : ℚ) ≤ c.hits b := by exact_mod_cast h a b hab
    gcongr

theorem tallyOf_rising {Q L : Type} (ms : List (KwsMatch Q L)) : Rising (tallyOf ms) := by
  intro s t hst
  refine List.countP_mono_left fun m _ h => ?_
  simp only [Bool.and_eq_true] at h ⊢
  refine ⟨h.1, ?_⟩
  cases hx : m.hyp with
  | none => rw [hx] at h; exact h.2
  | some x =>
    rw [hx] at h
    simp only [Option.any_some, Bool.not_eq_true'] at h ⊢
    by_contra hc
    rw [Bool.not_eq_false] at hc
    rw [Flt.lt_trans' _ _ _ hc hst] at h
    exact absurd h.2 (by decide)

theorem segTally_rising {Q L : Type} [DecidableEq Q] [DecidableEq L] (refs : List (Event Q L))
    (hyps : List (ScoredEvent Q L)) : Rising (segTally refs hyps) := by
  intro s t hst
  unfold segTally
  simp only
  refine Finset.card_le_card fun r hr => ?_
  rw [Finset.mem_filter] at hr ⊢
  obtain ⟨h1, x, hx, e, h2⟩ := hr
  refine ⟨h1, x, hx, e, ?_⟩
  by_contra hc
  rw [Bool.not_eq_false] at hc
  rw [Flt.lt_trans' _ _ _ hc hst] at h2
  exact absurd h2 (by decide)

/-- A score is a number. -/
def Numeric (g : Tally × List Flt) : Prop := Rising g.1 ∧ ∀ s ∈ g.2, s ≠ .nan

theorem point_unit (c : Tally) (s : Flt) : 0 ≤ (c.point s).1 ∧ (c.point s).1 ≤ 1 := by
  unfold Tally.point
  simp only
  split
  · exact ⟨zero_le_one, le_rfl⟩
  · refine ⟨by positivity, ?_⟩
    rename_i h
    have : (0 : ℚ) < c.hits s + c.wrong s := by
      have : 0 < c.hits s + c.wrong s := Nat.pos_of_ne_zero h
      exact_mod_cast this
    rw [div_le_one this]
    have : (0 : ℚ) ≤ c.wrong s := by positivity
    linarith

/-- The points before interpolation. -/
def Spec.Tally.points (c : Tally) (scores : List Flt) : List (ℚ × ℚ) :=
  if scores = [] ∧ c.refs ≠ 0 then [(1, 0)] else scores.map c.point

theorem points_rising {g : Tally × List Flt} (h : Numeric g) :
    (g.1.points (descending g.2)).Pairwise (fun p q => p.2 ≤ q.2) := by
  unfold Tally.points
  split
  · simp
  · exact h.1.points (descending_thresholds g.2 h.2).sorted

theorem points_unit {g : Tally × List Flt} {p : ℚ × ℚ} (h : p ∈ g.1.points (descending g.2)) :
    0 ≤ p.1 ∧ p.1 ≤ 1 := by
  unfold Tally.points at h
  split at h
  · rw [List.mem_singleton.1 h]; norm_num
  · obtain ⟨s, _, rfl⟩ := List.mem_map.1 h
    exact point_unit _ _

theorem curve_interp (c : Tally) (scores : List Flt) :
    c.curve true scores = (topped (c.points scores)).map Prod.swap := rfl

theorem curve_falling {g : Tally × List Flt} (h : Numeric g) :
    Falling (g.1.curve true (descending g.2)) := topped_falling (points_rising h)

theorem curve_unit (g : Tally × List Flt) (interp : Bool) :
    ∀ p ∈ g.1.curve interp (descending g.2), 0 ≤ p.2 ∧ p.2 ≤ 1 := by
  intro p hp
  cases interp with
  | true =>
    rw [curve_interp] at hp
    obtain ⟨q, hq, rfl⟩ := List.mem_map.1 hp
    obtain ⟨q', hq', e⟩ := topped_mem hq
    show 0 ≤ q.1 ∧ q.1 ≤ 1
    rw [← e]
    exact points_unit hq'
  | false =>
    obtain ⟨q, hq, rfl⟩ := List.mem_map.1 (show p ∈ (g.1.points (descending g.2)).map Prod.swap from hp)
    exact points_unit hq

theorem value_antitone {g : Tally × List Flt} (h : Numeric g) (linear : Bool) {x x' : ℚ} (hx : x ≤ x') :
    valueAt linear x' none (g.1.curve true (descending g.2)) ≤
      valueAt linear x none (g.1.curve true (descending g.2)) :=
  valueAt_antitone linear x x' hx _ none (by simpa using curve_falling h)
    (fun p hp => (curve_unit g true p hp).1) (by simp)

/-- Values are between the ordinates of the points, or 0. -/
theorem valueAt_unit (linear : Bool) (x : ℚ) (l : List (ℚ × ℚ)) : ∀ prev : Option (ℚ × ℚ),
    (∀ p ∈ prev.toList ++ l, 0 ≤ p.2 ∧ p.2 ≤ 1) → (∀ q, prev = some q → q.1 < x) →
    0 ≤ valueAt linear x prev l ∧ valueAt linear x prev l ≤ 1 := by
  induction l with
  | nil => intro _ _ _; exact ⟨le_rfl, zero_le_one⟩
  | cons p l ih =>
    intro prev h hq
    unfold valueAt
    have hp1 := h p (by simp)
    by_cases hp : p.1 < x
    · rw [if_pos hp]
      exact ih (some p) (fun r hr => h r (List.mem_append_right _ hr)) (by
        rintro q h; injection h with h; rw [← h]; exact hp)
    · rw [if_neg hp]
      cases prev with
      | none => exact hp1
      | some q =>
        dsimp only
        have hq1 := h q (by simp)
        have hq := hq q rfl
        split
        · have hd : 0 < p.1 - q.1 := by linarith [not_lt.1 hp]
          have h1 : 0 ≤ (x - q.1) / (p.1 - q.1) := div_nonneg (by linarith) hd.le
          have h2 : (x - q.1) / (p.1 - q.1) ≤ 1 := by
            rw [div_le_one hd]
            linarith [not_lt.1 hp]
          rw [mul_div_assoc]
          constructor <;> nlinarith
        · exact hp1

theorem average_le {α : Type} (l : List α) (f g : α → ℚ) (h : ∀ a ∈ l, f a ≤ g a) :
    average (l.map f) ≤ average (l.map g) := by
  unfold average
  rw [List.length_map, List.length_map]
  have : (l.map f).sum ≤ (l.map g).sum := List.sum_le_sum h
  gcongr

theorem sampled_pairwise {α : Type} (n : ℕ) (f : ℚ → α) (P : α → α → Prop)
    (h : ∀ x x', x ≤ x' → P (f x) (f x')) : (sampled n f).Pairwise (fun p q => P p.2 q.2) := by
  unfold sampled
  split
  · exact List.Pairwise.nil
  · rename_i hn
    rw [List.pairwise_map]
    refine (List.pairwise_lt_range (n := n)).imp fun {a b} hab => h _ _ ?_
    have : (1 : ℚ) ≤ n := by
      have : 1 ≤ n := by omega
      exact_mod_cast this
    have : (a : ℚ) ≤ b := by exact_mod_cast hab.le
    gcongr

/-- Interpolated curves do not increase. -/
structure Spec.Decreasing (c : Curves) : Prop where
  all : c.all.Pairwise (fun p q => q.2 ≤ p.2)
  mean : c.mean.Pairwise (fun p q => Flt.lt p.2 q.2 = false)

theorem curves_decreasing (n : ℕ) (linear : Bool) (all : Tally × List Flt)
    (groups : List (Tally × List Flt)) (h : Numeric all) (hg : ∀ g ∈ groups, Numeric g) :
    Decreasing (Curves.of n true linear all groups) := by
  constructor
  · exact sampled_pairwise n _ (fun a b => b ≤ a) fun x x' hx => value_antitone h linear hx
  · unfold Curves.of
    dsimp only
    refine sampled_pairwise n _ (fun a b => Flt.lt a b = false) fun x x' hx => ?_
    split
    · rfl
    · simp only [Flt.lt, decide_eq_false_iff_not, not_lt]
      exact average_le _ _ _ fun g hm => value_antitone (hg g hm) linear hx

/-- All values are between 0 and 1. -/
structure Spec.InUnit (c : Curves) : Prop where
  all : ∀ p ∈ c.all, 0 ≤ p.2 ∧ p.2 ≤ 1
  mean : ∀ p ∈ c.mean, p.2 = .nan ∨ ∃ y, p.2 = .fin y ∧ 0 ≤ y ∧ y ≤ 1

theorem sampled_mem {α : Type} {n : ℕ} {f : ℚ → α} {p : ℚ × α} (h : p ∈ sampled n f) : p.2 = f p.1 := by
  unfold sampled at h
  split at h
  · cases h
  · obtain ⟨k, _, rfl⟩ := List.mem_map.1 h
    rfl

theorem average_unit (l : List ℚ) (h : ∀ y ∈ l, 0 ≤ y ∧ y ≤ 1) : 0 ≤ average l ∧ average l ≤ 1 := by
  unfold average
  have h0 : 0 ≤ l.sum := List.sum_nonneg fun y hy => (h y hy).1
  have h1 : l.sum ≤ l.length := by
    have := List.sum_le_card_nsmul l 1 fun y hy => (h y hy).2
    simpa using this
  refine ⟨by positivity, div_le_one_of_le₀ h1 (by positivity)⟩

theorem curves_unit (n : ℕ) (interp linear : Bool) (all : Tally × List Flt)
    (groups : List (Tally × List Flt)) : InUnit (Curves.of n interp linear all groups) := by
  have key : ∀ (g : Tally × List Flt) x,
      0 ≤ valueAt linear x none (g.1.curve interp (descending g.2)) ∧
      valueAt linear x none (g.1.curve interp (descending g.2)) ≤ 1 := fun g x =>
    valueAt_unit linear x _ none (by simpa using curve_unit g interp) (by simp)
  unfold Curves.of
  constructor
  · dsimp only
    intro p hp
    rw [sampled_mem hp]
    exact key _ _
  · dsimp only
    intro p hp
    rw [sampled_mem hp]
    split
    · exact Or.inl rfl
    · refine Or.inr ⟨_, rfl, average_unit _ fun y hy => ?_⟩
      obtain ⟨g, _, rfl⟩ := List.mem_map.1 hy
      exact key g _

/-- The best precision with at least recall `x`. -/
theorem value_best {g : Tally × List Flt} (h : Numeric g) (hs : g.2 ≠ []) (x : ℚ) :
    (∀ s ∈ g.2, (g.1.point s).2 < x) ∧ valueAt false x none (g.1.curve true (descending g.2)) = 0 ∨
    (∃ s ∈ g.2, x ≤ (g.1.point s).2 ∧
      valueAt false x none (g.1.curve true (descending g.2)) = (g.1.point s).1) ∧
    ∀ s ∈ g.2, x ≤ (g.1.point s).2 →
      (g.1.point s).1 ≤ valueAt false x none (g.1.curve true (descending g.2)) := by
  have ht := descending_thresholds g.2 h.2
  have hne : descending g.2 ≠ [] := by
    obtain ⟨s, hs⟩ := List.exists_mem_of_ne_nil _ hs
    exact List.ne_nil_of_mem ((ht.mem s).2 hs)
  have e : g.1.points (descending g.2) = (descending g.2).map g.1.point := by
    unfold Tally.points
    rw [if_neg (fun hh => hne hh.1)]
  have := valueAt_topped x _ (points_rising h) none
  rw [← curve_interp, e] at this
  simpa [ht.mem] using this

end Kws
