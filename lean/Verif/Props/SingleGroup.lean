import Verif.Props.Evaluation

/-!
# One group (C73)

If there is at most one group, the mean over the groups is the global value: the same metric, the same
interval, the same curve. This holds in IEEE arithmetic, without any rounding error.
-/

namespace Kws

open Spec

section
variable {Q L : Type}

theorem Rnd.Precise.zero64 {R : Rnd} (hR : R.Precise) : R.f64 0 = 0 := by
  have := hR.dyadic64 0 0 (by norm_num) (by norm_num)
  simpa using this

theorem Rnd.Precise.one64 {R : Rnd} (hR : R.Precise) : R.f64 1 = 1 := by
  have := hR.dyadic64 1 0 (by norm_num) (by norm_num)
  simpa using this

theorem globalAP_fixed {R : Rnd} (hR : R.Precise) (ms : List (KwsMatch Q L)) (c i t : Bool) (v : ℚ)
    (h : globalAP R ms c i t = .ok v) : R.f64 v = v := by
  unfold globalAP computeAP at h
  simp only at h
  split at h
  · injection h with h
    rw [← h, hR.idem64]
  · cases h

theorem globalAP_nil {R : Rnd} (hR : R.Precise) (c i t : Bool) :
    globalAP R ([] : List (KwsMatch Q L)) c i t = .ok 0 := by
  unfold globalAP matchesPR computePR computeAP
  cases c <;> cases i <;> cases t <;>
    simp [collapseMatches, getMatchErrors, prLoop, heights, dotFrom, hR.zero64]

theorem globalNDCG_nil (R : Rnd) (c : Bool) : globalNDCG R ([] : List (KwsMatch Q L)) c = 0 := by
  unfold globalNDCG
  cases c <;> simp [collapseMatches, getMatchErrors, computeNDCG, numTotalReferences]

theorem sortMatches_nil (S : StdSort) : sortMatches S ([] : List (KwsMatch Q L)) = .ok [] := by
  obtain ⟨l, h, hp, _⟩ := sortMatches_spec S ([] : List (KwsMatch Q L)) (fun m hm => by simp at hm)
  rw [h, List.perm_nil.1 hp]

/-- C73: the mean average precision of one group is its average precision. -/
theorem C73_ap (R : Rnd) (hR : R.Precise) (S : StdSort) (groups : List (List (KwsMatch Q L)))
    (h : groups.length ≤ 1) (collapse interp trapezoid sort : Bool) :
    meanAP R S groups collapse interp trapezoid sort =
      globalAPGrouped R S groups collapse interp trapezoid sort := by
  match groups, h with
  | [], _ =>
    unfold meanAP globalAPGrouped
    cases sort with
    | false => simp [meanAPLoop, pure, Except.pure, bind, Except.bind, globalAP_nil hR]
    | true =>
      simp [meanAPLoop, pure, Except.pure, bind, Except.bind, globalAP_nil hR, sortMatches_nil]
  | [ms], _ =>
    have hb : ∀ l : List (KwsMatch Q L), (match globalAP R l collapse interp trapezoid with
        | .error e => (.error e : Cpp ℚ)
        | .ok v => .ok (R.f64 (R.f64 (0 + v) / R.f64 ((1 : ℕ) : ℚ)))) =
        globalAP R l collapse interp trapezoid := by
      intro l
      cases hv : globalAP R l collapse interp trapezoid with
      | error e => rfl
      | ok v => simp [globalAP_fixed hR _ _ _ _ _ hv, hR.one64]
    unfold meanAP globalAPGrouped
    cases sort with
    | false =>
      simp only [meanAPLoop, List.flatten_cons, List.flatten_nil, List.append_nil, bind, Except.bind,
        pure, Except.pure, Bool.false_eq_true, if_false]
      refine Eq.trans ?_ (hb ms)
      cases globalAP R ms collapse interp trapezoid <;> rfl
    | true =>
      simp only [meanAPLoop, List.flatten_cons, List.flatten_nil, List.append_nil, bind, Except.bind,
        pure, Except.pure, if_true]
      cases sortMatches S ms with
      | error e => rfl
      | ok l =>
        simp only
        refine Eq.trans ?_ (hb l)
        cases globalAP R l collapse interp trapezoid <;> rfl

/-- C73: the mean NDCG of one group is its NDCG. -/
theorem C73_ndcg (R : Rnd) (S : StdSort) (groups : List (List (KwsMatch Q L)))
    (h : groups.length ≤ 1) (collapse sort : Bool) :
    meanNDCG R S groups collapse sort = globalNDCGGrouped R S groups collapse sort := by
  match groups, h with
  | [], _ =>
    unfold meanNDCG globalNDCGGrouped
    cases sort with
    | false => simp [meanNDCGLoop, pure, Except.pure, bind, Except.bind, globalNDCG_nil]
    | true =>
      simp [meanNDCGLoop, pure, Except.pure, bind, Except.bind, globalNDCG_nil, sortMatches_nil]
  | [ms], _ =>
    unfold meanNDCG globalNDCGGrouped
    cases sort with
    | false => simp [meanNDCGLoop, bind, Except.bind, pure, Except.pure]
    | true =>
      simp only [meanNDCGLoop, List.flatten_cons, List.flatten_nil, List.append_nil, bind, Except.bind,
        pure, Except.pure, if_true]
      cases sortMatches S ms with
      | error e => rfl
      | ok l => simp

/-- C73: two statistics that agree on resamples with as many groups have the same intervals. -/
theorem C73_intervals {G K M : Type} [LinearOrder K] [Sub K] (R : Rnd) (S : StdSort) (rd : K → K)
    (rng : Rng G) (groups : List (List M)) (n : Nat) (alpha : ℚ) (seed : Nat)
    (f g : List (List M) → Cpp K) (h : ∀ s, s.length = groups.length → f s = g s) :
    percentileCIGrouped R S rd rng groups n alpha seed f =
      percentileCIGrouped R S rd rng groups n alpha seed g := by
  have hloop : ∀ (v : K) (k : Nat) (st : G),
      bootstrapLoop rd f (matchesByQuerySampler rng groups) v k st =
        bootstrapLoop rd g (matchesByQuerySampler rng groups) v k st := by
    intro v k
    induction k with
    | zero => intro st; rfl
    | succ k ih =>
      intro st
      obtain ⟨s, st', e, hs⟩ := C40_shape rng groups st
      simp only [bootstrapLoop, e, bind, Except.bind, h s hs.1, ih]
  unfold percentileCIGrouped percentileCI
  simp only [h groups rfl, hloop]

end

/-! ## Curves -/

section
variable {Q L : Type}

theorem interpolate_sub (l : List ℚ) : ∀ p ∈ interpolate l, p ∈ l := by
  induction l with
  | nil => intro p hp; simp [interpolate] at hp
  | cons a l ih =>
    intro p hp
    simp only [interpolate] at hp
    split at hp
    · rename_i he
      simp at hp
      simp [hp]
    · rename_i q qs he
      rw [he] at ih
      rcases List.mem_cons.1 hp with rfl | hp
      · split
        · exact List.mem_cons_of_mem _ (ih q (by simp))
        · simp
      · exact List.mem_cons_of_mem _ (ih p hp)

theorem prLoop_fixed {ε : Type} [IsError ε] {R : Rnd} (hR : R.Precise) (TR : Nat) (es : List ε) :
    ∀ s, ∀ p ∈ prLoop R TR s es, R.f64 p.1 = p.1 := by
  induction es with
  | nil => intro s p hp; simp [prLoop] at hp
  | cons e es ih =>
    intro s p hp
    simp only [prLoop, List.mem_cons] at hp
    rcases hp with rfl | hp
    · simp only [PRSums.precision]
      split
      · exact hR.idem64 _
      · exact hR.one64
    · exact ih _ p hp

theorem matchesPR_fixed {R : Rnd} (hR : R.Precise) (ms : List (KwsMatch Q L)) (c i : Bool) :
    ∀ p ∈ (matchesPR R ms c i).1, R.f64 p = p := by
  have key : ∀ {ε : Type} [IsError ε] (es : List ε), ∀ p ∈ (computePR R es i).1, R.f64 p = p := by
    intro ε _ es p hp
    unfold computePR at hp
    simp only at hp
    have hp' : p ∈ (prLoop R (numTotalReferences es) {} es).map (·.1) := by
      split at hp
      · exact interpolate_sub _ p hp
      · exact hp
    obtain ⟨x, hx, rfl⟩ := List.mem_map.1 hp'
    exact prLoop_fixed hR _ _ _ x hx
  unfold matchesPR
  split
  · exact key _
  · exact key _

theorem sampleLoop_fixed {R : Rnd} (hR : R.Precise) (linear : Bool) (xs : List ℚ) :
    ∀ (prev : Option (ℚ × ℚ)) (after : List (ℚ × ℚ)) (ys : List ℚ), (∀ p ∈ after, R.f64 p.2 = p.2) →
    sampleLoop R linear prev after xs = .ok ys → ys.length = xs.length ∧ ∀ y ∈ ys, R.f64 y = y := by
  induction xs with
  | nil =>
    intro prev after ys _ h
    simp only [sampleLoop, pure, Except.pure, Except.ok.injEq] at h
    subst h
    simp
  | cons x xs ih =>
    intro prev after ys ha h
    have hskip : ∀ (l : List (ℚ × ℚ)) (pv : Option (ℚ × ℚ)), (∀ p ∈ l, R.f64 p.2 = p.2) →
        ∀ p ∈ (skipTo x pv l).2, R.f64 p.2 = p.2 := by
      intro l
      induction l with
      | nil => intro pv _ p hp; simp [skipTo] at hp
      | cons s l ihl =>
        intro pv hl p hp
        simp only [skipTo] at hp
        split at hp
        · exact ihl _ (fun q hq => hl q (List.mem_cons_of_mem _ hq)) p hp
        · exact hl p hp
    have hs := hskip after prev ha
    simp only [sampleLoop, bind, Except.bind] at h
    generalize skipTo x prev after = t at h hs
    obtain ⟨pv, rest⟩ := t
    have fin : ∀ (y : ℚ) (ys' : List ℚ), R.f64 y = y → sampleLoop R linear pv rest xs = .ok ys' →
        (y :: ys').length = (x :: xs).length ∧ ∀ z ∈ y :: ys', R.f64 z = z := by
      intro y ys' e hrec
      obtain ⟨i1, i2⟩ := ih pv rest ys' hs hrec
      refine ⟨by simp [i1], ?_⟩
      intro z hz
      rcases List.mem_cons.1 hz with rfl | hz
      · exact e
      · exact i2 z hz
    cases rest with
    | nil =>
      simp only [pure, Except.pure] at h
      cases hrec : sampleLoop R linear pv [] xs with
      | error e => rw [hrec] at h; cases h
      | ok ys' =>
        rw [hrec] at h
        simp only [Except.ok.injEq] at h
        subst h
        exact fin _ _ hR.zero64 hrec
    | cons s rest =>
      simp only at h
      cases hy : sampleAt R linear pv s.1 s.2 x with
      | error e => rw [hy] at h; cases h
      | ok y =>
        rw [hy] at h
        cases hrec : sampleLoop R linear pv (s :: rest) xs with
        | error e => rw [hrec] at h; cases h
        | ok ys' =>
          rw [hrec] at h
          simp only [pure, Except.pure, Except.ok.injEq] at h
          subst h
          refine fin _ _ ?_ hrec
          simp only [sampleAt] at hy
          split at hy
          · simp only [bind, Except.bind] at hy
            split at hy
            · cases hy
            · simp only [pure, Except.pure, Except.ok.injEq] at hy
              rw [← hy, hR.idem64]
          · simp only [pure, Except.pure, Except.ok.injEq] at hy
            rw [← hy]
            exact hs s (by simp)

theorem meanColumns_one {R : Rnd} (hR : R.Precise) (ys : List ℚ) (h : ∀ y ∈ ys, R.f64 y = y) :
    ∀ n i, i + n = ys.length → meanColumns R [ys] i n = .ok ((ys.drop i).map Flt.fin) := by
  intro n
  induction n with
  | zero =>
    intro i hi
    rw [List.drop_eq_nil_of_le (by omega)]
    rfl
  | succ n ih =>
    intro i hi
    have hlt : i < ys.length := by omega
    have hm := h ys[i] (List.getElem_mem _)
    simp only [meanColumns, columnSum, vecAt, List.getElem?_eq_getElem hlt, bind, Except.bind, pure,
      Except.pure, ih (i + 1) (by omega), List.drop_eq_getElem_cons hlt, List.map_cons, zero_add, hm,
      meanOf, List.length_singleton, Nat.cast_one, hR.one64, div_one, one_ne_zero, if_false]

/-- C73: the mean curve of one group is its curve. -/
theorem C73_curve (R : Rnd) (hR : R.Precise) (w : World) (f f' : Str) (ms : List (KwsMatch Q L)) (n : Nat)
    (collapse interp linear : Bool) (c : List (ℚ × ℚ)) (c' : List (ℚ × Flt))
    (h : globalRPCurve R w f ms n collapse interp linear = .ok c)
    (h' : meanRPCurve R w f' [ms] n collapse interp linear = .ok c') :
    c' = c.map (Prod.map id Flt.fin) := by
  unfold globalRPCurve at h
  unfold meanRPCurve at h'
  simp only [groupCurves, bind, Except.bind, pure, Except.pure] at h h'
  cases hs : sampleCurve R (matchesPR R ms collapse interp).2 (matchesPR R ms collapse interp).1
      (evenPoints R n) linear with
  | error e => rw [hs] at h; cases h
  | ok ys =>
    have hf : ys.length = (evenPoints R n).length ∧ ∀ y ∈ ys, R.f64 y = y := by
      unfold sampleCurve at hs
      split at hs
      · refine sampleLoop_fixed hR linear _ none _ ys ?_ hs
        intro p hp
        exact matchesPR_fixed hR ms collapse interp p.2 (List.of_mem_zip hp).2
      · cases hs
    have hm := meanColumns_one hR ys hf.2 ys.length 0 (by omega)
    rw [hf.1] at hm
    rw [hs] at h h'
    simp only [hm, List.drop_zero] at h h'
    have key : ∀ {K K' : Type} (f : Str) (xs : List K) (ys : List K') c,
        writeCurveFile w f xs ys = .ok c → c = xs.zip ys := by
      intro K K' f xs ys c hc
      unfold writeCurveFile writeCurve at hc
      simp only [bind, Except.bind, pure, Except.pure] at hc
      by_cases h1 : f = []
      · rw [if_pos h1] at hc; cases hc
      · rw [if_neg h1] at hc
        by_cases h2 : xs.length ≠ ys.length
        · rw [if_pos h2] at hc; cases hc
        · rw [if_neg h2] at hc
          simp only at hc
          split at hc
          · injection hc with hc
            exact hc.symm
          · cases hc
    rw [key _ _ _ _ h, key _ _ _ _ h', List.zip_map_right]

end

/-! ## Runs -/

section
variable {μ σ Q L G : Type} [DecidableEq Q] [Cmp Q] [LawfulCmp Q] [Cmp L] [LawfulCmp L]

omit [Cmp Q] [LawfulCmp Q] [Cmp L] [LawfulCmp L] in
theorem groupMatches_one (q2g : List (Q × Q)) (k : Q) (ms : List (KwsMatch Q L))
    (groups : List (List (KwsMatch Q L)))
    (hk : ∀ m ∈ ms, ∀ q, matchQuery m = .ok q → groupOf q2g q = k)
    (h : groupMatches q2g ms = .ok groups) : groups = if ms = [] then [] else [ms] := by
  have hloop : ∀ (l pre : List (KwsMatch Q L)), (∀ m ∈ l, m ∈ ms) →
      ∀ st, groupLoop q2g l ([(k, 0)], [pre]) = .ok st → st.2 = [pre ++ l] := by
    intro l
    induction l with
    | nil =>
      intro pre _ st hst
      simp only [groupLoop, pure, Except.pure, Except.ok.injEq] at hst
      simp [← hst]
    | cons m l ih =>
      intro pre hl st hst
      simp only [groupLoop, bind, Except.bind] at hst
      cases hq : matchQuery m with
      | error e => rw [hq] at hst; cases hst
      | ok q =>
        rw [hq] at hst
        simp only [hk m (hl m (by simp)) q hq] at hst
        have e : groupStep k m ([(k, 0)], [pre]) = ([(k, 0)], [pre ++ [m]]) := by
          simp [groupStep, AMap.emplace, AMap.find?]
        rw [e] at hst
        rw [ih _ (fun x hx => hl x (by simp [hx])) st hst]
        simp
  unfold groupMatches at h
  cases ms with
  | nil =>
    simp only [groupLoop, pure, Except.pure, bind, Except.bind, Except.ok.injEq] at h
    simp [← h]
  | cons m ms =>
    simp only [groupLoop, bind, Except.bind, pure, Except.pure] at h
    cases hq : matchQuery m with
    | error e => rw [hq] at h; cases h
    | ok q =>
      rw [hq] at h
      simp only [hk m (by simp) q hq] at h
      have e : groupStep k m (([], []) : List (Q × Nat) × List (List (KwsMatch Q L))) =
          ([(k, 0)], [[m]]) := by
        simp [groupStep, AMap.emplace, AMap.find?]
      rw [e] at h
      cases hl : groupLoop q2g ms ([(k, 0)], [[m]]) with
      | error e => rw [hl] at h; cases h
      | ok st =>
        rw [hl] at h
        simp only [Except.ok.injEq] at h
        rw [← h, hloop ms [m] (fun x hx => by simp [hx]) st hl]
        simp

omit [DecidableEq Q] [Cmp Q] [LawfulCmp Q] [Cmp L] [LawfulCmp L] in
theorem statistics_one {K : Type} [LinearOrder K] [Sub K] (R : Rnd) (S : StdSort) (rd : K → K)
    (rng : Rng G) (b : Bool) (o : ToolOptions) (ms : List (KwsMatch Q L))
    (groups : List (List (KwsMatch Q L))) (plain : List (KwsMatch Q L) → Cpp K)
    (f g : List (List (KwsMatch Q L)) → Bool → Cpp K)
    (hg : groups.length ≤ 1) (hf : groups.flatten = ms) (hp : ∀ gs, plain gs.flatten = f gs false)
    (h : ∀ gs s, gs.length ≤ 1 → g gs s = f gs s) :
    meanStatistic R S rd rng b o groups g = globalStatistic R S rd rng b o ms groups plain f := by
  unfold meanStatistic globalStatistic
  cases b with
  | false =>
    simp only [Bool.false_eq_true, if_false, ← hf, hp, h groups false hg]
  | true =>
    simp only [if_true, C73_intervals R S rd rng groups o.samples o.alpha o.seed (fun s => g s true)
      (fun s => f s true) (fun s hs => h s true (by omega))]

/-- The mean over the groups and the global values reported are the same. -/
structure MeanIsGlobal (o : ToolOptions) (refs : List (Event Q L)) (r : Report Q L) : Prop where
  /-- the average precision, with its interval -/
  ap : o.ciGap = o.ciMap → r.mAP = r.gAP
  /-- the NDCG, with its interval -/
  ndcg : o.ciGndcg = o.ciMndcg → r.mNDCG = r.gNDCG
  /-- the curves, unless there are no references -/
  curve : refs ≠ [] → ∀ c c', r.globalCurve = some c → r.meanCurve = some c' →
    c' = c.map (Prod.map id Flt.fin)

/-- C73: if the queries of all events used have the same group, the mean metrics are the global ones, and
the mean curve is the global one. -/
theorem C73_evaluate (R : Rnd) (hR : R.Precise) (S : StdSort) (rng : Rng G) (kit : ToolKit μ σ Q L)
    (w : World) (o : ToolOptions) (q2g : List (Q × Q)) (refs : List (Event Q L))
    (hyps : List (ScoredEvent Q L)) (k : Q) (hr : ∀ e ∈ usedRefs q2g refs, groupOf q2g e.query = k)
    (hh : ∀ e ∈ usedHyps q2g hyps, groupOf q2g e.base.query = k) (r : Report Q L)
    (h : evaluate R S rng kit w o q2g refs hyps = .ok (.done r)) :
    MeanIsGlobal o (usedRefs q2g refs) r := by
  obtain ⟨l, s', ms, rep, groups, h1, h2, h3, h4⟩ := evaluate_done _ _ _ _ _ _ _ _ _ _ h
  have hl := sortHyps_mem S o.sort _ l h1
  obtain ⟨hits, fns, e, _, e1, ⟨hs, e2, e3⟩, _⟩ := run_facts _ _ _ _ _ _ _ _ h2
  have hrefs : ∀ m ∈ ms, ∀ x, m.ref = some x → x ∈ usedRefs q2g refs := by
    intro m hm x hx
    rw [← StdSet.mem_ofList, ← e1.mem_iff, List.mem_append]
    rw [e, List.mem_append] at hm
    rcases hm with hm | hm
    · exact Or.inl (List.mem_filterMap.2 ⟨m, hm, hx⟩)
    · obtain ⟨y, hy, rfl⟩ := List.mem_map.1 hm
      simp only [Match.makeFalseNegative, Option.some.injEq] at hx
      exact Or.inr (hx ▸ hy)
  have hhyps : ∀ m ∈ ms, ∀ x, m.hyp = some x → x ∈ usedHyps q2g hyps := by
    intro m hm x hx
    rw [e, List.mem_append] at hm
    rcases hm with hm | hm
    · have : some x ∈ hits.map (·.hyp) := List.mem_map.2 ⟨m, hm, hx⟩
      rw [e3] at this
      obtain ⟨y, hy, hyx⟩ := List.mem_map.1 this
      injection hyx with hyx
      exact hl.mem_iff.1 (e2.subset (hyx ▸ hy))
    · obtain ⟨y, hy, rfl⟩ := List.mem_map.1 hm
      simp [Match.makeFalseNegative] at hx
  have hq : ∀ m ∈ ms, ∀ q, matchQuery m = .ok q → groupOf q2g q = k := by
    intro m hm q hmq
    unfold matchQuery Match.hasRef Match.getRef Match.getHyp at hmq
    cases hx : m.ref with
    | some x =>
      simp only [hx, Option.isSome_some, if_true, bind, Except.bind, pure, Except.pure,
        Except.ok.injEq] at hmq
      rw [← hmq]
      exact hr x (hrefs m hm x hx)
    | none =>
      cases hy : m.hyp with
      | some y =>
        simp only [hx, hy, Option.isSome_none, Bool.false_eq_true, if_false, bind, Except.bind, pure,
          Except.pure, Except.ok.injEq] at hmq
        rw [← hmq]
        exact hh y (hhyps m hm y hy)
      | none => simp [hx, hy, bind, Except.bind] at hmq
  have hg := groupMatches_one q2g k ms groups hq h3
  have hlen : groups.length ≤ 1 := by rw [hg]; split <;> simp
  have hflat : groups.flatten = ms := by
    rw [hg]
    split
    · rename_i e; simp [e]
    · simp
  obtain ⟨a1, a2, a3, a4, _⟩ := assess_ok _ _ _ _ _ _ _ _ _ h4
  obtain ⟨b1, b2, b3, b4⟩ := assess_curves _ _ _ _ _ _ _ _ _ h4
  refine ⟨?_, ?_, ?_⟩
  · intro hci
    rw [← hci, statistics_one R S R.f64 rng o.ciGap o ms groups
      (fun ms => globalAP R ms o.collapse o.interp o.trapezoid) _ _ hlen hflat
      (fun gs => by rfl) (fun gs s hs => C73_ap R hR S gs hs _ _ _ s), a1] at a2
    injection a2 with a2
    exact a2.symm
  · intro hci
    rw [← hci, statistics_one R S id rng o.ciGndcg o ms groups
      (fun ms => .ok (globalNDCG R ms o.collapse)) _ _ hlen hflat
      (fun gs => by rfl) (fun gs s hs => C73_ndcg R S gs hs _ s), a3] at a4
    injection a4 with a4
    exact a4.symm
  · intro hne c c' hc hc'
    have hms : ms ≠ [] := by
      intro e0
      obtain ⟨x, hx⟩ := List.exists_mem_of_ne_nil _ hne
      rw [← StdSet.mem_ofList, ← e1.mem_iff] at hx
      rw [e0] at e
      obtain ⟨rfl, e'⟩ := List.append_eq_nil_iff.1 e.symm
      rw [List.map_eq_nil_iff.1 e'] at hx
      simp at hx
    rw [if_neg hms] at hg
    subst hg
    have n1 : o.outputGrp ≠ [] := fun e => by rw [b1 e] at hc; cases hc
    have n2 : o.outputMrp ≠ [] := fun e => by rw [b3 e] at hc'; cases hc'
    obtain ⟨x, x1, x2⟩ := b2 n1
    obtain ⟨y, y1, y2⟩ := b4 n2
    rw [hc, Option.some.injEq] at x2
    rw [hc', Option.some.injEq] at y2
    subst x2
    subst y2
    exact C73_curve R hR w _ _ ms _ _ _ _ _ _ x1 y1

end

section
variable {G : Type}

/-- C73 for the box tool: if all queries considered are in one group. -/
theorem C73_box (R : Rnd) (hR : R.Precise) (S : StdSort) (rng : Rng G) (w : World) (o : ToolOptions)
    (t u : Str) (refs : List (Event Str (DocBox Str UInt32)))
    (hyps : List (ScoredEvent Str (DocBox Str UInt32)))
    (ht : w.file o.refFilename = some t) (hu : hypText w o = some u)
    (hrefs : Yields BoxEventText (lines t) refs)
    (hhyps : Yields (ScoredText R BoxEventText) (lines u) hyps) (k : Str)
    (h1 : ∀ e ∈ keep (·.query) (listedQueries w o) refs, groupFor w o e.query = k)
    (h2 : ∀ e ∈ keep (·.base.query) (listedQueries w o) hyps, groupFor w o e.base.query = k)
    (r : Report Str (DocBox Str UInt32))
    (h : mainWith R S rng (icdarKit R S) w o = .ok (.done r)) :
    MeanIsGlobal o (keep (·.query) (listedQueries w o) refs) r := by
  have hr0 : o.refFilename ≠ [] := by
    intro hr
    unfold mainWith at h
    rw [if_pos hr] at h
    cases h
  rw [(icdar_plain R S).main_good S rng w o hr0 t u ht hu (yields_valid hrefs) (yields_valid hhyps),
    yields_events (Format.boxRefs (R := R)) hrefs, yields_events Format.boxHyps hhyps,
    (icdar_plain R S).mapQuery] at h
  cases hq : readQueryMap (fun (m : Unit) q => (m, (.ok q : Cpp Str))) w o () with
  | error x => rw [hq] at h; cases h
  | ok x =>
    rw [hq] at h
    cases x with
    | none => cases h
    | some q2g =>
      obtain ⟨q1, q2⟩ := readQueryMap_spec w o q2g hq
      have k1 : usedRefs q2g refs = keep (·.query) (listedQueries w o) refs := by
        unfold usedRefs
        rw [filter_keep _ _ q1]
      have k2 : usedHyps q2g hyps = keep (·.base.query) (listedQueries w o) hyps := by
        unfold usedHyps
        rw [filter_keep _ _ q1]
      rw [← k1]
      refine C73_evaluate R hR S rng _ w o q2g refs hyps k ?_ ?_ r h
      · intro e he
        rw [q2]
        exact h1 e (k1 ▸ he)
      · intro e he
        rw [q2]
        exact h2 e (k2 ▸ he)

/-- C73 for the segmentation-based tool: if all queries considered are in one group. -/
theorem C73_segmentation (R : Rnd) (hR : R.Precise) (S : StdSort) (rng : Rng G) (qf : Bool) (w : World)
    (o : ToolOptions) (hV : (vocabulary w o).dedup.length ≤ 2 ^ 31) (t u : Str)
    (refs : List (Event Str Str)) (hyps : List (ScoredEvent Str Str))
    (ht : w.file o.refFilename = some t) (hu : hypText w o = some u)
    (hrefs : Yields StrEventText (lines t) refs)
    (hhyps : Yields (ScoredText R StrEventText) (lines u) hyps) (k : Str)
    (h1 : ∀ e ∈ keep (·.query) (listedQueries w o) refs, groupFor w o e.query = k)
    (h2 : ∀ e ∈ keep (·.base.query) (listedQueries w o) hyps, groupFor w o e.base.query = k)
    (r : Report Nat Nat) (h : mainWith R S rng (simpleKit R qf) w o = .ok (.done r)) :
    (o.ciGap = o.ciMap → r.mAP = r.gAP) ∧ (o.ciGndcg = o.ciMndcg → r.mNDCG = r.gNDCG) ∧
    (keep (·.query) (listedQueries w o) refs ≠ [] → ∀ c c', r.globalCurve = some c →
      r.meanCurve = some c' → c' = c.map (Prod.map id Flt.fin)) := by
  have hr0 : o.refFilename ≠ [] := by
    intro hr
    unfold mainWith at h
    rw [if_pos hr] at h
    cases h
  obtain ⟨f, N, hf, _, e⟩ := simple_good R S rng qf w o hV hr0 t u ht hu (yields_valid hrefs)
    (yields_valid hhyps)
  rw [yields_events (Format.strRefs (R := R)) hrefs, yields_events Format.strHyps hhyps] at e
  rw [e] at h
  cases hq : readQueryMap (fun (m : Unit) q => (m, (.ok q : Cpp Str))) w o () with
  | error x => rw [hq] at h; cases h
  | ok x =>
    rw [hq] at h
    cases x with
    | none => cases h
    | some q2g =>
      obtain ⟨q1, q2⟩ := readQueryMap_spec w o q2g hq
      have k1 : usedRefs q2g refs = keep (·.query) (listedQueries w o) refs := by
        unfold usedRefs
        rw [filter_keep _ _ q1]
      have k2 : usedHyps q2g hyps = keep (·.base.query) (listedQueries w o) hyps := by
        unfold usedHyps
        rw [filter_keep _ _ q1]
      have := C73_evaluate R hR S rng _ w o (q2g.map (Prod.map f f)) _ _ (f k) (by
          rw [usedRefs_rename f hf, k1]
          intro e he
          obtain ⟨x, hx, rfl⟩ := List.mem_map.1 he
          rw [show (Event.rename f f x).query = f x.query from rfl, groupOf_rename hf, q2, h1 x hx])
        (by
          rw [usedHyps_rename f hf, k2]
          intro e he
          obtain ⟨x, hx, rfl⟩ := List.mem_map.1 he
          rw [show (ScoredEvent.rename f f x).base.query = f x.base.query from rfl, groupOf_rename hf, q2,
            h2 x hx]) r h
      rw [usedRefs_rename f hf, k1] at this
      exact ⟨this.ap, this.ndcg, fun hne => this.curve (fun e => hne (List.map_eq_nil_iff.1 e))⟩

end

/-- Two queries in one group. -/
def groupExample : World where
  file f := if f = "ref".toList then some "a d 0 0 2 2\nb d 0 0 2 2\n".toList
    else if f = "groups".toList then some "g a b\n".toList else none
  stdin := "b d 0 0 2 2 0.5\n\n# x\na d 9 9 2 2 1.5\n".toList
  writable _ := true

theorem groupExample_files :
    groupExample.file "ref".toList = some "a d 0 0 2 2\nb d 0 0 2 2\n".toList ∧
    groupExample.file "groups".toList = some "g a b\n".toList := by
  unfold groupExample
  dsimp only
  exact ⟨if_pos rfl, (if_neg (by decide)).trans (if_pos rfl)⟩

/-- The run has a report, all its events are in one group, and the mean is the global value. -/
example {G : Type} (S : StdSort) (rng : Rng G) :
    let o : ToolOptions :=
      { refFilename := "ref".toList, queryGroups := "groups".toList, alpha := 1 / 20 }
    ∃ r, mainWith Rnd.exact S rng (icdarKit Rnd.exact S) groupExample o = .ok (.done r) ∧
      r.mAP = r.gAP ∧ r.mNDCG = r.gNDCG := by
  intro o
  obtain ⟨y1, y2⟩ := runExample_yields
  obtain ⟨r, hr, _⟩ := (C62_box_partial Rnd.exact S rng groupExample o (fun t t' _ _ =>
    ⟨fun h => by simp [o] at h, fun h => absurd rfl h, fun h => absurd rfl h,
      fun h => by simp [o] at h⟩)).1
    ⟨⟨by decide, ⟨_, groupExample_files.1, yields_valid y1⟩, ⟨_, if_pos rfl, yields_valid y2⟩,
      fun h => absurd rfl h, fun _ => ⟨_, groupExample_files.2, by unfold WellFormedGroups; decide +kernel⟩⟩,
      Or.inl rfl⟩
  have hl : listedQueries groupExample o = ["a".toList, "b".toList] := by
    unfold listedQueries
    rw [if_pos (by decide), groupExample_files.2]
    decide +kernel
  have hg : ∀ q, groupFor groupExample o q = (groupIn [["g".toList, "a".toList, "b".toList]] q).getD q := by
    intro q
    unfold groupFor
    rw [if_pos (by decide), groupExample_files.2]
    rw [Option.bind_some, show (lines "g a b\n".toList).map words = [["g".toList, "a".toList, "b".toList]]
      by decide +kernel]
  have := C73_box Rnd.exact exact_precise S rng groupExample o _ _ _ _ groupExample_files.1 (if_pos rfl) y1 y2
    "g".toList (by rw [hl]; simp only [hg]; decide +kernel) (by rw [hl]; simp only [hg]; decide +kernel) r hr
  exact ⟨r, hr, this.ap rfl, this.ndcg rfl⟩

end Kws
