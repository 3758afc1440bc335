import Verif.Props.Bootstrap
import Verif.Props.Sampling
import Verif.Props.Grouping

/-!
# The assessment always gives a report
-/

namespace Kws
open Spec

section
variable {G Q L : Type}

/-! ## Metrics -/

theorem globalAP_total (R : Rnd) (ms : List (KwsMatch Q L)) (collapse interp trapezoid : Bool) :
    ∃ v, globalAP R ms collapse interp trapezoid = .ok v := by
  unfold globalAP computeAP
  simp only
  rw [if_pos (matchesPR_len_eq R ms collapse interp).symm]
  exact ⟨_, rfl⟩

theorem sorted_then {α : Type} (S : StdSort) (ms : List (KwsMatch Q L)) (sort : Bool)
    (hn : sort = true → NoNaN ms) (k : List (KwsMatch Q L) → Cpp α) (hk : ∀ l, ∃ v, k l = .ok v) :
    ∃ v, (if sort = true then (sortMatches S ms).bind k else k ms) = .ok v := by
  cases sort with
  | false => exact hk ms
  | true =>
    obtain ⟨l, h, _⟩ := sortMatches_spec S ms (hn rfl)
    rw [if_pos rfl, h]
    exact hk l

theorem globalAPGrouped_total (R : Rnd) (S : StdSort) (groups : List (List (KwsMatch Q L)))
    (collapse interp trapezoid sort : Bool) (hn : sort = true → NoNaN groups.flatten) :
    ∃ v, globalAPGrouped R S groups collapse interp trapezoid sort = .ok v := by
  have heq : globalAPGrouped R S groups collapse interp trapezoid sort =
      if sort = true then (sortMatches S groups.flatten).bind
        (fun l => globalAP R l collapse interp trapezoid)
      else globalAP R groups.flatten collapse interp trapezoid := rfl
  rw [heq]
  exact sorted_then S _ sort hn _ (fun l => globalAP_total R l collapse interp trapezoid)

theorem globalNDCGGrouped_total (R : Rnd) (S : StdSort) (groups : List (List (KwsMatch Q L)))
    (collapse sort : Bool) (hn : sort = true → NoNaN groups.flatten) :
    ∃ v, globalNDCGGrouped R S groups collapse sort = .ok v := by
  have heq : globalNDCGGrouped R S groups collapse sort =
      if sort = true then (sortMatches S groups.flatten).bind
        (fun l => .ok (globalNDCG R l collapse))
      else .ok (globalNDCG R groups.flatten collapse) := rfl
  rw [heq]
  exact sorted_then S _ sort hn (fun l => .ok (globalNDCG R l collapse)) (fun l => ⟨_, rfl⟩)

theorem meanAPLoop_total (R : Rnd) (S : StdSort) (collapse interp trapezoid sort : Bool)
    (groups : List (List (KwsMatch Q L))) (hn : sort = true → ∀ g ∈ groups, NoNaN g) :
    ∀ acc, ∃ v, meanAPLoop R S collapse interp trapezoid sort acc groups = .ok v := by
  induction groups with
  | nil => intro acc; exact ⟨acc, rfl⟩
  | cons g groups ih =>
    intro acc
    have ih := ih (fun hs g hg => hn hs g (by simp [hg]))
    have heq : meanAPLoop R S collapse interp trapezoid sort acc (g :: groups) =
        if sort = true then (sortMatches S g).bind
          (fun l => (globalAP R l collapse interp trapezoid).bind
            (fun ap => meanAPLoop R S collapse interp trapezoid sort (R.f64 (acc + ap)) groups))
        else (globalAP R g collapse interp trapezoid).bind
            (fun ap => meanAPLoop R S collapse interp trapezoid sort (R.f64 (acc + ap)) groups) := rfl
    rw [heq]
    refine sorted_then S _ sort (fun hs => hn hs g (by simp))
      (fun l => (globalAP R l collapse interp trapezoid).bind
            (fun ap => meanAPLoop R S collapse interp trapezoid sort (R.f64 (acc + ap)) groups))
      (fun l => ?_)
    obtain ⟨v, hv⟩ := globalAP_total R l collapse interp trapezoid
    simp only [hv, Except.bind]
    exact ih _

theorem meanNDCGLoop_total (R : Rnd) (S : StdSort) (collapse sort : Bool)
    (groups : List (List (KwsMatch Q L))) (hn : sort = true → ∀ g ∈ groups, NoNaN g) :
    ∀ acc, ∃ v, meanNDCGLoop R S collapse sort acc groups = .ok v := by
  induction groups with
  | nil => intro acc; exact ⟨acc, rfl⟩
  | cons g groups ih =>
    intro acc
    have ih := ih (fun hs g hg => hn hs g (by simp [hg]))
    have heq : meanNDCGLoop R S collapse sort acc (g :: groups) =
        if sort = true then (sortMatches S g).bind
          (fun l => meanNDCGLoop R S collapse sort (acc + globalNDCG R l collapse) groups)
        else meanNDCGLoop R S collapse sort (acc + globalNDCG R g collapse) groups := rfl
    rw [heq]
    exact sorted_then S _ sort (fun hs => hn hs g (by simp))
      (fun l => meanNDCGLoop R S collapse sort (acc + globalNDCG R l collapse) groups) (fun l => ih _)

theorem meanAP_total (R : Rnd) (S : StdSort) (groups : List (List (KwsMatch Q L)))
    (collapse interp trapezoid sort : Bool) (hn : sort = true → ∀ g ∈ groups, NoNaN g) :
    ∃ v, meanAP R S groups collapse interp trapezoid sort = .ok v := by
  unfold meanAP
  obtain ⟨v, h⟩ := meanAPLoop_total R S collapse interp trapezoid sort groups hn 0
  simp only [h, bind, Except.bind]
  exact ⟨_, rfl⟩

theorem meanNDCG_total (R : Rnd) (S : StdSort) (groups : List (List (KwsMatch Q L)))
    (collapse sort : Bool) (hn : sort = true → ∀ g ∈ groups, NoNaN g) :
    ∃ v, meanNDCG R S groups collapse sort = .ok v := by
  unfold meanNDCG
  obtain ⟨v, h⟩ := meanNDCGLoop_total R S collapse sort groups hn 0
  simp only [h, bind, Except.bind]
  exact ⟨_, rfl⟩

/-! ## Confidence intervals -/

/-- The bounds are read within the vector of deviations. -/
def IndicesOk (R : Rnd) (o : ToolOptions) : Prop :=
  ∃ li ui, lowerIndex R o.alpha o.samples = .ok li ∧ upperIndex R o.alpha o.samples = .ok ui ∧
    li < o.samples ∧ ui < o.samples

theorem vecAt_lt {α : Type} (v : List α) (i : Nat) (h : i < v.length) : ∃ a, vecAt v i = .ok a := by
  unfold vecAt
  rw [List.getElem?_eq_getElem h]
  exact ⟨_, rfl⟩

theorem percentile_total {K M : Type} [LinearOrder K] [AddCommGroup K] [IsOrderedAddMonoid K] (R : Rnd)
    (S : StdSort) (rd : K → K) (rng : Rng G) (o : ToolOptions) (groups : List (List M))
    (statistic : List (List M) → Cpp K)
    (htot : ∀ sample, Resample groups sample → ∃ v, statistic sample = .ok v) (hi : IndicesOk R o) :
    ∃ v lo hi, percentileCIGrouped R S rd rng groups o.samples o.alpha o.seed statistic =
      .ok (v, lo, hi) := by
  classical
  obtain ⟨v, hv⟩ := htot groups (resample_self groups)
  obtain ⟨li, ui, h1, h2, h3, h4⟩ := hi
  let stat : List (List M) → K := fun s =>
    match statistic s with
    | .ok v => v
    | .error _ => v
  obtain ⟨cs, _, h6, h7⟩ := bootstrapLoop_ok rd statistic (matchesByQuerySampler rng groups) v
    (fun g => by
      obtain ⟨s, g', h, _⟩ := C40_shape rng groups g
      exact ⟨s, g', h⟩) stat
    (fun g c g' h => by
      obtain ⟨s, g'', h', hs⟩ := C40_shape rng groups g
      rw [h] at h'
      injection h' with h'
      rw [Prod.mk.injEq] at h'
      rw [← h'.1] at hs
      obtain ⟨x, hx⟩ := htot c hs
      simp only [stat, hx]) o.samples (rng.seed o.seed)
  obtain ⟨l', h8, h9, _⟩ := sort_lt S (cs.map (fun c => rd (stat c - v)))
  have hlen : l'.length = o.samples := by rw [h9.length_eq, List.length_map, h6]
  obtain ⟨dl, h10⟩ := vecAt_lt l' li (by omega)
  obtain ⟨du, h11⟩ := vecAt_lt l' ui (by omega)
  refine ⟨v, rd (v - dl), rd (v - du), ?_⟩
  unfold percentileCIGrouped percentileCI
  simp only [hv, h7, h8, h1, h2, h10, h11, bind, Except.bind]
  rfl

theorem globalStatistic_total {K : Type} [LinearOrder K] [AddCommGroup K] [IsOrderedAddMonoid K]
    (R : Rnd) (S : StdSort) (rd : K → K) (rng : Rng G) (b : Bool) (o : ToolOptions)
    (ms : List (KwsMatch Q L)) (groups : List (List (KwsMatch Q L)))
    (plain : List (KwsMatch Q L) → Cpp K) (grouped : List (List (KwsMatch Q L)) → Bool → Cpp K)
    (h1 : ∃ v, plain ms = .ok v)
    (h2 : ∀ sample, Resample groups sample → ∃ v, grouped sample true = .ok v)
    (hi : b = true → IndicesOk R o) :
    ∃ m, globalStatistic R S rd rng b o ms groups plain grouped = .ok m ∧ m.ci.isSome = b := by
  unfold globalStatistic
  cases b with
  | false =>
    obtain ⟨v, hv⟩ := h1
    simp only [hv, bind, Except.bind]
    exact ⟨_, rfl, rfl⟩
  | true =>
    obtain ⟨v, lo, hi, h⟩ := percentile_total R S rd rng o groups (fun s => grouped s true) h2 (hi rfl)
    simp only [if_true, h, bind, Except.bind]
    exact ⟨_, rfl, rfl⟩

theorem meanStatistic_total {K : Type} [LinearOrder K] [AddCommGroup K] [IsOrderedAddMonoid K]
    (R : Rnd) (S : StdSort) (rd : K → K) (rng : Rng G) (b : Bool) (o : ToolOptions)
    (groups : List (List (KwsMatch Q L))) (grouped : List (List (KwsMatch Q L)) → Bool → Cpp K)
    (h1 : ∃ v, grouped groups false = .ok v)
    (h2 : ∀ sample, Resample groups sample → ∃ v, grouped sample true = .ok v)
    (hi : b = true → IndicesOk R o) :
    ∃ m, meanStatistic R S rd rng b o groups grouped = .ok m ∧ m.ci.isSome = b := by
  unfold meanStatistic
  cases b with
  | false =>
    obtain ⟨v, hv⟩ := h1
    simp only [hv, bind, Except.bind]
    exact ⟨_, rfl, rfl⟩
  | true =>
    obtain ⟨v, lo, hi, h⟩ := percentile_total R S rd rng o groups (fun s => grouped s true) h2 (hi rfl)
    simp only [if_true, h, bind, Except.bind]
    exact ⟨_, rfl, rfl⟩

/-! ## The whole assessment -/

/-- Confidence intervals and curves can be computed and written. -/
structure Assessable (R : Rnd) (w : World) (o : ToolOptions) (n : Nat) : Prop where
  ci : o.ciGap = true ∨ o.ciMap = true ∨ o.ciGndcg = true ∨ o.ciMndcg = true → IndicesOk R o
  grp : o.outputGrp ≠ [] → w.writable o.outputGrp = true
  mrp : o.outputMrp ≠ [] → w.writable o.outputMrp = true
  curves : o.outputGrp ≠ [] ∨ o.outputMrp ≠ [] →
    R.Precise ∧ n ≤ if o.collapse then 2 ^ 24 else 2 ^ 53

theorem groups_length (groups : List (List (KwsMatch Q L))) (h : [] ∉ groups) :
    groups.length ≤ groups.flatten.length := by
  induction groups with
  | nil => simp
  | cons g groups ih =>
    have h1 := ih (fun hc => h (by simp [hc]))
    have h2 : g ≠ [] := fun hc => h (by simp [hc])
    have h3 := List.length_pos_iff.2 h2
    simp only [List.length_cons, List.flatten_cons, List.length_append]
    omega

theorem assess_total (R : Rnd) (S : StdSort) (rng : Rng G) (w : World) (o : ToolOptions)
    (ms : List (KwsMatch Q L)) (groups : List (List (KwsMatch Q L)))
    (dump : Option (List (KwsMatch Q L) × List (KwsMatch Q L))) (n : Nat)
    (hA : Assessable R w o n) (hn : NoNaN ms) (hr : ∀ m ∈ ms, Rates m.error) (hl : ms.length ≤ n)
    (hperm : groups.flatten.Perm ms) (hsub : ∀ g ∈ groups, g.Sublist ms) (hne : [] ∉ groups) :
    ∃ r, assess R S rng w o ms groups dump = .ok r ∧ r.gAP.ci.isSome = o.ciGap ∧
      r.mAP.ci.isSome = o.ciMap ∧ r.gNDCG.ci.isSome = o.ciGndcg ∧ r.mNDCG.ci.isSome = o.ciMndcg ∧
      r.dump = dump ∧ (r.globalCurve.isSome = true ↔ o.outputGrp ≠ []) ∧
      (r.meanCurve.isSome = true ↔ o.outputMrp ≠ []) := by
  have hres : ∀ sample, Resample groups sample → ∀ g ∈ sample, NoNaN g := by
    intro sample hs g hg m hm
    exact resample_all hs (fun m => rank m ≠ .nan)
      (fun g hg m hm => hn m ((hsub g hg).mem hm)) g hg m hm
  have hflat : ∀ sample, Resample groups sample → NoNaN sample.flatten := by
    intro sample hs m hm
    obtain ⟨g, hg, hm⟩ := List.mem_flatten.1 hm
    exact hres sample hs g hg m hm
  obtain ⟨gap, e1, c1⟩ := globalStatistic_total R S R.f64 rng o.ciGap o ms groups
    (fun ms => globalAP R ms o.collapse o.interp o.trapezoid)
    (fun gs b => globalAPGrouped R S gs o.collapse o.interp o.trapezoid b)
    (globalAP_total R ms _ _ _)
    (fun s hs => globalAPGrouped_total R S s _ _ _ true (fun _ => hflat s hs))
    (fun h => hA.ci (by simp [h]))
  obtain ⟨map, e2, c2⟩ := meanStatistic_total R S R.f64 rng o.ciMap o groups
    (fun gs b => meanAP R S gs o.collapse o.interp o.trapezoid b)
    (meanAP_total R S groups _ _ _ false (by simp))
    (fun s hs => meanAP_total R S s _ _ _ true (fun _ => hres s hs))
    (fun h => hA.ci (by simp [h]))
  obtain ⟨gnd, e3, c3⟩ := globalStatistic_total R S (id : ℝ → ℝ) rng o.ciGndcg o ms groups
    (fun ms => .ok (globalNDCG R ms o.collapse))
    (fun gs b => globalNDCGGrouped R S gs o.collapse b) ⟨_, rfl⟩
    (fun s hs => globalNDCGGrouped_total R S s _ true (fun _ => hflat s hs))
    (fun h => hA.ci (by simp [h]))
  obtain ⟨mnd, e4, c4⟩ := meanStatistic_total R S (id : ℝ → ℝ) rng o.ciMndcg o groups
    (fun gs b => meanNDCG R S gs o.collapse b)
    (meanNDCG_total R S groups _ false (by simp))
    (fun s hs => meanNDCG_total R S s _ true (fun _ => hres s hs))
    (fun h => hA.ci (by simp [h]))
  obtain ⟨gc, e5, c5⟩ : ∃ gc, (if o.outputGrp = [] then pure none else
      some <$> globalRPCurve R w o.outputGrp ms o.curveSamples o.collapse o.interp o.trapezoid) =
        (.ok gc : Cpp _) ∧ (gc.isSome = true ↔ o.outputGrp ≠ []) := by
    by_cases hg : o.outputGrp = []
    · rw [if_pos hg]
      exact ⟨none, rfl, by simp [hg]⟩
    · rw [if_neg hg]
      obtain ⟨h1, h2⟩ := hA.curves (Or.inl hg)
      obtain ⟨pts, h, _⟩ := C39_global_rounded R h1 w o.outputGrp ms o.curveSamples o.collapse o.interp
        o.trapezoid hg (hA.grp hg) hr (hl.trans h2)
      exact ⟨some pts, by rw [h]; rfl, by simp [hg]⟩
  obtain ⟨mc, e6, c6⟩ : ∃ mc, (if o.outputMrp = [] then pure none else
      some <$> meanRPCurve R w o.outputMrp groups o.curveSamples o.collapse o.interp o.trapezoid) =
        (.ok mc : Cpp _) ∧ (mc.isSome = true ↔ o.outputMrp ≠ []) := by
    by_cases hg : o.outputMrp = []
    · rw [if_pos hg]
      exact ⟨none, rfl, by simp [hg]⟩
    · rw [if_neg hg]
      obtain ⟨h1, h2⟩ := hA.curves (Or.inr hg)
      have h3 := groups_length groups hne
      rw [hperm.length_eq] at h3
      obtain ⟨pts, h, _⟩ := C39_mean_rounded R h1 w o.outputMrp groups o.curveSamples o.collapse
        o.interp o.trapezoid hg (hA.mrp hg)
        (fun g hg m hm => hr m ((hsub g hg).mem hm))
        (fun g hg => ((hsub g hg).length_le.trans hl).trans h2)
        (h3.trans (hl.trans (h2.trans (by split <;> norm_num))))
      exact ⟨some pts, by rw [h]; rfl, by simp [hg]⟩
  refine ⟨⟨gap, map, gnd, mnd, dump, gc, mc⟩, ?_, c1, c2, c3, c4, rfl, c5, c6⟩
  unfold assess
  simp only [e1, e2, e3, e4, bind, Except.bind]
  split <;> rename_i g1
  · rw [if_pos g1] at e5
    rw [e5]
    simp only
    split <;> rename_i g2
    · rw [if_pos g2] at e6
      rw [e6]
      rfl
    · rw [if_neg g2] at e6
      rw [e6]
      rfl
  · rw [if_neg g1] at e5
    rw [e5]
    simp only
    split <;> rename_i g2
    · rw [if_pos g2] at e6
      rw [e6]
      rfl
    · rw [if_neg g2] at e6
      rw [e6]
      rfl

end

/-! ## Matching -/

theorem tryRefs_total {RE HE : Type} [Cmp RE] (scorer : RE → HE → Cpp MatchError) (h : HE)
    (hs : ∀ r, ∃ e, scorer r h = .ok e) (ov : List RE) :
    ∀ u, ∃ t, SimpleMatcher.tryRefs scorer h u ov = .ok t := by
  induction ov with
  | nil => intro u; exact ⟨_, rfl⟩
  | cons r ov ih =>
    intro u
    unfold SimpleMatcher.tryRefs
    obtain ⟨e, he⟩ := hs r
    obtain ⟨t, ht⟩ := ih u
    simp only [he, ht, bind, Except.bind, pure, Except.pure]
    (repeat' split) <;> exact ⟨_, rfl⟩

theorem loop_total {σ RE HE : Type} [Cmp RE] (ix : RefIndex σ RE HE)
    (scorer : RE → HE → Cpp MatchError) (s : σ) (hs : ∀ r h, ∃ e, scorer r h = .ok e) (hyps : List HE)
    (hf : ∀ h ∈ hyps, ∃ ov, ix.findOverlapping s h = .ok ov) :
    ∀ u, ∃ t, SimpleMatcher.loop ix scorer s u hyps = .ok t := by
  induction hyps with
  | nil => intro u; exact ⟨_, rfl⟩
  | cons h hyps ih =>
    intro u
    unfold SimpleMatcher.loop
    obtain ⟨ov, hov⟩ := hf h (by simp)
    obtain ⟨⟨b, u', res, rep⟩, h1⟩ := tryRefs_total scorer h (fun r => hs r h) ov u
    obtain ⟨⟨u2, r2, p2⟩, h2⟩ := ih (fun x hx => hf x (by simp [hx])) u'
    simp only [hov, h1, h2, bind, Except.bind]
    exact ⟨_, rfl⟩

theorem run_total {σ RE HE : Type} [Cmp RE] (ix : RefIndex σ RE HE)
    (scorer : RE → HE → Cpp MatchError) (s : σ) (refs : List RE) (hyps : List HE)
    (hs : ∀ r h, ∃ e, scorer r h = .ok e)
    (hf : ∀ h ∈ hyps, ∃ ov, ix.findOverlapping (refs.foldl ix.insert (ix.clear s)) h = .ok ov) :
    ∃ t, SimpleMatcher.run ix scorer s refs hyps = .ok t := by
  unfold SimpleMatcher.run
  obtain ⟨⟨u, r, p⟩, h⟩ := loop_total ix scorer _ hs hyps hf (StdSet.ofList Cmp.lt refs)
  simp only [h, bind, Except.bind]
  exact ⟨_, rfl⟩

end Kws
