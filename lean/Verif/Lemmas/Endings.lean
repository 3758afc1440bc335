import Verif.Lemmas.Total
import Verif.Spec.Endings

/-!
# How an assessment ends
-/

namespace Kws
open Spec

theorem toSize_pos (x : ℚ) (n : Nat) (hn : n < 2 ^ 64) :
    (∃ i, toSize x = .ok i ∧ i < n) ↔ 0 < n ∧ -1 < x ∧ x < n := by
  have hq : (n : ℚ) < 2 ^ 64 := by exact_mod_cast hn
  unfold toSize
  constructor
  · rintro ⟨i, h, hi⟩
    split at h
    · rename_i hx
      injection h with h
      subst h
      refine ⟨by omega, hx.1, ?_⟩
      have h1 : ⌊x⌋ < (n : ℤ) := by omega
      have h2 := Int.floor_lt.1 h1
      exact_mod_cast h2
    · cases h
  · rintro ⟨h0, h1, h2⟩
    refine ⟨⌊x⌋.toNat, by rw [if_pos ⟨h1, h2.trans hq⟩], ?_⟩
    have h3 : ⌊x⌋ < (n : ℤ) := Int.floor_lt.2 (by exact_mod_cast h2)
    omega

theorem indicesOk_iff (R : Rnd) (o : ToolOptions) (hn : o.samples < 2 ^ 64) :
    IndicesOk R o ↔ IntervalDefined R o := by
  have h1 := toSize_pos (lowerPosition R o) o.samples hn
  have h2 := toSize_pos (upperPosition R o) o.samples hn
  constructor
  · rintro ⟨li, ui, e1, e2, l1, l2⟩
    obtain ⟨a, b, c⟩ := h1.1 ⟨li, e1, l1⟩
    obtain ⟨_, d, e⟩ := h2.1 ⟨ui, e2, l2⟩
    exact ⟨a, b, c, d, e⟩
  · rintro ⟨a, b, c, d, e⟩
    obtain ⟨li, e1, l1⟩ := h1.2 ⟨a, b, c⟩
    obtain ⟨ui, e2, l2⟩ := h2.2 ⟨a, d, e⟩
    exact ⟨li, ui, e1, e2, l1, l2⟩

theorem vecAt_ge {α : Type} (v : List α) (i : Nat) (h : v.length ≤ i) : vecAt v i = .error .ub := by
  unfold vecAt
  rw [List.getElem?_eq_none h]

theorem toSize_cases (x : ℚ) : (∃ i, toSize x = .ok i) ∨ toSize x = .error .ub := by
  unfold toSize
  split
  · exact Or.inl ⟨_, rfl⟩
  · exact Or.inr rfl

section
variable {G Q L : Type}

theorem percentile_ub {K M : Type} [LinearOrder K] [AddCommGroup K] [IsOrderedAddMonoid K] (R : Rnd)
    (S : StdSort) (rd : K → K) (rng : Rng G) (o : ToolOptions) (groups : List (List M))
    (statistic : List (List M) → Cpp K)
    (htot : ∀ sample, Resample groups sample → ∃ v, statistic sample = .ok v)
    (hi : ¬ IndicesOk R o) :
    percentileCIGrouped R S rd rng groups o.samples o.alpha o.seed statistic = .error .ub := by
  classical
  obtain ⟨v, hv⟩ := htot groups (resample_self groups)
  let stat : List (List M) → K := fun s =>
    match statistic s with
    | .ok v => v
    | .error _ => v
  obtain ⟨cs, _, h6, h7⟩ := bootstrapLoop_ok rd statistic (matchesByQuerySampler rng groups) v
    (fun g => by
      obtain ⟨s, g', h, _⟩ := C40_shape rng groups g
      exact ⟨s, g', h⟩) stat
    (fun g c g' h => by
      obtain ⟨s, g'', h', hs⟩ := C40_shape rng groups g
      rw [h] at h'
      injection h' with h'
      rw [Prod.mk.injEq] at h'
      rw [← h'.1] at hs
      obtain ⟨x, hx⟩ := htot c hs
      simp only [stat, hx]) o.samples (rng.seed o.seed)
  obtain ⟨l', h8, h9, _⟩ := sort_lt S (cs.map (fun c => rd (stat c - v)))
  have hlen : l'.length = o.samples := by rw [h9.length_eq, List.length_map, h6]
  unfold percentileCIGrouped percentileCI
  simp only [hv, h7, h8, bind, Except.bind]
  rcases toSize_cases (lowerPosition R o) with ⟨li, e1⟩ | e1
  swap
  · rw [show lowerIndex R o.alpha o.samples = .error .ub from e1]
  rw [show lowerIndex R o.alpha o.samples = .ok li from e1]
  simp only
  rcases toSize_cases (upperPosition R o) with ⟨ui, e2⟩ | e2
  swap
  · rw [show upperIndex R o.alpha o.samples = .error .ub from e2]
  rw [show upperIndex R o.alpha o.samples = .ok ui from e2]
  simp only
  by_cases l1 : li < o.samples
  · obtain ⟨dl, h10⟩ := vecAt_lt l' li (by omega)
    rw [h10]
    simp only
    rw [vecAt_ge l' ui ?_]
    by_contra hc
    exact hi ⟨li, ui, e1, e2, l1, by omega⟩
  · rw [vecAt_ge l' li (by omega)]

theorem globalStatistic_ub {K : Type} [LinearOrder K] [AddCommGroup K] [IsOrderedAddMonoid K]
    (R : Rnd) (S : StdSort) (rd : K → K) (rng : Rng G) (b : Bool) (o : ToolOptions)
    (ms : List (KwsMatch Q L)) (groups : List (List (KwsMatch Q L)))
    (plain : List (KwsMatch Q L) → Cpp K) (grouped : List (List (KwsMatch Q L)) → Bool → Cpp K)
    (h1 : ∃ v, plain ms = .ok v)
    (h2 : ∀ sample, Resample groups sample → ∃ v, grouped sample true = .ok v)
    (hi : ¬ IndicesOk R o) :
    (b = true ∧ globalStatistic R S rd rng b o ms groups plain grouped = .error .ub) ∨
    (b = false ∧ ∃ m, globalStatistic R S rd rng b o ms groups plain grouped = .ok m) := by
  unfold globalStatistic
  cases b with
  | false =>
    obtain ⟨v, hv⟩ := h1
    simp only [hv, bind, Except.bind]
    exact Or.inr ⟨trivial, _, rfl⟩
  | true =>
    have h := percentile_ub R S rd rng o groups (fun s => grouped s true) h2 hi
    simp only [if_true, h, bind, Except.bind]
    exact Or.inl ⟨trivial, trivial⟩

theorem meanStatistic_ub {K : Type} [LinearOrder K] [AddCommGroup K] [IsOrderedAddMonoid K]
    (R : Rnd) (S : StdSort) (rd : K → K) (rng : Rng G) (b : Bool) (o : ToolOptions)
    (groups : List (List (KwsMatch Q L))) (grouped : List (List (KwsMatch Q L)) → Bool → Cpp K)
    (h1 : ∃ v, grouped groups false = .ok v)
    (h2 : ∀ sample, Resample groups sample → ∃ v, grouped sample true = .ok v)
    (hi : ¬ IndicesOk R o) :
    (b = true ∧ meanStatistic R S rd rng b o groups grouped = .error .ub) ∨
    (b = false ∧ ∃ m, meanStatistic R S rd rng b o groups grouped = .ok m) := by
  unfold meanStatistic
  cases b with
  | false =>
    obtain ⟨v, hv⟩ := h1
    simp only [hv, bind, Except.bind]
    exact Or.inr ⟨trivial, _, rfl⟩
  | true =>
    have h := percentile_ub R S rd rng o groups (fun s => grouped s true) h2 hi
    simp only [if_true, h, bind, Except.bind]
    exact Or.inl ⟨trivial, trivial⟩

/-- A file is written, or an exception is thrown. -/
theorem writeCurveFile_world {K K' : Type} (w w1 : World) (f : Str) (x : List K) (y : List K')
    (pts : List (K × K')) (h : writeCurveFile w1 f x y = .ok pts) :
    writeCurveFile w f x y = if w.writable f = true then .ok pts else .error .ioFailure := by
  unfold writeCurveFile at h ⊢
  simp only [bind, Except.bind] at h ⊢
  cases h8 : writeCurve f x y with
  | error e => rw [h8] at h; cases h
  | ok p =>
    rw [h8] at h
    simp only at h ⊢
    split at h
    · injection h with h
      subst h
      rfl
    · cases h

theorem globalCurve_world (R : Rnd) (w w1 : World) (f : Str) (ms : List (KwsMatch Q L)) (n : Nat)
    (collapse interp linear : Bool) (pts : List (ℚ × ℚ))
    (h : globalRPCurve R w1 f ms n collapse interp linear = .ok pts) :
    globalRPCurve R w f ms n collapse interp linear =
      if w.writable f = true then .ok pts else .error .ioFailure := by
  unfold globalRPCurve at h ⊢
  simp only [bind, Except.bind] at h ⊢
  split at h
  · cases h
  · exact writeCurveFile_world w w1 f _ _ pts h

theorem meanCurve_world (R : Rnd) (w w1 : World) (f : Str) (groups : List (List (KwsMatch Q L)))
    (n : Nat) (collapse interp linear : Bool) (pts : List (ℚ × Flt))
    (h : meanRPCurve R w1 f groups n collapse interp linear = .ok pts) :
    meanRPCurve R w f groups n collapse interp linear =
      if w.writable f = true then .ok pts else .error .ioFailure := by
  unfold meanRPCurve at h ⊢
  simp only [bind, Except.bind] at h ⊢
  split at h
  · cases h
  · split at h
    · cases h
    · exact writeCurveFile_world w w1 f _ _ pts h

theorem assess_ends (R : Rnd) (S : StdSort) (rng : Rng G) (w : World) (o : ToolOptions)
    (ms : List (KwsMatch Q L)) (groups : List (List (KwsMatch Q L)))
    (dump : Option (List (KwsMatch Q L) × List (KwsMatch Q L))) (n : Nat)
    (hC : CurvesCountable R o n) (hn : NoNaN ms) (hr : ∀ m ∈ ms, Rates m.error) (hl : ms.length ≤ n)
    (hperm : groups.flatten.Perm ms) (hsub : ∀ g ∈ groups, g.Sublist ms) (hne : [] ∉ groups) :
    (AsksIntervals o → ¬ IndicesOk R o → assess R S rng w o ms groups dump = .error .ub) ∧
    ((AsksIntervals o → IndicesOk R o) → CurveFails w o →
      assess R S rng w o ms groups dump = .error .ioFailure) ∧
    ((AsksIntervals o → IndicesOk R o) → ¬ CurveFails w o →
      ∃ r, assess R S rng w o ms groups dump = .ok r ∧ r.gAP.ci.isSome = o.ciGap ∧
        r.mAP.ci.isSome = o.ciMap ∧ r.gNDCG.ci.isSome = o.ciGndcg ∧
        r.mNDCG.ci.isSome = o.ciMndcg ∧
        r.dump = dump ∧ (r.globalCurve.isSome = true ↔ o.outputGrp ≠ []) ∧
        (r.meanCurve.isSome = true ↔ o.outputMrp ≠ [])) := by
  have hres : ∀ sample, Resample groups sample → ∀ g ∈ sample, NoNaN g := by
    intro sample hs g hg m hm
    exact resample_all hs (fun m => rank m ≠ .nan)
      (fun g hg m hm => hn m ((hsub g hg).mem hm)) g hg m hm
  have hflat : ∀ sample, Resample groups sample → NoNaN sample.flatten := by
    intro sample hs m hm
    obtain ⟨g, hg, hm⟩ := List.mem_flatten.1 hm
    exact hres sample hs g hg m hm
  refine ⟨?_, ?_⟩
  · intro ha hi
    have k1 := globalStatistic_ub R S R.f64 rng o.ciGap o ms groups
      (fun ms => globalAP R ms o.collapse o.interp o.trapezoid)
      (fun gs b => globalAPGrouped R S gs o.collapse o.interp o.trapezoid b)
      (globalAP_total R ms _ _ _)
      (fun s hs => globalAPGrouped_total R S s _ _ _ true (fun _ => hflat s hs)) hi
    have k2 := meanStatistic_ub R S R.f64 rng o.ciMap o groups
      (fun gs b => meanAP R S gs o.collapse o.interp o.trapezoid b)
      (meanAP_total R S groups _ _ _ false (by simp))
      (fun s hs => meanAP_total R S s _ _ _ true (fun _ => hres s hs)) hi
    have k3 := globalStatistic_ub R S (id : ℝ → ℝ) rng o.ciGndcg o ms groups
      (fun ms => .ok (globalNDCG R ms o.collapse))
      (fun gs b => globalNDCGGrouped R S gs o.collapse b) ⟨_, rfl⟩
      (fun s hs => globalNDCGGrouped_total R S s _ true (fun _ => hflat s hs)) hi
    have k4 := meanStatistic_ub R S (id : ℝ → ℝ) rng o.ciMndcg o groups
      (fun gs b => meanNDCG R S gs o.collapse b)
      (meanNDCG_total R S groups _ false (by simp))
      (fun s hs => meanNDCG_total R S s _ true (fun _ => hres s hs)) hi
    unfold assess
    simp only [bind, Except.bind]
    rcases k1 with ⟨_, k1⟩ | ⟨b1, m1, k1⟩ <;> rw [k1]
    simp only
    rcases k2 with ⟨_, k2⟩ | ⟨b2, m2, k2⟩ <;> rw [k2]
    simp only
    rcases k3 with ⟨_, k3⟩ | ⟨b3, m3, k3⟩ <;> rw [k3]
    simp only
    rcases k4 with ⟨_, k4⟩ | ⟨b4, m4, k4⟩ <;> rw [k4]
    simp [AsksIntervals, b1, b2, b3, b4] at ha
  rw [← forall_and]
  intro hi
  obtain ⟨gap, e1, c1⟩ := globalStatistic_total R S R.f64 rng o.ciGap o ms groups
    (fun ms => globalAP R ms o.collapse o.interp o.trapezoid)
    (fun gs b => globalAPGrouped R S gs o.collapse o.interp o.trapezoid b)
    (globalAP_total R ms _ _ _)
    (fun s hs => globalAPGrouped_total R S s _ _ _ true (fun _ => hflat s hs))
    (fun h => hi (by simp [AsksIntervals, h]))
  obtain ⟨map, e2, c2⟩ := meanStatistic_total R S R.f64 rng o.ciMap o groups
    (fun gs b => meanAP R S gs o.collapse o.interp o.trapezoid b)
    (meanAP_total R S groups _ _ _ false (by simp))
    (fun s hs => meanAP_total R S s _ _ _ true (fun _ => hres s hs))
    (fun h => hi (by simp [AsksIntervals, h]))
  obtain ⟨gnd, e3, c3⟩ := globalStatistic_total R S (id : ℝ → ℝ) rng o.ciGndcg o ms groups
    (fun ms => .ok (globalNDCG R ms o.collapse))
    (fun gs b => globalNDCGGrouped R S gs o.collapse b) ⟨_, rfl⟩
    (fun s hs => globalNDCGGrouped_total R S s _ true (fun _ => hflat s hs))
    (fun h => hi (by simp [AsksIntervals, h]))
  obtain ⟨mnd, e4, c4⟩ := meanStatistic_total R S (id : ℝ → ℝ) rng o.ciMndcg o groups
    (fun gs b => meanNDCG R S gs o.collapse b)
    (meanNDCG_total R S groups _ false (by simp))
    (fun s hs => meanNDCG_total R S s _ true (fun _ => hres s hs))
    (fun h => hi (by simp [AsksIntervals, h]))
  set w1 : World := ⟨w.file, w.stdin, fun _ => true⟩
  have e5 : o.outputGrp ≠ [] → ∃ pts, globalRPCurve R w o.outputGrp ms o.curveSamples o.collapse
      o.interp o.trapezoid = if w.writable o.outputGrp = true then .ok pts else .error .ioFailure := by
    intro hg
    rcases hC (Or.inl hg) with rfl | ⟨h1, h2⟩
    · obtain ⟨pts, h, _⟩ := C39_global w1 o.outputGrp ms o.curveSamples o.collapse o.interp
        o.trapezoid hg rfl hr
      exact ⟨pts, globalCurve_world _ w w1 _ _ _ _ _ _ pts h⟩
    · obtain ⟨pts, h, _⟩ := C39_global_rounded R h1 w1 o.outputGrp ms o.curveSamples o.collapse
        o.interp o.trapezoid hg rfl hr (hl.trans h2)
      exact ⟨pts, globalCurve_world _ w w1 _ _ _ _ _ _ pts h⟩
  have e6 : o.outputMrp ≠ [] → ∃ pts, meanRPCurve R w o.outputMrp groups o.curveSamples o.collapse
      o.interp o.trapezoid = if w.writable o.outputMrp = true then .ok pts else .error .ioFailure := by
    intro hg
    rcases hC (Or.inr hg) with rfl | ⟨h1, h2⟩
    · obtain ⟨pts, h, _⟩ := C39_mean w1 o.outputMrp groups o.curveSamples o.collapse o.interp
        o.trapezoid hg rfl (fun g hg m hm => hr m ((hsub g hg).mem hm))
      exact ⟨pts, meanCurve_world _ w w1 _ _ _ _ _ _ pts h⟩
    · have h3 := groups_length groups hne
      rw [hperm.length_eq] at h3
      obtain ⟨pts, h, _⟩ := C39_mean_rounded R h1 w1 o.outputMrp groups o.curveSamples o.collapse
        o.interp o.trapezoid hg rfl
        (fun g hg m hm => hr m ((hsub g hg).mem hm))
        (fun g hg => ((hsub g hg).length_le.trans hl).trans h2)
        (h3.trans (hl.trans (h2.trans (by split <;> norm_num))))
      exact ⟨pts, meanCurve_world _ w w1 _ _ _ _ _ _ pts h⟩
  unfold assess
  simp only [e1, e2, e3, e4, bind, Except.bind]
  unfold CurveFails
  by_cases g1 : o.outputGrp = []
  · simp only [if_pos g1, pure, Except.pure]
    by_cases g2 : o.outputMrp = []
    · simp only [if_pos g2]
      refine ⟨fun h => ?_, fun _ => ⟨_, rfl, c1, c2, c3, c4, rfl, by simp [g1], by simp [g2]⟩⟩
      rcases h with h | h
      · exact absurd g1 h.1
      · exact absurd g2 h.1
    · simp only [if_neg g2]
      obtain ⟨pts, h⟩ := e6 g2
      rw [h]
      by_cases hw : w.writable o.outputMrp = true
      · simp only [if_pos hw]
        refine ⟨fun h => ?_, fun _ => ⟨_, rfl, c1, c2, c3, c4, rfl, by simp [g1], by simp [g2]⟩⟩
        rcases h with h | h
        · exact absurd g1 h.1
        · rw [hw] at h; exact absurd h.2 (by simp)
      · simp only [if_neg hw]
        exact ⟨fun _ => rfl, fun h => absurd (Or.inr ⟨g2, by simpa using hw⟩) h⟩
  · simp only [if_neg g1, pure, Except.pure]
    obtain ⟨pts, h⟩ := e5 g1
    rw [h]
    by_cases hw : w.writable o.outputGrp = true
    swap
    · simp only [if_neg hw]
      exact ⟨fun _ => rfl, fun h => absurd (Or.inl ⟨g1, by simpa using hw⟩) h⟩
    simp only [if_pos hw]
    simp only [Functor.map, Except.map]
    by_cases g2 : o.outputMrp = []
    · simp only [if_pos g2]
      refine ⟨fun h => ?_, fun _ => ⟨_, rfl, c1, c2, c3, c4, rfl, by simp [g1], by simp [g2]⟩⟩
      rcases h with h | h
      · rw [hw] at h; exact absurd h.2 (by simp)
      · exact absurd g2 h.1
    · simp only [if_neg g2]
      obtain ⟨pts, h⟩ := e6 g2
      rw [h]
      by_cases hw' : w.writable o.outputMrp = true
      · simp only [if_pos hw']
        refine ⟨fun h => ?_, fun _ => ⟨_, rfl, c1, c2, c3, c4, rfl, by simp [g1], by simp [g2]⟩⟩
        rcases h with h | h
        · rw [hw] at h; exact absurd h.2 (by simp)
        · rw [hw'] at h; exact absurd h.2 (by simp)
      · simp only [if_neg hw']
        exact ⟨fun _ => trivial, fun h => absurd (Or.inr ⟨g2, by simpa using hw'⟩) h⟩

end

section
variable {μ σ Q L G : Type} [DecidableEq Q] [Cmp Q] [LawfulCmp Q] [Cmp L] [LawfulCmp L]

theorem SafeKit.matchAndAssess_ends {kit : ToolKit μ σ Q L} (hk : SafeKit kit) (R : Rnd) (S : StdSort)
    (rng : Rng G) (w : World) (o : ToolOptions) (q2g : List (Q × Q)) (refs : List (Event Q L))
    (hyps : List (ScoredEvent Q L)) (n : Nat) (hC : CurvesCountable R o n)
    (hs : o.samples < 2 ^ 64) (hn : ∀ h ∈ hyps, h.score ≠ .nan)
    (hl : refs.length + hyps.length ≤ n) :
    Ends R w o (o.dumpMatches = [] ∨ w.writable o.dumpMatches = true)
      (matchAndAssess R S rng kit w o q2g refs hyps) := by
  obtain ⟨ms, rep, groups, r1, hrates, r3, g1, g2, g3, e⟩ :=
    hk.matchAndAssess_reduces R S rng w o q2g refs hyps hn
  obtain ⟨a1, a2, a3⟩ := assess_ends R S rng w o ms groups
    (if o.dumpMatches = [] then none else some (ms, rep)) n hC r1 hrates (r3.trans hl) g1 g2 g3
  have hd' : o.dumpMatches = [] ∨ w.writable o.dumpMatches = true →
      ¬ (o.dumpMatches ≠ [] ∧ w.writable o.dumpMatches = false) := by
    rintro hd ⟨h1, h2⟩
    rcases hd with hd | hd
    · exact h1 hd
    · rw [hd] at h2; cases h2
  rw [e]
  rw [indicesOk_iff R o hs] at a1 a2 a3
  refine ⟨fun hd => ?_, fun hd ha hi => ?_, fun hd hi hc => ?_, fun hd hi hc => ?_⟩
  · push Not at hd
    rw [if_pos ⟨hd.1, by simpa using hd.2⟩]
  · rw [if_neg (hd' hd), a1 ha hi]
    rfl
  · rw [if_neg (hd' hd), a2 hi hc]
    rfl
  · obtain ⟨r, e4, c1, c2, c3, c4, c5, c6, c7⟩ := a3 hi hc
    refine ⟨r, ?_, c1, c2, c3, c4, ?_, c6, c7⟩
    · rw [if_neg (hd' hd), e4]
      rfl
    · rw [c5]
      by_cases hd : o.dumpMatches = [] <;> simp [hd]

theorem SafeKit.evaluate_ends {kit : ToolKit μ σ Q L} (hk : SafeKit kit) (R : Rnd) (S : StdSort)
    (rng : Rng G) (w : World) (o : ToolOptions) (q2g : List (Q × Q)) (refs : List (Event Q L))
    (hyps : List (ScoredEvent Q L)) (n : Nat) (hC : CurvesCountable R o n)
    (hs : o.samples < 2 ^ 64) (hn : ∀ h ∈ hyps, h.score ≠ .nan)
    (hl : refs.length + hyps.length ≤ n) :
    Ends R w o (o.dumpMatches = [] ∨ w.writable o.dumpMatches = true)
      (evaluate R S rng kit w o q2g refs hyps) :=
  hk.matchAndAssess_ends R S rng w o q2g (usedRefs q2g refs) (usedHyps q2g hyps) n hC hs
    (fun h hh => hn h (usedHyps_mem q2g hyps h hh))
    (by have := used_length q2g refs hyps; omega)

end

theorem Spec.Ends.refused {Q L : Type} {R : Rnd} {w : World} {o : ToolOptions} {good : Prop}
    {run : Cpp (RunResult Q L)} (h : ¬ good) (e : run = .ok .failed) : Ends R w o good run :=
  ⟨fun _ => e, fun g => absurd g h, fun g => absurd g h, fun g => absurd g h⟩

theorem Spec.Ends.congr {Q L : Type} {R : Rnd} {w : World} {o : ToolOptions} {good good' : Prop}
    {run : Cpp (RunResult Q L)} (h : good ↔ good') (e : Ends R w o good run) : Ends R w o good' run := by
  rwa [← propext h]

/-- How runs of tools that read strings as they are end. -/
theorem PlainKit.main_ends {σ L G' : Type} [Cmp L] [LawfulCmp L] {R : Rnd}
    {kit : ToolKit Unit σ Str L} {ex : Extractor (Event Str L)} {G : Str → Event Str L → Str → Prop}
    (h : PlainKit R kit ex G) (hk : SafeKit kit) (S : StdSort) (rng : Rng G') (w : World)
    (o : ToolOptions) (hs : o.samples < 2 ^ 64)
    (hC : ∀ t t', w.file o.refFilename = some t → hypText w o = some t' →
      CurvesCountable R o ((lines t).length + (lines t').length)) :
    Ends R w o (ValidInputs G (ScoredText R G) w o ∧
      (o.dumpMatches = [] ∨ w.writable o.dumpMatches = true)) (mainWith R S rng kit w o) := by
  have hq : ∀ m q, kit.mapQuery m q = (m, .ok q) := fun m q => by rw [h.mapQuery]
  by_cases hr : o.refFilename = []
  · exact .refused (fun hg => hg.1.refName hr) (h.main_badRef S rng w o (Or.inl hr))
  cases ht : w.file o.refFilename with
  | none =>
    refine .refused (fun hg => ?_) (h.main_badRef S rng w o (Or.inr (Or.inl ht)))
    obtain ⟨t, ht', _⟩ := hg.1.refs
    rw [ht] at ht'; cases ht'
  | some t =>
    by_cases hv : ValidFile G t
    swap
    · refine .refused (fun hg => ?_) (h.main_badRef S rng w o (Or.inr (Or.inr ⟨t, ht, hv⟩)))
      obtain ⟨t', ht', hv'⟩ := hg.1.refs
      rw [ht] at ht'; injection ht' with ht'; subst ht'
      exact absurd hv' hv
    cases hu : hypText w o with
    | none =>
      refine .refused (fun hg => ?_) (h.main_badHyp S rng w o (Or.inl hu))
      obtain ⟨t', ht', _⟩ := hg.1.hyps
      rw [hu] at ht'; cases ht'
    | some u =>
      by_cases hv2 : ValidFile (ScoredText R G) u
      swap
      · refine .refused (fun hg => ?_) (h.main_badHyp S rng w o (Or.inr ⟨u, hu, hv2⟩))
        obtain ⟨t', ht', hv'⟩ := hg.1.hyps
        rw [hu] at ht'; injection ht' with ht'; subst ht'
        exact absurd hv' hv2
      have e := h.main_good S rng w o hr t u ht hu hv hv2
      obtain ⟨q1, q2⟩ := readQueryMap_plain hq w o ()
      by_cases hqf : (o.querySet ≠ [] → o.queryGroups = [] → ∃ t, w.file o.querySet = some t) ∧
          (o.queryGroups ≠ [] → ∃ t, w.file o.queryGroups = some t ∧
          WellFormedGroups ((lines t).map words))
      swap
      · refine .refused (fun hg => absurd ⟨hg.1.querySet, hg.1.queryGroups⟩ hqf) ?_
        rw [e, q2 hqf]
        rfl
      obtain ⟨q2g, eq⟩ := q1 hqf
      have hE := hk.evaluate_ends R S rng w o q2g (eventsIn ex t)
        (eventsIn (extractScored R ex) u) _ (hC t u ht hu) hs (h.finite u hv2)
        (Nat.add_le_add (List.length_filterMap_le _ _) (List.length_filterMap_le _ _))
      rw [e, eq]
      exact hE.congr ⟨fun hd => ⟨⟨hr, ⟨t, ht, hv⟩, ⟨u, hu, hv2⟩, hqf.1, hqf.2⟩, hd⟩, fun hg => hg.2⟩

end Kws
