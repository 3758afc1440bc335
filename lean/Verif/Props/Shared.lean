import Verif.Props.DistinctScores
import Verif.Lemmas.Stable
import Verif.Lemmas.Relabel
import Verif.Lemmas.Output

/-!
# C108: every output depends only on its own options
-/

namespace Kws
open Spec

/-! ## One set of samples -/

section
variable {G M : Type}

/-- The bounds of an interval, from the value of a statistic and its values on the samples. -/
def Spec.bounds {K : Type} [LinearOrder K] [Sub K] (R : Rnd) (S : StdSort) (rd : K → K) (alpha : ℚ)
    (observed : Cpp K) (samples : Cpp (List K)) : Cpp (K × K × K) := do
  let v ← observed
  let vs ← samples
  let sorted ← S.sort (fun a b => decide (a < b)) (vs.map fun x => rd (x - v))
  let i ← toSize (R.f64 (R.f64 (1 - R.f64 (alpha / 2)) * R.f64 vs.length))
  let j ← toSize (R.f64 (R.f64 (alpha / 2) * R.f64 vs.length))
  match sorted[i]?, sorted[j]? with
  | some a, some b => .ok (v, rd (v - a), rd (v - b))
  | _, _ => .error .ub

/-- The samples that the loop of the bootstrap draws. -/
theorem loop_samples {C : Type} (sampler : G → Cpp (C × G)) (hs : ∀ g, ∃ c g', sampler g = .ok (c, g')) (n : ℕ) :
    ∀ g, ∃ cs, Successive sampler g cs ∧ cs.length = n ∧
      ∀ (K : Type) [LinearOrder K] [Sub K] (rd : K → K) (statistic : C → Cpp K) (v : K),
        bootstrapLoop rd statistic sampler v n g =
          (cs.mapM statistic).map (fun vs => vs.map fun x => rd (x - v)) := by
  induction n with
  | zero => intro g; exact ⟨[], .nil g, rfl, fun _ _ _ _ _ _ => rfl⟩
  | succ n ih =>
    intro g
    obtain ⟨c, g', h1⟩ := hs g
    obtain ⟨cs, h2, h3, h4⟩ := ih g'
    refine ⟨c :: cs, .cons g g' c cs h1 h2, by simp [h3], ?_⟩
    intro K _ _ rd statistic v
    unfold bootstrapLoop
    rw [List.mapM_cons]
    simp only [h1, h4, bind, Except.bind, pure, Except.pure]
    cases statistic c with
    | error e => rfl
    | ok x =>
      cases List.mapM statistic cs with
      | error e => rfl
      | ok xs => rfl

theorem mapM_length {α β : Type} (l : List α) (f : α → Cpp β) (l' : List β) (h : l.mapM f = .ok l') :
    l'.length = l.length := by
  induction l generalizing l' with
  | nil => cases h; rfl
  | cons a l ih =>
    rw [List.mapM_cons] at h
    simp only [bind, Except.bind, pure, Except.pure] at h
    split at h
    · cases h
    · split at h
      · cases h
      · rename_i vs hv
        cases h
        rw [List.length_cons, List.length_cons, ih vs hv]

/-- C108: the samples depend on the groups, their number and the seed only: there is one list of samples with which
the intervals of all statistics are computed. -/
theorem C108_samples (rng : Rng G) (groups : List (List M)) (n seed : ℕ) :
    ∃ samples : List (List (List M)), samples.length = n ∧
      Successive (matchesByQuerySampler rng groups) (rng.seed seed) samples ∧
      (∀ s ∈ samples, Resample groups s) ∧
      ∀ (K : Type) [LinearOrder K] [Sub K] (R : Rnd) (S : StdSort) (rd : K → K) (alpha : ℚ)
        (statistic : List (List M) → Cpp K),
        percentileCIGrouped R S rd rng groups n alpha seed statistic =
          bounds R S rd alpha (statistic groups) (samples.mapM statistic) := by
  obtain ⟨cs, h1, h2, h3⟩ := loop_samples (matchesByQuerySampler rng groups)
    (fun g => by obtain ⟨s, g', h, _⟩ := C40_shape rng groups g; exact ⟨s, g', h⟩) n (rng.seed seed)
  refine ⟨cs, h2, h1, ?_, ?_⟩
  · refine successive_all h1 _ fun g c g' e => ?_
    obtain ⟨s, g2, h, hr⟩ := C40_shape rng groups g
    rw [h] at e
    obtain ⟨rfl, rfl⟩ := Prod.mk.injEq _ _ _ _ ▸ Except.ok.inj e
    exact hr
  · intro K _ _ R S rd alpha statistic
    unfold percentileCIGrouped percentileCI bounds
    simp only [h3]
    cases statistic groups with
    | error e => rfl
    | ok v =>
      cases hm : cs.mapM statistic with
      | error e => rfl
      | ok vs =>
        have hl : vs.length = n := by rw [mapM_length cs statistic vs hm, h2]
        simp only [bind, Except.bind, pure, Except.pure, Except.map, hl, lowerIndex, upperIndex, vecAt, mul_one_div]
        cases S.sort (fun a b => decide (a < b)) (vs.map fun x => rd (x - v)) with
        | error e => rfl
        | ok sorted =>
          dsimp only
          cases toSize (R.f64 (R.f64 (1 - R.f64 (alpha / 2)) * R.f64 n)) with
          | error e => rfl
          | ok i =>
            cases toSize (R.f64 (R.f64 (alpha / 2) * R.f64 n)) with
            | error e => rfl
            | ok j => dsimp only; cases sorted[i]? <;> cases sorted[j]? <;> rfl

end

/-! ## Options -/

section
variable {μ σ G Q L : Type}

/-- Options that differ only in what is to be reported: intervals, the file with the matches, the files with the
curves. -/
def Spec.SameTask (o o' : ToolOptions) : Prop :=
  o' = { o with
    ciGap := o'.ciGap, ciMap := o'.ciMap, ciGndcg := o'.ciGndcg, ciMndcg := o'.ciMndcg,
    dumpMatches := o'.dumpMatches, outputGrp := o'.outputGrp, outputMrp := o'.outputMrp }

theorem globalStatistic_task {K : Type} [LinearOrder K] [Sub K] (R : Rnd) (S : StdSort) (rd : K → K)
    (rng : Rng G) (b : Bool) {o o' : ToolOptions} (h : SameTask o o')
    (ms : List (KwsMatch Q L)) (groups : List (List (KwsMatch Q L))) (plain : List (KwsMatch Q L) → Cpp K)
    (grouped : List (List (KwsMatch Q L)) → Bool → Cpp K) :
    globalStatistic R S rd rng b o' ms groups plain grouped =
      globalStatistic R S rd rng b o ms groups plain grouped := by
  rw [h]
  rfl

theorem meanStatistic_task {K : Type} [LinearOrder K] [Sub K] (R : Rnd) (S : StdSort) (rd : K → K)
    (rng : Rng G) (b : Bool) {o o' : ToolOptions} (h : SameTask o o')
    (groups : List (List (KwsMatch Q L))) (grouped : List (List (KwsMatch Q L)) → Bool → Cpp K) :
    meanStatistic R S rd rng b o' groups grouped = meanStatistic R S rd rng b o groups grouped := by
  rw [h]
  rfl

theorem writeCurveFile_zip {K K' : Type} (w : World) (f : Str) (x : List K) (y : List K') (p : List (K × K'))
    (h : writeCurveFile w f x y = .ok p) : p = x.zip y := by
  unfold writeCurveFile writeCurve at h
  simp only [bind, Except.bind, pure, Except.pure] at h
  split at h
  · cases h
  · rename_i v hv
    split at h
    · obtain rfl := Except.ok.inj h
      split at hv
      · cases hv
      · split at hv
        · cases hv
        · exact (Except.ok.inj hv).symm
    · cases h

theorem globalRPCurve_file (R : Rnd) (w : World) (f f' : Str) (ms : List (KwsMatch Q L)) (n : ℕ) (a b c : Bool)
    (x x' : List (ℚ × ℚ)) (h : globalRPCurve R w f ms n a b c = .ok x)
    (h' : globalRPCurve R w f' ms n a b c = .ok x') : x = x' := by
  unfold globalRPCurve at h h'
  simp only [bind, Except.bind] at h h'
  split at h
  · cases h
  · rename_i ys hy
    rw [hy] at h'
    rw [writeCurveFile_zip _ _ _ _ _ h, writeCurveFile_zip _ _ _ _ _ h']

theorem meanRPCurve_file (R : Rnd) (w : World) (f f' : Str) (groups : List (List (KwsMatch Q L))) (n : ℕ)
    (a b c : Bool) (x x' : List (ℚ × Flt)) (h : meanRPCurve R w f groups n a b c = .ok x)
    (h' : meanRPCurve R w f' groups n a b c = .ok x') : x = x' := by
  unfold meanRPCurve at h h'
  simp only [bind, Except.bind] at h h'
  split at h
  · cases h
  · rename_i yss hy
    rw [hy] at h'
    dsimp only at h'
    split at h
    · cases h
    · rename_i ms hm
      rw [hm] at h'
      rw [writeCurveFile_zip _ _ _ _ _ h, writeCurveFile_zip _ _ _ _ _ h']

/-- What two reports have in common if their options differ only in what is to be reported. -/
structure Spec.SharedParts (o o' : ToolOptions) (r r' : Report Q L) : Prop where
  gAP : o'.ciGap = o.ciGap → r'.gAP = r.gAP
  mAP : o'.ciMap = o.ciMap → r'.mAP = r.mAP
  gNDCG : o'.ciGndcg = o.ciGndcg → r'.gNDCG = r.gNDCG
  mNDCG : o'.ciMndcg = o.ciMndcg → r'.mNDCG = r.mNDCG
  dump : o.dumpMatches ≠ [] → o'.dumpMatches ≠ [] → r'.dump = r.dump
  globalCurve : o.outputGrp ≠ [] → o'.outputGrp ≠ [] → r'.globalCurve = r.globalCurve
  meanCurve : o.outputMrp ≠ [] → o'.outputMrp ≠ [] → r'.meanCurve = r.meanCurve

theorem assess_shared (R : Rnd) (S : StdSort) (rng : Rng G) (w : World) (o o' : ToolOptions)
    (ho : SameTask o o') (ms rep : List (KwsMatch Q L)) (groups : List (List (KwsMatch Q L))) (r r' : Report Q L)
    (h : assess R S rng w o ms groups (if o.dumpMatches = [] then none else some (ms, rep)) = .ok r)
    (h' : assess R S rng w o' ms groups (if o'.dumpMatches = [] then none else some (ms, rep)) = .ok r') :
    SharedParts o o' r r' := by
  obtain ⟨a1, a2, a3, a4, a5⟩ := assess_ok _ _ _ _ _ _ _ _ _ h
  obtain ⟨b1, b2, b3, b4, b5⟩ := assess_ok _ _ _ _ _ _ _ _ _ h'
  have e1 : o'.collapse = o.collapse := by rw [ho]
  have e2 : o'.interp = o.interp := by rw [ho]
  have e3 : o'.trapezoid = o.trapezoid := by rw [ho]
  have e4 : o'.curveSamples = o.curveSamples := by rw [ho]
  rw [globalStatistic_task R S _ rng _ ho, e1, e2, e3] at b1
  rw [meanStatistic_task R S _ rng _ ho, e1, e2, e3] at b2
  rw [globalStatistic_task R S _ rng _ ho, e1] at b3
  rw [meanStatistic_task R S _ rng _ ho, e1] at b4
  refine ⟨fun e => ?_, fun e => ?_, fun e => ?_, fun e => ?_, fun e e' => ?_, fun e e' => ?_, fun e e' => ?_⟩
  · rw [e, a1] at b1
    exact (Except.ok.inj b1).symm
  · rw [e, a2] at b2
    exact (Except.ok.inj b2).symm
  · rw [e, a3] at b3
    exact (Except.ok.inj b3).symm
  · rw [e, a4] at b4
    exact (Except.ok.inj b4).symm
  · rw [a5, b5, if_neg e, if_neg e']
  · obtain ⟨_, c1, _, _⟩ := assess_curves _ _ _ _ _ _ _ _ _ h
    obtain ⟨_, d1, _, _⟩ := assess_curves _ _ _ _ _ _ _ _ _ h'
    obtain ⟨c, x1, y1⟩ := c1 e
    obtain ⟨c', x2, y2⟩ := d1 e'
    rw [e1, e2, e3, e4] at x2
    rw [y1, y2, globalRPCurve_file _ _ _ _ _ _ _ _ _ _ _ x1 x2]
  · obtain ⟨_, _, _, c1⟩ := assess_curves _ _ _ _ _ _ _ _ _ h
    obtain ⟨_, _, _, d1⟩ := assess_curves _ _ _ _ _ _ _ _ _ h'
    obtain ⟨c, x1, y1⟩ := c1 e
    obtain ⟨c', x2, y2⟩ := d1 e'
    rw [e1, e2, e3, e4] at x2
    rw [y1, y2, meanRPCurve_file _ _ _ _ _ _ _ _ _ _ _ x1 x2]

/-- C108: every number, interval, curve and file of a run depends only on its own options: asking for other
intervals or files does not change it. -/
theorem C108_run [DecidableEq Q] [Cmp Q] [Cmp L] (R : Rnd) (S : StdSort) (rng : Rng G) (kit : ToolKit μ σ Q L)
    (w : World) (o o' : ToolOptions) (ho : SameTask o o') (r r' : Report Q L)
    (h : mainWith R S rng kit w o = .ok (.done r)) (h' : mainWith R S rng kit w o' = .ok (.done r')) :
    SharedParts o o' r r' := by
  have e1 : o'.refFilename = o.refFilename := by rw [ho]
  have e2 : o'.hypFilename = o.hypFilename := by rw [ho]
  have e4 : o'.sort = o.sort := by rw [ho]
  have hne : o.refFilename ≠ [] := by
    intro he
    unfold mainWith at h
    rw [if_pos he] at h
    cases h
  rw [mainWith_eq _ _ _ _ _ _ hne] at h
  rw [mainWith_eq _ _ _ _ _ _ (by rw [e1]; exact hne), e1, e2] at h'
  generalize readResult (kit.readRef kit.mapper) (w.file o.refFilename) = t1 at h h'
  rcases t1 with e | _ | ⟨m, refs⟩
  · cases h
  · cases h
  simp only [Except.bind] at h h'
  generalize readResult (kit.readHyp m)
    (if o.hypFilename = [] then some w.stdin else w.file o.hypFilename) = t2 at h h'
  rcases t2 with e | _ | ⟨m2, hyps⟩
  · cases h
  · cases h
  dsimp only at h h'
  have e3 : readQueryMap kit.mapQuery w o' m2 = readQueryMap kit.mapQuery w o m2 := by rw [ho]; rfl
  rw [e3] at h'
  generalize readQueryMap kit.mapQuery w o m2 = t3 at h h'
  rcases t3 with e | _ | q2g
  · cases h
  · cases h
  dsimp only at h h'
  obtain ⟨l, s1, ms, rep, groups, a1, a2, a3, a4⟩ := evaluate_done _ _ _ _ _ _ _ _ _ _ h
  obtain ⟨l', s1', ms', rep', groups', b1, b2, b3, b4⟩ := evaluate_done _ _ _ _ _ _ _ _ _ _ h'
  rw [e4, a1] at b1
  obtain rfl := Except.ok.inj b1
  rw [a2, Except.ok.injEq, Prod.mk.injEq, Prod.mk.injEq] at b2
  obtain ⟨_, rfl, rfl⟩ := b2
  rw [a3] at b3
  obtain rfl := Except.ok.inj b3
  exact assess_shared R S rng w o o' ho ms rep groups r r' a4 b4

/-- A metric with the interval that follows from samples. -/
def Spec.FromSamples {K M : Type} [LinearOrder K] [Sub K] (R : Rnd) (S : StdSort) (rd : K → K) (alpha : ℚ)
    (statistic : List (List M) → Cpp K) (groups : List (List M)) (samples : List (List (List M)))
    (m : Metric K) : Prop :=
  ∃ lo hi, bounds R S rd alpha (statistic groups) (samples.mapM statistic) = .ok (m.value, lo, hi) ∧
    m.ci = some (lo, hi)

theorem globalStatistic_samples {K : Type} [LinearOrder K] [Sub K] (R : Rnd) (S : StdSort) (rd : K → K)
    (rng : Rng G) (b : Bool) (hb : b = true) (o : ToolOptions) (ms : List (KwsMatch Q L))
    (groups : List (List (KwsMatch Q L))) (plain : List (KwsMatch Q L) → Cpp K)
    (grouped : List (List (KwsMatch Q L)) → Bool → Cpp K) (samples : List (List (List (KwsMatch Q L))))
    (hs : ∀ statistic : List (List (KwsMatch Q L)) → Cpp K,
      percentileCIGrouped R S rd rng groups o.samples o.alpha o.seed statistic =
        bounds R S rd o.alpha (statistic groups) (samples.mapM statistic)) (m : Metric K)
    (h : globalStatistic R S rd rng b o ms groups plain grouped = .ok m) :
    FromSamples R S rd o.alpha (fun gs => grouped gs true) groups samples m := by
  subst hb
  unfold globalStatistic at h
  rw [if_pos rfl, hs] at h
  simp only [bind, Except.bind, pure, Except.pure] at h
  split at h
  · cases h
  · rename_i t ht
    obtain rfl := Except.ok.inj h
    exact ⟨_, _, ht, rfl⟩

theorem meanStatistic_samples {K : Type} [LinearOrder K] [Sub K] (R : Rnd) (S : StdSort) (rd : K → K)
    (rng : Rng G) (b : Bool) (hb : b = true) (o : ToolOptions)
    (groups : List (List (KwsMatch Q L)))
    (grouped : List (List (KwsMatch Q L)) → Bool → Cpp K) (samples : List (List (List (KwsMatch Q L))))
    (hs : ∀ statistic : List (List (KwsMatch Q L)) → Cpp K,
      percentileCIGrouped R S rd rng groups o.samples o.alpha o.seed statistic =
        bounds R S rd o.alpha (statistic groups) (samples.mapM statistic)) (m : Metric K)
    (h : meanStatistic R S rd rng b o groups grouped = .ok m) :
    FromSamples R S rd o.alpha (fun gs => grouped gs true) groups samples m := by
  subst hb
  unfold meanStatistic at h
  rw [if_pos rfl, hs] at h
  simp only [bind, Except.bind, pure, Except.pure] at h
  split at h
  · cases h
  · rename_i t ht
    obtain rfl := Except.ok.inj h
    exact ⟨_, _, ht, rfl⟩

/-- C108: the intervals that a tool reports are all computed from one list of samples, that of its groups, of the
number of samples and of the seed asked for. -/
theorem C108_report (R : Rnd) (S : StdSort) (rng : Rng G) (w : World) (o : ToolOptions)
    (ms : List (KwsMatch Q L)) (groups : List (List (KwsMatch Q L)))
    (dump : Option (List (KwsMatch Q L) × List (KwsMatch Q L))) (r : Report Q L)
    (h : assess R S rng w o ms groups dump = .ok r) :
    ∃ samples : List (List (List (KwsMatch Q L))), samples.length = o.samples ∧
      Successive (matchesByQuerySampler rng groups) (rng.seed o.seed) samples ∧
      (o.ciGap = true → FromSamples R S R.f64 o.alpha
        (fun gs => globalAPGrouped R S gs o.collapse o.interp o.trapezoid true) groups samples r.gAP) ∧
      (o.ciMap = true → FromSamples R S R.f64 o.alpha
        (fun gs => meanAP R S gs o.collapse o.interp o.trapezoid true) groups samples r.mAP) ∧
      (o.ciGndcg = true → FromSamples R S id o.alpha
        (fun gs => globalNDCGGrouped R S gs o.collapse true) groups samples r.gNDCG) ∧
      (o.ciMndcg = true → FromSamples R S id o.alpha
        (fun gs => meanNDCG R S gs o.collapse true) groups samples r.mNDCG) := by
  obtain ⟨samples, h1, h2, _, h3⟩ := C108_samples rng groups o.samples o.seed
  obtain ⟨a1, a2, a3, a4, _⟩ := assess_ok _ _ _ _ _ _ _ _ _ h
  exact ⟨samples, h1, h2,
    fun e => globalStatistic_samples R S _ rng _ e o ms groups _ _ samples (h3 ℚ R S _ _) _ a1,
    fun e => meanStatistic_samples R S _ rng _ e o groups _ samples (h3 ℚ R S _ _) _ a2,
    fun e => globalStatistic_samples R S _ rng _ e o ms groups _ _ samples (h3 ℝ R S _ _) _ a3,
    fun e => meanStatistic_samples R S _ rng _ e o groups _ samples (h3 ℝ R S _ _) _ a4⟩

/-- Two runs, with one and with two intervals. -/
example (S : StdSort) (rng : Rng G) :
    let o : ToolOptions := { refFilename := "ref".toList, ciGap := true, alpha := 1 / 20 }
    let o' := { o with ciMap := true }
    ∃ r r', mainWith Rnd.exact S rng (icdarKit Rnd.exact S) runExample o = .ok (.done r) ∧
      mainWith Rnd.exact S rng (icdarKit Rnd.exact S) runExample o' = .ok (.done r') ∧
      r'.gAP = r.gAP ∧ r'.gNDCG = r.gNDCG := by
  intro o o'
  obtain ⟨y1, y2⟩ := runExample_yields
  obtain ⟨r, hr, _⟩ := (C62_box_partial Rnd.exact S rng runExample o (fun t t' _ _ =>
    ⟨fun _ => ⟨by decide, Or.inl ⟨rfl, by decide, by norm_num [o], by norm_num [o]⟩⟩,
      fun h => absurd rfl h, fun h => absurd rfl h, fun h => by simp [o] at h⟩)).1
    ⟨⟨by decide, ⟨_, runExample_file, yields_valid y1⟩, ⟨_, if_pos rfl, yields_valid y2⟩,
      fun h => absurd rfl h, fun h => absurd rfl h⟩, Or.inl rfl⟩
  obtain ⟨r', hr', _⟩ := (C62_box_partial Rnd.exact S rng runExample o' (fun t t' _ _ =>
    ⟨fun _ => ⟨by decide, Or.inl ⟨rfl, by decide, by norm_num [o', o], by norm_num [o', o]⟩⟩,
      fun h => absurd rfl h, fun h => absurd rfl h, fun h => by simp [o', o] at h⟩)).1
    ⟨⟨by decide, ⟨_, runExample_file, yields_valid y1⟩, ⟨_, if_pos rfl, yields_valid y2⟩,
      fun h => absurd rfl h, fun h => absurd rfl h⟩, Or.inl rfl⟩
  have hs := C108_run Rnd.exact S rng (icdarKit Rnd.exact S) runExample o o' rfl r r' hr hr'
  exact ⟨r, r', hr, hr', hs.gAP rfl, hs.gNDCG rfl⟩

end

end Kws
