import Verif.Lemmas.Intervals
import Verif.Lemmas.Ieee
import Verif.Lemmas.Output
import Verif.Props.Dump

/-!
# C94: raising alpha shrinks the confidence intervals
-/

namespace Kws
open Spec

section
variable {C G K : Type} [LinearOrder K] [AddCommGroup K] [IsOrderedAddMonoid K]

/-- C94: of two intervals computed from the same samples, statistic and seed, the one with the larger
alpha is contained in the other one, and both are given with the same value. This holds for every
alpha, also where bounds are in the wrong order (alpha > 1). -/
theorem C94_nested (R : Rnd) (hR : ∀ a b, a ≤ b → R.f64 a ≤ R.f64 b) (S : StdSort)
    (rd : K → K) (hrd : Monotone rd) (original : C) (n : Nat) (hn : 0 ≤ R.f64 n) (alpha alpha' : ℚ)
    (h : alpha ≤ alpha') (statistic : C → Cpp K) (sampler : G → Cpp (C × G)) (g : G)
    (v lo hi v' lo' hi' : K)
    (h1 : percentileCI R S rd original n alpha statistic sampler g = .ok (v, lo, hi))
    (h2 : percentileCI R S rd original n alpha' statistic sampler g = .ok (v', lo', hi')) :
    v' = v ∧ lo ≤ lo' ∧ hi' ≤ hi :=
  percentileCI_nested R hR S rd hrd original n alpha' alpha h hn statistic sampler g v' lo' hi' v lo hi
    h2 h1

/-- C94: if the interval is defined for an alpha, it is defined for every larger one up to 1. -/
theorem C94_defined (R : Rnd) (S : StdSort) (rd : K → K) (original : C) (n : Nat)
    (hR : R = Rnd.exact ∨ R.Faithful ∧ n ≤ 2 ^ 53) (alpha alpha' : ℚ) (h : alpha ≤ alpha')
    (h1 : alpha' ≤ 1) (statistic : C → Cpp K) (sampler : G → Cpp (C × G)) (g : G) (v lo hi : K)
    (h2 : percentileCI R S rd original n alpha statistic sampler g = .ok (v, lo, hi)) :
    ∃ lo' hi', percentileCI R S rd original n alpha' statistic sampler g = .ok (v, lo', hi') :=
  percentileCI_raise R S rd original n hR alpha' alpha h h1 statistic sampler g v lo hi h2

end

section
variable {μ σ G Q L : Type}

/-- C94 for the metrics and curves of the tools. -/
theorem C94_assess (R : Rnd) (S : StdSort) (rng : Rng G) (w : World) (o : ToolOptions)
    (hR : R = Rnd.exact ∨ R.Faithful ∧ o.samples ≤ 2 ^ 53) (alpha : ℚ) (h : o.alpha ≤ alpha)
    (h' : alpha ≤ 1) (ms : List (KwsMatch Q L)) (groups : List (List (KwsMatch Q L)))
    (dump : Option (List (KwsMatch Q L) × List (KwsMatch Q L))) (r : Report Q L)
    (h1 : assess R S rng w o ms groups dump = .ok r) :
    ∃ r', assess R S rng w { o with alpha := alpha } ms groups dump = .ok r' ∧ ReportWithin r' r ∧
      r'.dump = r.dump ∧ r'.globalCurve = r.globalCurve ∧ r'.meanCurve = r.meanCurve := by
  have hrd : Monotone R.f64 := fun a b hab => (rnd_facts R o.samples hR).1 a b hab
  obtain ⟨a1, a2, a3, a4, _⟩ := assess_ok _ _ _ _ _ _ _ _ _ h1
  obtain ⟨m1, b1, c1⟩ := globalStatistic_nested R S R.f64 hrd rng o.ciGap o hR alpha h h' _ _ _ _ _ a1
  obtain ⟨m2, b2, c2⟩ := meanStatistic_nested R S R.f64 hrd rng o.ciMap o hR alpha h h' _ _ _ a2
  obtain ⟨m3, b3, c3⟩ := globalStatistic_nested R S id monotone_id rng o.ciGndcg o hR alpha h h' _ _ _ _ _ a3
  obtain ⟨m4, b4, c4⟩ := meanStatistic_nested R S id monotone_id rng o.ciMndcg o hR alpha h h' _ _ _ a4
  refine ⟨⟨m1, m2, m3, m4, r.dump, r.globalCurve, r.meanCurve⟩, ?_, ⟨c1, c2, c3, c4⟩, rfl, rfl, rfl⟩
  unfold assess at h1 ⊢
  dsimp only
  rw [a1, a2, a3, a4] at h1
  rw [b1, b2, b3, b4]
  simp only [bind, Except.bind, pure, Except.pure] at h1 ⊢
  generalize (some <$> globalRPCurve R w o.outputGrp ms o.curveSamples o.collapse o.interp o.trapezoid :
    Cpp (Option (List (ℚ × ℚ)))) = t5 at h1 ⊢
  generalize (some <$> meanRPCurve R w o.outputMrp groups o.curveSamples o.collapse o.interp o.trapezoid :
    Cpp (Option (List (ℚ × Flt)))) = t6 at h1 ⊢
  by_cases hg : o.outputGrp = [] <;> by_cases hm : o.outputMrp = [] <;>
    rcases t5 with e | grp <;> rcases t6 with e | mrp <;>
    simp only [hg, hm, if_true, if_false, Except.ok.injEq, reduceCtorEq] at h1 ⊢ <;> rw [← h1]

/-- C94 for a whole run: if it ends with a report, so does the run that differs in a larger alpha only
(up to 1), with the same values, files and curves, and intervals that are contained in those of the
first run. -/
theorem C94_run [DecidableEq Q] [Cmp Q] [Cmp L] (R : Rnd) (S : StdSort) (rng : Rng G)
    (kit : ToolKit μ σ Q L) (w : World) (o : ToolOptions)
    (hR : R = Rnd.exact ∨ R.Faithful ∧ o.samples ≤ 2 ^ 53) (alpha : ℚ) (h : o.alpha ≤ alpha)
    (h' : alpha ≤ 1) (r : Report Q L) (h1 : mainWith R S rng kit w o = .ok (.done r)) :
    ∃ r', mainWith R S rng kit w { o with alpha := alpha } = .ok (.done r') ∧ ReportWithin r' r ∧
      r'.dump = r.dump ∧ r'.globalCurve = r.globalCurve ∧ r'.meanCurve = r.meanCurve := by
  have hne : o.refFilename ≠ [] := by
    intro he
    unfold mainWith at h1
    rw [if_pos he] at h1
    cases h1
  rw [mainWith_eq _ _ _ _ _ _ hne] at h1
  rw [mainWith_eq _ _ _ _ _ _ (by exact hne)]
  dsimp only
  generalize readResult (kit.readRef kit.mapper) (w.file o.refFilename) = t1 at h1 ⊢
  rcases t1 with e | _ | ⟨m, refs⟩
  · cases h1
  · cases h1
  simp only [Except.bind] at h1 ⊢
  generalize readResult (kit.readHyp m)
    (if o.hypFilename = [] then some w.stdin else w.file o.hypFilename) = t2 at h1 ⊢
  rcases t2 with e | _ | ⟨m2, hyps⟩
  · cases h1
  · cases h1
  dsimp only at h1 ⊢
  have e3 : readQueryMap kit.mapQuery w { o with alpha := alpha } m2 =
    readQueryMap kit.mapQuery w o m2 := rfl
  rw [e3]
  generalize readQueryMap kit.mapQuery w o m2 = t3 at h1 ⊢
  rcases t3 with e | _ | q2g
  · cases h1
  · cases h1
  dsimp only at h1 ⊢
  unfold evaluate matchAndAssess at h1 ⊢
  simp only [bind, Except.bind, pure, Except.pure] at h1 ⊢
  generalize sortHyps S o.sort
    (if q2g = [] then hyps else filterEvents q2g (fun x => x.base.query) hyps) = t4 at h1 ⊢
  rcases t4 with e | l
  · cases h1
  dsimp only at h1 ⊢
  generalize SimpleMatcher.run kit.index kit.scorer kit.refsSet
    (if q2g = [] then refs else filterEvents q2g (fun x => x.query) refs) l = t5 at h1 ⊢
  rcases t5 with e | t5
  · cases h1
  dsimp only at h1 ⊢
  split at h1
  · cases h1
  rename_i nd
  rw [if_neg nd]
  split at h1
  · cases h1
  rename_i nh
  rw [if_neg nh]
  generalize groupMatches q2g t5.2.1 = t6 at h1 ⊢
  rcases t6 with e | groups
  · cases h1
  dsimp only at h1 ⊢
  cases er : assess R S rng w o t5.2.1 groups
      (if o.dumpMatches = [] then none else some (t5.2.1, t5.2.2)) with
  | error e => rw [er] at h1; cases h1
  | ok rr =>
  rw [er] at h1
  simp only [Except.ok.injEq, RunResult.done.injEq] at h1
  subst h1
  obtain ⟨r', f1, f2⟩ := C94_assess R S rng w o hR alpha h h' _ _ _ _ er
  rw [f1]
  exact ⟨r', rfl, f2⟩

/-- C94 from the command line: two command lines whose options differ in alpha only. -/
theorem C94_program [DecidableEq Q] [Cmp Q] [Cmp L] (S : StdSort) (rng : Rng G)
    (kit : ToolKit μ σ Q L) (w : World) (argv argv' : List Str) (p p' : Parser)
    (ha : (toolParser Rnd.ieee).parse Rnd.ieee argv = (.accepted, p))
    (ha' : (toolParser Rnd.ieee).parse Rnd.ieee argv' = (.accepted, p'))
    (ho : ToolOptions.ofParser p' =
      { ToolOptions.ofParser p with alpha := (ToolOptions.ofParser p').alpha })
    (hs : (ToolOptions.ofParser p).samples ≤ 2 ^ 53)
    (h : (ToolOptions.ofParser p).alpha ≤ (ToolOptions.ofParser p').alpha)
    (h' : (ToolOptions.ofParser p').alpha ≤ 1) (r : Report Q L)
    (h1 : toolMain Rnd.ieee S rng kit w argv = .ok (.done r)) :
    ∃ r', toolMain Rnd.ieee S rng kit w argv' = .ok (.done r') ∧ ReportWithin r' r := by
  unfold toolMain at h1 ⊢
  rw [ha] at h1
  rw [ha']
  dsimp only at h1 ⊢
  obtain ⟨r', f1, f2, _⟩ := C94_run Rnd.ieee S rng kit w (ToolOptions.ofParser p)
    (Or.inr ⟨ieee_faithful, hs⟩) _ h h' r h1
  rw [← ho] at f1
  exact ⟨r', f1, f2⟩

end

/-- The sampler alternates between 1 and 5, the value is 3. With two repetitions the interval for
alpha = 1/2 is [1, 5], the one for alpha = 1 is [1, 1]. -/
theorem alternating (S : StdSort) (alpha : ℚ) (li ui : Nat) (lo hi : ℚ)
    (h1 : lowerIndex Rnd.exact alpha 2 = .ok li) (h2 : upperIndex Rnd.exact alpha 2 = .ok ui)
    (h3 : [(-2 : ℚ), 2][li]? = some (3 - lo)) (h4 : [(-2 : ℚ), 2][ui]? = some (3 - hi)) :
    percentileCI (K := ℚ) (G := Bool) Rnd.exact S id 3 2 alpha (fun c : ℚ => .ok c)
      (fun b => .ok (if b then 1 else 5, !b)) true = .ok (3, lo, hi) := by
  obtain ⟨l, l1, l2, l3⟩ := sort_lt S [(-2 : ℚ), 2]
  have hl : l = [-2, 2] := l2.eq_of_pairwise (fun a b _ _ h h' => le_antisymm h h') l3 (by norm_num)
  subst hl
  have e1 : (1 : ℚ) - 3 = -2 := by norm_num
  have e2 : (5 : ℚ) - 3 = 2 := by norm_num
  simp only [percentileCI, bootstrapLoop, bind, Except.bind, pure, Except.pure, id, if_true, Bool.not_true,
    Bool.false_eq_true, if_false, e1, e2, l1, h1, h2, vecAt, h3, h4, sub_sub_cancel]

example (S : StdSort) :
    percentileCI (K := ℚ) (G := Bool) Rnd.exact S id 3 2 (1 / 2) (fun c : ℚ => .ok c)
      (fun b => .ok (if b then 1 else 5, !b)) true = .ok (3, 1, 5) ∧
    percentileCI (K := ℚ) (G := Bool) Rnd.exact S id 3 2 1 (fun c : ℚ => .ok c)
      (fun b => .ok (if b then 1 else 5, !b)) true = .ok (3, 1, 1) :=
  ⟨alternating S _ 1 0 _ _ (by decide +kernel) (by decide +kernel) (by norm_num) (by norm_num),
    alternating S _ 1 1 _ _ (by decide +kernel) (by decide +kernel) (by norm_num) (by norm_num)⟩

/-- A run of the segmentation tool with two intervals at the default alpha; alpha = 1/2 gives narrower
ones. -/
example {G : Type} (S : StdSort) (rng : Rng G) (qf : Bool) :
    let w := dumpExample "a l\nb l\n".toList "a l 1\nc l 3\na l 2\n".toList
    let o : ToolOptions := { refFilename := "ref".toList, ciGap := true, ciMndcg := true,
                             alpha := Rnd.ieee.f64 (5 / 100) }
    ∃ r r', mainWith Rnd.ieee S rng (simpleKit Rnd.ieee qf) w o = .ok (.done r) ∧
      mainWith Rnd.ieee S rng (simpleKit Rnd.ieee qf) w { o with alpha := 1 / 2 } = .ok (.done r') ∧
      ReportWithin r' r := by
  intro w o
  have y1 : ValidFile StrEventText "a l\nb l\n".toList :=
    (Format.strRefs (R := Rnd.ieee)).valid_of_ok _ (by decide +kernel)
  have y2 : ValidFile (ScoredText Rnd.ieee StrEventText) "a l 1\nc l 3\na l 2\n".toList :=
    (Format.strHyps (R := Rnd.ieee)).valid_of_ok _ (by decide +kernel)
  have hV : (vocabulary w o).dedup.length ≤ 2 ^ 31 := by decide +kernel
  obtain ⟨r, hr, _⟩ := (C62_segmentation_partial Rnd.ieee S rng qf w o hV
    (fun t u _ _ => ⟨fun _ => ⟨by decide, Or.inr ⟨ieee_faithful, by norm_num [o], by decide +kernel,
      by decide +kernel⟩⟩, fun h => absurd rfl h, fun h => absurd rfl h, fun h => by simp [o] at h⟩)).1
    ⟨⟨by decide, ⟨_, dumpExample_file _ _, y1⟩, ⟨_, if_pos rfl, y2⟩,
      fun h => absurd rfl h, fun h => absurd rfl h⟩, Or.inl rfl⟩
  obtain ⟨r', h1, h2, _⟩ := C94_run Rnd.ieee S rng (simpleKit Rnd.ieee qf) w o
    (Or.inr ⟨ieee_faithful, by norm_num [o]⟩) (1 / 2) (by decide +kernel) (by norm_num) r hr
  exact ⟨r, r', hr, h1, h2⟩

end Kws
