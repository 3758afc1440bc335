import Verif.Lemmas.Main
import Verif.Lemmas.Assess
import Verif.Props.Matcher
import Verif.Props.Scorers

/-!
# Runs end with a report
-/

namespace Kws
open Spec

/-- Sensible numbers of samples and `alpha` keep the bounds within the vector of deviations. -/
theorem indicesOk_of (R : Rnd) (o : ToolOptions) (hn : 0 < o.samples)
    (h : R = Rnd.exact ∧ o.samples < 2 ^ 64 ∧ 0 < o.alpha ∧ o.alpha < 2 ∨
      R.Faithful ∧ o.samples ≤ 2 ^ 32 ∧ 1 / 2 ^ 19 ≤ o.alpha ∧ o.alpha ≤ 2 - 1 / 2 ^ 19) :
    IndicesOk R o := by
  rcases h with ⟨rfl, h1, h2, h3⟩ | ⟨hR, h1, h2, h3⟩
  · obtain ⟨cs, devs, dl, du, _, _, _, _, _, _, h7, _⟩ := C42_bounds_partial insertionStdSort (id : ℚ → ℚ)
      monotone_id () o.samples o.alpha (fun _ => .ok 0) (fun g : Unit => .ok ((), g)) () 0 (fun _ => 0)
      rfl (fun g => ⟨_, _, rfl⟩) (fun _ _ _ _ => rfl) hn h1 h2 h3
    exact (percentileCI_inv _ _ _ _ _ _ _ _ _ _ _ _ h7).2
  · obtain ⟨li, ui, cs, devs, dl, du, _, _, _, _, _, _, _, _, h7, _⟩ := C42_bounds_rounded_partial R hR
      insertionStdSort (id : ℚ → ℚ) monotone_id () o.samples o.alpha (fun _ => .ok 0)
      (fun g : Unit => .ok ((), g)) () 0 (fun _ => 0)
      rfl (fun g => ⟨_, _, rfl⟩) (fun _ _ _ _ => rfl) hn h1 h2 h3
    exact (percentileCI_inv _ _ _ _ _ _ _ _ _ _ _ _ h7).2

theorem Spec.Feasible.assessable {R : Rnd} {w : World} {o : ToolOptions} {n : Nat}
    (h : Feasible R w o n) : Assessable R w o n :=
  ⟨fun hc => indicesOk_of R o (h.ci hc).1 (h.ci hc).2, h.grp, h.mrp, h.curves⟩

theorem groupMatches_total {Q L : Type} [DecidableEq Q] (q2g : List (Q × Q)) (ms : List (KwsMatch Q L))
    (h : ∀ m ∈ ms, m.ref ≠ none ∨ m.hyp ≠ none) : ∃ groups, groupMatches q2g ms = .ok groups := by
  have key : ∀ (ms : List (KwsMatch Q L)), (∀ m ∈ ms, m.ref ≠ none ∨ m.hyp ≠ none) → ∀ st,
      ∃ st', groupLoop q2g ms st = .ok st' := by
    intro ms
    induction ms with
    | nil => intro _ st; exact ⟨st, rfl⟩
    | cons m ms ih =>
      intro h st
      have hq : ∃ q, matchQuery m = .ok q := by
        obtain ⟨r, x, e⟩ := m
        cases r with
        | some r => exact ⟨_, rfl⟩
        | none =>
          cases x with
          | some x => exact ⟨_, rfl⟩
          | none => simpa using h ⟨none, none, e⟩ (by simp)
      obtain ⟨q, hq⟩ := hq
      unfold groupLoop
      simp only [hq, bind, Except.bind]
      exact ih (fun m hm => h m (by simp [hm])) _
  obtain ⟨st, hst⟩ := key ms h ([], [])
  unfold groupMatches
  simp only [hst, bind, Except.bind]
  exact ⟨_, rfl⟩

theorem sortHyps_total {Q L : Type} [Cmp Q] [LawfulCmp Q] [Cmp L] [LawfulCmp L] (S : StdSort)
    (criterion : Str) (hyps : List (ScoredEvent Q L)) (hn : ∀ h ∈ hyps, h.score ≠ .nan) :
    ∃ l, sortHyps S criterion hyps = .ok l := by
  by_cases hc : criterion = "desc".toList ∨ criterion = "asc".toList
  · obtain ⟨l, h, _⟩ := sortHyps_unique S S criterion hyps hyps hn (List.Perm.refl _) hc
    exact ⟨l, h⟩
  · push Not at hc
    unfold sortHyps
    rw [if_neg hc.1, if_neg hc.2]
    exact ⟨_, rfl⟩

section
variable {μ σ Q L G : Type} [DecidableEq Q] [Cmp Q] [LawfulCmp Q] [Cmp L] [LawfulCmp L]

/-- The search and the scorer of a tool never fail, and the scorer gives 0 or 1. -/
structure SafeKit (kit : ToolKit μ σ Q L) : Prop where
  find : ∀ (refs : List (Event Q L)) h, ∃ ov, kit.index.findOverlapping
    (refs.foldl kit.index.insert (kit.index.clear kit.refsSet)) h = .ok ov
  score : ∀ r h, ∃ e, kit.scorer r h = .ok e
  hard : ∀ r x e, kit.scorer r x = .ok e → (e.fp = 0 ∨ e.fp = 1) ∧ (e.fn = 0 ∨ e.fn = 1)

/-- What is left after matching. -/
theorem SafeKit.matchAndAssess_reduces {kit : ToolKit μ σ Q L} (hk : SafeKit kit) (R : Rnd)
    (S : StdSort) (rng : Rng G) (w : World) (o : ToolOptions) (q2g : List (Q × Q))
    (refs : List (Event Q L)) (hyps : List (ScoredEvent Q L)) (hn : ∀ h ∈ hyps, h.score ≠ .nan) :
    ∃ (ms rep : List (KwsMatch Q L)) (groups : List (List (KwsMatch Q L))),
      NoNaN ms ∧ (∀ m ∈ ms, Rates m.error) ∧ ms.length ≤ refs.length + hyps.length ∧
      groups.flatten.Perm ms ∧ (∀ g ∈ groups, g.Sublist ms) ∧ [] ∉ groups ∧
      matchAndAssess R S rng kit w o q2g refs hyps =
        if o.dumpMatches ≠ [] ∧ w.writable o.dumpMatches = false then .ok .failed
        else (assess R S rng w o ms groups
          (if o.dumpMatches = [] then none else some (ms, rep))).bind fun r => .ok (.done r) := by
  obtain ⟨l, e1⟩ := sortHyps_total S o.sort hyps hn
  have hp := sortHyps_mem S o.sort hyps l e1
  have hn' : ∀ h ∈ l, h.score ≠ .nan := fun h hh => hn h (hp.mem_iff.1 hh)
  obtain ⟨⟨s', ms, rep⟩, e2⟩ := run_total kit.index kit.scorer kit.refsSet refs l hk.score
    (fun h _ => hk.find refs h)
  obtain ⟨r1, _⟩ := run_ranks _ _ _ _ _ _ _ _ e2 hn'
  have r2 := run_hard _ _ _ _ _ _ _ _ e2 hk.hard
  have r3 := run_length _ _ _ _ _ _ _ _ e2
  have r4 := C20_effective_hyps _ _ _ _ _ _ _ _ e2
  have hrates : ∀ m ∈ ms, Rates m.error := by
    intro m hm
    rcases r2 m hm with ⟨h1 | h1, h2 | h2⟩ <;> simp [Rates, h1, h2]
  have hnh : ms.foldl (fun n m => n + m.error.nh) 0 = (ms.map (fun m => m.error.nh)).sum := by
    have key : ∀ (l : List (KwsMatch Q L)) (a : Nat), l.foldl (fun n m => n + m.error.nh) a =
        a + (l.map (fun m => m.error.nh)).sum := by
      intro l
      induction l with
      | nil => intro a; simp
      | cons m l ih => intro a; rw [List.foldl_cons, ih]; simp [Nat.add_assoc]
    rw [key]; simp
  have hhas : ∀ m ∈ ms, m.ref ≠ none ∨ m.hyp ≠ none := by
    obtain ⟨hits, fns, rfl, _, _, _, h5⟩ := run_facts _ _ _ _ _ _ _ _ e2
    intro m hm
    rcases List.mem_append.1 hm with hm | hm
    · rcases h5 m hm with ⟨x, rfl⟩ | ⟨r, x, e, rfl, he, _⟩
      · simp [Match.makeFalsePositive]
      · simp [Match.make]
    · obtain ⟨r, _, rfl⟩ := List.mem_map.1 hm
      simp [Match.makeFalseNegative]
  obtain ⟨groups, e3⟩ := groupMatches_total q2g ms hhas
  obtain ⟨g1, g2, g3⟩ := groupMatches_facts q2g ms groups e3
  refine ⟨ms, rep, groups, r1, hrates, by have := hp.length_eq; omega, g1, g2, g3, ?_⟩
  rw [matchAndAssess_eq, e1]
  simp only [Except.bind, e2, Except.map]
  unfold afterMatching
  split
  · rfl
  · rw [if_neg (by rw [hnh]; omega)]
    simp only [e3, Except.bind]

theorem SafeKit.matchAndAssess_total {kit : ToolKit μ σ Q L} (hk : SafeKit kit) (R : Rnd) (S : StdSort)
    (rng : Rng G) (w : World) (o : ToolOptions) (q2g : List (Q × Q)) (refs : List (Event Q L))
    (hyps : List (ScoredEvent Q L)) (n : Nat) (hA : Assessable R w o n)
    (hn : ∀ h ∈ hyps, h.score ≠ .nan) (hl : refs.length + hyps.length ≤ n) :
    (o.dumpMatches ≠ [] ∧ w.writable o.dumpMatches = false →
      matchAndAssess R S rng kit w o q2g refs hyps = .ok .failed) ∧
    (o.dumpMatches = [] ∨ w.writable o.dumpMatches = true →
      ∃ r, matchAndAssess R S rng kit w o q2g refs hyps = .ok (.done r) ∧ Complete o r) := by
  obtain ⟨ms, rep, groups, r1, hrates, r3, g1, g2, g3, e⟩ :=
    hk.matchAndAssess_reduces R S rng w o q2g refs hyps hn
  obtain ⟨r, e4, c1, c2, c3, c4, c5, c6, c7⟩ := assess_total R S rng w o ms groups
    (if o.dumpMatches = [] then none else some (ms, rep)) n hA r1 hrates (r3.trans hl) g1 g2 g3
  rw [e]
  constructor
  · intro hd
    rw [if_pos hd]
  · intro hd
    have hd' : ¬ (o.dumpMatches ≠ [] ∧ w.writable o.dumpMatches = false) := by
      rintro ⟨h1, h2⟩
      rcases hd with hd | hd
      · exact h1 hd
      · rw [hd] at h2; cases h2
    refine ⟨r, ?_, c1, c2, c3, c4, ?_, c6, c7⟩
    · rw [if_neg hd', e4]
      rfl
    · rw [c5]
      by_cases hd : o.dumpMatches = [] <;> simp [hd]

/-- An unwritable curve file ends the evaluation with an exception. -/
theorem SafeKit.matchAndAssess_curve {kit : ToolKit μ σ Q L} (hk : SafeKit kit) (R : Rnd) (S : StdSort)
    (rng : Rng G) (w : World) (o : ToolOptions) (q2g : List (Q × Q)) (refs : List (Event Q L))
    (hyps : List (ScoredEvent Q L)) (hn : ∀ h ∈ hyps, h.score ≠ .nan) (hR : R.Precise)
    (hl : refs.length + hyps.length ≤ if o.collapse then 2 ^ 24 else 2 ^ 53)
    (hci : o.ciGap = true ∨ o.ciMap = true ∨ o.ciGndcg = true ∨ o.ciMndcg = true → IndicesOk R o)
    (hd : o.dumpMatches = []) (hg : o.outputGrp ≠ [])
    (hw : w.writable o.outputGrp = false) :
    matchAndAssess R S rng kit w o q2g refs hyps = .error .ioFailure := by
  obtain ⟨ms, rep, groups, r1, hrates, r3, g1, g2, g3, e⟩ :=
    hk.matchAndAssess_reduces R S rng w o q2g refs hyps hn
  rw [e, if_neg (fun h => h.1 hd)]
  have hA : Assessable R ⟨w.file, w.stdin, fun _ => true⟩ o (refs.length + hyps.length) :=
    ⟨hci, fun _ => rfl, fun _ => rfl, fun _ => ⟨hR, hl⟩⟩
  obtain ⟨r, e4, _⟩ := assess_total R S rng ⟨w.file, w.stdin, fun _ => true⟩ o ms groups
    (if o.dumpMatches = [] then none else some (ms, rep)) _ hA r1 hrates r3 g1 g2 g3
  obtain ⟨a1, a2, a3, a4, _⟩ := assess_ok _ _ _ _ _ _ _ _ _ e4
  obtain ⟨pts, h5, _⟩ := C39_global_rounded R hR ⟨w.file, w.stdin, fun _ => true⟩ o.outputGrp ms
    o.curveSamples o.collapse o.interp o.trapezoid hg rfl hrates (r3.trans hl)
  have h6 : globalRPCurve R w o.outputGrp ms o.curveSamples o.collapse o.interp o.trapezoid =
      .error .ioFailure := by
    unfold globalRPCurve at h5 ⊢
    simp only [bind, Except.bind] at h5 ⊢
    cases h7 : sampleCurve R (matchesPR R ms o.collapse o.interp).2
        (matchesPR R ms o.collapse o.interp).1 (evenPoints R o.curveSamples) o.trapezoid with
    | error f => rw [h7] at h5; cases h5
    | ok ys =>
      rw [h7] at h5
      simp only at h5 ⊢
      unfold writeCurveFile at h5 ⊢
      simp only [bind, Except.bind] at h5 ⊢
      cases h8 : writeCurve o.outputGrp (evenPoints R o.curveSamples) ys with
      | error f => rw [h8] at h5; cases h5
      | ok p => simp [hw]
  unfold assess
  simp only [a1, a2, a3, a4, h6, if_neg hg, bind, Except.bind]
  rfl

theorem SafeKit.evaluate_total {kit : ToolKit μ σ Q L} (hk : SafeKit kit) (R : Rnd) (S : StdSort)
    (rng : Rng G) (w : World) (o : ToolOptions) (q2g : List (Q × Q)) (refs : List (Event Q L))
    (hyps : List (ScoredEvent Q L)) (n : Nat) (hA : Assessable R w o n)
    (hn : ∀ h ∈ hyps, h.score ≠ .nan) (hl : refs.length + hyps.length ≤ n) :
    (o.dumpMatches ≠ [] ∧ w.writable o.dumpMatches = false →
      evaluate R S rng kit w o q2g refs hyps = .ok .failed) ∧
    (o.dumpMatches = [] ∨ w.writable o.dumpMatches = true →
      ∃ r, evaluate R S rng kit w o q2g refs hyps = .ok (.done r) ∧ Complete o r) :=
  hk.matchAndAssess_total R S rng w o q2g (usedRefs q2g refs) (usedHyps q2g hyps) n hA
    (fun h hh => hn h (usedHyps_mem q2g hyps h hh))
    (by have := used_length q2g refs hyps; omega)

end

theorem icdar_safe (R : Rnd) (S : StdSort) : SafeKit (icdarKit R S) where
  find refs h := by
    obtain ⟨ov, h, _⟩ := C17_box_search S DocEventSet.new refs h
    exact ⟨ov, h⟩
  score r h := by
    obtain ⟨i, hi⟩ := inter_ok r h.base
    exact ⟨_, ioh_eq R (1 / 2) r h i hi⟩
  hard r x e h := by
    obtain ⟨i, hi⟩ := inter_ok r x.base
    have := ioh_eq R (1 / 2) r x i hi
    rw [show (icdarKit R S).scorer r x = iohScorer R (1 / 2) r x from rfl, this] at h
    injection h with h
    subst h
    unfold verdict
    split <;> simp

/-! ## Query files of tools that read strings as they are -/

theorem readQueryMap_plain {μ : Type} {mapQuery : μ → Str → μ × Cpp Str}
    (hid : ∀ m q, mapQuery m q = (m, .ok q)) (w : World) (o : ToolOptions) (m : μ) :
    let ok := (o.querySet ≠ [] → o.queryGroups = [] → ∃ t, w.file o.querySet = some t) ∧
      (o.queryGroups ≠ [] → ∃ t, w.file o.queryGroups = some t ∧
        WellFormedGroups ((lines t).map words))
    (ok → ∃ q2g, readQueryMap mapQuery w o m = .ok (some q2g)) ∧
    (¬ ok → readQueryMap mapQuery w o m = .ok none) := by
  intro ok
  unfold readQueryMap
  by_cases h1 : o.querySet ≠ [] ∧ o.queryGroups = []
  · rw [if_pos h1]
    cases h2 : w.file o.querySet with
    | none =>
      refine ⟨fun h => ?_, fun _ => rfl⟩
      obtain ⟨t, ht⟩ := h.1 h1.1 h1.2
      rw [h2] at ht
      cases ht
    | some t =>
      obtain ⟨m', e⟩ := readQuerySet_names (names_identity hid _) m t rfl trivial
      refine ⟨fun _ => ⟨_, by simp only [e]; rfl⟩, fun h => absurd ?_ h⟩
      exact ⟨fun _ _ => ⟨t, h2⟩, fun h => absurd h1.2 h⟩
  · rw [if_neg h1]
    by_cases h2 : o.queryGroups ≠ []
    · rw [if_pos h2]
      cases h3 : w.file o.queryGroups with
      | none =>
        refine ⟨fun h => ?_, fun _ => rfl⟩
        obtain ⟨t, ht, _⟩ := h.2 h2
        rw [h3] at ht
        cases ht
      | some t =>
        obtain ⟨g1, g2⟩ := C59_groups hid m t
        by_cases hw : WellFormedGroups ((lines t).map words)
        · obtain ⟨m', q2g, e, _⟩ := g1 hw
          refine ⟨fun _ => ⟨q2g, by simp only [e]⟩, fun h => absurd ?_ h⟩
          exact ⟨fun _ h => absurd h h2, fun _ => ⟨t, h3, hw⟩⟩
        · obtain ⟨m', e⟩ := g2 hw
          refine ⟨fun h => ?_, fun _ => by simp only [e]⟩
          obtain ⟨t', ht, hw'⟩ := h.2 h2
          rw [h3] at ht
          injection ht with ht
          subst ht
          exact absurd hw' hw
    · rw [if_neg h2]
      refine ⟨fun _ => ⟨_, rfl⟩, fun h => absurd ?_ h⟩
      exact ⟨fun h3 h4 => absurd ⟨h3, h4⟩ h1, fun h => absurd h h2⟩

/-- Runs of tools that read strings as they are. -/
theorem PlainKit.main_total {σ L G' : Type} [Cmp L] [LawfulCmp L] {R : Rnd}
    {kit : ToolKit Unit σ Str L} {ex : Extractor (Event Str L)} {G : Str → Event Str L → Str → Prop}
    (h : PlainKit R kit ex G) (hk : SafeKit kit) (S : StdSort) (rng : Rng G') (w : World)
    (o : ToolOptions)
    (hA : ∀ t t', w.file o.refFilename = some t → hypText w o = some t' →
      Assessable R w o ((lines t).length + (lines t').length)) :
    let good := ValidInputs G (ScoredText R G) w o ∧
      (o.dumpMatches = [] ∨ w.writable o.dumpMatches = true)
    (good → ∃ r, mainWith R S rng kit w o = .ok (.done r) ∧ Complete o r) ∧
    (¬ good → mainWith R S rng kit w o = .ok .failed) := by
  intro good
  have hq : ∀ m q, kit.mapQuery m q = (m, .ok q) := fun m q => by rw [h.mapQuery]
  by_cases hr : o.refFilename = []
  · exact ⟨fun hg => absurd hr hg.1.refName, fun _ => h.main_badRef S rng w o (Or.inl hr)⟩
  cases ht : w.file o.refFilename with
  | none =>
    refine ⟨fun hg => ?_, fun _ => h.main_badRef S rng w o (Or.inr (Or.inl ht))⟩
    obtain ⟨t, ht', _⟩ := hg.1.refs
    rw [ht] at ht'; cases ht'
  | some t =>
    by_cases hv : ValidFile G t
    swap
    · refine ⟨fun hg => ?_, fun _ => h.main_badRef S rng w o (Or.inr (Or.inr ⟨t, ht, hv⟩))⟩
      obtain ⟨t', ht', hv'⟩ := hg.1.refs
      rw [ht] at ht'; injection ht' with ht'; subst ht'
      exact absurd hv' hv
    cases hu : hypText w o with
    | none =>
      refine ⟨fun hg => ?_, fun _ => h.main_badHyp S rng w o (Or.inl hu)⟩
      obtain ⟨t', ht', _⟩ := hg.1.hyps
      rw [hu] at ht'; cases ht'
    | some u =>
      by_cases hv2 : ValidFile (ScoredText R G) u
      swap
      · refine ⟨fun hg => ?_, fun _ => h.main_badHyp S rng w o (Or.inr ⟨u, hu, hv2⟩)⟩
        obtain ⟨t', ht', hv'⟩ := hg.1.hyps
        rw [hu] at ht'; injection ht' with ht'; subst ht'
        exact absurd hv' hv2
      have e := h.main_good S rng w o hr t u ht hu hv hv2
      obtain ⟨q1, q2⟩ := readQueryMap_plain hq w o ()
      by_cases hqf : (o.querySet ≠ [] → o.queryGroups = [] → ∃ t, w.file o.querySet = some t) ∧
          (o.queryGroups ≠ [] → ∃ t, w.file o.queryGroups = some t ∧
          WellFormedGroups ((lines t).map words))
      swap
      · refine ⟨fun hg => absurd ⟨hg.1.querySet, hg.1.queryGroups⟩ hqf, fun _ => ?_⟩
        rw [e, q2 hqf]
        rfl
      obtain ⟨q2g, eq⟩ := q1 hqf
      obtain ⟨v1, v2⟩ := hk.evaluate_total R S rng w o q2g (eventsIn ex t)
        (eventsIn (extractScored R ex) u) _ (hA t u ht hu) (h.finite u hv2)
        (Nat.add_le_add (List.length_filterMap_le _ _) (List.length_filterMap_le _ _))
      constructor
      · intro hg
        obtain ⟨r, hr, hc⟩ := v2 hg.2
        refine ⟨r, ?_, hc⟩
        rw [e, eq]
        exact hr
      · intro hg
        rw [e, eq]
        refine v1 ?_
        by_contra hc
        apply hg
        refine ⟨⟨hr, ⟨t, ht, hv⟩, ⟨u, hu, hv2⟩, hqf.1, hqf.2⟩, ?_⟩
        by_contra hd
        push Not at hd
        exact hc ⟨hd.1, by simpa using hd.2⟩

end Kws
