import Verif.Lemmas.IntervalRuns
import Verif.Model.Engine

/-!
# C114: what influences the confidence intervals
-/

namespace Kws

open Spec

/-! ## What holds -/

/-- C114, what holds: with ideal draws the samples of the same groups, with other names and in another
order, have the same law. -/
theorem C114_samples_partial {M M' : Type} (f : M → M') (groups : List (List M)) (groups' : List (List M'))
    (hg : Regrouped f groups groups') {N : ℕ} (hf : Fair groups N) (L : ℕ)
    (hL : groups.length * (groups.flatten.length + 1) ≤ L)
    (P : List (List M) → Prop) (P' : List (List M') → Prop)
    (hP : ∀ c, Resample groups c → (P c ↔ P' (c.map (List.map f)))) :
    probability N L (fun l => ∃ c l', matchesByQuerySampler dice groups l = .ok (c, l') ∧ P c) =
    probability N L (fun l => ∃ c l', matchesByQuerySampler dice groups' l = .ok (c, l') ∧ P' c) := by
  have key : ∀ {X : Type} (q : List (List X)) (T : List (List X) → Prop) (l : List ℕ),
      (∃ c l', matchesByQuerySampler dice q l = .ok (c, l') ∧ T c) ↔
        ∀ c ∈ samplesFrom dice q 1 l, T c := by
    intro X q T l
    obtain ⟨c, l', h, _⟩ := C40_shape dice q l
    simp [samplesFrom, h]
  rw [probability_congr (key groups P), probability_congr (key groups' P')]
  refine samples_law f groups groups' hg hf 1 (fun cs => ∀ c ∈ cs, P c) (fun cs => ∀ c ∈ cs, P' c) ?_ L
    (by unfold drawsFor; omega)
  intro cs hcs
  simp only [List.mem_map, forall_exists_index, and_imp, forall_apply_eq_imp_iff₂]
  exact forall₂_congr fun c hc => hP c (hcs c hc)

/-- Two groups under other names and in the other order: a sample has two of the group of `3` with the same
probability. -/
example :
    probability 2 8 (fun l => ∃ c l', matchesByQuerySampler dice [[1, 2], [3]] l = .ok (c, l') ∧ c = [[3], [3]]) =
    probability 2 8 (fun l => ∃ c l', matchesByQuerySampler dice [[-3], [-2, -1]] l = .ok (c, l') ∧
      c = [[(-3 : ℤ)], [-3]]) := by
  refine C114_samples_partial (fun n : ℕ => -(n : ℤ)) [[1, 2], [3]] [[-3], [-2, -1]]
    ⟨[[-2, -1], [-3]], by decide, .cons (by decide) (.cons (by decide) .nil)⟩ ?_ 8 (by decide) _ _ ?_
  · unfold Fair; decide
  · intro c _
    have inj : Function.Injective fun n : ℕ => -(n : ℤ) := fun a b h => by simpa using h
    exact ⟨fun h => by subst h; rfl, fun h => List.map_injective_iff.2 (List.map_injective_iff.2 inj) h⟩

/-- C114 for the segmentation-based tool, what holds: with ideal draws and exact arithmetic the law of the
four metrics, with their confidence intervals, does not depend on the order of the lines. -/
theorem C114_segmentation_partial (S S' : StdSort) (qf qf' : Bool) (w w' : World) (o : ToolOptions)
    (hw : Reordered o w w')
    (hV : (vocabulary w o).dedup.length ≤ 2 ^ 31) (hV' : (vocabulary w' o).dedup.length ≤ 2 ^ 31)
    (hd : o.sort = "desc".toList) (hc : o.collapse = true)
    (r r' : List ℕ → Report Nat Nat)
    (h : ∀ l, mainWith Rnd.exact S (diceFrom l) (simpleKit Rnd.exact qf) w o = .ok (.done (r l)))
    (h' : ∀ l, mainWith Rnd.exact S' (diceFrom l) (simpleKit Rnd.exact qf') w' o = .ok (.done (r' l)))
    (n : ℕ) (hn : ∀ t t', w.file o.refFilename = some t → hypText w o = some t' →
      (lines t).length + (lines t').length ≤ n)
    (N L : ℕ) (hN : 0 < N) (hdv : ∀ k, 0 < k → k ≤ n → k ∣ N) (hL : o.samples * (n * (n + 1)) ≤ L)
    (Φ : Statement) :
    probability N L (fun l => Φ.of (r l)) = probability N L (fun l => Φ.of (r' l)) := by
  rcases reordered_good (R := Rnd.exact) hw with ⟨h1, h2⟩ | ⟨h1, h2⟩ |
    ⟨hr, t, t', u, u', ht, ht', hu, hu', hv, hv', hvu, hvu'⟩
  · have := h []
    rw [simple_badRef Rnd.exact S (diceFrom []) qf w o hV h1] at this
    cases this
  · have := h []
    rw [simple_badHyp Rnd.exact S (diceFrom []) qf w o hV h1] at this
    cases this
  · obtain ⟨f, M, i1, i2, e⟩ := simple_good_all Rnd.exact S qf w o hV hr t t' ht ht' hv hv'
    obtain ⟨f', M', i1', i2', e'⟩ := simple_good_all Rnd.exact S' qf' w' o hV' hr u u' hu hu' hvu hvu'
    obtain ⟨g, hg, hgf⟩ := rename_between i1 i1' i2'
    exact main_law S S' (simple_seg Rnd.exact qf) (simple_seg Rnd.exact qf') w w' o hw g hg hgf t t' u u'
      ht ht' hu hu' hv' n (hn t t' ht ht') hd hc e e' r r' h h' N L hN hdv hL Φ

/-- C114 for the box tool, what holds: with ideal draws and exact arithmetic the law of the four metrics,
with their confidence intervals, depends neither on the names of queries, documents and groups nor on the
places of the boxes. -/
theorem C114_box_partial (S S' : StdSort)
    {ρ δ γ : Str → Str} {κ : Str → ℕ × ℕ} {τ : Str → ℤ × ℤ}
    (hρ : Function.Injective ρ) (hδ : Function.Injective δ)
    (hκ : ∀ d, 0 < (κ d).1 ∧ 0 < (κ d).2) (hγ : Function.Injective γ)
    (w w' : World) (o o' : ToolOptions) (t u t' u' : Str)
    (refs refs' : List (Event Str (DocBox Str UInt32)))
    (hyps hyps' : List (ScoredEvent Str (DocBox Str UInt32)))
    (ht : w.file o.refFilename = some t) (hu : hypText w o = some u)
    (ht' : w'.file o'.refFilename = some t') (hu' : hypText w' o' = some u')
    (hrefs : Yields BoxEventText (lines t) refs) (hrefs' : Yields BoxEventText (lines t') refs')
    (hhyps : Yields (ScoredText Rnd.exact BoxEventText) (lines u) hyps)
    (hhyps' : Yields (ScoredText Rnd.exact BoxEventText) (lines u') hyps')
    (hr : ∀ r ∈ refs, EdgesOkU r.location.toBBox) (hr' : ∀ r ∈ refs', EdgesOkU r.location.toBBox)
    (hh : ∀ h ∈ hyps, EdgesOkU h.base.location.toBBox) (hh' : ∀ h ∈ hyps', InRangeU h.base)
    (mr : ∃ k, refs'.Perm k ∧ List.Forall₂ (Placed ρ δ κ τ) refs k)
    (mh : ∃ k, hyps'.Perm k ∧ List.Forall₂ (PlacedScored ρ δ κ τ) hyps k)
    (mq : RenamedQueries ρ γ w o w' o')
    (hd : o.sort = "desc".toList) (hc : o.collapse = true) (hd' : o'.sort = "desc".toList)
    (hc' : o'.collapse = true) (hs : SameMetrics o o')
    (r r' : List ℕ → Report Str (DocBox Str UInt32))
    (h : ∀ l, mainWith Rnd.exact S (diceFrom l) (icdarKit Rnd.exact S) w o = .ok (.done (r l)))
    (h' : ∀ l, mainWith Rnd.exact S' (diceFrom l) (icdarKit Rnd.exact S') w' o' = .ok (.done (r' l)))
    (n : ℕ) (hn : refs.length + hyps.length ≤ n)
    (N L : ℕ) (hN : 0 < N) (hdv : ∀ k, 0 < k → k ≤ n → k ∣ N) (hL : o.samples * (n * (n + 1)) ≤ L)
    (Φ : Statement) :
    probability N L (fun l => Φ.of (r l)) = probability N L (fun l => Φ.of (r' l)) := by
  obtain ⟨kr, pr, mr⟩ := mr
  obtain ⟨kh, ph, mh⟩ := mh
  have hmem : ∀ y ∈ hyps, ∃ x ∈ hyps', areaU y.base ≤ areaU x.base := by
    intro y hy
    obtain ⟨e, hm⟩ := map_of_forall₂ (f := placeS ρ δ κ τ) (fun _ _ h => PlacedScored.eq h) mh
    refine ⟨placeS ρ δ κ τ y, ph.mem_iff.2 (by rw [e]; exact List.mem_map_of_mem hy), ?_⟩
    rw [(hm y hy).base.area]
    exact Nat.le_mul_of_pos_left _ (Nat.mul_pos (hκ _).1 (hκ _).2)
  obtain ⟨q2g, ms, rep, groups, a1, a2, a3, a4, a5, a6, a7, a8⟩ := box_all [] S _ w o t u refs hyps ht hu hrefs hhyps
    hr (fun y hy => by
      obtain ⟨x, hx, hle⟩ := hmem y hy
      exact ⟨hh y hy, hle.trans_lt (hh' x hx).2⟩) hd hc r h
  obtain ⟨q2g', ms', rep', groups', b1, b2, b3, b4, b5, b6, b7, b8⟩ := box_all [] S' _ w' o' t' u' refs' hyps' ht' hu'
    hrefs' hhyps' hr' hh' hd' hc' r' h'
  rw [mq.listed] at b1
  have b1 := exactBoxMatching_same b1 (fun e => (keep_perm _ _ pr).mem_iff) (keep_perm _ _ ph)
  have fr := forall₂_keep (query := (·.query)) (query' := (·.query)) hρ
    (fun e e' (h : Placed ρ δ κ τ e e') => h.query) (listedQueries w o) mr
  have fh := forall₂_keep (query := (·.base.query)) (query' := (·.base.query)) hρ
    (fun e e' (h : PlacedScored ρ δ κ τ e e') => h.base.query) (listedQueries w o) mh
  have hfin := (icdar_plain Rnd.exact S).finite u (yields_valid hhyps)
  rw [yields_events Format.boxHyps hhyps] at hfin
  have hnn : ∀ x ∈ keep (·.base.query) (listedQueries w o) hyps, x.score ≠ .nan := by
    intro x hx
    exact hfin x (keep_mem hx)
  have hlist : ∀ {E : Type} {query : E → Str} {es : List E}, ∀ e ∈ keep query (listedQueries w o) es,
      listedQueries w o = [] ∨ query e ∈ listedQueries w o := by
    intro E query es e he
    unfold keep at he
    split at he
    · exact .inl (by assumption)
    · exact .inr (by simpa using (List.mem_filter.1 he).2)
  rw [numbers_placed hρ hδ hκ hγ fr fh hnn (grp := groupFor w o) (grp' := groupFor w' o')
    (fun x hx => mq.group _ (hlist x hx)) (fun x hx => mq.group _ (hlist x hx)) a1 b1, hs.interp,
    hs.trapezoid] at b7
  obtain ⟨er, hr2⟩ := map_of_forall₂ (f := placeE ρ δ κ τ) (fun _ _ h => Placed.eq h) fr
  obtain ⟨eh, hh2⟩ := map_of_forall₂ (f := placeS ρ δ κ τ) (fun _ _ h => PlacedScored.eq h) fh
  rw [er, eh] at b1
  obtain ⟨p1, -⟩ := matching_placed hρ hδ hκ hr2 hh2 hnn a1 b1
  have hm := exactBoxMatching_mem a1
  obtain ⟨e1, e2, e3⟩ := groupMatches_facts _ _ _ a3
  obtain ⟨F1, F2⟩ := fair_of_divides groups ms n N L o.samples (a5.trans hn) e1 e2 e3 hN hdv hL
  refine assess_law (f := mapMatch (placeE ρ δ κ τ) (placeS ρ δ κ τ)) S S' w w' o o' ms ms' groups groups' _ _ r r'
    a8 b8 ?_ ?_ ?_ hc hc' hs ⟨?_, ?_, b7.gNDCG.trans a7.gNDCG.symm, b7.mNDCG.trans a7.mNDCG.symm⟩ F1 F2 Φ
  · rintro ⟨r, x, e⟩
    cases x <;> exact ⟨rfl, rfl⟩
  · refine groupMatches_regrouped hγ _ q2g q2g' ms ms' p1 ?_ groups groups' a3 b3
    intro m hmm
    obtain ⟨r, x, e⟩ := m
    obtain ⟨m1, m2⟩ := hm _ (.inl hmm)
    cases r with
    | some r =>
      refine ⟨r, placeE ρ δ κ τ r, rfl, rfl, ?_⟩
      rw [a2, b2]
      exact mq.group _ (hlist r (m1 r rfl))
    | none =>
      cases x with
      | some x =>
        refine ⟨x.base, (placeS ρ δ κ τ x).base, rfl, rfl, ?_⟩
        rw [a2, b2]
        exact mq.group _ (hlist x (m2 x rfl))
      | none => simpa using a4 _ hmm
  · intro G hG x hx
    exact a6 x ((e2 G hG).subset hx)
  · rw [sub_eq_zero.1 (abs_nonpos_iff.1 a7.gAP), sub_eq_zero.1 (abs_nonpos_iff.1 b7.gAP)]
  · rw [sub_eq_zero.1 (abs_nonpos_iff.1 a7.mAP), sub_eq_zero.1 (abs_nonpos_iff.1 b7.mAP)]

/-! ## What does not hold -/

section
variable {G Q L : Type}

/-- The global average precision of groups, with the insertion sort. -/
def sortedAP (o : ToolOptions) (c : List (List (KwsMatch Q L))) : Cpp ℚ :=
  globalAP Rnd.exact (insSort scoreGreater c.flatten) true o.interp o.trapezoid

theorem sortedAP_eq (S : StdSort) (o : ToolOptions) (c : List (List (KwsMatch Q L))) (hn : ∀ g ∈ c, NoNaN g) :
    globalAPGrouped Rnd.exact S c true o.interp o.trapezoid true = sortedAP o c := by
  have hk : KeepsScores (id : KwsMatch Q L → KwsMatch Q L) := fun m => ⟨rfl, rfl⟩
  have := (hk.statistics S insertionStdSort c hn o.interp o.trapezoid).1
  simp only [List.map_id_fun, id_eq] at this
  rw [← this]
  obtain ⟨l, h1, _⟩ := sortMatches_spec insertionStdSort c.flatten (fun m hm => by
    obtain ⟨g, hg, hm⟩ := List.mem_flatten.1 hm
    exact hn g hg m hm)
  have h2 := h1
  unfold sortMatches insertionStdSort at h2
  dsimp only at h2
  split at h2
  · injection h2 with h2
    unfold globalAPGrouped sortedAP
    simp only [if_true, h1, bind, Except.bind, h2]
  · cases h2

/-- The interval of the global average precision with one sample. -/
theorem one_sample (S : StdSort) (rng : Rng G) (w : World) (o : ToolOptions) (ms : List (KwsMatch Q L))
    (groups : List (List (KwsMatch Q L))) (dump : Option (List (KwsMatch Q L) × List (KwsMatch Q L)))
    (r : Report Q L) (h : assess Rnd.exact S rng w o ms groups dump = .ok r) (hn : ∀ g ∈ groups, NoNaN g)
    (hc : o.collapse = true) (hb : o.ciGap = true) (h1 : o.samples = 1) (ha : o.alpha = 1 / 20) :
    ∃ c g' v s, matchesByQuerySampler rng groups (rng.seed o.seed) = .ok (c, g') ∧ sortedAP o groups = .ok v ∧
      sortedAP o c = .ok s ∧ r.gAP.ci = some (v - (s - v), v - (s - v)) := by
  obtain ⟨a1, _⟩ := assess_ok _ _ _ _ _ _ _ _ _ h
  obtain ⟨c, g', hs, hres⟩ := C40_shape rng groups (rng.seed o.seed)
  have hnc := resample_all hres (fun m => Spec.rank m ≠ .nan) (fun g hg m hm => hn g hg m hm)
  rw [globalStatistic_metricOf, hb, h1, hc, ha] at a1
  simp only [samplesFrom, hs, List.map_cons, List.map_nil, sortedAP_eq S o c hnc, sortedAP_eq S o groups hn,
    metricOf, if_true, intervalOf] at a1
  refine ⟨c, g', ?_⟩
  have li : lowerIndex Rnd.exact (1 / 20) 1 = .ok 0 := by decide +kernel
  have ui : upperIndex Rnd.exact (1 / 20) 1 = .ok 0 := by decide +kernel
  cases hv : sortedAP o groups with
  | error e => rw [hv] at a1; cases a1
  | ok v =>
    cases hx : sortedAP o c with
    | error e => rw [hv, hx] at a1; cases a1
    | ok s =>
      refine ⟨v, s, hs, rfl, rfl, ?_⟩
      obtain ⟨d, d1, d2, _⟩ := sort_lt S [Rnd.exact.f64 (s - v)]
      have d2 : d = [Rnd.exact.f64 (s - v)] := by simpa using d2
      subst d2
      simp only [hv, hx, deviations, bind, Except.bind, pure, Except.pure, d1, li, ui, vecAt,
        List.getElem?_cons_zero, Except.ok.injEq] at a1
      rw [← a1]
      rfl

end

/-- The files of the following runs: the query `c` is found, `a` is missed once and `b` twice. -/
def intervalExample (refs : Str) : World where
  file f := if f = "ref".toList then some refs else none
  stdin := "c l 1\n".toList
  writable _ := false

/-- One sample for the interval of the global average precision; the seed is the usual one. -/
def intervalOptions : ToolOptions := { idsOptions with ciGap := true, samples := 1 }

/-- A bound of the interval of a run with the engine of the program. -/
def runBound (refs : List (Event Nat Nat)) (hyps : List (ScoredEvent Nat Nat)) : Cpp ℚ := do
  let (_, ms, _) ← SimpleMatcher.run (plainIndex Nat Nat) trivialScorer EventSet.new refs
    (insSort ScoredEvent.gt hyps)
  let groups ← groupMatches [] ms
  let (c, _) ← matchesByQuerySampler MinStd.rng groups (MinStd.rng.seed intervalOptions.seed)
  let v ← sortedAP intervalOptions groups
  let s ← sortedAP intervalOptions c
  return v - (s - v)

theorem runBound_eq (S : StdSort) (qf : Bool) (w : World)
    (refText hypText' : Str)
    (m m' : IntMapper) (refs : List (Event Nat Nat)) (hyps : List (ScoredEvent Nat Nat))
    (hrt : w.file intervalOptions.refFilename = some refText) (hht : hypText w intervalOptions = some hypText')
    (h1 : (simpleKit Rnd.exact qf).readRef (simpleKit Rnd.exact qf).mapper refText = (m, refs, .ok))
    (h2 : (simpleKit Rnd.exact qf).readHyp m hypText' = (m', hyps, .ok)) (hn : ∀ h ∈ hyps, h.score ≠ .nan)
    (r : Report Nat Nat)
    (h : mainWith Rnd.exact S MinStd.rng (simpleKit Rnd.exact qf) w intervalOptions = .ok (.done r)) :
    ∃ b, runBound refs hyps = .ok b ∧ r.gAP.ci = some (b, b) := by
  rw [mainWith_inputs Rnd.exact _ MinStd.rng (simpleKit Rnd.exact qf) w intervalOptions _ _ m m' refs hyps
    (by decide) hrt hht h1 h2] at h
  have e : readQueryMap (simpleKit Rnd.exact qf).mapQuery w intervalOptions m' = .ok (some []) := by
    unfold readQueryMap
    rw [if_neg (fun h => h.1 rfl), if_neg (fun h => h rfl)]
  rw [e] at h
  obtain ⟨l, s', ms, rep, groups, a1, a2, a3, a4⟩ := evaluate_done _ _ _ _ _ _ _ _ _ _ h
  have a1 : sortHyps S "desc".toList hyps = .ok l := a1
  obtain ⟨R1, _⟩ := evaluate_ranked Rnd.exact S (simpleKit Rnd.exact qf) (simple_seg Rnd.exact qf).safe [] refs hyps
    l s' ms rep hn (Or.inl rfl) a1 a2
  have hl : l = insSort ScoredEvent.gt hyps := by
    obtain ⟨l', c1, c2, _⟩ := sortHyps_unique S insertionStdSort "desc".toList hyps hyps hn
      (List.Perm.refl _) (Or.inl rfl)
    rw [a1] at c1
    injection c1 with c1
    subst c1
    unfold sortHyps insertionStdSort at c2
    rw [if_pos rfl] at c2
    dsimp only at c2
    split at c2
    · injection c2 with c2; exact c2.symm
    · cases c2
  have a2 : SimpleMatcher.run (plainIndex Nat Nat) trivialScorer EventSet.new refs l =
    .ok (s', ms, rep) := a2
  rw [hl] at a2
  obtain ⟨_, g2, _⟩ := groupMatches_facts _ _ _ a3
  obtain ⟨c, g', v, s, b1, b2, b3, b4⟩ := one_sample S MinStd.rng w intervalOptions ms groups _ r a4
    (fun g hg x hx => R1.noNaN x ((g2 g hg).subset hx)) rfl rfl rfl rfl
  refine ⟨v - (s - v), ?_, b4⟩
  unfold runBound
  simp only [a2, a3, b1, b2, b3, bind, Except.bind]
  rfl

/-- The bound for the given files. -/
def filesBound (qf : Bool) (refText hypText : Str) : Option ℚ :=
  match (simpleKit Rnd.exact qf).readRef (simpleKit Rnd.exact qf).mapper refText with
  | (m, refs, .ok) =>
    match (simpleKit Rnd.exact qf).readHyp m hypText with
    | (_, hyps, .ok) =>
      if ∀ h ∈ hyps, h.score ≠ .nan then
        match runBound refs hyps with
        | .ok v => some v
        | .error _ => none
      else none
    | _ => none
  | _ => none

theorem filesBound_eq (S : StdSort) (qf : Bool) (w : World)
    (refText hypText' : Str) (hrt : w.file intervalOptions.refFilename = some refText)
    (hht : hypText w intervalOptions = some hypText') (r : Report Nat Nat)
    (h : mainWith Rnd.exact S MinStd.rng (simpleKit Rnd.exact qf) w intervalOptions = .ok (.done r)) (v : ℚ)
    (hv : filesBound qf refText hypText' = some v) : r.gAP.ci = some (v, v) := by
  unfold filesBound at hv
  split at hv
  · rename_i m refs h1
    split at hv
    · rename_i m' hyps h2
      split at hv
      · rename_i hn
        obtain ⟨b, b1, b2⟩ := runBound_eq S qf w refText hypText' m m' refs hyps hrt hht h1 h2 hn r h
        rw [b1] at hv
        injection hv with hv
        rw [b2, hv]
      · cases hv
    · cases hv
  · cases hv

theorem intervalExample_file (refs : Str) : (intervalExample refs).file "ref".toList = some refs := by
  unfold intervalExample
  dsimp only
  rw [if_pos rfl]

theorem intervalExample_none (refs : Str) : (intervalExample refs).file [] = none := by
  unfold intervalExample
  dsimp only
  rw [if_neg (by decide)]

theorem intervalExample_writable (refs : Str) : (intervalExample refs).writable = fun _ => false := rfl

theorem intervalExample_vocabulary (refs : Str)
    (h : (words (refs ++ '\n' :: (intervalExample refs).stdin)).dedup.length ≤ 2 ^ 31) :
    (vocabulary (intervalExample refs) intervalOptions).dedup.length ≤ 2 ^ 31 := by
  have e : vocabulary (intervalExample refs) intervalOptions =
      words (refs ++ '\n' :: (intervalExample refs).stdin) := by
    rw [words_append_space _ _ _ (by decide)]
    unfold vocabulary
    rw [show (intervalExample refs).file intervalOptions.refFilename = some refs from intervalExample_file refs,
      show (intervalExample refs).file intervalOptions.querySet = none from intervalExample_none refs,
      show (intervalExample refs).file intervalOptions.queryGroups = none from intervalExample_none refs,
      show hypText (intervalExample refs) intervalOptions = some (intervalExample refs).stdin from if_pos rfl]
    simp
  rw [e]
  exact h

theorem intervalOptions_feasible (w : World) (n : ℕ) : Feasible Rnd.exact w intervalOptions n :=
  ⟨fun _ => ⟨by decide, Or.inl ⟨rfl, by decide, by decide +kernel, by decide +kernel⟩⟩, fun h => absurd rfl h,
    fun h => absurd rfl h, fun h => by rcases h with h | h <;> exact absurd rfl h⟩

theorem intervalExample_runs {G : Type} (S : StdSort) (rng : Rng G) (qf : Bool) (refs : Str)
    (hV : (words (refs ++ '\n' :: (intervalExample refs).stdin)).dedup.length ≤ 2 ^ 31)
    (hv : ValidFile StrEventText refs) :
    ∃ r, mainWith Rnd.exact S rng (simpleKit Rnd.exact qf) (intervalExample refs) intervalOptions =
      .ok (.done r) := by
  obtain ⟨r, hr, _⟩ := (C62_segmentation_partial Rnd.exact S rng qf (intervalExample refs) intervalOptions
    (intervalExample_vocabulary refs hV) (fun t t' _ _ => intervalOptions_feasible _ _)).1
    ⟨⟨by decide, ⟨_, intervalExample_file _, hv⟩, ⟨"c l 1\n".toList, if_pos rfl,
      (Format.strHyps (R := Rnd.exact)).valid_of_ok _ (by decide +kernel)⟩, fun h => absurd rfl h,
        fun h => absurd rfl h⟩, Or.inl rfl⟩
  exact ⟨r, hr⟩

theorem intervalExample_reordered :
    Reordered intervalOptions (intervalExample "c l\na l\nb l\nb m\n".toList)
      (intervalExample "c l\nb l\nb m\na l\n".toList) := by
  refine ⟨Or.inr ⟨_, _, intervalExample_file _, intervalExample_file _, ?_⟩,
    Or.inr ⟨"c l 1\n".toList, "c l 1\n".toList, if_pos rfl, if_pos rfl, List.Perm.refl _⟩,
    (intervalExample_none _).trans (intervalExample_none _).symm,
    (intervalExample_none _).trans (intervalExample_none _).symm,
    (intervalExample_writable _).trans (intervalExample_writable _).symm⟩
  have h1 : lines "c l\na l\nb l\nb m\n".toList =
    ["c l".toList, "a l".toList, "b l".toList, "b m".toList] := by decide +kernel
  have h2 : lines "c l\nb l\nb m\na l\n".toList =
    ["c l".toList, "b l".toList, "b m".toList, "a l".toList] := by decide +kernel
  rw [h1, h2]
  generalize "a l".toList = a
  generalize "b l".toList = b
  generalize "b m".toList = b'
  generalize "c l".toList = c
  intro l
  simp only [List.mem_cons, List.not_mem_nil, or_false]
  tauto

/-- C114 is false: with the engine of the program and its usual seed, exchanging lines of the references
changes the confidence interval of the global average precision. -/
theorem C114_segmentation_refuted (S : StdSort) (qf : Bool) :
    ∃ (w w' : World) (o : ToolOptions) (r r' : Report Nat Nat), Reordered o w w' ∧
      mainWith Rnd.exact S MinStd.rng (simpleKit Rnd.exact qf) w o = .ok (.done r) ∧
      mainWith Rnd.exact S MinStd.rng (simpleKit Rnd.exact qf) w' o = .ok (.done r') ∧
      r.gAP.ci = some (1 / 2, 1 / 2) ∧ r'.gAP.ci = some (1 / 4, 1 / 4) := by
  obtain ⟨r, hr⟩ := intervalExample_runs S MinStd.rng qf "c l\na l\nb l\nb m\n".toList (by decide +kernel)
    ((Format.strRefs (R := Rnd.exact)).valid_of_ok _ (by decide +kernel))
  obtain ⟨r', hr'⟩ := intervalExample_runs S MinStd.rng qf "c l\nb l\nb m\na l\n".toList (by decide +kernel)
    ((Format.strRefs (R := Rnd.exact)).valid_of_ok _ (by decide +kernel))
  refine ⟨_, _, intervalOptions, r, r', intervalExample_reordered, hr, hr',
    filesBound_eq S qf _ _ "c l 1\n".toList (intervalExample_file _) (if_pos rfl) r hr _ ?_,
    filesBound_eq S qf _ _ "c l 1\n".toList (intervalExample_file _) (if_pos rfl) r' hr' _ ?_⟩
  · cases qf <;> decide +kernel
  · cases qf <;> decide +kernel

/-- The same two files, with ideal draws: every statement about the interval is as probable for one as for
the other. -/
example (S : StdSort) : ∃ r r' : List ℕ → Report Nat Nat,
    (∀ l, mainWith Rnd.exact S (diceFrom l) (simpleKit Rnd.exact true)
      (intervalExample "c l\na l\nb l\nb m\n".toList) intervalOptions = .ok (.done (r l))) ∧
    (∀ l, mainWith Rnd.exact S (diceFrom l) (simpleKit Rnd.exact true)
      (intervalExample "c l\nb l\nb m\na l\n".toList) intervalOptions = .ok (.done (r' l))) ∧
    ∀ Φ : Statement, probability 60 30 (fun l => Φ.of (r l)) = probability 60 30 (fun l => Φ.of (r' l)) := by
  have h := fun l => intervalExample_runs S (diceFrom l) true "c l\na l\nb l\nb m\n".toList (by decide +kernel)
    ((Format.strRefs (R := Rnd.exact)).valid_of_ok _ (by decide +kernel))
  have h' := fun l => intervalExample_runs S (diceFrom l) true "c l\nb l\nb m\na l\n".toList (by decide +kernel)
    ((Format.strRefs (R := Rnd.exact)).valid_of_ok _ (by decide +kernel))
  choose r hr using h
  choose r' hr' using h'
  refine ⟨r, r', hr, hr', fun Φ => C114_segmentation_partial S S true true _ _ intervalOptions
    intervalExample_reordered (intervalExample_vocabulary _ (by decide +kernel))
    (intervalExample_vocabulary _ (by decide +kernel)) rfl rfl r r' hr hr' 5 ?_ 60 30 (by decide) ?_ (by decide) Φ⟩
  · intro t t' ht ht'
    rw [show (intervalExample _).file intervalOptions.refFilename = _ from intervalExample_file _] at ht
    rw [show hypText (intervalExample _) intervalOptions = some "c l 1\n".toList from if_pos rfl] at ht'
    injection ht with ht
    injection ht' with ht'
    subst ht ht'
    decide +kernel
  · intro k h1 h2
    have : ∀ k ≤ 5, 0 < k → k ∣ 60 := by decide
    exact this k h2 h1

/-! ## Names -/

/-- A reference of a run of the box tool -/
def placedAt (q : Str) (x : UInt32) : Event Str (DocBox Str UInt32) := ⟨q, ⟨⟨x, 0, 2, 2⟩, "d".toList⟩⟩

/-- The references of a run of the box tool: `p` is missed once and `q` twice. -/
def namedRefs (p q : Str) : List (Event Str (DocBox Str UInt32)) :=
  [placedAt "c".toList 0, placedAt p 10, placedAt q 20, placedAt q 30]

/-- The hypothesis of the run. -/
def namedHyp : ScoredEvent Str (DocBox Str UInt32) := ⟨placedAt "c".toList 0, .fin 1⟩

/-- The files of these runs. -/
def namedExample (refs : Str) : World where
  file f := if f = "ref".toList then some refs else none
  stdin := "c d 0 0 2 2 1\n".toList
  writable _ := false

/-- The matches of these runs. -/
def namedMatches (missed : List (Event Str (DocBox Str UInt32))) : List (KwsMatch Str (DocBox Str UInt32)) :=
  ⟨some (placedAt "c".toList 0), some namedHyp, ⟨0, 0⟩⟩ :: missed.map (fun r => ⟨some r, none, ⟨0, 1⟩⟩)

theorem named_exact (refs missed : List (Event Str (DocBox Str UInt32)))
    (h1 : ∀ r ∈ refs, r = placedAt "c".toList 0 ↔
      r.query = "c".toList ∧ 0 < commonU r (placedAt "c".toList 0))
    (h2 : missed.Pairwise BoxEventLt) (h3 : ∀ r ∈ missed, r ∈ refs ∧ r ≠ placedAt "c".toList 0)
    (h4 : ∀ r ∈ refs, r ≠ placedAt "c".toList 0 → r ∈ missed) (h0 : placedAt "c".toList 0 ∈ refs) :
    ExactBoxMatching refs [namedHyp] (namedMatches missed) [] := by
  refine ⟨[namedHyp], fun _ => [placedAt "c".toList 0],
    [⟨some (placedAt "c".toList 0), some namedHyp, ⟨0, 0⟩⟩], missed, List.Perm.refl _,
    List.pairwise_singleton _ _, ?_, ?_, h2, ?_, rfl⟩
  · intro h hh
    obtain rfl := List.mem_singleton.1 hh
    refine ⟨fun r => ?_, List.pairwise_singleton _ _⟩
    rw [List.mem_singleton]
    constructor
    · rintro rfl
      exact ⟨h0, (h1 _ h0).1 rfl⟩
    · rintro ⟨a, b⟩
      exact (h1 r a).2 b
  · refine .cons _ _ _ [_] [] [] _ (Or.inr (Or.inl ⟨[], placedAt "c".toList 0, [], by decide +kernel,
      by decide +kernel, by simp [Taken], by simp, by decide +kernel⟩))
      ⟨[], [placedAt "c".toList 0], by decide +kernel, by simp, ?_, by simp⟩ (.nil _)
    intro r hr
    simp only [List.head?_cons, Option.some.injEq] at hr
    subst hr
    exact ⟨by decide +kernel, by simp [Taken]⟩
  · intro r
    have : Taken [(⟨some (placedAt "c".toList 0), some namedHyp, ⟨0, 0⟩⟩ :
        KwsMatch Str (DocBox Str UInt32))] r ↔ r = placedAt "c".toList 0 := by
      simp [Taken, eq_comm]
    rw [this]
    exact ⟨h3 r, fun h => h4 r h.1 h.2⟩

/-- A bound of the interval of a run with the engine of the program. -/
def matchesBound (ms : List (KwsMatch Str (DocBox Str UInt32))) : Cpp ℚ := do
  let groups ← groupMatches [] ms
  let (c, _) ← matchesByQuerySampler MinStd.rng groups (MinStd.rng.seed intervalOptions.seed)
  let v ← sortedAP intervalOptions groups
  let s ← sortedAP intervalOptions c
  return v - (s - v)

theorem namedExample_file (refs : Str) : (namedExample refs).file "ref".toList = some refs := by
  unfold namedExample
  dsimp only
  rw [if_pos rfl]

theorem namedExample_hyps : Yields (ScoredText Rnd.exact BoxEventText) (lines "c d 0 0 2 2 1\n".toList)
    [namedHyp] :=
  (C48_accepts (Format.boxHyps (R := Rnd.exact)) _ _).1 (by decide +kernel)

theorem named_runs {G : Type} (S : StdSort) (rng : Rng G) (t : Str)
    (refs : List (Event Str (DocBox Str UInt32))) (ht : Yields BoxEventText (lines t) refs) :
    ∃ r, mainWith Rnd.exact S rng (icdarKit Rnd.exact S) (namedExample t) intervalOptions = .ok (.done r) := by
  obtain ⟨r, h, _⟩ := (C62_box_partial Rnd.exact S rng (namedExample t) intervalOptions
    (fun _ _ _ _ => intervalOptions_feasible _ _)).1
    ⟨⟨by decide, ⟨_, namedExample_file _, yields_valid ht⟩, ⟨_, if_pos rfl, yields_valid namedExample_hyps⟩,
      fun h => absurd rfl h, fun h => absurd rfl h⟩, Or.inl rfl⟩
  exact ⟨r, h⟩

theorem groupMatches_congr {Q L : Type} [DecidableEq Q] (q2g q2g' : List (Q × Q)) (ms : List (KwsMatch Q L))
    (h : ∀ q, groupOf q2g q = groupOf q2g' q) : groupMatches q2g ms = groupMatches q2g' ms := by
  have key : ∀ (l : List (KwsMatch Q L)) st, groupLoop q2g l st = groupLoop q2g' l st := by
    intro l
    induction l with
    | nil => intro st; rfl
    | cons m l ih => intro st; simp only [groupLoop, h, ih]
  unfold groupMatches
  rw [key]

theorem named_bound (S : StdSort) (t : Str) (refs missed : List (Event Str (DocBox Str UInt32)))
    (ht : Yields BoxEventText (lines t) refs) (he : ∀ r ∈ refs, EdgesOkU r.location.toBBox)
    (hm : ExactBoxMatching refs [namedHyp] (namedMatches missed) [])
    (r : Report Str (DocBox Str UInt32))
    (h : mainWith Rnd.exact S MinStd.rng (icdarKit Rnd.exact S) (namedExample t) intervalOptions = .ok (.done r))
    (v : ℚ) (hv : matchesBound (namedMatches missed) = .ok v) : r.gAP.ci = some (v, v) := by
  obtain ⟨q2g, ms, rep, groups, a1, a2, a3, a4, a5, a6, a7, a8⟩ := box_all () S (fun _ => MinStd.rng)
    (namedExample t) intervalOptions t "c d 0 0 2 2 1\n".toList refs [namedHyp] (namedExample_file _) (if_pos rfl)
    ht namedExample_hyps he (by
      intro x hx
      obtain rfl := List.mem_singleton.1 hx
      unfold InRangeU EdgesOkU
      decide +kernel) rfl rfl (fun _ => r) (fun _ => h)
  have a1 : ExactBoxMatching refs [namedHyp] ms rep := a1
  obtain ⟨rfl, rfl⟩ := C88_determined _ _ _ _ _ _ _ _ (fun _ => Iff.rfl) (List.Perm.refl _)
    (by decide +kernel) a1 hm
  have hg : groupMatches [] (namedMatches missed) = .ok groups := by
    rw [← a3]
    refine groupMatches_congr _ _ _ fun q => ?_
    rw [a2]
    rfl
  obtain ⟨_, g2, _⟩ := groupMatches_facts _ _ _ a3
  obtain ⟨c, g', v', s, b1, b2, b3, b4⟩ := one_sample S MinStd.rng _ intervalOptions _ groups _ r (a8 ())
    (fun g hg x hx => a6 x ((g2 g hg).subset hx)) rfl rfl rfl rfl
  unfold matchesBound at hv
  simp only [hg, b1, b2, b3, bind, Except.bind, pure, Except.pure, Except.ok.injEq] at hv
  rw [b4, hv]

theorem named_yields :
    Yields BoxEventText (lines "c d 0 0 2 2\na d 10 0 2 2\nb d 20 0 2 2\nb d 30 0 2 2\n".toList)
      (namedRefs "a".toList "b".toList) ∧
    Yields BoxEventText (lines "c d 0 0 2 2\nb d 10 0 2 2\na d 20 0 2 2\na d 30 0 2 2\n".toList)
      (namedRefs "b".toList "a".toList) :=
  ⟨(C48_accepts (Format.boxRefs (R := Rnd.exact)) _ _).1 (by decide +kernel),
    (C48_accepts (Format.boxRefs (R := Rnd.exact)) _ _).1 (by decide +kernel)⟩

/-- Exchanges the names `a` and `b`. -/
def exchanged (s : Str) : Str :=
  if s = "a".toList then "b".toList else if s = "b".toList then "a".toList else s

theorem exchanged_twice (s : Str) : exchanged (exchanged s) = s := by
  unfold exchanged
  split
  · subst s; decide
  · split
    · subst s; decide
    · rfl

/-- C114 is false for the box tool: with the engine of the program and its usual seed, exchanging the names
of two queries changes the confidence interval of the global average precision. -/
theorem C114_box_refuted (S : StdSort) :
    ∃ (ρ : Str → Str) (w w' : World) (o : ToolOptions) (t u t' u' : Str)
      (refs refs' : List (Event Str (DocBox Str UInt32)))
      (hyps hyps' : List (ScoredEvent Str (DocBox Str UInt32))) (r r' : Report Str (DocBox Str UInt32)),
      Function.Injective ρ ∧ w.file o.refFilename = some t ∧ hypText w o = some u ∧
      w'.file o.refFilename = some t' ∧ hypText w' o = some u' ∧
      Yields BoxEventText (lines t) refs ∧ Yields BoxEventText (lines t') refs' ∧
      Yields (ScoredText Rnd.exact BoxEventText) (lines u) hyps ∧
      Yields (ScoredText Rnd.exact BoxEventText) (lines u') hyps' ∧
      List.Forall₂ (Moved ρ id (fun _ => 0)) refs refs' ∧
      List.Forall₂ (MovedScored ρ id (fun _ => 0)) hyps hyps' ∧ RenamedQueries ρ ρ w o w' o ∧
      mainWith Rnd.exact S MinStd.rng (icdarKit Rnd.exact S) w o = .ok (.done r) ∧
      mainWith Rnd.exact S MinStd.rng (icdarKit Rnd.exact S) w' o = .ok (.done r') ∧
      r.gAP.ci = some (1 / 2, 1 / 2) ∧ r'.gAP.ci = some (1 / 4, 1 / 4) := by
  obtain ⟨y, y'⟩ := named_yields
  obtain ⟨r, hr⟩ := named_runs S MinStd.rng _ _ y
  obtain ⟨r', hr'⟩ := named_runs S MinStd.rng _ _ y'
  refine ⟨exchanged, _, _, intervalOptions, _, "c d 0 0 2 2 1\n".toList, _, "c d 0 0 2 2 1\n".toList, _, _,
    [namedHyp], [namedHyp], r, r', Function.LeftInverse.injective exchanged_twice, namedExample_file _,
    if_pos rfl, namedExample_file _, if_pos rfl, y, y', namedExample_hyps, namedExample_hyps, ?_, ?_,
    C89_no_files rfl rfl rfl rfl, hr, hr',
    named_bound S _ _ [placedAt "a".toList 10, placedAt "b".toList 20, placedAt "b".toList 30] y
      (by unfold EdgesOkU; decide +kernel) (named_exact _ _ (by decide +kernel) ?_ (by decide +kernel) (by decide +kernel)
        (by decide +kernel)) r hr _ (by decide +kernel),
    named_bound S _ _ [placedAt "a".toList 20, placedAt "a".toList 30, placedAt "b".toList 10] y'
      (by unfold EdgesOkU; decide +kernel) (named_exact _ _ (by decide +kernel) ?_ (by decide +kernel) (by decide +kernel)
        (by decide +kernel)) r' hr' _ (by decide +kernel)⟩
  · refine .cons ?_ (.cons ?_ (.cons ?_ (.cons ?_ .nil))) <;>
      exact ⟨by decide +kernel, by decide +kernel, by decide +kernel, by decide +kernel, by decide +kernel,
        by decide +kernel⟩
  · exact .cons ⟨⟨by decide +kernel, by decide +kernel, by decide +kernel, by decide +kernel, by decide +kernel,
      by decide +kernel⟩, rfl⟩ .nil
  · simp only [List.pairwise_cons, List.mem_cons, List.not_mem_nil, or_false, forall_eq_or_imp, forall_eq,
      false_implies, implies_true, List.Pairwise.nil, and_true]
    refine ⟨⟨?_, ?_⟩, ?_⟩ <;> exact (boxEventLt_iff _ _).1 (by decide +kernel)
  · simp only [List.pairwise_cons, List.mem_cons, List.not_mem_nil, or_false, forall_eq_or_imp, forall_eq,
      false_implies, implies_true, List.Pairwise.nil, and_true]
    refine ⟨⟨?_, ?_⟩, ?_⟩ <;> exact (boxEventLt_iff _ _).1 (by decide +kernel)

/-- The same two files, with ideal draws. -/
example (S : StdSort) : ∃ r r' : List ℕ → Report Str (DocBox Str UInt32),
    (∀ l, mainWith Rnd.exact S (diceFrom l) (icdarKit Rnd.exact S)
      (namedExample "c d 0 0 2 2\na d 10 0 2 2\nb d 20 0 2 2\nb d 30 0 2 2\n".toList) intervalOptions =
        .ok (.done (r l))) ∧
    (∀ l, mainWith Rnd.exact S (diceFrom l) (icdarKit Rnd.exact S)
      (namedExample "c d 0 0 2 2\nb d 10 0 2 2\na d 20 0 2 2\na d 30 0 2 2\n".toList) intervalOptions =
        .ok (.done (r' l))) ∧
    ∀ Φ : Statement, probability 60 30 (fun l => Φ.of (r l)) = probability 60 30 (fun l => Φ.of (r' l)) := by
  obtain ⟨y, y'⟩ := named_yields
  have h := fun l => named_runs S (diceFrom l) _ _ y
  have h' := fun l => named_runs S (diceFrom l) _ _ y'
  choose r hr using h
  choose r' hr' using h'
  have inj := Function.LeftInverse.injective exchanged_twice
  refine ⟨r, r', hr, hr', fun Φ => C114_box_partial S S (δ := id) (κ := fun _ => (1, 1)) (τ := fun _ => 0) inj
    Function.injective_id (by simp) inj _ _ intervalOptions intervalOptions _ "c d 0 0 2 2 1\n".toList _
    "c d 0 0 2 2 1\n".toList _ _ [namedHyp] [namedHyp] (namedExample_file _) (if_pos rfl) (namedExample_file _)
    (if_pos rfl) y y' namedExample_hyps namedExample_hyps (by unfold EdgesOkU; decide +kernel)
    (by unfold EdgesOkU; decide +kernel) (by unfold EdgesOkU; decide +kernel)
    (by unfold InRangeU EdgesOkU; decide +kernel) ⟨_, List.Perm.refl _, ?_⟩ ⟨_, List.Perm.refl _, ?_⟩
    (C89_no_files rfl rfl rfl rfl) rfl rfl rfl rfl ⟨rfl, rfl, rfl, rfl, rfl, rfl, rfl, rfl⟩ r r' hr hr' 5
    (by decide) 60 30 (by decide) ?_ (by decide) Φ⟩
  · refine .cons ?_ (.cons ?_ (.cons ?_ (.cons ?_ .nil))) <;>
      exact ⟨by decide +kernel, by decide +kernel, by decide +kernel, by decide +kernel, by decide +kernel,
        by decide +kernel⟩
  · exact .cons ⟨⟨by decide +kernel, by decide +kernel, by decide +kernel, by decide +kernel, by decide +kernel,
      by decide +kernel⟩, rfl⟩ .nil
  · intro k h1 h2
    have : ∀ k ≤ 5, 0 < k → k ∣ 60 := by decide
    exact this k h2 h1

end Kws
