import Verif.Lemmas.Numbers

/-!
Evaluating hypotheses whose scores have been transformed by an increasing function.
-/

namespace Kws
open Spec

/-- A finite score is in the set. -/
def ScoreIn (s : Set ℚ) (a : Flt) : Prop := ∀ x, a = .fin x → x ∈ s

theorem rescale_lt {g : ℚ → ℚ} {s : Set ℚ} (hg : StrictMonoOn g s) {a b : Flt} (ha : ScoreIn s a)
    (hb : ScoreIn s b) : Flt.lt (rescale g a) (rescale g b) = Flt.lt a b := by
  cases a <;> cases b <;> simp only [rescale, Flt.lt]
  rename_i x y
  rw [decide_eq_decide]
  exact hg.lt_iff_lt (ha x rfl) (hb y rfl)

theorem rescale_ne {g : ℚ → ℚ} {s : Set ℚ} (hg : StrictMonoOn g s) {a b : Flt} (ha : ScoreIn s a)
    (hb : ScoreIn s b) : Flt.ne (rescale g a) (rescale g b) = Flt.ne a b := by
  unfold Flt.ne
  congr 1
  rcases a with _ | _ | x | _ <;> rcases b with _ | _ | y | _ <;> simp [rescale, Flt.eq]
  exact hg.injOn.eq_iff (ha x rfl) (hb y rfl)

theorem rescale_nan {g : ℚ → ℚ} {a : Flt} : rescale g a ≠ .nan ↔ a ≠ .nan := by
  cases a <;> simp [rescale]

section
variable {Q L : Type} [Cmp Q] [LawfulCmp Q] [Cmp L] [LawfulCmp L]

omit [LawfulCmp Q] [LawfulCmp L] in
theorem rescored_lt {g : ℚ → ℚ} {s : Set ℚ} (hg : StrictMonoOn g s) {a b : ScoredEvent Q L}
    (ha : ScoreIn s a.score) (hb : ScoreIn s b.score) :
    ScoredEvent.lt (rescored g a) (rescored g b) = ScoredEvent.lt a b := by
  unfold ScoredEvent.lt
  rw [show (rescored g a).score = rescale g a.score from rfl,
    show (rescored g b).score = rescale g b.score from rfl, rescale_ne hg ha hb, rescale_lt hg ha hb]
  rfl

theorem sortHyps_rescored (S : StdSort) {g : ℚ → ℚ} {s : Set ℚ} (hg : StrictMonoOn g s)
    (hyps l : List (ScoredEvent Q L)) (hs : ∀ h ∈ hyps, ScoreIn s h.score)
    (hn : ∀ h ∈ hyps, h.score ≠ .nan) (h : sortHyps S "desc".toList hyps = .ok l) :
    sortHyps S "desc".toList (hyps.map (rescored g)) = .ok (l.map (rescored g)) := by
  have ho := C07_scored_order_partial Q L
  have hn' : ∀ h ∈ hyps.map (rescored g), h.score ≠ .nan := by
    intro x hx
    obtain ⟨y, hy, rfl⟩ := List.mem_map.1 hx
    exact rescale_nan.2 (hn y hy)
  unfold sortHyps at h ⊢
  rw [if_pos rfl] at h ⊢
  obtain ⟨l1, a1, a2⟩ := S.ok _ _ (ho.weak_of ScoredEvent.gt (Or.inr gt_ops) hyps hn)
  rw [h] at a1
  injection a1 with a1
  subst a1
  obtain ⟨l2, b1, b2⟩ := S.ok _ _ (ho.weak_of ScoredEvent.gt (Or.inr gt_ops) _ hn')
  rw [b1]
  congr 1
  refine (ho.sorted_unique ScoredEvent.gt (Or.inr gt_ops) hn' (List.Perm.refl _) ?_ b2).symm
  refine ⟨a2.perm.map _, ?_⟩
  rw [List.pairwise_map]
  refine a2.sorted.imp_of_mem ?_
  intro a b ha hb hab
  unfold ScoredEvent.gt at hab ⊢
  rw [rescored_lt hg (hs _ (a2.perm.mem_iff.1 ha)) (hs _ (a2.perm.mem_iff.1 hb))]
  exact hab

end

/-! ## Matching -/

section
variable {σ Q L : Type} [Cmp Q] [Cmp L]

/-- The search and the scorer do not look at scores. -/
structure Blind (ix : RefIndex σ (Event Q L) (ScoredEvent Q L))
    (scorer : Event Q L → ScoredEvent Q L → Cpp MatchError) : Prop where
  find : ∀ s h (g : ℚ → ℚ), ix.findOverlapping s (rescored g h) = ix.findOverlapping s h
  score : ∀ r h (g : ℚ → ℚ), scorer r (rescored g h) = scorer r h

theorem tryRefs_rescored {ix : RefIndex σ (Event Q L) (ScoredEvent Q L)}
    {scorer : Event Q L → ScoredEvent Q L → Cpp MatchError} (hb : Blind ix scorer) (g : ℚ → ℚ)
    (h : ScoredEvent Q L) (refs : List (Event Q L)) : ∀ unm,
    SimpleMatcher.tryRefs scorer (rescored g h) unm refs =
      (SimpleMatcher.tryRefs scorer h unm refs).map fun t =>
        (t.1, t.2.1, t.2.2.1.map (rescoredMatch g), t.2.2.2.map (rescoredMatch g)) := by
  induction refs with
  | nil => intro unm; rfl
  | cons r refs ih =>
    intro unm
    unfold SimpleMatcher.tryRefs
    rw [hb.score]
    cases he : scorer r h with
    | error e => rfl
    | ok e =>
      simp only [bind, Except.bind, pure, Except.pure]
      by_cases h1 : e.fp < 1
      · rw [if_pos h1, if_pos h1]
        by_cases h2 : (StdSet.find? Cmp.lt r unm).isSome = true
        · rw [if_pos h2, if_pos h2]; rfl
        · rw [if_neg h2, if_neg h2, ih]
          cases SimpleMatcher.tryRefs scorer h unm refs <;> rfl
      · rw [if_neg h1, if_neg h1, ih]

theorem loop_rescored {ix : RefIndex σ (Event Q L) (ScoredEvent Q L)}
    {scorer : Event Q L → ScoredEvent Q L → Cpp MatchError} (hb : Blind ix scorer) (g : ℚ → ℚ) (s : σ)
    (hyps : List (ScoredEvent Q L)) : ∀ unm,
    SimpleMatcher.loop ix scorer s unm (hyps.map (rescored g)) =
      (SimpleMatcher.loop ix scorer s unm hyps).map fun t =>
        (t.1, t.2.1.map (rescoredMatch g), t.2.2.map (rescoredMatch g)) := by
  induction hyps with
  | nil => intro unm; rfl
  | cons h hyps ih =>
    intro unm
    rw [List.map_cons]
    unfold SimpleMatcher.loop
    rw [hb.find]
    simp only [bind, Except.bind, pure, Except.pure]
    cases ix.findOverlapping s h with
    | error e => rfl
    | ok ov =>
      simp only [tryRefs_rescored hb]
      cases SimpleMatcher.tryRefs scorer h unm ov with
      | error e => rfl
      | ok t =>
        obtain ⟨b, u, res, rep⟩ := t
        simp only [Except.map, ih]
        cases SimpleMatcher.loop ix scorer s u hyps with
        | error e => rfl
        | ok v =>
          simp only [Except.map, List.map_append]
          congr 4
          cases res <;> cases b <;> rfl

theorem run_rescored {ix : RefIndex σ (Event Q L) (ScoredEvent Q L)}
    {scorer : Event Q L → ScoredEvent Q L → Cpp MatchError} (hb : Blind ix scorer) (g : ℚ → ℚ) (s : σ)
    (refs : List (Event Q L)) (hyps : List (ScoredEvent Q L)) :
    SimpleMatcher.run ix scorer s refs (hyps.map (rescored g)) =
      (SimpleMatcher.run ix scorer s refs hyps).map fun t =>
        (t.1, t.2.1.map (rescoredMatch g), t.2.2.map (rescoredMatch g)) := by
  unfold SimpleMatcher.run
  simp only [bind, Except.bind, pure, Except.pure, loop_rescored hb]
  cases SimpleMatcher.loop ix scorer (refs.foldl ix.insert (ix.clear s)) (StdSet.ofList Cmp.lt refs)
      hyps with
  | error e => rfl
  | ok t =>
    simp only [Except.map, List.map_append, List.map_map]
    rfl

end

/-! ## Assessing -/

section
variable {Q L : Type}

theorem rescoredMatch_score (g : ℚ → ℚ) (m : KwsMatch Q L) :
    matchScore (rescoredMatch g m) = rescale g (matchScore m) := by
  unfold matchScore rescoredMatch
  cases m.hyp <;> rfl

theorem collapse_rescored (R : Rnd) {g : ℚ → ℚ} {s : Set ℚ} (hg : StrictMonoOn g s)
    (ms : List (KwsMatch Q L)) (hs : ∀ m ∈ ms, ScoreIn s (matchScore m)) :
    collapseMatches R (ms.map (rescoredMatch g)) = collapseMatches R ms := by
  suffices ∀ (ms : List (KwsMatch Q L)) (acc : List (MatchErrorCounts × Flt)),
      (∀ m ∈ ms, ScoreIn s (matchScore m)) → (∀ a ∈ acc, ScoreIn s a.2) →
      (ms.map (rescoredMatch g)).foldl (collapseStep R) (acc.map (Prod.map id (rescale g))) =
        (ms.foldl (collapseStep R) acc).map (Prod.map id (rescale g)) by
    unfold collapseMatches
    have := this ms [] hs (by simp)
    rw [List.map_nil] at this
    rw [this, ← List.map_reverse, List.map_map]
    rfl
  intro ms
  induction ms with
  | nil => intro acc _ _; rfl
  | cons m ms ih =>
    intro acc h1 h2
    have hm := h1 m (by simp)
    rw [List.map_cons, List.foldl_cons, List.foldl_cons]
    have hstep : collapseStep R (acc.map (Prod.map id (rescale g))) (rescoredMatch g m) =
        (collapseStep R acc m).map (Prod.map id (rescale g)) := by
      cases acc with
      | nil =>
        simp only [collapseStep, List.map_nil, List.map_cons, rescoredMatch_score]
        rfl
      | cons a acc =>
        obtain ⟨c, x⟩ := a
        simp only [collapseStep, List.map_cons, Prod.map, rescoredMatch_score,
          rescale_ne hg hm (h2 (c, x) (by simp))]
        split <;> rfl
    rw [hstep]
    refine ih _ (fun m' hm' => h1 m' (by simp [hm'])) ?_
    intro a ha
    unfold collapseStep at ha
    cases acc with
    | nil =>
      simp only [List.mem_singleton] at ha
      subst ha
      exact hm
    | cons b acc =>
      simp only at ha
      split at ha
      · rcases List.mem_cons.1 ha with rfl | ha
        · exact hm
        · exact h2 a ha
      · rcases List.mem_cons.1 ha with rfl | ha
        · exact h2 b (by simp)
        · exact h2 a (by simp [ha])

theorem modify_map {α β : Type} (f : α → β) (u : α → α) (v : β → β) (h : ∀ a, f (u a) = v (f a))
    (l : List α) : ∀ i, (l.modify i u).map f = (l.map f).modify i v := by
  induction l with
  | nil => intro i; simp
  | cons a l ih =>
    intro i
    cases i with
    | zero => simp [h]
    | succ i => simp [ih]

theorem groupMatches_rescored [DecidableEq Q] (g : ℚ → ℚ) (q2g : List (Q × Q))
    (ms : List (KwsMatch Q L)) : groupMatches q2g (ms.map (rescoredMatch g)) =
      (groupMatches q2g ms).map (·.map (·.map (rescoredMatch g))) := by
  have hq : ∀ m : KwsMatch Q L, matchQuery (rescoredMatch g m) = matchQuery m := by
    intro m
    obtain ⟨r, h, e⟩ := m
    cases r <;> cases h <;> rfl
  suffices ∀ (ms : List (KwsMatch Q L)) (st : List (Q × Nat) × List (List (KwsMatch Q L))),
      groupLoop q2g (ms.map (rescoredMatch g)) (st.1, st.2.map (·.map (rescoredMatch g))) =
        (groupLoop q2g ms st).map (fun t => (t.1, t.2.map (·.map (rescoredMatch g)))) by
    unfold groupMatches
    have := this ms ([], [])
    simp only [List.map_nil] at this
    simp only [bind, Except.bind, pure, Except.pure, this]
    cases groupLoop q2g ms ([], []) <;> rfl
  intro ms
  induction ms with
  | nil => intro st; rfl
  | cons m ms ih =>
    intro st
    rw [List.map_cons]
    unfold groupLoop
    rw [hq]
    simp only [bind, Except.bind]
    cases matchQuery m with
    | error e => rfl
    | ok q =>
      simp only
      rw [← ih]
      congr 1
      unfold groupStep
      simp only [List.length_map]
      split
      · refine Prod.ext rfl ?_
        exact (modify_map _ _ _ (by simp) _ _).symm
      · simp

theorem groupCurves_same {Q' L' : Type} (R : Rnd) (xs : List ℚ) (interp linear : Bool)
    (groups : List (List (KwsMatch Q L))) (groups' : List (List (KwsMatch Q' L')))
    (hgs : List.Forall₂ (fun a b => collapseMatches R a = collapseMatches R b) groups groups') :
    groupCurves R xs true interp linear groups = groupCurves R xs true interp linear groups' := by
  induction hgs with
  | nil => rfl
  | @cons a b _ _ hab _ ih =>
    have e : matchesPR R a true interp = matchesPR R b true interp := by
      unfold matchesPR
      rw [hab]; rfl
    unfold groupCurves
    rw [e, ih]

/-- Assessing matches that collapse to the same counts, in the same groups. -/
theorem assess_same {Q' L' G G' : Type} (R : Rnd) (S S' : StdSort) (rng : Rng G) (rng' : Rng G')
    (w w' : World) (o : ToolOptions)
    (ms : List (KwsMatch Q L)) (ms' : List (KwsMatch Q' L'))
    (groups : List (List (KwsMatch Q L))) (groups' : List (List (KwsMatch Q' L')))
    (dump : Option (List (KwsMatch Q L) × List (KwsMatch Q L)))
    (dump' : Option (List (KwsMatch Q' L') × List (KwsMatch Q' L'))) (r : Report Q L) (r' : Report Q' L')
    (hR : Ranked R ms) (hR' : Ranked R ms')
    (hperm : groups.flatten.Perm ms) (hsub : ∀ g ∈ groups, g.Sublist ms)
    (hperm' : groups'.flatten.Perm ms') (hsub' : ∀ g ∈ groups', g.Sublist ms')
    (hcol : collapseMatches R ms = collapseMatches R ms')
    (hgs : List.Forall₂ (fun a b => collapseMatches R a = collapseMatches R b) groups groups')
    (hc : o.collapse = true) (hw : w.writable = w'.writable)
    (h : assess R S rng w o ms groups dump = .ok r)
    (h' : assess R S' rng' w' o ms' groups' dump' = .ok r') : SameNumbers r r' := by
  obtain ⟨a1, a2, a3, a4⟩ := assess_values R S rng w o ms groups dump r hperm hsub hR hc h
  obtain ⟨b1, b2, b3, b4⟩ := assess_values R S' rng' w' o ms' groups' dump' r' hperm' hsub' hR' hc h'
  obtain ⟨c1, c2, c3, c4⟩ := assess_curves _ _ _ _ _ _ _ _ _ h
  obtain ⟨d1, d2, d3, d4⟩ := assess_curves _ _ _ _ _ _ _ _ _ h'
  have haps : groups.map (apOf R o.interp o.trapezoid) = groups'.map (apOf R o.interp o.trapezoid) :=
    forall₂_map_eq hgs _ _ (fun a b _ _ hab => by
      unfold apOf globalAP matchesPR
      rw [hab]; rfl)
  have hnds : groups.map (fun g => globalNDCG R g true) = groups'.map (fun g => globalNDCG R g true) :=
    forall₂_map_eq hgs _ _ (fun a b _ _ hab => by
      unfold globalNDCG
      rw [hab]; rfl)
  refine ⟨?_, ?_, ?_, ?_, ?_, ?_⟩
  · have : globalAP R ms' true o.interp o.trapezoid = globalAP R ms true o.interp o.trapezoid := by
      unfold globalAP matchesPR
      rw [hcol]; rfl
    rw [this, a1] at b1
    injection b1
  · rw [meanAP_roundedMean] at a2 b2
    injection a2 with a2
    injection b2 with b2
    rw [← a2, ← b2, haps]
  · rw [← a3, ← b3]
    unfold globalNDCG
    rw [hcol]; rfl
  · rw [meanNDCG_sum] at a4 b4
    injection a4 with a4
    injection b4 with b4
    rw [← a4, ← b4, hnds, hgs.length_eq]
  · by_cases hgr : o.outputGrp = []
    · rw [c1 hgr, d1 hgr]
    · obtain ⟨c, e1, e2⟩ := c2 hgr
      obtain ⟨d, e3, e4⟩ := d2 hgr
      rw [e2, e4]
      have : globalRPCurve R w' o.outputGrp ms' o.curveSamples o.collapse o.interp o.trapezoid =
          globalRPCurve R w o.outputGrp ms o.curveSamples o.collapse o.interp o.trapezoid := by
        unfold globalRPCurve matchesPR writeCurveFile
        rw [hcol, hw, hc]
        rfl
      rw [this, e1] at e3
      injection e3 with e3
      rw [e3]
  · by_cases hm : o.outputMrp = []
    · rw [c3 hm, d3 hm]
    · obtain ⟨c, e1, e2⟩ := c4 hm
      obtain ⟨d, e3, e4⟩ := d4 hm
      rw [e2, e4]
      have hcurves : ∀ xs, groupCurves R xs o.collapse o.interp o.trapezoid groups =
          groupCurves R xs o.collapse o.interp o.trapezoid groups' := by
        intro xs
        rw [hc]
        exact groupCurves_same R xs o.interp o.trapezoid groups groups' hgs
      have : meanRPCurve R w' o.outputMrp groups' o.curveSamples o.collapse o.interp o.trapezoid =
          meanRPCurve R w o.outputMrp groups o.curveSamples o.collapse o.interp o.trapezoid := by
        unfold meanRPCurve
        simp only [hcurves]
        unfold writeCurveFile
        rw [hw]
      rw [this, e1] at e3
      injection e3 with e3
      rw [e3]

end

/-! ## The tools -/

section
variable {μ σ Q L G G' : Type} [DecidableEq Q] [Cmp Q] [LawfulCmp Q] [DecidableEq L] [Cmp L] [LawfulCmp L]

omit [LawfulCmp Q] [DecidableEq L] [LawfulCmp L] [Cmp Q] [Cmp L] in
theorem usedHyps_rescored (q2g : List (Q × Q)) (g : ℚ → ℚ) (hyps : List (ScoredEvent Q L)) :
    usedHyps q2g (hyps.map (rescored g)) = (usedHyps q2g hyps).map (rescored g) := by
  unfold usedHyps
  split
  · rfl
  · unfold filterEvents
    rw [List.filter_map]
    rfl

/-- The evaluation of hypotheses with other scores in the same order. -/
theorem evaluate_rescored (R : Rnd) (S S' : StdSort) (rng : Rng G) (rng' : Rng G')
    (kit : ToolKit μ σ Q L) (hk : SafeKit kit) (hb : Blind kit.index kit.scorer) (w w' : World)
    (o : ToolOptions) (q2g : List (Q × Q)) (refs : List (Event Q L)) (hyps : List (ScoredEvent Q L))
    (g : ℚ → ℚ) (hg : StrictMonoOn g {x | ∃ h ∈ hyps, h.score = .fin x})
    (hn : ∀ h ∈ hyps, h.score ≠ .nan)
    (hR : R = Rnd.exact ∨ R.Faithful ∧ refs.length + hyps.length ≤ 2 ^ 24)
    (hd : o.sort = "desc".toList) (hc : o.collapse = true) (hw : w.writable = w'.writable)
    (r r' : Report Q L) (h : evaluate R S rng kit w o q2g refs hyps = .ok (.done r))
    (h' : evaluate R S' rng' kit w' o q2g refs (hyps.map (rescored g)) = .ok (.done r')) :
    SameNumbers r r' ∧ r'.dump = r.dump.map fun d =>
      (d.1.map (rescoredMatch g), d.2.map (rescoredMatch g)) := by
  obtain ⟨l, s, ms, rep, groups, a1, a2, a3, a4⟩ := evaluate_done _ _ _ _ _ _ _ _ _ _ h
  obtain ⟨l', s', ms', rep', groups', b1, b2, b3, b4⟩ := evaluate_done _ _ _ _ _ _ _ _ _ _ h'
  rw [hd] at a1 b1
  have hn' : ∀ h ∈ hyps.map (rescored g), h.score ≠ .nan := by
    intro x hx
    obtain ⟨y, hy, rfl⟩ := List.mem_map.1 hx
    exact rescale_nan.2 (hn y hy)
  obtain ⟨r1, r2, _⟩ := evaluate_ranked R S kit hk q2g refs hyps l s ms rep hn hR a1 a2
  obtain ⟨r3, _, _⟩ := evaluate_ranked R S' kit hk q2g refs _ l' s' ms' rep' hn'
    (by rw [List.length_map]; exact hR) b1 b2
  have hl : l' = l.map (rescored g) := by
    rw [usedHyps_rescored] at b1
    have e1 := sortHyps_rescored S hg (usedHyps q2g hyps) l
      (fun x hx y hy => ⟨x, usedHyps_mem q2g hyps x hx, hy⟩)
      (fun x hx => hn x (usedHyps_mem q2g hyps x hx)) a1
    obtain ⟨l2, e2, e3, _⟩ := sortHyps_unique S S' "desc".toList _ _ (fun x hx => by
      obtain ⟨y, hy, rfl⟩ := List.mem_map.1 hx
      exact hn' _ (List.mem_map_of_mem (usedHyps_mem q2g hyps y hy)))
      (List.Perm.refl ((usedHyps q2g hyps).map (rescored g))) (Or.inl rfl)
    rw [e1] at e2
    rw [b1] at e3
    injection e2 with e2
    injection e3 with e3
    rw [e2, e3]
  subst hl
  rw [run_rescored hb, a2] at b2
  injection b2 with b2
  obtain ⟨rfl, rfl, rfl⟩ : s = s' ∧ ms.map (rescoredMatch g) = ms' ∧ rep.map (rescoredMatch g) = rep' := by
    simpa using b2
  rw [groupMatches_rescored, a3] at b3
  injection b3 with b3
  subst b3
  have hmem : ∀ m ∈ ms, ScoreIn {x | ∃ h ∈ hyps, h.score = .fin x} (matchScore m) := by
    obtain ⟨hits, fns, rfl, _, _, ⟨hs, h1, h2⟩, _⟩ := run_facts _ _ _ _ _ _ _ _ a2
    intro m hm x hx
    rcases List.mem_append.1 hm with hm | hm
    · have : m.hyp ∈ hs.map some := h2 ▸ List.mem_map_of_mem hm
      obtain ⟨y, hy, e⟩ := List.mem_map.1 this
      refine ⟨y, usedHyps_mem q2g hyps y (r2.mem_iff.1 (h1.subset hy)), ?_⟩
      unfold matchScore at hx
      rw [← e] at hx
      exact hx
    · obtain ⟨y, _, rfl⟩ := List.mem_map.1 hm
      cases hx
  obtain ⟨f1, f2, _⟩ := groupMatches_facts q2g ms groups a3
  refine ⟨assess_same R S S' rng rng' w w' o ms _ groups _ _ _ r r' r1 r3 f1 f2 ?_ ?_
    (collapse_rescored R hg ms hmem).symm ?_ hc hw a4 b4, ?_⟩
  · rw [← List.map_flatten]
    exact f1.map _
  · intro a ha
    obtain ⟨b, hb, rfl⟩ := List.mem_map.1 ha
    exact (f2 b hb).map _
  · rw [List.forall₂_map_right_iff]
    refine List.forall₂_same.2 fun a ha => ?_
    exact (collapse_rescored R hg a (fun m hm => hmem m ((f2 a ha).subset hm))).symm
  · have d1 := (assess_ok _ _ _ _ _ _ _ _ _ a4).2.2.2.2
    have d2 := (assess_ok _ _ _ _ _ _ _ _ _ b4).2.2.2.2
    rw [d1, d2]
    split <;> rfl

theorem mapEach_length {μ E1 E2 : Type} (map : μ → E1 → μ × Cpp E2) (es : List E1) : ∀ m,
    (mapEach map m es).2.1.length ≤ es.length := by
  induction es with
  | nil => intro m; exact le_refl _
  | cons e es ih =>
    intro m
    unfold mapEach
    rcases map m e with ⟨m', f | e'⟩
    · simp
    · simpa using ih m'

theorem mapEach_commutes {μ E1 E2 : Type} (map : μ → E1 → μ × Cpp E2) (u : E1 → E1) (v : E2 → E2)
    (h : ∀ m e, map m (u e) = ((map m e).1, (map m e).2.map v)) (es : List E1) : ∀ m,
    mapEach map m (es.map u) = ((mapEach map m es).1, (mapEach map m es).2.1.map v,
      (mapEach map m es).2.2) := by
  induction es with
  | nil => intro m; rfl
  | cons e es ih =>
    intro m
    rw [List.map_cons]
    unfold mapEach
    rw [h]
    rcases map m e with ⟨m', f | e'⟩
    · rfl
    · simp only [Except.map, ih, List.map_cons]

/-- How a tool reads events and hypotheses. -/
structure ReadKit {L0 : Type} (R : Rnd) (kit : ToolKit μ σ Q L) (ex : Extractor (Event Str L0))
    (rmap : μ → Event Str L0 → μ × Cpp (Event Q L))
    (hmap : μ → ScoredEvent Str L0 → μ × Cpp (ScoredEvent Q L)) : Prop where
  readRef : ∀ m t, kit.readRef m t = readEvents ex rmap m t
  readHyp : ∀ m t, kit.readHyp m t = readEvents (extractScored R ex) hmap m t
  commutes : ∀ (g : ℚ → ℚ) m e, hmap m (rescored g e) = ((hmap m e).1, (hmap m e).2.map (rescored g))
  score : ∀ m e e', (hmap m e).2 = .ok e' → e'.score = e.score

theorem mapEach_mem {μ E1 E2 : Type} (map : μ → E1 → μ × Cpp E2) (es : List E1) : ∀ m, ∀ e' ∈ (mapEach map m es).2.1,
    ∃ m' e, e ∈ es ∧ (map m' e).2 = .ok e' := by
  induction es with
  | nil => intro m e' he; cases he
  | cons e es ih =>
    intro m e' he
    unfold mapEach at he
    cases hm : map m e with
    | mk m' c =>
      rw [hm] at he
      cases c with
      | error f => cases he
      | ok e1 =>
        rcases List.mem_cons.1 he with rfl | he
        · exact ⟨m, e, by simp, by rw [hm]⟩
        · obtain ⟨m2, e2, h1, h2⟩ := ih m' e' he
          exact ⟨m2, e2, by simp [h1], h2⟩

/-- Two runs with the same references, the scores of the second transformed by an increasing
function. -/
theorem main_rescored {L0 : Type} (R : Rnd) (S S' : StdSort) (rng : Rng G) (rng' : Rng G')
    (kit : ToolKit μ σ Q L) (hk : SafeKit kit) (hb : Blind kit.index kit.scorer)
    {ex : Extractor (Event Str L0)} {rmap : μ → Event Str L0 → μ × Cpp (Event Q L)}
    {hmap : μ → ScoredEvent Str L0 → μ × Cpp (ScoredEvent Q L)} (hkit : ReadKit R kit ex rmap hmap)
    (w w' : World) (o : ToolOptions) (t u u' : Str) (refs : List (Event Str L0))
    (hyps : List (ScoredEvent Str L0)) (g : ℚ → ℚ)
    (hg : StrictMonoOn g {x | ∃ h ∈ hyps, h.score = .fin x}) (hn : ∀ h ∈ hyps, h.score ≠ .nan)
    (ht : w.file o.refFilename = some t) (ht' : w'.file o.refFilename = some t)
    (hu : hypText w o = some u) (hu' : hypText w' o = some u')
    (hrefs : readPlain ex t = (refs, .ok)) (hhyps : readPlain (extractScored R ex) u = (hyps, .ok))
    (hhyps' : readPlain (extractScored R ex) u' = (hyps.map (rescored g), .ok))
    (hq : w.file o.querySet = w'.file o.querySet) (hq' : w.file o.queryGroups = w'.file o.queryGroups)
    (hw : w.writable = w'.writable)
    (hR : R = Rnd.exact ∨ R.Faithful ∧ refs.length + hyps.length ≤ 2 ^ 24)
    (hd : o.sort = "desc".toList) (hc : o.collapse = true) (r r' : Report Q L)
    (h : mainWith R S rng kit w o = .ok (.done r))
    (h' : mainWith R S' rng' kit w' o = .ok (.done r')) :
    SameNumbers r r' ∧ r'.dump = r.dump.map fun d =>
      (d.1.map (rescoredMatch g), d.2.map (rescoredMatch g)) := by
  have hr0 : o.refFilename ≠ [] := by
    intro hr
    unfold mainWith at h
    rw [if_pos hr] at h
    cases h
  have e1 : kit.readRef kit.mapper t = ((mapEach rmap kit.mapper refs).1,
      (mapEach rmap kit.mapper refs).2.1, match (mapEach rmap kit.mapper refs).2.2 with
      | none => .ok
      | some f => .fault f) := by
    rw [hkit.readRef, C48_mapped, hrefs]
    rfl
  have l1 := mapEach_length rmap refs kit.mapper
  rcases hm1 : mapEach rmap kit.mapper refs with ⟨m1, refs1, f1⟩
  rw [hm1] at e1 l1
  have e2 : kit.readHyp m1 u = ((mapEach hmap m1 hyps).1,
      (mapEach hmap m1 hyps).2.1, match (mapEach hmap m1 hyps).2.2 with
      | none => .ok
      | some f => .fault f) := by
    rw [hkit.readHyp, C48_mapped, hhyps]
    rfl
  have e3 : kit.readHyp m1 u' = ((mapEach hmap m1 hyps).1,
      (mapEach hmap m1 hyps).2.1.map (rescored g), match (mapEach hmap m1 hyps).2.2 with
      | none => .ok
      | some f => .fault f) := by
    rw [hkit.readHyp, C48_mapped, hhyps', mapEach_commutes hmap _ _ (hkit.commutes g)]
    rfl
  have l2 := mapEach_length hmap hyps m1
  have l3 := mapEach_mem hmap hyps m1
  rcases hm2 : mapEach hmap m1 hyps with ⟨m2, hyps1, f2⟩
  rw [hm2] at e2 e3 l2 l3
  unfold mainWith at h
  rw [if_neg hr0, ht] at h
  simp only [e1] at h
  cases f1 with
  | some f => cases h
  | none =>
    rw [show (if o.hypFilename = [] then some w.stdin else w.file o.hypFilename) = some u from hu] at h
    simp only [e2] at h
    cases f2 with
    | some f => cases h
    | none =>
      rw [mainWith_inputs R S' rng' kit w' o t u' m1 m2 refs1 (hyps1.map (rescored g)) hr0 ht' hu' e1 e3,
        ← readQueryMap_world kit.mapQuery w w' o m2 hq hq'] at h'
      simp only [bind, Except.bind] at h h'
      cases hrq : readQueryMap kit.mapQuery w o m2 with
      | error e => rw [hrq] at h; cases h
      | ok x =>
        rw [hrq] at h h'
        cases x with
        | none => cases h
        | some q2g =>
          have hs : ∀ x ∈ hyps1, ∃ y ∈ hyps, x.score = y.score := by
            intro x hx
            obtain ⟨m', e, h1, h2⟩ := l3 x hx
            exact ⟨e, h1, hkit.score _ _ _ h2⟩
          refine evaluate_rescored R S S' rng rng' kit hk hb w w' o q2g refs1 hyps1 g ?_ ?_ ?_ hd hc hw
            r r' h h'
          · refine hg.mono ?_
            rintro x ⟨y, hy, hx⟩
            obtain ⟨z, hz, e⟩ := hs y hy
            exact ⟨z, hz, by rw [← e, hx]⟩
          · intro x hx
            obtain ⟨y, hy, e⟩ := hs x hx
            rw [e]
            exact hn y hy
          · rcases hR with hR | ⟨hR, hl⟩
            · exact Or.inl hR
            · exact Or.inr ⟨hR, by simp only at l1 l2; omega⟩

end

theorem icdar_blind (R : Rnd) (S : StdSort) : Blind (icdarKit R S).index (icdarKit R S).scorer :=
  ⟨fun _ _ _ => rfl, fun _ _ _ => rfl⟩

theorem simple_blind (R : Rnd) (qf : Bool) : Blind (simpleKit R qf).index (simpleKit R qf).scorer :=
  ⟨fun _ _ _ => rfl, fun _ _ _ => rfl⟩

theorem icdar_reads (R : Rnd) (S : StdSort) :
    ReadKit R (icdarKit R S) extractBoxEvent identityMap identityMap where
  readRef _ _ := rfl
  readHyp _ _ := rfl
  commutes _ _ _ := rfl
  score m e e' h := by injection h with h; rw [h]

theorem simple_reads (R : Rnd) (qf : Bool) :
    ReadKit R (simpleKit R qf) extractStrEvent (IntMapper.mapEvent qf (2 ^ 31 - 1))
      (IntMapper.mapScoredEvent qf (2 ^ 31 - 1)) where
  readRef _ _ := rfl
  readHyp _ _ := rfl
  commutes g m e := by
    unfold IntMapper.mapScoredEvent
    rw [show (rescored g e).base = e.base from rfl]
    rcases m.mapEvent qf (2 ^ 31 - 1) e.base with ⟨m', f | b⟩ <;> rfl
  score m e e' h := by
    unfold IntMapper.mapScoredEvent at h
    rcases hm : m.mapEvent qf (2 ^ 31 - 1) e.base with ⟨m', f | b⟩
    · rw [hm] at h
      cases h
    · rw [hm] at h
      injection h with h
      rw [← h]

end Kws
