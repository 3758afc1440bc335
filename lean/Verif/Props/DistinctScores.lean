import Verif.Props.Bootstrap
import Verif.Props.Moved

/-!
# C43 without ties

If matches of the same score have the same error, resorting changes nothing, with or without
collapsing and in any arithmetic.
-/

namespace Kws
open Spec

section
variable {Q L G : Type}

/-- What the measures see of a match. -/
def seen (m : KwsMatch Q L) : Flt × MatchError := (rank m, m.error)

theorem collapse_seen (R : Rnd) {ms ms' : List (KwsMatch Q L)} (h : ms.map seen = ms'.map seen) :
    collapseMatches R ms = collapseMatches R ms' := by
  have key : ∀ (ms ms' : List (KwsMatch Q L)), ms.map seen = ms'.map seen → ∀ acc,
      ms.foldl (collapseStep R) acc = ms'.foldl (collapseStep R) acc := by
    intro ms
    induction ms with
    | nil =>
      intro ms' h acc
      cases ms' with
      | nil => rfl
      | cons => simp at h
    | cons m ms ih =>
      intro ms' h acc
      cases ms' with
      | nil => simp at h
      | cons m' ms' =>
        simp only [List.map_cons, List.cons.injEq, seen, Prod.mk.injEq] at h
        obtain ⟨⟨h1, h2⟩, h3⟩ := h
        have : collapseStep R acc m = collapseStep R acc m' := by
          unfold collapseStep
          rw [matchScore_eq_rank, matchScore_eq_rank, h1, h2]
        rw [List.foldl_cons, List.foldl_cons, this]
        exact ih ms' h3 _
  unfold collapseMatches
  rw [key ms ms' h]

theorem errors_seen {ms ms' : List (KwsMatch Q L)} (h : ms.map seen = ms'.map seen) :
    getMatchErrors ms = getMatchErrors ms' := by
  have := congrArg (List.map Prod.snd) h
  simpa [getMatchErrors, seen, Function.comp_def] using this

theorem globalAP_seen (R : Rnd) {ms ms' : List (KwsMatch Q L)} (h : ms.map seen = ms'.map seen)
    (collapse interp trapezoid : Bool) :
    globalAP R ms collapse interp trapezoid = globalAP R ms' collapse interp trapezoid := by
  unfold globalAP matchesPR
  rw [collapse_seen R h, errors_seen h]

theorem globalNDCG_seen (R : Rnd) {ms ms' : List (KwsMatch Q L)} (h : ms.map seen = ms'.map seen)
    (collapse : Bool) : globalNDCG R ms collapse = globalNDCG R ms' collapse := by
  unfold globalNDCG
  rw [collapse_seen R h, errors_seen h]

/-- Sorting again changes nothing that the measures see. -/
theorem seen_resort (S : StdSort) (ms ms' : List (KwsMatch Q L)) (hp : ms'.Perm ms) (hn : NoNaN ms)
    (hb : ByRank ms) (ht : ∀ a ∈ ms, ∀ b ∈ ms, rank a = rank b → a.error = b.error) :
    ∃ l, sortMatches S ms' = .ok l ∧ l.map seen = ms.map seen := by
  obtain ⟨l, a1, a2, a3, a4, _⟩ := sortMatches_spec S ms' (fun m hm => hn m (hp.mem_iff.1 hm))
  refine ⟨l, a1, ?_⟩
  have hll : (l.map seen).Perm (ms.map seen) := (a2.trans hp).map _
  refine hll.eq_of_pairwise (le := fun a b => Flt.lt a.1 b.1 = false) ?_
    (by rw [List.pairwise_map]; exact a3) (by rw [List.pairwise_map]; exact hb)
  rintro a b ha hb' h1 h2
  obtain ⟨x, hx, rfl⟩ := List.mem_map.1 ha
  obtain ⟨y, hy, rfl⟩ := List.mem_map.1 hb'
  have hx' : x ∈ ms := (a2.trans hp).mem_iff.1 hx
  have e : rank x = rank y := by
    rcases Flt.lt_tri (rank x) (rank y) (hn x hx') (hn y hy) with h | h | h
    · exact absurd h (by rw [show Flt.lt (rank x) (rank y) = false from h1]; simp)
    · exact h
    · exact absurd h (by rw [show Flt.lt (rank y) (rank x) = false from h2]; simp)
  exact Prod.ext e (ht x hx' y hy e)

theorem mean_seen (R : Rnd) (S : StdSort) (groups : List (List (KwsMatch Q L)))
    (hg : ∀ g ∈ groups, NoNaN g ∧ ByRank g ∧ ∀ a ∈ g, ∀ b ∈ g, rank a = rank b → a.error = b.error)
    (collapse interp trapezoid b b' : Bool) :
    meanAP R S groups collapse interp trapezoid b = meanAP R S groups collapse interp trapezoid b' ∧
    meanNDCG R S groups collapse b = meanNDCG R S groups collapse b' := by
  have key : ∀ groups : List (List (KwsMatch Q L)),
      (∀ g ∈ groups, NoNaN g ∧ ByRank g ∧ ∀ a ∈ g, ∀ b ∈ g, rank a = rank b → a.error = b.error) →
      (∀ acc, meanAPLoop R S collapse interp trapezoid true acc groups =
        meanAPLoop R S collapse interp trapezoid false acc groups) ∧
      (∀ acc, meanNDCGLoop R S collapse true acc groups = meanNDCGLoop R S collapse false acc groups) := by
    intro groups
    induction groups with
    | nil => intro _; exact ⟨fun _ => rfl, fun _ => rfl⟩
    | cons g gs ih =>
      intro hg
      obtain ⟨i1, i2⟩ := ih (fun x hx => hg x (by simp [hx]))
      obtain ⟨n1, n2, n3⟩ := hg g (by simp)
      obtain ⟨l, h1, h3⟩ := seen_resort S g g (List.Perm.refl _) n1 n2 n3
      constructor
      · intro acc
        simp only [meanAPLoop, if_true, Bool.false_eq_true, if_false, h1, bind, Except.bind, pure,
          Except.pure, globalAP_seen R h3]
        cases globalAP R g collapse interp trapezoid with
        | error e => rfl
        | ok v => exact i1 _
      · intro acc
        simp only [meanNDCGLoop, if_true, Bool.false_eq_true, if_false, h1, bind, Except.bind, pure,
          Except.pure, globalNDCG_seen R h3]
        exact i2 _
  obtain ⟨k1, k2⟩ := key groups hg
  constructor
  · unfold meanAP
    cases b <;> cases b' <;> simp only [k1]
  · unfold meanNDCG
    cases b <;> cases b' <;> simp only [k2]

/-- C43, without ties: if the matches are in decreasing order of score and those of the same score
have the same error, the four reported values do not depend on the bootstrapping options, with or
without collapsing and in any arithmetic. Missing for C43: other orders and ties, see the
refutations. -/
theorem C43_no_ties_partial (R : Rnd) (S : StdSort) (rng rng' : Rng G) (w w' : World) (o o' : ToolOptions)
    (ms : List (KwsMatch Q L)) (groups : List (List (KwsMatch Q L)))
    (dump dump' : Option (List (KwsMatch Q L) × List (KwsMatch Q L))) (r r' : Report Q L)
    (hperm : groups.flatten.Perm ms) (hsub : ∀ g ∈ groups, g.Sublist ms)
    (hn : ∀ m ∈ ms, rank m ≠ .nan)
    (hs : ms.Pairwise (fun a b => Flt.lt (rank a) (rank b) = false))
    (hties : ∀ a ∈ ms, ∀ b ∈ ms, rank a = rank b → a.error = b.error)
    (hc : o'.collapse = o.collapse) (hi : o'.interp = o.interp) (ht : o'.trapezoid = o.trapezoid)
    (h : assess R S rng w o ms groups dump = .ok r)
    (h' : assess R S rng' w' o' ms groups dump' = .ok r') :
    r.gAP.value = r'.gAP.value ∧ r.mAP.value = r'.mAP.value ∧ r.gNDCG.value = r'.gNDCG.value ∧
      r.mNDCG.value = r'.mNDCG.value := by
  obtain ⟨a1, a2, a3, a4, _⟩ := assess_ok _ _ _ _ _ _ _ _ _ h
  obtain ⟨b1, b2, b3, b4, _⟩ := assess_ok _ _ _ _ _ _ _ _ _ h'
  have A1 := global_value _ _ _ _ _ _ _ _ _ _ _ a1
  have A2 := mean_value _ _ _ _ _ _ _ _ _ a2
  have A3 := global_value _ _ _ _ _ _ _ _ _ _ _ a3
  have A4 := mean_value _ _ _ _ _ _ _ _ _ a4
  have B1 := global_value _ _ _ _ _ _ _ _ _ _ _ b1
  have B2 := mean_value _ _ _ _ _ _ _ _ _ b2
  have B3 := global_value _ _ _ _ _ _ _ _ _ _ _ b3
  have B4 := mean_value _ _ _ _ _ _ _ _ _ b4
  rw [hc] at B1 B2 B3 B4
  rw [hi, ht] at B1 B2
  obtain ⟨l, l1, l2⟩ := seen_resort S ms groups.flatten hperm hn hs hties
  have hgl : globalAPGrouped R S groups o.collapse o.interp o.trapezoid true =
      globalAP R ms o.collapse o.interp o.trapezoid := by
    unfold globalAPGrouped
    simp only [if_true, l1, bind, Except.bind, globalAP_seen R l2]
  have hgn : globalNDCGGrouped R S groups o.collapse true = .ok (globalNDCG R ms o.collapse) := by
    unfold globalNDCGGrouped
    simp only [if_true, l1, bind, Except.bind, pure, Except.pure, globalNDCG_seen R l2]
  have hgr : ∀ g ∈ groups, NoNaN g ∧ ByRank g ∧
      ∀ a ∈ g, ∀ b ∈ g, rank a = rank b → a.error = b.error := fun g hg =>
    ⟨fun m hm => hn m ((hsub g hg).subset hm), hs.sublist (hsub g hg), fun a ha b hb =>
      hties a ((hsub g hg).subset ha) b ((hsub g hg).subset hb)⟩
  have fin : ∀ {K : Type} {x y : K} {c : Cpp K}, c = .ok x → c = .ok y → x = y := by
    intro K x y c h1 h2
    rw [h1] at h2
    injection h2
  refine ⟨?_, ?_, ?_, ?_⟩
  · have e1 : globalAP R ms o.collapse o.interp o.trapezoid = .ok r.gAP.value := by
      rw [← A1, hgl]; simp
    have e2 : globalAP R ms o.collapse o.interp o.trapezoid = .ok r'.gAP.value := by
      rw [← B1, hgl]; simp
    exact fin e1 e2
  · rw [(mean_seen R S groups hgr o.collapse o.interp o.trapezoid o.ciMap o'.ciMap).1] at A2
    exact fin A2 B2
  · have e1 : (Except.ok (globalNDCG R ms o.collapse) : Cpp ℝ) = .ok r.gNDCG.value := by
      rw [← A3, hgn]; simp
    have e2 : (Except.ok (globalNDCG R ms o.collapse) : Cpp ℝ) = .ok r'.gNDCG.value := by
      rw [← B3, hgn]; simp
    exact fin e1 e2
  · rw [(mean_seen R S groups hgr o.collapse o.interp o.trapezoid o.ciMndcg o'.ciMndcg).2] at A4
    exact fin A4 B4

/-- In a matching of hypotheses with different scores, none of them −∞, matches of the same score have
the same error. -/
theorem run_no_ties {σ : Type} [DecidableEq Q] [Cmp Q] [LawfulCmp Q] [Cmp L] [LawfulCmp L]
    (ix : RefIndex σ (Event Q L) (ScoredEvent Q L))
    (scorer : Event Q L → ScoredEvent Q L → Cpp MatchError) (s s' : σ) (refs : List (Event Q L))
    (hyps : List (ScoredEvent Q L)) (ms rep : List (KwsMatch Q L))
    (h : SimpleMatcher.run ix scorer s refs hyps = .ok (s', ms, rep))
    (hf : ∀ h ∈ hyps, h.score ≠ .ninf) (hd : (hyps.map (·.score)).Nodup) :
    ∀ a ∈ ms, ∀ b ∈ ms, rank a = rank b → a.error = b.error := by
  obtain ⟨hits, fns, rfl, h1, h2, ⟨hs, h3, h4⟩, _⟩ := run_facts ix scorer s s' refs hyps ms rep h
  have hranks : hits.map rank = hs.map (·.score) := by
    have := congrArg (List.map (fun o : Option (ScoredEvent Q L) => (o.map (·.score)).getD .ninf)) h4
    rw [List.map_map, List.map_map] at this
    exact this
  have hnod : (hits.map rank).Nodup := by
    rw [hranks]
    exact hd.sublist (h3.map _)
  have hfin : ∀ m ∈ hits, rank m ≠ .ninf := by
    intro m hm
    have : rank m ∈ hs.map (·.score) := hranks ▸ List.mem_map_of_mem hm
    obtain ⟨x, hx, hxe⟩ := List.mem_map.1 this
    rw [← hxe]
    exact hf x (h3.subset hx)
  have hinj := List.inj_on_of_nodup_map hnod
  intro a ha b hb hab
  rcases List.mem_append.1 ha with ha | ha <;> rcases List.mem_append.1 hb with hb | hb
  · rw [hinj ha hb hab]
  · obtain ⟨r, _, rfl⟩ := List.mem_map.1 hb
    exact absurd hab (hfin a ha)
  · obtain ⟨r, _, rfl⟩ := List.mem_map.1 ha
    exact absurd hab.symm (hfin b hb)
  · obtain ⟨r, _, rfl⟩ := List.mem_map.1 ha
    obtain ⟨r', _, rfl⟩ := List.mem_map.1 hb
    rfl

/-- C43, without ties: if the used hypotheses have different scores (none NaN or −∞) and `--sort=desc`
is given, the four reported values do not depend on the bootstrapping options, with or without
collapsing and in any arithmetic. Missing for C43: other orders and ties, see the refutations. -/
theorem C43_no_ties_tool_partial {μ σ : Type} [DecidableEq Q] [Cmp Q] [LawfulCmp Q] [Cmp L] [LawfulCmp L]
    (R : Rnd) (S : StdSort) (rng rng' : Rng G) (kit : ToolKit μ σ Q L) (w w' : World)
    (o o' : ToolOptions) (q2g : List (Q × Q)) (refs : List (Event Q L)) (hyps : List (ScoredEvent Q L))
    (hnan : ∀ h ∈ hyps, h.score ≠ .nan ∧ h.score ≠ .ninf) (hdist : (hyps.map (·.score)).Nodup)
    (hd : o.sort = "desc".toList) (hd' : o'.sort = "desc".toList)
    (hc : o'.collapse = o.collapse) (hi : o'.interp = o.interp) (ht : o'.trapezoid = o.trapezoid)
    (r r' : Report Q L)
    (h : evaluate R S rng kit w o q2g refs hyps = .ok (.done r))
    (h' : evaluate R S rng' kit w' o' q2g refs hyps = .ok (.done r')) :
    r.gAP.value = r'.gAP.value ∧ r.mAP.value = r'.mAP.value ∧ r.gNDCG.value = r'.gNDCG.value ∧
      r.mNDCG.value = r'.mNDCG.value := by
  obtain ⟨l, s1, ms, rep, groups, a1, a2, a3, a4⟩ := evaluate_done _ _ _ _ _ _ _ _ _ _ h
  obtain ⟨l', s1', ms', rep', groups', b1, b2, b3, b4⟩ := evaluate_done _ _ _ _ _ _ _ _ _ _ h'
  rw [hd] at a1
  rw [hd', a1] at b1
  injection b1 with b1
  subst b1
  rw [a2, Except.ok.injEq, Prod.mk.injEq, Prod.mk.injEq] at b2
  obtain ⟨_, rfl, rfl⟩ := b2
  rw [a3] at b3
  injection b3 with b3
  subst b3
  obtain ⟨l2, c1, c2, c3⟩ := sortHyps_desc S (usedHyps q2g hyps)
    (fun x hx => (hnan x (usedHyps_mem q2g hyps x hx)).1)
  rw [a1] at c1
  injection c1 with c1
  subst c1
  have hl : ∀ x ∈ l, x.score ≠ .nan ∧ x.score ≠ .ninf :=
    fun x hx => hnan x (usedHyps_mem q2g hyps x (c2.mem_iff.1 hx))
  obtain ⟨d1, d2⟩ := run_ranks _ _ _ _ _ _ _ _ a2 (fun x hx => (hl x hx).1)
  obtain ⟨e1, e2, _⟩ := groupMatches_facts _ _ _ a3
  refine C43_no_ties_partial R S rng rng' w w' o o' ms groups _ _ r r' e1 e2 d1 (d2 c3) ?_ hc hi ht a4 b4
  refine run_no_ties _ _ _ _ _ _ _ _ a2 (fun x hx => (hl x hx).2) ?_
  refine (c2.map _).nodup_iff.2 (hdist.sublist (List.Sublist.map _ ?_))
  unfold usedHyps filterEvents
  split
  · exact List.Sublist.refl _
  · exact List.filter_sublist

/-- The same for whole runs of a tool on readable files. -/
theorem C43_no_ties_main_partial {μ σ : Type} [DecidableEq Q] [Cmp Q] [LawfulCmp Q] [Cmp L] [LawfulCmp L]
    (R : Rnd) (S : StdSort) (rng rng' : Rng G) (kit : ToolKit μ σ Q L) (w : World)
    (o o' : ToolOptions) (t u : Str) (m1 m2 : μ) (refs : List (Event Q L))
    (hyps : List (ScoredEvent Q L)) (hr : o.refFilename ≠ []) (ht : w.file o.refFilename = some t)
    (hu : (if o.hypFilename = [] then some w.stdin else w.file o.hypFilename) = some u)
    (hrefs : kit.readRef kit.mapper t = (m1, refs, .ok)) (hhyps : kit.readHyp m1 u = (m2, hyps, .ok))
    (hnan : ∀ h ∈ hyps, h.score ≠ .nan ∧ h.score ≠ .ninf) (hdist : (hyps.map (·.score)).Nodup)
    (hd : o.sort = "desc".toList)
    (hopts : o' = { o with
      ciGap := o'.ciGap, ciMap := o'.ciMap, ciGndcg := o'.ciGndcg, ciMndcg := o'.ciMndcg,
      samples := o'.samples, alpha := o'.alpha, seed := o'.seed })
    (r r' : Report Q L) (h : mainWith R S rng kit w o = .ok (.done r))
    (h' : mainWith R S rng' kit w o' = .ok (.done r')) :
    r.gAP.value = r'.gAP.value ∧ r.mAP.value = r'.mAP.value ∧ r.gNDCG.value = r'.gNDCG.value ∧
      r.mNDCG.value = r'.mNDCG.value := by
  have e1 : o'.refFilename = o.refFilename := by rw [hopts]
  have e2 : o'.hypFilename = o.hypFilename := by rw [hopts]
  have e3 : readQueryMap kit.mapQuery w o' m2 = readQueryMap kit.mapQuery w o m2 := by rw [hopts]; rfl
  rw [mainWith_inputs R S rng kit w o t u m1 m2 refs hyps hr ht hu hrefs hhyps] at h
  rw [mainWith_inputs R S rng' kit w o' t u m1 m2 refs hyps (e1 ▸ hr) (e1 ▸ ht) (by rw [e2]; exact hu)
    hrefs hhyps, e3] at h'
  cases hq : readQueryMap kit.mapQuery w o m2 with
  | error f => rw [hq] at h; cases h
  | ok q =>
    rw [hq] at h h'
    cases q with
    | none => cases h
    | some q2g =>
      exact C43_no_ties_tool_partial R S rng rng' kit w w o o' q2g refs hyps hnan hdist hd
        (by rw [hopts]; exact hd) (by rw [hopts]) (by rw [hopts]) (by rw [hopts]) r r' h h'

/-- Two runs without collapsing, with and without confidence intervals, to which C43 applies. -/
example (S : StdSort) (rng rng' : Rng G) :
    let o : ToolOptions := { refFilename := "ref".toList, collapse := false, alpha := 1 / 20 }
    let o' := { o with ciGap := true, ciMap := true, ciGndcg := true, ciMndcg := true }
    ∃ r r', mainWith Rnd.exact S rng (icdarKit Rnd.exact S) runExample o = .ok (.done r) ∧
      mainWith Rnd.exact S rng' (icdarKit Rnd.exact S) runExample o' = .ok (.done r') ∧
      r.gAP.value = r'.gAP.value ∧ r.mAP.value = r'.mAP.value ∧ r.gNDCG.value = r'.gNDCG.value ∧
      r.mNDCG.value = r'.mNDCG.value := by
  intro o o'
  obtain ⟨y1, y2⟩ := runExample_yields
  obtain ⟨r, hr, _⟩ := (C62_box_partial Rnd.exact S rng runExample o (fun t t' _ _ =>
    ⟨fun h => by simp [o] at h, fun h => absurd rfl h, fun h => absurd rfl h,
      fun h => by simp [o] at h⟩)).1
    ⟨⟨by decide, ⟨_, runExample_file, yields_valid y1⟩, ⟨_, if_pos rfl, yields_valid y2⟩,
      fun h => absurd rfl h, fun h => absurd rfl h⟩, Or.inl rfl⟩
  obtain ⟨r', hr', _⟩ := (C62_box_partial Rnd.exact S rng' runExample o' (fun t t' _ _ =>
    ⟨fun _ => ⟨by decide, Or.inl ⟨rfl, by decide, by norm_num [o', o], by norm_num [o', o]⟩⟩,
      fun h => absurd rfl h, fun h => absurd rfl h, fun h => by simp [o', o] at h⟩)).1
    ⟨⟨by decide, ⟨_, runExample_file, yields_valid y1⟩, ⟨_, if_pos rfl, yields_valid y2⟩,
      fun h => absurd rfl h, fun h => absurd rfl h⟩, Or.inl rfl⟩
  have f1 := (icdar_plain Rnd.exact S).readRef_ok _ (yields_valid y1)
  have f2 := (icdar_plain Rnd.exact S).readHyp_ok () _ (yields_valid y2)
  rw [yields_events (Format.boxRefs (R := Rnd.exact)) y1] at f1
  rw [yields_events Format.boxHyps y2] at f2
  refine ⟨r, r', hr, hr', C43_no_ties_main_partial Rnd.exact S rng rng' (icdarKit Rnd.exact S) runExample
    o o' _ _ () () _ _ (by decide) runExample_file (if_pos rfl) f1 f2 ?_ ?_ rfl rfl
    r r' hr hr'⟩
  · intro h hh
    simp only [List.mem_cons, List.not_mem_nil, or_false] at hh
    rcases hh with rfl | rfl <;> simp
  · simp only [List.map_cons, List.map_nil, List.nodup_cons, List.mem_singleton, Flt.fin.injEq]
    norm_num

end

end Kws
