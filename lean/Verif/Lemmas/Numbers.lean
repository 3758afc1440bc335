import Verif.Lemmas.SegTally

/-!
Facts about the numbers reported by a run.
-/

set_option linter.unusedSectionVars false

namespace Kws
open Spec

section
variable {Q L : Type}

theorem Spec.HardMatch.hard {m : KwsMatch Q L} (h : HardMatch m) : Hard m.error := by
  rcases h with ⟨_, _, e⟩ | ⟨_, _, e⟩ | ⟨_, _, e⟩ <;> rw [e] <;> simp [Hard, Outcome.error]

theorem Spec.HardMatch.outcome {m : KwsMatch Q L} (h : HardMatch m) : m.error = Outcome.hit.error ∨
    m.error = Outcome.falsePos.error ∨ m.error = Outcome.falseNeg.error := by
  rcases h with ⟨_, _, e⟩ | ⟨_, _, e⟩ | ⟨_, _, e⟩ <;> simp [e]

theorem Spec.HardMatch.event {m : KwsMatch Q L} (h : HardMatch m) : (eventOf m).isSome = true := by
  obtain ⟨r, y, e⟩ := m
  rcases h with ⟨h1, _, _⟩ | ⟨h1, h2, _⟩ | ⟨h1, _, _⟩
  · cases r <;> simp_all [eventOf]
  · cases y <;> simp_all [eventOf]
  · cases r <;> simp_all [eventOf]

theorem roundedMean_average (l : List ℚ) : roundedMean Rnd.exact l = average l := by
  have key : ∀ (l : List ℚ) a, l.foldl (fun a v => Rnd.exact.f64 (a + v)) a = a + l.sum := by
    intro l
    induction l with
    | nil => simp
    | cons x l ih => intro a; rw [List.foldl_cons, ih]; simp [Rnd.exact, add_assoc]
  unfold roundedMean average
  rw [key]
  split
  · rename_i h; simp [h]
  · simp [Rnd.exact]

theorem average_perm {α : Type} [Field α] {l l' : List α} (h : l.Perm l') : average l = average l' := by
  unfold average
  rw [h.sum_eq, h.length_eq]

variable [DecidableEq Q]

theorem groupMatches_events (q2g : List (Q × Q)) (ms : List (KwsMatch Q L))
    (h : ∀ m ∈ ms, (eventOf m).isSome = true) :
    ∃ keys : List Q, keys.Nodup ∧
      (∀ k, k ∈ keys ↔ k ∈ (ms.filterMap eventOf).map (groupOf q2g ·.query)) ∧
      groupMatches q2g ms = .ok (keys.map (fun k => ms.filter (InGroup (groupOf q2g) k))) := by
  cases hms : ms with
  | nil => exact ⟨[], by simp, by simp, rfl⟩
  | cons m0 tl =>
    rw [← hms]
    obtain ⟨e0, he0⟩ := Option.isSome_iff_exists.1 (h m0 (by rw [hms]; simp))
    set query : KwsMatch Q L → Q := fun m => ((eventOf m).getD e0).query with hq
    obtain ⟨keys, k1, k2, k3⟩ := groupMatches_keys q2g ms query (by
      intro m hm
      refine matchQuery_ok m _ ?_
      have := h m hm
      obtain ⟨r, y, e⟩ := m
      cases r with
      | some r => simp [hq, eventOf]
      | none =>
        cases y with
        | some y => simp [hq, eventOf]
        | none => simp [eventOf] at this)
    refine ⟨keys, k1, ?_, ?_⟩
    · intro k
      rw [k2]
      simp only [List.mem_map, List.mem_filterMap]
      constructor
      · rintro ⟨m, hm, rfl⟩
        obtain ⟨e, he⟩ := Option.isSome_iff_exists.1 (h m hm)
        exact ⟨e, ⟨m, hm, he⟩, by simp [hq, he]⟩
      · rintro ⟨e, ⟨m, hm, he⟩, rfl⟩
        exact ⟨m, hm, by simp [hq, he]⟩
    · rw [k3]
      congr 1
      refine List.map_congr_left fun k _ => List.filter_congr fun m hm => ?_
      obtain ⟨e, he⟩ := Option.isSome_iff_exists.1 (h m hm)
      simp [hq, InGroup, he]

/-- How far the average precision may be off, for `n` events. -/
def Tolerance (R : Rnd) (n : ℕ) (ε : ℚ) : Prop :=
  R = Rnd.exact ∧ ε = 0 ∨ R = Rnd.ieee ∧ n ≤ 2 ^ 24 ∧ ε = (n + 3) ^ 2 / 2 ^ 52

theorem ndcg_exact {R : Rnd} {n : ℕ} {ε : ℚ} (hR : Tolerance R n ε) (ms : List (KwsMatch Q L))
    (hh : ∀ m ∈ ms, HardMatch m) (hn : ms.length ≤ n) :
    globalNDCG R ms true = globalNDCG Rnd.exact ms true := by
  rcases hR with ⟨rfl, _⟩ | ⟨rfl, hl, _⟩
  · rfl
  · unfold globalNDCG
    rw [if_pos rfl, if_pos rfl, collapse_hard Rnd.ieee ms (fun m hm => (hh m hm).hard)
      (fun k hk => ieee_faithful.nat32 k (by omega))]

/-- The numbers of an assessment. -/
theorem assess_numbers {G : Type} (R : Rnd) (S : StdSort) (rng : Rng G) (w : World) (o : ToolOptions)
    (q2g : List (Q × Q)) (ms : List (KwsMatch Q L)) (groups : List (List (KwsMatch Q L)))
    (dump : Option (List (KwsMatch Q L) × List (KwsMatch Q L))) (r : Report Q L) (n : ℕ) (ε : ℚ)
    (hT : Tolerance R n ε) (hl : ms.length ≤ n) (hh : ∀ m ∈ ms, HardMatch m) (hR : Ranked R ms)
    (hc : o.collapse = true) (hg : groupMatches q2g ms = .ok groups)
    (h : assess R S rng w o ms groups dump = .ok r) :
    Shows r (matchNumbers (groupOf q2g) o.interp o.trapezoid ms) ε := by
  obtain ⟨g1, g2, _⟩ := groupMatches_facts _ _ _ hg
  obtain ⟨keys, k1, k2, k3⟩ := groupMatches_events q2g ms (fun m hm => (hh m hm).event)
  rw [hg] at k3
  injection k3 with k3
  obtain ⟨a1, a2, a3, a4⟩ := assess_values R S rng w o ms groups dump r g1 g2 hR hc h
  have meas : ∀ ms' : List (KwsMatch Q L), ms'.Sublist ms →
      (∀ interp t, globalAP Rnd.exact ms' true interp t =
        .ok ((tallyOf ms').ap interp t (descending (scoresIn ms')))) ∧
      globalNDCG Rnd.exact ms' true = (tallyOf ms').ndcg (descending (scoresIn ms')) := by
    classical
    intro ms' hs
    have hr := hR.sublist hs
    exact measures_tally ms' (fun m hm => hh m (hs.subset hm)) hr.noNaN hr.byRank _
      (scoresIn_thresholds ms' hr.noNaN)
  have hperm : keys.Perm ((ms.filterMap eventOf).map (groupOf q2g ·.query)).dedup :=
    (List.perm_ext_iff_of_nodup k1 (List.nodup_dedup _)).2 (fun k => by rw [k2, List.mem_dedup])
  have hlen : groups.length ≤ ms.length := by
    rw [k3, List.length_map, hperm.length_eq]
    refine ((List.dedup_sublist _).length_le).trans ?_
    rw [List.length_map]
    exact List.length_filterMap_le _ _
  have hgh : ∀ g ∈ groups, ∀ m ∈ g, HardMatch m := fun g hg m hm => hh m ((g2 g hg).subset hm)
  have hap : groups.map (apOf Rnd.exact o.interp o.trapezoid) =
      keys.map (fun k => (tallyOf (ms.filter (InGroup (groupOf q2g) k))).ap o.interp o.trapezoid
        (descending (scoresIn (ms.filter (InGroup (groupOf q2g) k))))) := by
    rw [k3, List.map_map]
    refine List.map_congr_left fun k _ => ?_
    have := (meas (ms.filter (InGroup (groupOf q2g) k)) List.filter_sublist).1 o.interp o.trapezoid
    rw [globalAP_apOf] at this
    injection this
  have hmean : meanAP Rnd.exact S groups true o.interp o.trapezoid false =
      .ok (matchNumbers (groupOf q2g) o.interp o.trapezoid ms).mAP := by
    rw [meanAP_roundedMean, hap, roundedMean_average]
    unfold matchNumbers Numbers.of
    congr 1
    simp only [List.map_map]
    exact average_perm (hperm.map _)
  have hnd : r.mNDCG.value = (matchNumbers (groupOf q2g) o.interp o.trapezoid ms).mNDCG := by
    rw [meanNDCG_sum] at a4
    injection a4 with a4
    have e : groups.map (fun g => globalNDCG R g true) =
        keys.map (fun k => (tallyOf (ms.filter (InGroup (groupOf q2g) k))).ndcg
          (descending (scoresIn (ms.filter (InGroup (groupOf q2g) k))))) := by
      rw [k3, List.map_map]
      refine List.map_congr_left fun k _ => ?_
      have hs : (ms.filter (InGroup (groupOf q2g) k)).Sublist ms := List.filter_sublist
      show globalNDCG R (ms.filter (InGroup (groupOf q2g) k)) true = _
      rw [ndcg_exact hT _ (fun m hm => hh m (hs.subset hm)) (hs.length_le.trans hl), (meas _ hs).2]
    rw [← a4, e]
    unfold matchNumbers Numbers.of
    simp only [List.map_map]
    rw [← average_perm (hperm.map _)]
    unfold average
    split
    · rw [k3, List.length_map, List.length_map]; rfl
    · rename_i h0
      have : keys = [] := by
        rw [k3, List.length_map] at h0
        exact List.length_eq_zero_iff.1 (by omega)
      simp [this]
  have hgn : r.gNDCG.value = (matchNumbers (groupOf q2g) o.interp o.trapezoid ms).gNDCG := by
    rw [← a3, ndcg_exact hT ms hh hl, (meas ms (List.Sublist.refl _)).2]
    rfl
  have hm := (meas ms (List.Sublist.refl _)).1 o.interp o.trapezoid
  rcases hT with ⟨rfl, rfl⟩ | ⟨rfl, hn, rfl⟩
  · rw [hm] at a1
    rw [hmean] at a2
    injection a1 with a1
    injection a2 with a2
    refine ⟨?_, ?_, hgn, hnd⟩
    · rw [← a1]; simp [matchNumbers, Numbers.of]
    · rw [← a2]; simp
  · have hq : (ms.length : ℚ) ≤ n := by exact_mod_cast hl
    have hn0 : (0 : ℚ) ≤ ms.length := by positivity
    refine ⟨?_, ?_, hgn, hnd⟩
    · obtain ⟨v, v', e1, e2, e3⟩ := C64_ap_hard ms true o.interp o.trapezoid
        (fun m hm => (hh m hm).outcome) (hl.trans hn)
      rw [a1] at e1
      rw [hm] at e2
      injection e1 with e1
      injection e2 with e2
      subst e1 e2
      refine e3.trans ?_
      gcongr
      nlinarith
    · obtain ⟨v, v', e1, e2, e3⟩ := C64_mean_ap S groups true o.interp o.trapezoid false n hn
        (fun g hg m hm => (hgh g hg m hm).outcome) (fun g hg => ((g2 g hg).length_le).trans hl)
        (by have := hlen.trans (hl.trans hn); omega) (by simp)
      rw [a2] at e1
      rw [hmean] at e2
      injection e1 with e1
      injection e2 with e2
      subst e1 e2
      refine e3.trans ?_
      have hgq : (groups.length : ℚ) ≤ n := by exact_mod_cast hlen.trans hl
      rw [← add_div]
      gcongr
      nlinarith
end

/-! ## Evaluating -/

section
variable {μ σ Q L G : Type} [DecidableEq Q] [Cmp Q] [LawfulCmp Q] [DecidableEq L] [Cmp L] [LawfulCmp L]

/-- Matches of a run with a scorer whose accepted errors are 0. -/
theorem run_hardMatch (ix : RefIndex σ (Event Q L) (ScoredEvent Q L))
    (scorer : Event Q L → ScoredEvent Q L → Cpp MatchError) (s s' : σ) (refs : List (Event Q L))
    (hyps : List (ScoredEvent Q L)) (ms rep : List (KwsMatch Q L))
    (h : SimpleMatcher.run ix scorer s refs hyps = .ok (s', ms, rep))
    (hh : ∀ r x e, scorer r x = .ok e → e.fp < 1 → e = ⟨0, 0⟩) : ∀ m ∈ ms, HardMatch m := by
  obtain ⟨hits, fns, rfl, _, _, _, h5⟩ := run_facts ix scorer s s' refs hyps ms rep h
  intro m hm
  rcases List.mem_append.1 hm with hm | hm
  · rcases h5 m hm with ⟨x, rfl⟩ | ⟨r, x, e, rfl, he, hf⟩
    · exact Or.inr (Or.inl ⟨rfl, rfl, rfl⟩)
    · rw [hh r x e he hf]
      exact Or.inl ⟨rfl, rfl, rfl⟩
  · obtain ⟨r, _, rfl⟩ := List.mem_map.1 hm
    exact Or.inr (Or.inr ⟨rfl, rfl, rfl⟩)

/-- The numbers of an evaluation are those of the matches of a run on the hypotheses in decreasing
order of score. -/
theorem evaluate_numbers (R : Rnd) (S : StdSort) (rng : Rng G) (kit : ToolKit μ σ Q L)
    (hk : SafeKit kit) (hh : ∀ r x e, kit.scorer r x = .ok e → e.fp < 1 → e = ⟨0, 0⟩) (w : World)
    (o : ToolOptions) (q2g : List (Q × Q)) (refs : List (Event Q L)) (hyps : List (ScoredEvent Q L))
    (r : Report Q L) (n : ℕ) (ε : ℚ) (hT : Tolerance R n ε) (hn : refs.length + hyps.length ≤ n)
    (hnan : ∀ h ∈ hyps, h.score ≠ .nan) (hd : o.sort = "desc".toList) (hc : o.collapse = true)
    (h : evaluate R S rng kit w o q2g refs hyps = .ok (.done r)) :
    ∃ (l : List (ScoredEvent Q L)) (s' : σ) (ms rep : List (KwsMatch Q L)),
      sortHyps S "desc".toList (usedHyps q2g hyps) = .ok l ∧
      l.Perm (usedHyps q2g hyps) ∧ l.Pairwise (fun a b => Flt.lt a.score b.score = false) ∧
      SimpleMatcher.run kit.index kit.scorer kit.refsSet (usedRefs q2g refs) l = .ok (s', ms, rep) ∧
      NoNaN ms ∧ r.dump = (if o.dumpMatches = [] then none else some (ms, rep)) ∧
      Shows r (matchNumbers (groupOf q2g) o.interp o.trapezoid ms) ε := by
  obtain ⟨l, s', ms, rep, groups, h1, h2, h3, h4⟩ := evaluate_done _ _ _ _ _ _ _ _ _ _ h
  rw [hd] at h1
  obtain ⟨a1, a2, a3⟩ := evaluate_ranked R S kit hk q2g refs hyps l s' ms rep hnan
    (hT.imp (·.1) (fun h => ⟨by rw [h.1]; exact ieee_faithful, hn.trans h.2.1⟩)) h1 h2
  have hl := run_length _ _ _ _ _ _ _ _ h2
  have hu := used_length q2g refs hyps
  have hp := a2.length_eq
  refine ⟨l, s', ms, rep, h1, a2, a3, h2, a1.noNaN, ?_, assess_numbers R S rng w o q2g ms groups _ r n ε
    hT (by omega) (run_hardMatch _ _ _ _ _ _ _ _ h2 hh) a1 hc h3 h4⟩
  exact (assess_ok _ _ _ _ _ _ _ _ _ h4).2.2.2.2

/-- The numbers of the matches of the segmentation-based evaluation. -/
theorem segMatches_numbers (grp : Q → Q) (interp trapezoid : Bool) (refs missed : List (Event Q L))
    (l : List (ScoredEvent Q L)) (hs : l.Pairwise (fun a b => Flt.lt a.score b.score = false))
    (hn : ∀ h ∈ l, h.score ≠ .nan) (hm : Missed refs missed l)
    (hnan : NoNaN (segMatches refs missed l)) :
    matchNumbers grp interp trapezoid (segMatches refs missed l) =
      segNumbers grp interp trapezoid refs l := by
  obtain ⟨m1, m2⟩ := segMatches_measures refs missed l hs hn hm hnan
  have hgrp : ∀ g, (segMatches refs missed l).filter (InGroup grp g) =
      segMatches (refs.filter (grp ·.query = g)) (missed.filter (grp ·.query = g))
        (l.filter (grp ·.base.query = g)) := by
    intro g
    exact segMatches_filter refs missed (fun e => grp e.query = g) l
  have hg : ∀ g, let ms := (segMatches refs missed l).filter (InGroup grp g)
      (∀ interp t, (tallyOf ms).ap interp t (descending (scoresIn ms)) =
        (segTally (refs.filter (grp ·.query = g)) (l.filter (grp ·.base.query = g))).ap interp t
          (descending ((l.filter (grp ·.base.query = g)).map (·.score)))) ∧
      (tallyOf ms).ndcg (descending (scoresIn ms)) =
        (segTally (refs.filter (grp ·.query = g)) (l.filter (grp ·.base.query = g))).ndcg
          (descending ((l.filter (grp ·.base.query = g)).map (·.score))) := by
    intro g ms
    have e : ms = segMatches _ _ _ := hgrp g
    rw [e]
    refine segMatches_measures _ _ _ (hs.sublist List.filter_sublist)
      (fun h hh => hn h (List.mem_filter.1 hh).1) (hm.filter (fun e => grp e.query = g)) ?_
    intro m hm'
    rw [← hgrp] at hm'
    exact hnan m (List.mem_filter.1 hm').1
  have hperm : (((segMatches refs missed l).filterMap eventOf).map (grp ·.query)).dedup.Perm
      (refs.map (grp ·.query) ++ l.map (grp ·.base.query)).dedup := by
    rw [List.perm_ext_iff_of_nodup (List.nodup_dedup _) (List.nodup_dedup _)]
    intro k
    simp only [List.mem_dedup, List.mem_map, List.mem_append, segMatches_events refs missed l hm]
    constructor
    · rintro ⟨e, h | ⟨x, hx, rfl⟩, rfl⟩
      · exact Or.inl ⟨e, h, rfl⟩
      · exact Or.inr ⟨x, hx, rfl⟩
    · rintro (⟨e, h, rfl⟩ | ⟨x, hx, rfl⟩)
      · exact ⟨e, Or.inl h, rfl⟩
      · exact ⟨x.base, Or.inr ⟨x, hx, rfl⟩, rfl⟩
  unfold matchNumbers segNumbers Numbers.of
  simp only [List.map_map]
  congr 1
  · exact m1 interp trapezoid
  · rw [average_perm (hperm.map _)]
    congr 1
    exact List.map_congr_left fun g _ => (hg g).1 interp trapezoid
  · rw [average_perm (hperm.map _)]
    congr 1
    exact List.map_congr_left fun g _ => (hg g).2

omit [Cmp Q] [LawfulCmp Q] [Cmp L] [LawfulCmp L] in
/-- The order of the hypotheses and the order and repetition of references do not matter. -/
theorem segNumbers_congr (grp : Q → Q) (interp trapezoid : Bool) (refs refs' : List (Event Q L))
    (hyps hyps' : List (ScoredEvent Q L)) (hn : ∀ h ∈ hyps, h.score ≠ .nan)
    (hr : ∀ r, r ∈ refs ↔ r ∈ refs') (hp : hyps.Perm hyps') :
    segNumbers grp interp trapezoid refs hyps = segNumbers grp interp trapezoid refs' hyps' := by
  have hperm : (refs.map (grp ·.query) ++ hyps.map (grp ·.base.query)).dedup.Perm
      (refs'.map (grp ·.query) ++ hyps'.map (grp ·.base.query)).dedup := by
    rw [List.perm_ext_iff_of_nodup (List.nodup_dedup _) (List.nodup_dedup _)]
    intro k
    simp only [List.mem_dedup, List.mem_map, List.mem_append, hr, hp.mem_iff]
  have e1 := segTally_congr refs refs' hyps hyps' hr hp
  have e2 : ∀ g, segTally (refs.filter (grp ·.query = g)) (hyps.filter (grp ·.base.query = g)) =
      segTally (refs'.filter (grp ·.query = g)) (hyps'.filter (grp ·.base.query = g)) :=
    fun g => segTally_congr _ _ _ _ (fun r => by simp only [List.mem_filter, hr]) (hp.filter _)
  have e3 : ∀ a b : List (ScoredEvent Q L), (∀ h ∈ a, h.score ≠ .nan) → a.Perm b →
      descending (a.map (·.score)) = descending (b.map (·.score)) := by
    intro a b ha hab
    refine descending_congr ?_ (fun s => (hab.map _).mem_iff)
    intro s hs
    obtain ⟨x, hx, rfl⟩ := List.mem_map.1 hs
    exact ha x hx
  have e4 := e3 hyps hyps' hn hp
  have e5 : ∀ g, descending ((hyps.filter (grp ·.base.query = g)).map (·.score)) =
      descending ((hyps'.filter (grp ·.base.query = g)).map (·.score)) :=
    fun g => e3 _ _ (fun h hh => hn h (List.mem_filter.1 hh).1) (hp.filter _)
  unfold segNumbers Numbers.of
  simp only [List.map_map]
  rw [average_perm (hperm.map _), average_perm (hperm.map _), e1, e4]
  congr 2 <;>
  · refine List.map_congr_left fun g _ => ?_
    simp only [Function.comp]
    rw [e2, e5]

/-- The numbers of the segmentation-based evaluation. -/
theorem seg_numbers (R : Rnd) (S : StdSort) (rng : Rng G) (kit : ToolKit μ (EventSet (Event Q L)) Q L)
    (hk : SegKit kit) (w : World) (o : ToolOptions) (q2g : List (Q × Q)) (refs : List (Event Q L))
    (hyps : List (ScoredEvent Q L)) (r : Report Q L) (n : ℕ) (ε : ℚ) (hT : Tolerance R n ε)
    (hn : refs.length + hyps.length ≤ n) (hnan : ∀ h ∈ hyps, h.score ≠ .nan)
    (hd : o.sort = "desc".toList) (hc : o.collapse = true)
    (h : evaluate R S rng kit w o q2g refs hyps = .ok (.done r)) :
    Shows r (segNumbers (groupOf q2g) o.interp o.trapezoid (usedRefs q2g refs) (usedHyps q2g hyps))
      ε := by
  obtain ⟨l, s', ms, rep, _, h2, h3, h4, h5, _, h6⟩ := evaluate_numbers R S rng kit hk.safe (by
    intro r x e he hf
    rw [hk.scorer, C24_trivial_scorer] at he
    injection he with he
    subst he
    unfold verdict at hf ⊢
    split
    · rfl
    · rename_i hne; rw [if_neg hne] at hf; norm_num at hf) w o q2g refs hyps r n ε hT hn hnan hd hc h
  rw [hk.index, hk.scorer] at h4
  obtain ⟨s2, missed, rep2, c1, c2, c3⟩ := C24_segmentation_result kit.refsSet (usedRefs q2g refs) l
  rw [c1, Except.ok.injEq, Prod.mk.injEq, Prod.mk.injEq] at h4
  obtain ⟨rfl, rfl, rfl⟩ := h4
  have hl : ∀ h ∈ l, h.score ≠ .nan := fun x hx => hnan x (usedHyps_mem q2g hyps x (h2.mem_iff.1 hx))
  have := segMatches_numbers (groupOf q2g) o.interp o.trapezoid (usedRefs q2g refs) missed l h3 hl
    ⟨c2.imp (fun {a b} hab => by
      rintro rfl
      rw [LawfulCmp.irrefl] at hab
      exact absurd hab (by decide)), c3⟩ h5
  rw [segNumbers_congr _ _ _ _ _ _ _ hl (fun _ => Iff.rfl) h2] at this
  rw [← this]
  exact h6

end

/-! ## Renaming -/

section
variable {Q L Q' L' : Type} [DecidableEq Q] [DecidableEq L] [DecidableEq Q'] [DecidableEq L']

theorem rename_inj {f : Q → Q'} {g : L → L'} (hf : Function.Injective f) (hg : Function.Injective g) :
    Function.Injective (Event.rename f g) := by
  rintro ⟨a, b⟩ ⟨c, d⟩ h
  simp only [Event.rename, Event.mk.injEq] at h
  rw [hf h.1, hg h.2]

theorem segTally_rename {f : Q → Q'} {g : L → L'} (hf : Function.Injective f)
    (hg : Function.Injective g) (refs : List (Event Q L)) (hyps : List (ScoredEvent Q L)) :
    segTally (refs.map (Event.rename f g)) (hyps.map (ScoredEvent.rename f g)) =
      segTally refs hyps := by
  have hi := rename_inj hf hg
  have e : (refs.map (Event.rename f g)).toFinset = refs.toFinset.image (Event.rename f g) := by
    ext r; simp
  unfold segTally
  rw [e, Finset.card_image_of_injective _ hi]
  congr 1
  · funext s
    rw [Finset.filter_image, Finset.card_image_of_injective _ hi]
    congr 1
    ext r
    simp only [Finset.mem_filter, List.mem_map, exists_exists_and_eq_and]
    refine and_congr_right fun _ => exists_congr fun h => and_congr_right fun _ => ?_
    exact and_congr_left fun _ => hi.eq_iff
  · funext s
    rw [List.countP_map]
    refine List.countP_congr fun h _ => ?_
    simp only [Function.comp, decide_eq_true_eq]
    refine and_congr_left fun _ => not_congr ?_
    exact List.mem_map_of_injective hi

theorem segNumbers_rename {f : Q → Q'} {g : L → L'} (hf : Function.Injective f)
    (hg : Function.Injective g) (grp : Q → Q) (grp' : Q' → Q') (hgrp : ∀ q, grp' (f q) = f (grp q))
    (interp trapezoid : Bool) (refs : List (Event Q L)) (hyps : List (ScoredEvent Q L)) :
    segNumbers grp' interp trapezoid (refs.map (Event.rename f g)) (hyps.map (ScoredEvent.rename f g)) =
      segNumbers grp interp trapezoid refs hyps := by
  have e1 : ∀ q, (refs.map (Event.rename f g)).filter (grp' ·.query = f q) =
      (refs.filter (grp ·.query = q)).map (Event.rename f g) := by
    intro q
    rw [List.filter_map]
    congr 1
    refine List.filter_congr fun r _ => ?_
    simp [Event.rename, hgrp, hf.eq_iff]
  have e2 : ∀ q, (hyps.map (ScoredEvent.rename f g)).filter (grp' ·.base.query = f q) =
      (hyps.filter (grp ·.base.query = q)).map (ScoredEvent.rename f g) := by
    intro q
    rw [List.filter_map]
    congr 1
    refine List.filter_congr fun r _ => ?_
    simp [ScoredEvent.rename, Event.rename, hgrp, hf.eq_iff]
  have e3 : ∀ l : List (ScoredEvent Q L), (l.map (ScoredEvent.rename f g)).map (·.score) =
      l.map (·.score) := fun l => by rw [List.map_map]; rfl
  have e4 : ((refs.map (Event.rename f g)).map (grp' ·.query) ++
      (hyps.map (ScoredEvent.rename f g)).map (grp' ·.base.query)).dedup =
      ((refs.map (grp ·.query) ++ hyps.map (grp ·.base.query)).dedup).map f := by
    rw [← List.dedup_map_of_injective hf]
    congr 1
    rw [List.map_append, List.map_map, List.map_map, List.map_map, List.map_map]
    congr 1 <;> refine List.map_congr_left fun r _ => hgrp _
  unfold segNumbers
  rw [e4, segTally_rename hf hg, e3, List.map_map]
  congr 1
  refine List.map_congr_left fun q _ => ?_
  simp only [Function.comp]
  rw [e1, e2, segTally_rename hf hg, e3]

end

/-! ## Query files -/

/-- What the query files say. -/
theorem readQueryMap_spec (w : World) (o : ToolOptions) (q2g : List (Str × Str))
    (h : readQueryMap (fun (m : Unit) q => (m, .ok q)) w o () = .ok (some q2g)) :
    (∀ q, (AMap.find? q q2g).isSome = true ↔ q ∈ listedQueries w o) ∧
    ∀ q, groupOf q2g q = groupFor w o q := by
  have hid : ∀ (m : Unit) (q : Str), (fun (m : Unit) q => (m, (.ok q : Cpp Str))) m q = (m, .ok q) :=
    fun _ _ => rfl
  unfold readQueryMap at h
  unfold listedQueries groupFor
  by_cases hg : o.queryGroups = []
  · rw [if_neg (not_not.2 hg)]
    simp only [hg, not_true, ne_eq, if_false, and_true] at h ⊢
    by_cases hs : o.querySet = []
    · simp only [hs, not_true, if_false, Except.ok.injEq, Option.some.injEq] at h ⊢
      subst h
      exact ⟨by simp [AMap.find?], fun q => rfl⟩
    · simp only [hs, not_false_eq_true, if_true] at h ⊢
      cases hf : w.file o.querySet with
      | none => rw [hf] at h; cases h
      | some text =>
        rw [hf] at h
        obtain ⟨m', e⟩ := readQuerySet_names (names_identity hid _) () text rfl trivial
        simp only [e, Except.map, Except.ok.injEq, Option.some.injEq] at h
        have hfind : ∀ q, AMap.find? q q2g = if q ∈ words text then some q else none := by
          intro q
          rw [← h]
          have := find?_setAll ((words text).map id) (fun q => q) ([] : List (Str × Str)) q
          simpa [AMap.find?] using this
        constructor
        · intro q
          rw [hfind]
          split <;> simp [*]
        · intro q
          unfold groupOf
          rw [hfind]
          by_cases hq : q ∈ words text <;> simp [hq]
  · rw [if_neg (fun h => hg h.2), if_pos hg] at h
    rw [if_pos hg]
    simp only [ne_eq, hg, not_false_eq_true, if_true]
    cases hf : w.file o.queryGroups with
    | none => rw [hf] at h; cases h
    | some text =>
      rw [hf] at h
      obtain ⟨h1, h2⟩ := C59_groups hid () text
      by_cases hw : WellFormedGroups ((lines text).map words)
      · obtain ⟨m', q2g', e, hq⟩ := h1 hw
        simp only [e, Except.ok.injEq, Option.some.injEq] at h
        subst h
        exact ⟨fun q => by rw [hq]; exact groupIn_isSome _ q, fun q => C59_group _ _ hq q⟩
      · obtain ⟨m', e⟩ := h2 hw
        simp [e] at h

/-! ## Files -/

theorem yields_valid {E : Type} {G : Str → E → Str → Prop} {t : Str} {es : List E}
    (h : Yields G (lines t) es) : ValidFile G t := by
  unfold ValidFile
  revert h
  generalize lines t = ls
  intro h
  induction h with
  | nil => simp
  | skip hi _ ih =>
    intro l hl
    rcases List.mem_cons.1 hl with rfl | hl
    · exact Or.inl hi
    · exact ih l hl
  | event _ he _ ih =>
    intro l hl
    rcases List.mem_cons.1 hl with rfl | hl
    · exact Or.inr ⟨_, he⟩
    · exact ih l hl

theorem yields_events {E : Type} {R : Rnd} {ex : Extractor E} {G : Str → E → Str → Prop}
    (hF : Format R ex G) {t : Str} {es : List E} (h : Yields G (lines t) es) : eventsIn ex t = es := by
  have h1 := hF.readPlain_ok t (yields_valid h)
  have h2 := (C48_accepts hF t es).2 h
  rw [h1] at h2
  injection h2

end Kws
