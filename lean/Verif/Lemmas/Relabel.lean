import Verif.Lemmas.Rename

/-!
# Evaluating renamed events
-/

namespace Kws
open Spec

/-! ## What an assessment reports besides its four values -/

section
variable {Q L G : Type}

theorem assess_curves (R : Rnd) (S : StdSort) (rng : Rng G) (w : World) (o : ToolOptions)
    (ms : List (KwsMatch Q L)) (groups : List (List (KwsMatch Q L)))
    (dump : Option (List (KwsMatch Q L) × List (KwsMatch Q L))) (r : Report Q L)
    (h : assess R S rng w o ms groups dump = .ok r) :
    (o.outputGrp = [] → r.globalCurve = none) ∧
    (o.outputGrp ≠ [] → ∃ c, globalRPCurve R w o.outputGrp ms o.curveSamples o.collapse o.interp
      o.trapezoid = .ok c ∧ r.globalCurve = some c) ∧
    (o.outputMrp = [] → r.meanCurve = none) ∧
    (o.outputMrp ≠ [] → ∃ c, meanRPCurve R w o.outputMrp groups o.curveSamples o.collapse o.interp
      o.trapezoid = .ok c ∧ r.meanCurve = some c) := by
  obtain ⟨e1, e2, e3, e4, _⟩ := assess_ok _ _ _ _ _ _ _ _ _ h
  unfold assess at h
  simp only [e1, e2, e3, e4, bind, Except.bind, pure, Except.pure] at h
  by_cases hg : o.outputGrp = [] <;> by_cases hm : o.outputMrp = []
  · simp only [hg, hm, if_true] at h
    injection h with h
    rw [← h]
    simp [hg, hm]
  · simp only [hg, hm, if_true, if_false, Functor.map, Except.map] at h
    split at h
    · cases h
    · rename_i v hv
      split at hv
      · cases hv
      · rename_i c hc
        injection hv with hv
        injection h with h
        subst hv
        rw [← h]
        simp [hg, hm, hc]
  · simp only [hg, hm, if_true, if_false, Functor.map, Except.map] at h
    split at h
    · cases h
    · rename_i v hv
      split at hv
      · cases hv
      · rename_i c hc
        injection hv with hv
        injection h with h
        subst hv
        rw [← h]
        simp [hg, hm, hc]
  · simp only [hg, hm, if_false, Functor.map, Except.map] at h
    split at h
    · cases h
    · rename_i v hv
      split at hv
      · cases hv
      · rename_i c hc
        split at h
        · cases h
        · rename_i v' hv'
          split at hv'
          · cases hv'
          · rename_i c' hc'
            injection hv with hv
            injection hv' with hv'
            injection h with h
            subst hv hv'
            rw [← h]
            simp [hg, hm, hc, hc']

/-- Matches in decreasing order of score that can be collapsed without rounding errors. -/
structure Ranked (R : Rnd) (ms : List (KwsMatch Q L)) : Prop where
  noNaN : NoNaN ms
  byRank : ByRank ms
  exact : R = Rnd.exact ∨ R.Faithful ∧ ms.length ≤ 2 ^ 24 ∧
    ∀ m ∈ ms, (m.error.fp = 0 ∨ m.error.fp = 1) ∧ (m.error.fn = 0 ∨ m.error.fn = 1)

theorem Ranked.sublist {R : Rnd} {ms g : List (KwsMatch Q L)} (h : Ranked R ms) (hs : g.Sublist ms) :
    Ranked R g := by
  refine ⟨fun m hm => h.noNaN m (hs.subset hm), h.byRank.sublist hs, ?_⟩
  rcases h.exact with h | ⟨h, hl, hh⟩
  · exact Or.inl h
  · exact Or.inr ⟨h, le_trans hs.length_le hl, fun m hm => hh m (hs.subset hm)⟩

/-- The values reported when collapsing matches in decreasing order of score. -/
theorem assess_values (R : Rnd) (S : StdSort) (rng : Rng G) (w : World) (o : ToolOptions)
    (ms : List (KwsMatch Q L)) (groups : List (List (KwsMatch Q L)))
    (dump : Option (List (KwsMatch Q L) × List (KwsMatch Q L))) (r : Report Q L)
    (hperm : groups.flatten.Perm ms) (hsub : ∀ g ∈ groups, g.Sublist ms) (hR : Ranked R ms)
    (hc : o.collapse = true) (h : assess R S rng w o ms groups dump = .ok r) :
    globalAP R ms true o.interp o.trapezoid = .ok r.gAP.value ∧
    meanAP R S groups true o.interp o.trapezoid false = .ok r.mAP.value ∧
    globalNDCG R ms true = r.gNDCG.value ∧ meanNDCG R S groups true false = .ok r.mNDCG.value := by
  obtain ⟨a1, a2, a3, a4, _⟩ := assess_ok _ _ _ _ _ _ _ _ _ h
  have A1 := global_value _ _ _ _ _ _ _ _ _ _ _ a1
  have A2 := mean_value _ _ _ _ _ _ _ _ _ a2
  have A3 := global_value _ _ _ _ _ _ _ _ _ _ _ a3
  have A4 := mean_value _ _ _ _ _ _ _ _ _ a4
  rw [hc] at A1 A2 A3 A4
  obtain ⟨l, l1, l2⟩ := collapse_resort R S ms groups.flatten hperm hR.noNaN hR.byRank hR.exact
  have hgl : globalAPGrouped R S groups true o.interp o.trapezoid true =
      globalAP R ms true o.interp o.trapezoid := by
    unfold globalAPGrouped
    simp only [if_true, l1, bind, Except.bind, globalAP, matchesPR, l2]
  have hgn : globalNDCGGrouped R S groups true true = .ok (globalNDCG R ms true) := by
    unfold globalNDCGGrouped
    simp only [if_true, l1, bind, Except.bind, pure, Except.pure, globalNDCG, l2]
  have hgr := mean_resort R S groups (fun g hg =>
    ⟨(hR.sublist (hsub g hg)).noNaN, (hR.sublist (hsub g hg)).byRank, (hR.sublist (hsub g hg)).exact⟩)
  refine ⟨?_, ?_, ?_, ?_⟩
  · rw [← A1, hgl]; simp
  · rw [(hgr o.interp o.trapezoid false o.ciMap).1]; exact A2
  · have : (Except.ok (globalNDCG R ms true) : Cpp ℝ) = .ok r.gNDCG.value := by
      rw [← A3, hgn]; simp
    injection this
  · rw [(hgr o.interp o.trapezoid false o.ciMndcg).2]; exact A4

/-! ## Means -/

/-- the average precision of a group -/
def apOf (R : Rnd) (interp trapezoid : Bool) (g : List (KwsMatch Q L)) : ℚ :=
  match globalAP R g true interp trapezoid with
  | .ok v => v
  | .error _ => 0

theorem globalAP_apOf (R : Rnd) (interp trapezoid : Bool) (g : List (KwsMatch Q L)) :
    globalAP R g true interp trapezoid = .ok (apOf R interp trapezoid g) := by
  obtain ⟨v, h⟩ := globalAP_total R g true interp trapezoid
  unfold apOf
  rw [h]

theorem meanAP_roundedMean (R : Rnd) (S : StdSort) (interp trapezoid : Bool)
    (groups : List (List (KwsMatch Q L))) :
    meanAP R S groups true interp trapezoid false =
      .ok (roundedMean R (groups.map (apOf R interp trapezoid))) := by
  have key : ∀ (groups : List (List (KwsMatch Q L))) acc,
      meanAPLoop R S true interp trapezoid false acc groups =
        .ok ((groups.map (apOf R interp trapezoid)).foldl (fun a v => R.f64 (a + v)) acc) := by
    intro groups
    induction groups with
    | nil => intro acc; rfl
    | cons g groups ih =>
      intro acc
      simp only [meanAPLoop, Bool.false_eq_true, if_false, globalAP_apOf, bind, Except.bind, pure,
        Except.pure, ih, List.map_cons, List.foldl_cons]
  unfold meanAP roundedMean
  simp only [key, bind, Except.bind, pure, Except.pure, List.map_eq_nil_iff, List.length_map]
  cases groups with
  | nil => rfl
  | cons g groups => simp

theorem meanNDCG_sum (R : Rnd) (S : StdSort) (groups : List (List (KwsMatch Q L))) :
    meanNDCG R S groups true false =
      .ok (if groups.length > 0 then (groups.map (fun g => globalNDCG R g true)).sum / groups.length
        else 0) := by
  have key : ∀ (groups : List (List (KwsMatch Q L))) acc,
      meanNDCGLoop R S true false acc groups =
        .ok (acc + (groups.map (fun g => globalNDCG R g true)).sum) := by
    intro groups
    induction groups with
    | nil => intro acc; simp [meanNDCGLoop, pure, Except.pure]
    | cons g groups ih =>
      intro acc
      simp only [meanNDCGLoop, Bool.false_eq_true, if_false, bind, Except.bind, pure,
        Except.pure, ih, List.map_cons, List.sum_cons, add_assoc]
  unfold meanNDCG
  simp only [key, bind, Except.bind, pure, Except.pure, zero_add]

theorem roundedMean_exact {l l' : List ℚ} (h : l.Perm l') :
    roundedMean Rnd.exact l = roundedMean Rnd.exact l' := by
  have key : ∀ (l : List ℚ) a, l.foldl (fun a v => Rnd.exact.f64 (a + v)) a = a + l.sum := by
    intro l
    induction l with
    | nil => simp
    | cons x l ih => intro a; rw [List.foldl_cons, ih]; simp [Rnd.exact, add_assoc]
  unfold roundedMean
  rw [key, key, h.sum_eq, h.length_eq]
  have : l = [] ↔ l' = [] := by
    rw [← List.length_eq_zero_iff, ← List.length_eq_zero_iff, h.length_eq]
  simp only [this]

end

/-! ## Mean curves in exact arithmetic -/

section
variable {Q L : Type}

/-- The sampled curve of one group. -/
def groupCurve (R : Rnd) (xs : List ℚ) (collapse interp linear : Bool) (g : List (KwsMatch Q L)) :
    Cpp (List ℚ) :=
  sampleCurve R (matchesPR R g collapse interp).2 (matchesPR R g collapse interp).1 xs linear

theorem groupCurves_eq (R : Rnd) (xs : List ℚ) (collapse interp linear : Bool)
    (groups : List (List (KwsMatch Q L))) (yss : List (List ℚ)) :
    groupCurves R xs collapse interp linear groups = .ok yss ↔
      List.Forall₂ (fun g ys => groupCurve R xs collapse interp linear g = .ok ys) groups yss := by
  induction groups generalizing yss with
  | nil =>
    simp only [groupCurves, pure, Except.pure, Except.ok.injEq]
    constructor
    · rintro rfl; exact List.Forall₂.nil
    · intro h; cases h; rfl
  | cons g groups ih =>
    have heq : groupCurves R xs collapse interp linear (g :: groups) =
      (groupCurve R xs collapse interp linear g).bind fun ys =>
        (groupCurves R xs collapse interp linear groups).bind fun yss => .ok (ys :: yss) := rfl
    rw [heq]
    constructor
    · intro h
      cases h1 : groupCurve R xs collapse interp linear g with
      | error e => rw [h1] at h; cases h
      | ok ys =>
        rw [h1] at h
        simp only [Except.bind] at h
        cases h2 : groupCurves R xs collapse interp linear groups with
        | error e => rw [h2] at h; cases h
        | ok yss' =>
          rw [h2] at h
          injection h with h
          subst h
          exact List.Forall₂.cons h1 ((ih _).1 h2)
    · intro h
      cases h with
      | cons h1 h2 =>
        rw [h1]
        simp only [Except.bind]
        rw [(ih _).2 h2]

theorem columnSum_ok (i : Nat) (yss : List (List ℚ)) : ∀ s v,
    columnSum Rnd.exact i s yss = .ok v ↔
      (∀ ys ∈ yss, i < ys.length) ∧ v = s + (yss.map (fun ys => ys[i]?.getD 0)).sum := by
  induction yss with
  | nil =>
    intro s v
    simp only [columnSum, pure, Except.pure, Except.ok.injEq, List.not_mem_nil, false_imp_iff,
      implies_true, true_and, List.map_nil, List.sum_nil, add_zero]
    exact eq_comm
  | cons ys yss ih =>
    intro s v
    have heq : columnSum Rnd.exact i s (ys :: yss) =
      (vecAt ys i).bind fun y => columnSum Rnd.exact i (Rnd.exact.f64 (s + y)) yss := rfl
    rw [heq]
    unfold vecAt
    by_cases hi : i < ys.length
    · rw [List.getElem?_eq_getElem hi]
      simp only [Except.bind]
      rw [ih]
      simp only [List.mem_cons, forall_eq_or_imp, hi, true_and, List.map_cons, List.sum_cons,
        List.getElem?_eq_getElem hi, Option.getD_some, ← add_assoc]
      rfl
    · rw [List.getElem?_eq_none (by omega)]
      simp [Except.bind, hi]

theorem columnSum_perm (i : Nat) {yss yss' : List (List ℚ)} (h : yss.Perm yss') (s v v' : ℚ)
    (h1 : columnSum Rnd.exact i s yss = .ok v) (h2 : columnSum Rnd.exact i s yss' = .ok v') : v = v' := by
  rw [columnSum_ok] at h1 h2
  rw [h1.2, h2.2, (h.map _).sum_eq]

theorem meanColumns_perm {yss yss' : List (List ℚ)} (h : yss.Perm yss') (n : Nat) : ∀ i l l',
    meanColumns Rnd.exact yss i n = .ok l → meanColumns Rnd.exact yss' i n = .ok l' → l = l' := by
  induction n with
  | zero =>
    intro i l l' h1 h2
    simp only [meanColumns, pure, Except.pure, Except.ok.injEq] at h1 h2
    rw [← h1, ← h2]
  | succ n ih =>
    intro i l l' h1 h2
    have heq : ∀ yss, meanColumns Rnd.exact yss i (n + 1) =
      (columnSum Rnd.exact i 0 yss).bind fun s =>
        (meanColumns Rnd.exact yss (i + 1) n).bind fun t =>
          .ok (meanOf Rnd.exact s yss.length :: t) := fun _ => rfl
    rw [heq] at h1 h2
    cases a1 : columnSum Rnd.exact i 0 yss with
    | error e => rw [a1] at h1; cases h1
    | ok s =>
      cases a2 : columnSum Rnd.exact i 0 yss' with
      | error e => rw [a2] at h2; cases h2
      | ok s' =>
        have hs := columnSum_perm i h _ _ _ a1 a2
        rw [a1] at h1
        rw [a2] at h2
        simp only [Except.bind] at h1 h2
        cases b1 : meanColumns Rnd.exact yss (i + 1) n with
        | error e => rw [b1] at h1; cases h1
        | ok t =>
          cases b2 : meanColumns Rnd.exact yss' (i + 1) n with
          | error e => rw [b2] at h2; cases h2
          | ok t' =>
            have ht := ih _ _ _ b1 b2
            rw [b1] at h1
            rw [b2] at h2
            injection h1 with h1
            injection h2 with h2
            rw [← h1, ← h2, hs, ht, h.length_eq]

end

/-! ## Assessing renamed matches -/

section
variable {Q L Q' L' G : Type}

theorem collapse_aligned {R : Rnd} (f : Q → Q') (g : L → L') {ms : List (KwsMatch Q L)}
    {ms' : List (KwsMatch Q' L')} (hp : ms'.Perm (ms.map (renameMatch f g))) (h : Ranked R ms)
    (h' : Ranked R ms') : collapseMatches R ms' = collapseMatches R ms := by
  rw [← collapse_rename R f g ms]
  have hb : ByRank (ms.map (renameMatch f g)) := by
    unfold ByRank
    rw [List.pairwise_map]
    refine h.byRank.imp fun hab => ?_
    rw [renameMatch_rank, renameMatch_rank]
    exact hab
  rcases h'.exact with rfl | ⟨hR, hl, hh⟩
  · exact C33_collapse_ties ms' _ hp h'.noNaN h'.byRank hb
  · exact C33_collapse_ties_rounded R hR ms' _ hp h'.noNaN h'.byRank hb hh hl

theorem forall₂_map_eq {α β γ : Type} {P : α → β → Prop} {l : List α} {l' : List β}
    (h : List.Forall₂ P l l') (u : α → γ) (v : β → γ) (huv : ∀ a b, a ∈ l → b ∈ l' → P a b → u a = v b) :
    l.map u = l'.map v := by
  induction h with
  | nil => rfl
  | cons hab _ ih =>
    rw [List.map_cons, List.map_cons, huv _ _ (by simp) (by simp) hab,
      ih (fun a b ha hb => huv a b (by simp [ha]) (by simp [hb]))]

/-- Assessing renamed matches in another order. -/
theorem assess_agree (R : Rnd) (S S' : StdSort) (rng rng' : Rng G) (w w' : World) (o : ToolOptions)
    (f : Q → Q') (g : L → L') (ms : List (KwsMatch Q L)) (ms' : List (KwsMatch Q' L'))
    (groups : List (List (KwsMatch Q L))) (groups' gs : List (List (KwsMatch Q' L')))
    (dump : Option (List (KwsMatch Q L) × List (KwsMatch Q L)))
    (dump' : Option (List (KwsMatch Q' L') × List (KwsMatch Q' L'))) (r : Report Q L) (r' : Report Q' L')
    (hp : ms'.Perm (ms.map (renameMatch f g))) (hR : Ranked R ms) (hR' : Ranked R ms')
    (hperm : groups.flatten.Perm ms) (hsub : ∀ g ∈ groups, g.Sublist ms)
    (hperm' : groups'.flatten.Perm ms') (hsub' : ∀ g ∈ groups', g.Sublist ms')
    (hg : groups'.Perm gs) (hgs : List.Forall₂ (fun a b => b.Perm (a.map (renameMatch f g))) groups gs)
    (hc : o.collapse = true) (hw : w.writable = w'.writable)
    (h : assess R S rng w o ms groups dump = .ok r)
    (h' : assess R S' rng' w' o ms' groups' dump' = .ok r') : Agree R r r' := by
  obtain ⟨a1, a2, a3, a4⟩ := assess_values R S rng w o ms groups dump r hperm hsub hR hc h
  obtain ⟨b1, b2, b3, b4⟩ := assess_values R S' rng' w' o ms' groups' dump' r' hperm' hsub' hR' hc h'
  obtain ⟨c1, c2, c3, c4⟩ := assess_curves _ _ _ _ _ _ _ _ _ h
  obtain ⟨d1, d2, d3, d4⟩ := assess_curves _ _ _ _ _ _ _ _ _ h'
  have hcol := collapse_aligned f g hp hR hR'
  have hsubs : ∀ b ∈ gs, b.Sublist ms' := fun b hb => hsub' b (hg.mem_iff.2 hb)
  have hcols : ∀ a b, a ∈ groups → b ∈ gs → b.Perm (a.map (renameMatch f g)) →
      collapseMatches R a = collapseMatches R b := fun a b ha hb hab =>
    (collapse_aligned f g hab (hR.sublist (hsub a ha)) (hR'.sublist (hsubs b hb))).symm
  have haps : ∀ interp trapezoid, (groups.map (apOf R interp trapezoid)).Perm
      (groups'.map (apOf R interp trapezoid)) := by
    intro i t
    rw [forall₂_map_eq hgs (apOf R i t) (apOf R i t) (fun a b ha hb hab => by
      unfold apOf globalAP matchesPR
      rw [hcols a b ha hb hab]; rfl)]
    exact (hg.map _).symm
  have hnds : (groups.map (fun g => globalNDCG R g true)).Perm
      (groups'.map (fun g => globalNDCG R g true)) := by
    rw [forall₂_map_eq hgs (fun g => globalNDCG R g true) (fun g => globalNDCG R g true)
      (fun a b ha hb hab => by
        unfold globalNDCG
        rw [hcols a b ha hb hab]; rfl)]
    exact (hg.map _).symm
  have hlen : groups.length = groups'.length := by rw [hgs.length_eq, hg.length_eq]
  have hmap : ∃ aps aps', aps.Perm aps' ∧ r.mAP.value = roundedMean R aps ∧
      r'.mAP.value = roundedMean R aps' := by
    refine ⟨_, _, haps o.interp o.trapezoid, ?_, ?_⟩
    · rw [meanAP_roundedMean] at a2
      injection a2 with a2
      exact a2.symm
    · rw [meanAP_roundedMean] at b2
      injection b2 with b2
      exact b2.symm
  refine ⟨?_, hmap, ?_, ?_, ?_, ?_⟩
  · have : globalAP R ms' true o.interp o.trapezoid = globalAP R ms true o.interp o.trapezoid := by
      unfold globalAP matchesPR
      rw [hcol]; rfl
    rw [this, a1] at b1
    injection b1
  · rw [← a3, ← b3]
    unfold globalNDCG
    rw [hcol]; rfl
  · rw [meanNDCG_sum] at a4 b4
    injection a4 with a4
    injection b4 with b4
    rw [← a4, ← b4, hnds.sum_eq, hlen]
  · by_cases hgr : o.outputGrp = []
    · rw [c1 hgr, d1 hgr]
    · obtain ⟨c, e1, e2⟩ := c2 hgr
      obtain ⟨d, e3, e4⟩ := d2 hgr
      rw [e2, e4]
      have : globalRPCurve R w' o.outputGrp ms' o.curveSamples o.collapse o.interp o.trapezoid =
          globalRPCurve R w o.outputGrp ms o.curveSamples o.collapse o.interp o.trapezoid := by
        unfold globalRPCurve matchesPR writeCurveFile
        rw [hcol, hw, hc]
        rfl
      rw [this, e1] at e3
      injection e3 with e3
      rw [e3]
  · intro hx
    subst hx
    constructor
    · obtain ⟨aps, aps', p, e1, e2⟩ := hmap
      rw [e1, e2, roundedMean_exact p]
    · by_cases hm : o.outputMrp = []
      · rw [c3 hm, d3 hm]
      · obtain ⟨c, e1, e2⟩ := c4 hm
        obtain ⟨d, e3, e4⟩ := d4 hm
        rw [e2, e4]
        congr 1
        have heq : ∀ {Q L : Type} (w : World) (groups : List (List (KwsMatch Q L))),
            meanRPCurve Rnd.exact w o.outputMrp groups o.curveSamples o.collapse o.interp o.trapezoid =
            (groupCurves Rnd.exact (evenPoints Rnd.exact o.curveSamples) o.collapse o.interp o.trapezoid
              groups).bind fun yss =>
            (meanColumns Rnd.exact yss 0 (evenPoints Rnd.exact o.curveSamples).length).bind fun means =>
            writeCurveFile w o.outputMrp (evenPoints Rnd.exact o.curveSamples) means := fun _ _ => rfl
        rw [heq] at e1 e3
        cases y1 : groupCurves Rnd.exact (evenPoints Rnd.exact o.curveSamples) o.collapse o.interp
            o.trapezoid groups with
        | error e => rw [y1] at e1; cases e1
        | ok yss =>
          cases y2 : groupCurves Rnd.exact (evenPoints Rnd.exact o.curveSamples) o.collapse o.interp
              o.trapezoid groups' with
          | error e => rw [y2] at e3; cases e3
          | ok yss' =>
            have hyy : yss.Perm yss' := by
              have z1 := (groupCurves_eq _ _ _ _ _ _ _).1 y1
              have z2 := (groupCurves_eq _ _ _ _ _ _ _).1 y2
              have t1 : groups.map (groupCurve Rnd.exact (evenPoints Rnd.exact o.curveSamples) o.collapse
                  o.interp o.trapezoid) = yss.map .ok := forall₂_map_eq z1 _ _ (fun _ _ _ _ h => h)
              have t2 : groups'.map (groupCurve Rnd.exact (evenPoints Rnd.exact o.curveSamples) o.collapse
                  o.interp o.trapezoid) = yss'.map .ok := forall₂_map_eq z2 _ _ (fun _ _ _ _ h => h)
              have t3 : groups.map (groupCurve Rnd.exact (evenPoints Rnd.exact o.curveSamples) o.collapse
                  o.interp o.trapezoid) = gs.map (groupCurve Rnd.exact
                  (evenPoints Rnd.exact o.curveSamples) o.collapse o.interp o.trapezoid) :=
                forall₂_map_eq hgs _ _ (fun a b ha hb hab => by
                  unfold groupCurve matchesPR
                  rw [hcols a b ha hb hab, hc]; rfl)
              have t4 : (yss.map (Except.ok : List ℚ → Cpp (List ℚ))).Perm (yss'.map .ok) := by
                rw [← t1, ← t2, t3]
                exact (hg.map _).symm
              rwa [List.map_perm_map_iff (fun a b h => by injection h)] at t4
            rw [y1] at e1
            rw [y2] at e3
            simp only [Except.bind] at e1 e3
            cases m1 : meanColumns Rnd.exact yss 0 (evenPoints Rnd.exact o.curveSamples).length with
            | error e => rw [m1] at e1; cases e1
            | ok v =>
              cases m2 : meanColumns Rnd.exact yss' 0 (evenPoints Rnd.exact o.curveSamples).length with
              | error e => rw [m2] at e3; cases e3
              | ok v' =>
                have hv := meanColumns_perm hyy _ _ _ _ m1 m2
                rw [m1] at e1
                rw [m2, ← hv] at e3
                simp only at e1 e3
                have : writeCurveFile w' o.outputMrp (evenPoints Rnd.exact o.curveSamples) v =
                    writeCurveFile w o.outputMrp (evenPoints Rnd.exact o.curveSamples) v := by
                  unfold writeCurveFile
                  rw [hw]
                rw [this, e1] at e3
                injection e3

end

/-! ## The segmentation-based evaluation of renamed events -/

section
variable {μ μ' Q L Q' L' G : Type} [DecidableEq Q] [DecidableEq L] [Cmp Q] [LawfulCmp Q] [Cmp L]
  [LawfulCmp L] [DecidableEq Q'] [DecidableEq L'] [Cmp Q'] [LawfulCmp Q'] [Cmp L'] [LawfulCmp L']

/-- A tool that matches equal events. -/
structure SegKit {μ Q L : Type} [Cmp Q] [Cmp L] (kit : ToolKit μ (EventSet (Event Q L)) Q L) : Prop where
  index : kit.index = plainIndex Q L
  scorer : kit.scorer = trivialScorer

theorem trivial_hard {Q L : Type} [Cmp Q] [Cmp L] (r : Event Q L) (x : ScoredEvent Q L) (e : MatchError)
    (h : trivialScorer r x = .ok e) : (e.fp = 0 ∨ e.fp = 1) ∧ (e.fn = 0 ∨ e.fn = 1) := by
  unfold trivialScorer at h
  split at h <;> (injection h with h; subst h; simp)

theorem SegKit.safe {kit : ToolKit μ (EventSet (Event Q L)) Q L} (h : SegKit kit) : SafeKit kit where
  find refs x := by
    rw [h.index]
    exact ⟨_, plain_find refs _ x⟩
  score r x := by
    rw [h.scorer]
    unfold trivialScorer
    split <;> exact ⟨_, rfl⟩
  hard r x e he := by
    rw [h.scorer] at he
    exact trivial_hard r x e he

omit [DecidableEq L] [Cmp Q] [LawfulCmp Q] [Cmp L] [LawfulCmp L] [DecidableEq L'] [Cmp Q'] [LawfulCmp Q']
  [Cmp L'] [LawfulCmp L'] in
theorem usedRefs_rename {f : Q → Q'} (g : L → L') (hf : Function.Injective f) (q2g : List (Q × Q))
    (refs : List (Event Q L)) : usedRefs (q2g.map (Prod.map f f)) (refs.map (Event.rename f g)) =
      (usedRefs q2g refs).map (Event.rename f g) := by
  unfold usedRefs
  simp only [List.map_eq_nil_iff]
  split
  · rfl
  · unfold filterEvents
    rw [List.filter_map]
    congr 1
    refine List.filter_congr fun e _ => ?_
    simp only [Function.comp, Event.rename, find?_map_inj hf, Option.isSome_map]

omit [DecidableEq L] [Cmp Q] [LawfulCmp Q] [Cmp L] [LawfulCmp L] [DecidableEq L'] [Cmp Q'] [LawfulCmp Q']
  [Cmp L'] [LawfulCmp L'] in
theorem usedHyps_rename {f : Q → Q'} (g : L → L') (hf : Function.Injective f) (q2g : List (Q × Q))
    (hyps : List (ScoredEvent Q L)) :
    usedHyps (q2g.map (Prod.map f f)) (hyps.map (ScoredEvent.rename f g)) =
      (usedHyps q2g hyps).map (ScoredEvent.rename f g) := by
  unfold usedHyps
  simp only [List.map_eq_nil_iff]
  split
  · rfl
  · unfold filterEvents
    rw [List.filter_map]
    congr 1
    refine List.filter_congr fun e _ => ?_
    simp only [Function.comp, ScoredEvent.rename, Event.rename, find?_map_inj hf, Option.isSome_map]

omit [DecidableEq L] [Cmp Q] [LawfulCmp Q] [Cmp L] [LawfulCmp L] in
theorem usedRefs_mem_congr (q2g : List (Q × Q)) (refs refs' : List (Event Q L))
    (h : ∀ r, r ∈ refs ↔ r ∈ refs') (r : Event Q L) : r ∈ usedRefs q2g refs ↔ r ∈ usedRefs q2g refs' := by
  unfold usedRefs filterEvents
  split
  · exact h r
  · simp only [List.mem_filter, h]

omit [DecidableEq L] [Cmp Q] [LawfulCmp Q] [Cmp L] [LawfulCmp L] in
theorem usedHyps_perm (q2g : List (Q × Q)) {hyps hyps' : List (ScoredEvent Q L)}
    (h : hyps.Perm hyps') : (usedHyps q2g hyps).Perm (usedHyps q2g hyps') := by
  unfold usedHyps filterEvents
  split
  · exact h
  · exact h.filter _

/-- The matches are in decreasing order of score. -/
theorem evaluate_ranked {σ : Type} (R : Rnd) (S : StdSort) (kit : ToolKit μ σ Q L) (hk : SafeKit kit)
    (q2g : List (Q × Q)) (refs : List (Event Q L)) (hyps l : List (ScoredEvent Q L)) (s' : σ)
    (ms rep : List (KwsMatch Q L)) (hnan : ∀ h ∈ hyps, h.score ≠ .nan)
    (hR : R = Rnd.exact ∨ R.Faithful ∧ refs.length + hyps.length ≤ 2 ^ 24)
    (h1 : sortHyps S "desc".toList (usedHyps q2g hyps) = .ok l)
    (h2 : SimpleMatcher.run kit.index kit.scorer kit.refsSet (usedRefs q2g refs) l = .ok (s', ms, rep)) :
    Ranked R ms ∧ l.Perm (usedHyps q2g hyps) ∧
      l.Pairwise (fun a b => Flt.lt a.score b.score = false) := by
  obtain ⟨l2, c1, c2, c3⟩ := sortHyps_desc S (usedHyps q2g hyps)
    (fun x hx => hnan x (usedHyps_mem q2g hyps x hx))
  rw [h1] at c1
  injection c1 with c1
  subst c1
  obtain ⟨d1, d2⟩ := run_ranks _ _ _ _ _ _ _ _ h2
    (fun x hx => hnan x (usedHyps_mem q2g hyps x (c2.mem_iff.1 hx)))
  refine ⟨⟨d1, d2 c3, ?_⟩, c2, c3⟩
  rcases hR with hR | ⟨hR, hl⟩
  · exact Or.inl hR
  · refine Or.inr ⟨hR, ?_, run_hard _ _ _ _ _ _ _ _ h2 hk.hard⟩
    have f1 := run_length _ _ _ _ _ _ _ _ h2
    have f2 := used_length q2g refs hyps
    have f3 := c2.length_eq
    omega

/-- Two evaluations, the second of the renamed events in another order. -/
theorem evaluate_agree (R : Rnd) (S S' : StdSort) (rng rng' : Rng G)
    (kit : ToolKit μ (EventSet (Event Q L)) Q L) (kit' : ToolKit μ' (EventSet (Event Q' L')) Q' L')
    (hk : SegKit kit) (hk' : SegKit kit') (w w' : World) (o : ToolOptions)
    {f : Q → Q'} {g : L → L'} (hf : Function.Injective f) (hg : Function.Injective g)
    (q2g : List (Q × Q)) (refs : List (Event Q L)) (refs' : List (Event Q' L'))
    (hyps : List (ScoredEvent Q L)) (hyps' : List (ScoredEvent Q' L'))
    (hr : ∀ r, r ∈ refs' ↔ r ∈ refs.map (Event.rename f g))
    (hp : hyps'.Perm (hyps.map (ScoredEvent.rename f g)))
    (hnan : ∀ h ∈ hyps, h.score ≠ .nan)
    (hR : R = Rnd.exact ∨ R.Faithful ∧ refs.length + hyps.length ≤ 2 ^ 24 ∧
      refs'.length + hyps'.length ≤ 2 ^ 24)
    (hd : o.sort = "desc".toList) (hc : o.collapse = true) (hw : w.writable = w'.writable)
    (r : Report Q L) (r' : Report Q' L')
    (h : evaluate R S rng kit w o q2g refs hyps = .ok (.done r))
    (h' : evaluate R S' rng' kit' w' o (q2g.map (Prod.map f f)) refs' hyps' = .ok (.done r')) :
    Agree R r r' := by
  have hnan' : ∀ h ∈ hyps', h.score ≠ .nan := by
    intro x hx
    obtain ⟨y, hy, rfl⟩ := List.mem_map.1 (hp.mem_iff.1 hx)
    exact hnan y hy
  obtain ⟨l, s1, ms, rep, groups, a1, a2, a3, a4⟩ := evaluate_done _ _ _ _ _ _ _ _ _ _ h
  obtain ⟨l', s1', ms', rep', groups', b1, b2, b3, b4⟩ := evaluate_done _ _ _ _ _ _ _ _ _ _ h'
  rw [hd] at a1 b1
  obtain ⟨A1, A2, A3⟩ := evaluate_ranked R S kit hk.safe q2g refs hyps l s1 ms rep hnan
    (hR.imp id (fun h => ⟨h.1, h.2.1⟩)) a1 a2
  obtain ⟨B1, B2, B3⟩ := evaluate_ranked R S' kit' hk'.safe _ refs' hyps' l' s1' ms' rep' hnan'
    (hR.imp id (fun h => ⟨h.1, h.2.2⟩)) b1 b2
  obtain ⟨e1, e2, _⟩ := groupMatches_facts _ _ _ a3
  obtain ⟨e1', e2', _⟩ := groupMatches_facts _ _ _ b3
  have hpl : l'.Perm (l.map (ScoredEvent.rename f g)) := by
    refine B2.trans ((usedHyps_perm _ hp).trans ?_)
    rw [usedHyps_rename g hf]
    exact (A2.map _).symm
  have hrl : ∀ r, r ∈ usedRefs (q2g.map (Prod.map f f)) refs' ↔
      r ∈ (usedRefs q2g refs).map (Event.rename f g) := by
    intro r
    rw [usedRefs_mem_congr _ _ _ hr, usedRefs_rename g hf]
  obtain ⟨t, t', m, m', rp, rp', c1, c2, c3⟩ := seg_rename hf hg kit.refsSet kit'.refsSet
    (usedRefs q2g refs) (usedRefs (q2g.map (Prod.map f f)) refs') l l' hrl hpl
    (fun x hx => hnan x (usedHyps_mem q2g hyps x (A2.mem_iff.1 hx))) A3 B3
  rw [hk.index, hk.scorer, c1, Except.ok.injEq, Prod.mk.injEq, Prod.mk.injEq] at a2
  rw [hk'.index, hk'.scorer, c2, Except.ok.injEq, Prod.mk.injEq, Prod.mk.injEq] at b2
  obtain ⟨rfl, rfl, rfl⟩ := a2
  obtain ⟨rfl, rfl, rfl⟩ := b2
  have hhas : ∀ x ∈ m, x.ref ≠ none ∨ x.hyp ≠ none := by
    obtain ⟨hits, fns, rfl, _, _, _, h5⟩ := run_facts _ _ _ _ _ _ _ _ c1
    intro m hm
    rcases List.mem_append.1 hm with hm | hm
    · rcases h5 m hm with ⟨x, rfl⟩ | ⟨r, x, e, rfl, he, _⟩
      · simp [Match.makeFalsePositive]
      · simp [Match.make]
    · obtain ⟨r, _, rfl⟩ := List.mem_map.1 hm
      simp [Match.makeFalseNegative]
  obtain ⟨gr, gr', gs, g1, g2, g3, g4⟩ := groupMatches_rename hf g q2g m m' c3 hhas
  rw [g1] at a3
  rw [g2] at b3
  injection a3 with a3
  injection b3 with b3
  subst a3 b3
  exact assess_agree R S S' rng rng' w w' o f g m m' gr gr' gs _ _ r r' c3 A1 B1 e1 e2 e1' e2' g3 g4 hc
    hw a4 b4

end

end Kws
