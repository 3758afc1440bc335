import Verif.Spec.RunIntervals
import Verif.Lemmas.Bounds
import Verif.Props.IntervalPlace
import Verif.Props.HandedIn

/-!
# Lemmas about the confidence intervals of a run
-/

namespace Kws
open Spec

/-! ## Samples -/

section
variable {G M M' : Type}

theorem successive_exists (rng : Rng G) (groups : List (List M)) (n : ℕ) : ∀ g,
    ∃ cs, Successive (matchesByQuerySampler rng groups) g cs ∧ cs.length = n ∧ ∀ s ∈ cs, Resample groups s := by
  induction n with
  | zero => exact fun g => ⟨[], .nil g, rfl, by simp⟩
  | succ n ih =>
    intro g
    obtain ⟨c, g', h1, h2⟩ := C40_shape rng groups g
    obtain ⟨cs, h3, h4, h5⟩ := ih g'
    refine ⟨c :: cs, .cons g g' c cs h1 h3, by simp [h4], ?_⟩
    intro s hs
    rcases List.mem_cons.1 hs with rfl | hs
    · exact h2
    · exact h5 s hs

theorem bootstrapLoop_successive {C K : Type} [LinearOrder K] [Sub K] (rd : K → K) (statistic : C → Cpp K)
    (sampler : G → Cpp (C × G)) (v : K) (stat : C → K) {g : G} {cs : List C} (h : Successive sampler g cs)
    (hs : ∀ c ∈ cs, statistic c = .ok (stat c)) :
    bootstrapLoop rd statistic sampler v cs.length g = .ok (cs.map fun c => rd (stat c - v)) := by
  induction h with
  | nil => rfl
  | cons g g' c cs h1 _ ih =>
    have ih := ih (fun c hc => hs c (by simp [hc]))
    rw [List.length_cons, bootstrapLoop]
    simp only [h1, hs c (by simp), ih, bind, Except.bind, pure, Except.pure, List.map_cons]

theorem drawN_rename (rng : Rng G) (f : M → M') (o : List M) (max n : ℕ) : ∀ g,
    drawN rng (o.map f) max n g = (drawN rng o max n g).map (Prod.map (List.map f) id) := by
  induction n with
  | zero => intro g; rfl
  | succ n ih =>
    intro g
    unfold drawN
    obtain ⟨k, g1⟩ := rng.draw max g
    simp only [List.getElem?_map]
    cases o[k]? with
    | none => rfl
    | some m =>
      simp only [Option.map_some, bind, Except.bind, pure, Except.pure, ih]
      cases drawN rng o max n g1 <;> rfl

theorem drawGroups_rename (rng : Rng G) (f : M → M') (o : List (List M)) (max n : ℕ) : ∀ g,
    drawGroups rng (o.map (List.map f)) max n g =
      (drawGroups rng o max n g).map (Prod.map (List.map (List.map f)) id) := by
  induction n with
  | zero => intro g; rfl
  | succ n ih =>
    intro g
    unfold drawGroups
    obtain ⟨k, g0⟩ := rng.draw max g
    simp only [List.getElem?_map]
    cases o[k]? with
    | none => rfl
    | some m =>
      simp only [Option.map_some, bind, Except.bind, pure, Except.pure, drawN_rename, List.length_map]
      cases drawN rng m (m.length - 1) m.length g0 with
      | error e => rfl
      | ok t =>
        obtain ⟨s, g1⟩ := t
        simp only [Except.map, Prod.map, id, ih]
        cases drawGroups rng o max n g1 <;> rfl

theorem successive_rename (rng : Rng G) (f : M → M') (o : List (List M)) {g : G}
    {cs : List (List (List M'))} (h : Successive (matchesByQuerySampler rng (o.map (List.map f))) g cs) :
    ∃ ds, Successive (matchesByQuerySampler rng o) g ds ∧ cs = ds.map (List.map (List.map f)) := by
  induction h with
  | nil g => exact ⟨[], .nil g, rfl⟩
  | cons g g' c cs h1 _ ih =>
    obtain ⟨ds, d1, rfl⟩ := ih
    unfold matchesByQuerySampler at h1
    rw [List.length_map, drawGroups_rename] at h1
    cases hd : drawGroups rng o (o.length - 1) o.length g with
    | error e => rw [hd] at h1; cases h1
    | ok t =>
      rw [hd] at h1
      simp only [Except.map, Except.ok.injEq, Prod.map] at h1
      obtain ⟨rfl, rfl⟩ := Prod.mk.inj h1
      exact ⟨t.1 :: ds, .cons g t.2 t.1 ds hd d1, rfl⟩

theorem successive_resample (rng : Rng G) (o : List (List M)) {g : G} {cs : List (List (List M))}
    (h : Successive (matchesByQuerySampler rng o) g cs) : ∀ s ∈ cs, Resample o s := by
  induction h with
  | nil => simp
  | cons g g' c cs h1 _ ih =>
    intro s hs
    rcases List.mem_cons.1 hs with rfl | hs
    · obtain ⟨s', g'', e, hr⟩ := C40_shape rng o g
      rw [h1] at e
      injection e with e
      obtain ⟨rfl, _⟩ := Prod.mk.inj e
      exact hr
    · exact ih s hs

end

/-! ## Intervals -/

section
variable {G Q L : Type}

theorem ofSamples_of_ci {M K : Type} [LinearOrder K] [AddCommGroup K] (S : StdSort)
    (rng : Rng G) (groups : List (List M)) (alpha : ℚ) (seed : ℕ) (statistic : List (List M) → Cpp K)
    (number : List (List M) → K) (samples : List (List (List M)))
    (hd : Successive (matchesByQuerySampler rng groups) (rng.seed seed) samples)
    (hs : ∀ s ∈ samples, statistic s = .ok (number s)) (v lo hi : K)
    (h : percentileCIGrouped Rnd.exact S id rng groups samples.length alpha seed statistic = .ok (v, lo, hi)) :
    OfSamples alpha samples number v (lo, hi) := by
  obtain ⟨diffs, ds, li, ui, dl, du, _, a2, a3, a4, a5, a6, a7, rfl, rfl⟩ :=
    percentileCI_parts _ _ _ _ _ _ _ _ _ _ _ _ h
  rw [bootstrapLoop_successive id statistic _ v number hd hs] at a2
  injection a2 with a2
  subst a2
  obtain ⟨ds', s1, s2, s3⟩ := sort_lt S (samples.map fun c => id (number c - v))
  rw [a3] at s1
  injection s1 with s1
  subst s1
  have toSize_ok : ∀ x i, toSize x = .ok i → i = ⌊x⌋.toNat := by
    intro x i hx
    unfold toSize at hx
    split at hx
    · injection hx with hx
      exact hx.symm
    · cases hx
  have e1 := toSize_ok _ _ a4
  have e2 := toSize_ok _ _ a5
  subst e1 e2
  refine ⟨ds, s2, s3, dl, du, ?_, ?_, rfl⟩
  · rw [← a6]
    congr 3
    simp only [Rnd.exact, id]
    ring
  · rw [← a7]
    congr 3
    simp only [Rnd.exact, id]
    ring

theorem globalStatistic_ofSamples {K : Type} [LinearOrder K] [AddCommGroup K]
    (S : StdSort) (rng : Rng G) (b : Bool) (o : ToolOptions) (ms : List (KwsMatch Q L))
    (groups : List (List (KwsMatch Q L))) (plain : List (KwsMatch Q L) → Cpp K)
    (stat : List (List (KwsMatch Q L)) → Bool → Cpp K) (m : Metric K)
    (number : List (List (KwsMatch Q L)) → K) (samples : List (List (List (KwsMatch Q L))))
    (hd : Successive (matchesByQuerySampler rng groups) (rng.seed o.seed) samples)
    (hc : samples.length = o.samples)
    (hs : ∀ s ∈ samples, stat s true = .ok (number s))
    (h : globalStatistic Rnd.exact S id rng b o ms groups plain stat = .ok m) :
    m.ci.isSome = b ∧ ∀ ci ∈ m.ci, OfSamples o.alpha samples number m.value ci := by
  unfold globalStatistic at h
  cases b with
  | false =>
    simp only [Bool.false_eq_true, if_false, bind, Except.bind, pure, Except.pure] at h
    cases hp : plain ms with
    | error e => rw [hp] at h; cases h
    | ok v =>
      rw [hp] at h
      injection h with h
      rw [← h]
      exact ⟨rfl, by simp⟩
  | true =>
    simp only [if_true, bind, Except.bind, pure, Except.pure] at h
    split at h
    · cases h
    · rename_i t e1
      obtain ⟨v, lo, hi⟩ := t
      injection h with h
      rw [← h]
      refine ⟨rfl, ?_⟩
      rintro ci ⟨⟩
      rw [← hc] at e1
      exact ofSamples_of_ci S rng groups o.alpha o.seed _ number samples hd hs v lo hi e1

theorem hardMatch_resample {groups s : List (List (KwsMatch Q L))} (h : Resample groups s)
    (P : KwsMatch Q L → Prop) (hg : ∀ g ∈ groups, ∀ m ∈ g, P m) :
    (∀ g ∈ s, ∀ m ∈ g, P m) ∧ ∀ m ∈ s.flatten, P m := by
  have h1 : ∀ g ∈ s, ∀ m ∈ g, P m := by
    intro g hg' m hm
    obtain ⟨o, ho, _, h2⟩ := h.2 g hg'
    exact hg o ho m (h2 m hm)
  refine ⟨h1, fun m hm => ?_⟩
  obtain ⟨g, hg', hm⟩ := List.mem_flatten.1 hm
  exact h1 g hg' m hm

theorem assess_intervals [DecidableEq Q] (S : StdSort) (rng : Rng G) (w : World) (o : ToolOptions)
    (q2g : List (Q × Q)) (ms : List (KwsMatch Q L)) (groups : List (List (KwsMatch Q L)))
    (dump : Option (List (KwsMatch Q L) × List (KwsMatch Q L))) (r : Report Q L)
    (hh : ∀ m ∈ ms, HardMatch m) (hn : NoNaN ms)
    (hg : groupMatches q2g ms = .ok groups) (h : assess Rnd.exact S rng w o ms groups dump = .ok r) :
    ∃ keys samples arr, ShowsIntervals rng (groupOf q2g) o r ms keys samples arr := by
  obtain ⟨g1, g2, _⟩ := groupMatches_facts _ _ _ hg
  obtain ⟨keys, k1, k2, k3⟩ := groupMatches_events q2g ms (fun m hm => (hh m hm).event)
  rw [hg] at k3
  injection k3 with k3
  have hperm : keys.Perm (groupsIn (groupOf q2g) ms) :=
    (List.perm_ext_iff_of_nodup k1 (List.nodup_dedup _)).2 (fun k => by rw [k2, List.mem_dedup])
  obtain ⟨samples, d1, d2, d3⟩ := successive_exists rng groups o.samples (rng.seed o.seed)
  obtain ⟨a1, a2, a3, a4, _⟩ := assess_ok _ _ _ _ _ _ _ _ _ h
  have hgh : ∀ g ∈ groups, ∀ m ∈ g, HardMatch m := fun g hg m hm => hh m ((g2 g hg).subset hm)
  have hgn : ∀ g ∈ groups, ∀ m ∈ g, rank m ≠ .nan := fun g hg m hm => hn m ((g2 g hg).subset hm)
  have sh := fun s hs => hardMatch_resample (d3 s hs) HardMatch hgh
  have sn := fun s hs => hardMatch_resample (d3 s hs) (fun m => rank m ≠ .nan) hgn
  have har : ∀ l : List (KwsMatch Q L), (∀ m ∈ l, HardMatch m) → (∀ m ∈ l, rank m ≠ .nan) →
      (∀ m ∈ arrange S true l, HardMatch m) ∧ ∀ m ∈ arrange S true l, rank m ≠ .nan := by
    intro l h1 h2
    have hp := (arrange_spec S true l h2).2.1
    exact ⟨fun m hm => h1 m (hp.mem_iff.1 hm), fun m hm => h2 m (hp.mem_iff.1 hm)⟩
  have hgr : grouped (groupOf q2g) keys ms = groups := k3.symm
  refine ⟨keys, samples, arrange S true, hperm, hgr ▸ d1, d2, hgr ▸ d3, ?_, ?_, ?_, ?_, ?_⟩
  · exact fun s hs => ⟨(arrange_spec S true _ (sn s hs).2).1,
      fun g hg => (arrange_spec S true g ((sn s hs).1 g hg)).1⟩
  · refine globalStatistic_ofSamples S rng _ o ms groups _ _ _ _ samples d1 d2 (fun s hs => ?_) a1
    have ha := (arrange_spec S true _ (sn s hs).2).2.2
    unfold globalAPGrouped
    simp only [if_true] at ha ⊢
    rw [ha]
    obtain ⟨b1, b2⟩ := har _ (sh s hs).2 (sn s hs).2
    exact (measures_list _ o.collapse b1 (fun _ => b2)).1 o.interp o.trapezoid
  · refine globalStatistic_ofSamples S rng _ o [] groups (fun _ => _) _ _ _ samples d1 d2 (fun s hs => ?_) a2
    exact meanAP_list S o.collapse o.interp o.trapezoid true s (sh s hs).1 (sn s hs).1
  · refine globalStatistic_ofSamples S rng _ o ms groups _ _ _ _ samples d1 d2 (fun s hs => ?_) a3
    have ha := (arrange_spec S true _ (sn s hs).2).2.2
    unfold globalNDCGGrouped
    simp only [if_true] at ha ⊢
    rw [ha]
    obtain ⟨b1, b2⟩ := har _ (sh s hs).2 (sn s hs).2
    simp only [bind, Except.bind, pure, Except.pure]
    rw [(measures_list _ o.collapse b1 (fun _ => b2)).2]
  · refine globalStatistic_ofSamples S rng _ o [] groups (fun _ => _) _ _ _ samples d1 d2 (fun s hs => ?_) a4
    exact meanNDCG_list (n := (s.map List.length).sum) (ε := 0) (Or.inl ⟨rfl, rfl⟩) S o.collapse true s (sh s hs).1
      (sn s hs).1 (fun g hg => List.single_le_sum (by simp) _ (List.mem_map_of_mem hg))

theorem evaluate_intervals {μ σ : Type} [DecidableEq Q] [Cmp Q] [LawfulCmp Q] [Cmp L] [LawfulCmp L] [DecidableEq L]
    (S : StdSort) (rng : Rng G) (kit : ToolKit μ σ Q L)
    (hh : ∀ r x e, kit.scorer r x = .ok e → e.fp < 1 → e = ⟨0, 0⟩) (w : World)
    (o : ToolOptions) (q2g : List (Q × Q)) (refs : List (Event Q L)) (hyps : List (ScoredEvent Q L))
    (r : Report Q L) (hnan : ∀ h ∈ hyps, h.score ≠ .nan)
    (h : evaluate Rnd.exact S rng kit w o q2g refs hyps = .ok (.done r)) :
    ∃ (l : List (ScoredEvent Q L)) (s' : σ) (ms rep : List (KwsMatch Q L)),
      InOrder o.sort (usedHyps q2g hyps) l ∧ l.Perm (usedHyps q2g hyps) ∧
      SimpleMatcher.run kit.index kit.scorer kit.refsSet (usedRefs q2g refs) l = .ok (s', ms, rep) ∧
      r.dump = (if o.dumpMatches = [] then none else some (ms, rep)) ∧
      ShowsList (groupOf q2g) o r ms 0 ∧
      ∃ keys samples arr, ShowsIntervals rng (groupOf q2g) o r ms keys samples arr := by
  obtain ⟨l, s', ms, rep, groups, h1, h2, h3, h4⟩ := evaluate_done _ _ _ _ _ _ _ _ _ _ h
  obtain ⟨o1, o2⟩ := sortHyps_inOrder S o.sort _ l (fun x hx => hnan x (usedHyps_mem q2g hyps x hx)) h1
  have hm := run_hardMatch _ _ _ _ _ _ _ _ h2 hh
  have hk := (run_ranks _ _ _ _ _ _ _ _ h2
    (fun x hx => hnan x (usedHyps_mem q2g hyps x (o2.mem_iff.1 hx)))).1
  exact ⟨l, s', ms, rep, o1, o2, h2, (assess_ok _ _ _ _ _ _ _ _ _ h4).2.2.2.2,
    assess_list Rnd.exact S rng w o q2g ms groups _ r _ 0 (Or.inl ⟨rfl, rfl⟩) le_rfl hm hk h3 h4,
    assess_intervals S rng w o q2g ms groups _ r hm hk h3 h4⟩

end

/-! ## Renaming -/

section
variable {G Q L Q' L' : Type} [DecidableEq Q] [DecidableEq Q']

theorem ofSamples_map {C C' K : Type} [LinearOrder K] [Sub K] (F : C → C') (alpha : ℚ) (samples : List C)
    (number : C → K) (number' : C' → K) (hn : ∀ s ∈ samples, number' (F s) = number s) (value : K) (ci : K × K)
    (h : OfSamples alpha (samples.map F) number' value ci) : OfSamples alpha samples number value ci := by
  obtain ⟨devs, h1, h2, dl, du, h3, h4, h5⟩ := h
  rw [List.length_map] at h3 h4
  refine ⟨devs, ?_, h2, dl, du, h3, h4, h5⟩
  rw [List.map_map] at h1
  rwa [List.map_congr_left (g := fun s => number s - value) (fun s hs => by
    rw [Function.comp, hn s hs])] at h1

theorem showsIntervals_rename {Q'' L'' : Type} {f : Q → Q'} {g : L → L'} (hf : Function.Injective f)
    (hg : Function.Injective g) (rng : Rng G) (grp : Q → Q) (grp' : Q' → Q') (hgrp : ∀ q, grp' (f q) = f (grp q))
    (o : ToolOptions) (r : Report Q'' L'') (ms : List (KwsMatch Q L)) (keys' : List Q')
    (samples' : List (List (List (KwsMatch Q' L')))) (arr' : List (KwsMatch Q' L') → List (KwsMatch Q' L'))
    (h : ShowsIntervals rng grp' o r (ms.map (renameMatch f g)) keys' samples' arr') :
    ∃ keys samples arr, ShowsIntervals rng grp o r ms keys samples arr := by
  classical
  obtain ⟨keys, rfl⟩ : ∃ keys, keys' = List.map f keys := by
    have hr : keys' ∈ Set.range (List.map f) := by
      rw [Set.range_list_map]
      intro x hx
      have := h.allGroups.mem_iff.1 hx
      rw [groupsIn_rename g hf grp grp' hgrp] at this
      obtain ⟨y, _, rfl⟩ := List.mem_map.1 this
      exact ⟨y, rfl⟩
    obtain ⟨k, hk⟩ := hr
    exact ⟨k, hk.symm⟩
  have hgr : grouped grp' (keys.map f) (ms.map (renameMatch f g)) =
      (grouped grp keys ms).map (List.map (renameMatch f g)) := by
    unfold grouped
    rw [List.map_map, List.map_map]
    exact List.map_congr_left fun k _ => inGroup_rename g hf grp grp' hgrp k ms
  have hd := h.drawn
  rw [hgr] at hd
  obtain ⟨samples, d1, rfl⟩ := successive_rename rng (renameMatch f g) _ hd
  let arr : List (KwsMatch Q L) → List (KwsMatch Q L) := fun l =>
    if h : ∃ l2, Arranged true l l2 ∧ arr' (l.map (renameMatch f g)) = l2.map (renameMatch f g) then h.choose else l
  have key : ∀ l, Arranged true (l.map (renameMatch f g)) (arr' (l.map (renameMatch f g))) →
      Arranged true l (arr l) ∧ arr' (l.map (renameMatch f g)) = (arr l).map (renameMatch f g) := by
    intro l hl
    have hx := arranged_rename hf hg true l _ hl
    simp only [arr, dif_pos hx]
    exact hx.choose_spec
  have ha : ∀ s ∈ samples, (Arranged true s.flatten (arr s.flatten) ∧
      arr' (s.map (List.map (renameMatch f g))).flatten = (arr s.flatten).map (renameMatch f g)) ∧
      ∀ l ∈ s, Arranged true l (arr l) ∧ arr' (l.map (renameMatch f g)) = (arr l).map (renameMatch f g) := by
    intro s hs
    obtain ⟨a1, a2⟩ := h.arranged _ (List.mem_map_of_mem hs)
    rw [← List.map_flatten] at a1 ⊢
    exact ⟨key _ a1, fun l hl => key _ (a2 _ (List.mem_map_of_mem hl))⟩
  have hm := h.allGroups
  rw [groupsIn_rename g hf grp grp' hgrp, List.map_perm_map_iff hf] at hm
  refine ⟨keys, samples, arr, hm, d1, ?_, successive_resample rng _ d1, fun s hs => ⟨(ha s hs).1.1,
    fun l hl => ((ha s hs).2 l hl).1⟩, ⟨h.gAP.1, fun ci hc => ?_⟩, ⟨h.mAP.1, fun ci hc => ?_⟩,
    ⟨h.gNDCG.1, fun ci hc => ?_⟩, ⟨h.mNDCG.1, fun ci hc => ?_⟩⟩
  · have := h.count
    rwa [List.length_map] at this
  · refine ofSamples_map _ _ _ _ _ (fun s hs => ?_) _ _ (h.gAP.2 ci hc)
    rw [(ha s hs).1.2, listAP_rename]
  · refine ofSamples_map _ _ _ _ _ (fun s hs => ?_) _ _ (h.mAP.2 ci hc)
    rw [List.map_map]
    congr 1
    refine List.map_congr_left fun l hl => ?_
    rw [Function.comp, ((ha s hs).2 l hl).2, listAP_rename]
  · refine ofSamples_map _ _ _ _ _ (fun s hs => ?_) _ _ (h.gNDCG.2 ci hc)
    rw [(ha s hs).1.2, listNDCG_rename]
  · refine ofSamples_map _ _ _ _ _ (fun s hs => ?_) _ _ (h.mNDCG.2 ci hc)
    rw [List.map_map]
    congr 1
    refine List.map_congr_left fun l hl => ?_
    rw [Function.comp, ((ha s hs).2 l hl).2, listNDCG_rename]

end

/-! ## Constant numbers -/

section
variable {G Q L : Type} [DecidableEq Q]

theorem ofSamples_const {C K : Type} [LinearOrder K] [AddCommGroup K] (alpha : ℚ) (samples : List C)
    (number : C → K) (x value : K) (hv : value = x) (hs : ∀ s ∈ samples, number s = x) (ci : K × K)
    (h : OfSamples alpha samples number value ci) : ci = (x, x) := by
  subst hv
  obtain ⟨devs, h1, _, dl, du, h3, h4, rfl⟩ := h
  have key : ∀ d ∈ devs, d = 0 := by
    intro d hd
    obtain ⟨s, hs', rfl⟩ := List.mem_map.1 (h1.mem_iff.1 hd)
    rw [hs s hs', sub_self]
  rw [key dl (List.mem_of_getElem? h3), key du (List.mem_of_getElem? h4), sub_zero]

theorem average_const {α K : Type} [Field K] [CharZero K] (l : List α) (f : α → K) (x : K) (h : ∀ a ∈ l, f a = x)
    (hl : l ≠ [] ∨ x = 0) : average (l.map f) = x := by
  unfold average
  rw [List.map_congr_left h, List.length_map, List.map_const', List.sum_replicate, nsmul_eq_mul]
  by_cases h0 : l = []
  · subst h0
    rcases hl with hl | hl
    · exact absurd rfl hl
    · simp [hl]
  · have : (l.length : K) ≠ 0 := by
      have := List.length_pos_iff.2 h0
      exact_mod_cast this.ne'
    field_simp

/-- If all lists of the matches have the same numbers, all numbers and bounds are the same. -/
theorem allNumbers_const {Q' L' : Type} (rng : Rng G) (grp : Q → Q) (o : ToolOptions) (r : Report Q' L')
    (ms : List (KwsMatch Q L)) (keys : List Q) (samples : List (List (List (KwsMatch Q L))))
    (arr : List (KwsMatch Q L) → List (KwsMatch Q L)) (hl : ShowsList grp o r ms 0)
    (hi : ShowsIntervals rng grp o r ms keys samples arr) (x : ℚ)
    (hev : ∀ m ∈ ms, m.ref.isSome = true ∨ m.hyp.isSome = true)
    (H : ∀ l : List (KwsMatch Q L), (∀ m ∈ l, m ∈ ms) → (l ≠ [] ∨ ms = []) →
      listAP o.collapse o.interp o.trapezoid l = x ∧ listNDCG o.collapse l = x) : AllNumbers r x := by
  have hx : ms = [] → x = 0 := by
    intro h
    have := (H [] (by simp) (Or.inr h)).1
    rw [listAP_empty] at this
    exact this.symm
  have hP : ∀ l l' : List (KwsMatch Q L), l'.Perm l → (∀ m ∈ l, m ∈ ms) → (l ≠ [] ∨ ms = []) →
      listAP o.collapse o.interp o.trapezoid l' = x ∧ listNDCG o.collapse l' = x := by
    intro l l' hp h1 h2
    refine H l' (fun m hm => h1 m (hp.mem_iff.1 hm)) (h2.imp_left fun h h' => h ?_)
    subst h'
    exact hp.symm.eq_nil
  have hself : ms ≠ [] ∨ ms = [] := (em (ms = [])).symm
  have hgs : groupsIn grp ms ≠ [] ∨ x = 0 := by
    by_cases h0 : ms = []
    · exact Or.inr (hx h0)
    · left
      obtain ⟨m, hm⟩ := List.exists_mem_of_ne_nil _ h0
      obtain ⟨e, he⟩ : ∃ e, eventOf m = some e := by
        obtain ⟨a, b, c⟩ := m
        rcases hev _ hm with h | h
        · obtain ⟨e, he⟩ := Option.isSome_iff_exists.1 h
          simp only at he
          subst he
          exact ⟨e, rfl⟩
        · obtain ⟨e, he⟩ := Option.isSome_iff_exists.1 h
          simp only at he
          subst he
          cases a
          · exact ⟨e.base, rfl⟩
          · exact ⟨_, rfl⟩
      refine List.ne_nil_of_mem (a := grp e.query) ?_
      unfold groupsIn
      exact List.mem_dedup.2 (List.mem_map.2 ⟨e, List.mem_filterMap.2 ⟨m, hm, he⟩, rfl⟩)
  have hks : keys ≠ [] ∨ x = 0 := hgs.imp_left fun h h' => h (by
    have := hi.allGroups
    rw [h'] at this
    exact this.symm.eq_nil)
  have hgr : ∀ g ∈ groupsIn grp ms, ∀ l', l'.Perm (ms.filter (InGroup grp g)) →
      listAP o.collapse o.interp o.trapezoid l' = x ∧ listNDCG o.collapse l' = x := fun g hg l' hp =>
    hP _ l' hp (fun m hm => (List.mem_filter.1 hm).1) (Or.inl (group_nonempty ms grp hg))
  have hsg : ∀ s ∈ samples, ∀ l ∈ s, (∀ m ∈ l, m ∈ ms) ∧ l ≠ [] := by
    intro s hs l hl'
    obtain ⟨g, hg, d1, d2⟩ := (hi.sample s hs).2 l hl'
    unfold grouped at hg
    obtain ⟨k, hk, rfl⟩ := List.mem_map.1 hg
    refine ⟨fun m hm => (List.mem_filter.1 (d2 m hm)).1, fun h0 => ?_⟩
    rw [h0] at d1
    exact group_nonempty ms grp (hi.allGroups.mem_iff.1 hk) (List.length_eq_zero_iff.1 d1.symm)
  have hsn : ∀ s ∈ samples, s ≠ [] ∨ x = 0 := by
    intro s hs
    refine hks.imp_left fun h h' => h ?_
    have := (hi.sample s hs).1
    rw [h'] at this
    unfold grouped at this
    rw [List.length_map] at this
    exact List.length_eq_zero_iff.1 this.symm
  have hsm : ∀ s ∈ samples, ∀ l ∈ s, listAP o.collapse o.interp o.trapezoid (arr l) = x ∧
      listNDCG o.collapse (arr l) = x := fun s hs l hl' =>
    hP l _ (arranged_list_perm _ ((hi.arranged s hs).2 l hl')) (hsg s hs l hl').1 (Or.inl (hsg s hs l hl').2)
  have hsf : ∀ s ∈ samples, listAP o.collapse o.interp o.trapezoid (arr s.flatten) = x ∧
      listNDCG o.collapse (arr s.flatten) = x := by
    intro s hs
    refine hP _ _ (arranged_list_perm _ (hi.arranged s hs).1) (fun m hm => ?_) ?_
    · obtain ⟨l, h1, h2⟩ := List.mem_flatten.1 hm
      exact (hsg s hs l h1).1 m h2
    · by_cases h0 : ms = []
      · exact Or.inr h0
      · left
        have hne : s ≠ [] := by
          intro h'
          have h1 := (hi.sample s hs).1
          rw [h'] at h1
          unfold grouped at h1
          rw [List.length_map] at h1
          have h2 := hi.allGroups
          rw [List.length_eq_zero_iff.1 h1.symm] at h2
          have h3 := h2.symm.eq_nil
          obtain ⟨m, hm⟩ := List.exists_mem_of_ne_nil _ h0
          obtain ⟨e, he⟩ : ∃ e, eventOf m = some e := by
            obtain ⟨a, b, c⟩ := m
            have := hev _ hm
            cases a <;> cases b <;> simp_all [eventOf]
          have : grp e.query ∈ groupsIn grp ms := by
            unfold groupsIn
            exact List.mem_dedup.2 (List.mem_map.2 ⟨e, List.mem_filterMap.2 ⟨m, hm, he⟩, rfl⟩)
          rw [h3] at this
          simp at this
        obtain ⟨l, hl'⟩ := List.exists_mem_of_ne_nil _ hne
        obtain ⟨m, hm⟩ := List.exists_mem_of_ne_nil _ (hsg s hs l hl').2
        exact List.ne_nil_of_mem (List.mem_flatten.2 ⟨l, hl', hm⟩)
  have eq0 : ∀ a b : ℚ, |a - b| ≤ 0 → a = b := fun a b h => sub_eq_zero.1 (abs_nonpos_iff.1 h)
  obtain ⟨l1, a1, e1⟩ := hl.gAP
  obtain ⟨l2, a2, e2⟩ := hl.mAP
  obtain ⟨l3, a3, e3⟩ := hl.gNDCG
  obtain ⟨l4, a4, e4⟩ := hl.mNDCG
  have v1 : r.gAP.value = x := (eq0 _ _ e1).trans
    (hP ms l1 (arranged_list_perm _ a1) (fun _ h => h) hself).1
  have v2 : r.mAP.value = x := (eq0 _ _ e2).trans
    (average_const _ _ x (fun g hg => (hgr g hg _ (arranged_list_perm _ (a2 g))).1) hgs)
  have v3 : r.gNDCG.value = x := e3.trans (hP ms l3 (arranged_list_perm _ a3) (fun _ h => h) hself).2
  have v4 : r.mNDCG.value = x := e4.trans
    (average_const _ _ (x : ℝ) (fun g hg => (hgr g hg _ (arranged_list_perm _ (a4 g))).2)
      (hgs.imp_right fun h => by rw [h]; simp))
  refine ⟨⟨v1, fun ci hc => ofSamples_const _ _ _ _ _ v1 (fun s hs => (hsf s hs).1) ci (hi.gAP.2 ci hc)⟩,
    ⟨v2, fun ci hc => ofSamples_const _ _ _ _ _ v2 (fun s hs => ?_) ci (hi.mAP.2 ci hc)⟩,
    ⟨v3, fun ci hc => ofSamples_const _ _ _ _ _ v3 (fun s hs => (hsf s hs).2) ci (hi.gNDCG.2 ci hc)⟩,
    ⟨v4, fun ci hc => ofSamples_const _ _ _ _ _ v4 (fun s hs => ?_) ci (hi.mNDCG.2 ci hc)⟩⟩
  · exact average_const _ _ x (fun l hl' => (hsm s hs l hl').1) (hsn s hs)
  · exact average_const _ _ (x : ℝ) (fun l hl' => (hsm s hs l hl').2)
      ((hsn s hs).imp_right fun h => by rw [h]; simp)

/-- Without hits all numbers and bounds are 0. -/
theorem allNumbers_zero {Q' L' : Type} (rng : Rng G) (grp : Q → Q) (o : ToolOptions) (r : Report Q' L')
    (ms : List (KwsMatch Q L)) (keys : List Q) (samples : List (List (List (KwsMatch Q L))))
    (arr : List (KwsMatch Q L) → List (KwsMatch Q L)) (hl : ShowsList grp o r ms 0)
    (hi : ShowsIntervals rng grp o r ms keys samples arr)
    (hev : ∀ m ∈ ms, m.ref.isSome = true ∨ m.hyp.isSome = true) (h : ∀ m ∈ ms, IsHit m = false) :
    AllNumbers r 0 := by
  refine allNumbers_const rng grp o r ms keys samples arr hl hi 0 hev fun l hm _ => ?_
  have h0 : hitCount l = 0 := by
    unfold hitCount
    rw [List.countP_eq_zero]
    intro m hm'
    have := h m (hm m hm')
    unfold IsHit at this
    rw [this]
    simp
  refine ⟨listAP_none _ _ _ _ (fun m hm' => hev m (hm m hm')) h0, ?_⟩
  rw [(listNDCG_eq_zero _ _).2 h0]
  simp

/-- If there are only hits all numbers and bounds are 1. -/
theorem allNumbers_one {Q' L' : Type} (rng : Rng G) (grp : Q → Q) (o : ToolOptions) (r : Report Q' L')
    (ms : List (KwsMatch Q L)) (keys : List Q) (samples : List (List (List (KwsMatch Q L))))
    (arr : List (KwsMatch Q L) → List (KwsMatch Q L)) (hl : ShowsList grp o r ms 0)
    (hi : ShowsIntervals rng grp o r ms keys samples arr) (h0 : ms ≠ []) (h : ∀ m ∈ ms, IsHit m = true) :
    AllNumbers r 1 := by
  have hr : ∀ m ∈ ms, m.ref.isSome = true := fun m hm => by
    have := h m hm
    unfold IsHit at this
    simp only [Bool.and_eq_true] at this
    exact this.1
  refine allNumbers_const rng grp o r ms keys samples arr hl hi 1 (fun m hm => Or.inl (hr m hm)) fun l hm hn => ?_
  obtain ⟨⟨a1, a2⟩, b1, b2⟩ := MostlyHits.numbers (a := 1) (Or.inr rfl) (ms := l) ⟨fun m hm' => hr m (hm m hm'), by
    rw [List.countP_eq_length.2 (fun m hm' => h m (hm m hm')), one_mul]⟩ (hn.resolve_right h0) o.collapse
    o.interp o.trapezoid
  exact ⟨le_antisymm a2 a1, by push_cast at b1 ⊢; exact le_antisymm b2 b1⟩

end

end Kws
