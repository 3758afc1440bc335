import Verif.Lemmas.OneWrong
import Verif.Lemmas.BoxImproved
import Verif.Lemmas.Greedy
import Verif.Spec.OneWrong

/-! # Lemmas about one more wrong hypothesis: means, tallies and the matching of boxes -/

namespace Kws
open Spec

/-- The mean if one value is another. -/
theorem average_one {Q K : Type} [DecidableEq Q] [Field K] (gs gs' : List Q) (hg : gs.Nodup)
    (hp : gs'.Perm gs) (f f' : Q → K) (g0 : Q) (h0 : g0 ∈ gs) (h : ∀ g ∈ gs, g ≠ g0 → f' g = f g) :
    average (gs'.map f') = average (gs.map f) - (f g0 - f' g0) / gs.length := by
  have hq : gs.Perm (g0 :: gs.erase g0) := List.perm_cons_erase h0
  have e1 : (gs.map f).sum = f g0 + ((gs.erase g0).map f).sum := by
    rw [(hq.map f).sum_eq, List.map_cons, List.sum_cons]
  have e2 : (gs'.map f').sum = f' g0 + ((gs.erase g0).map f).sum := by
    rw [((hp.trans hq).map f').sum_eq, List.map_cons, List.sum_cons]
    congr 2
    refine List.map_congr_left fun g hg' => ?_
    have := (hg.mem_erase_iff).1 hg'
    exact h g this.2 this.1
  unfold average
  rw [e1, e2, List.length_map, List.length_map, hp.length_eq]
  ring

/-- From the tallies to the numbers. -/
theorem costsLittle {Q : Type} [DecidableEq Q] (interp t : Bool) (s : Flt) (S S' : List Flt) (c c' : Tally)
    (gs gs' : List Q) (T T' : Q → Tally × List Flt) (g0 : Q)
    (hs : s ≠ .nan) (hS : ∀ x ∈ S, x ≠ .nan) (hS' : ∀ x, x ∈ S' ↔ x ∈ s :: S) (h : AddsWrong s S c c')
    (hg : gs.Nodup) (hp : gs'.Perm gs) (h0 : g0 ∈ gs) 
    (hT : ∀ g ∈ gs, g ≠ g0 → (T' g).1 = (T g).1 ∧ descending (T' g).2 = descending (T g).2)
    (k1 : ∀ x ∈ (T g0).2, x ≠ .nan) (k2 : ∀ x, x ∈ (T' g0).2 ↔ x ∈ s :: (T g0).2)
    (k3 : AddsWrong s (T g0).2 (T g0).1 (T' g0).1) :
    CostsLittle (Numbers.of interp t (c, S) (gs.map T)) (Numbers.of interp t (c', S') (gs'.map T'))
      (c.reached s) ((T g0).1.reached s) gs.length c.refs (T g0).1.refs (s ∉ S)
      (s ∉ (T g0).2) 0 := by
  have d1 : descending S' = descending (s :: S) :=
    descending_congr (fun x hx => by
      rcases List.mem_cons.1 ((hS' x).1 hx) with rfl | hx
      · exact hs
      · exact hS x hx) hS'
  have d2 : descending (T' g0).2 = descending (s :: (T g0).2) :=
    descending_congr (fun x hx => by
      rcases List.mem_cons.1 ((k2 x).1 hx) with rfl | hx
      · exact hs
      · exact k1 x hx) k2
  have a1 := h.ap hs hS interp t
  have a2 := k3.ap hs k1 interp t
  have nd : ∀ (S : List Flt) (c c' : Tally), AddsWrong s S c c' → (∀ x ∈ S, x ≠ .nan) →
      c'.ndcg (descending (s :: S)) ≤ c.ndcg (descending S) := by
    intro S c c' h hS
    by_cases hr : c.refs = 0
    · unfold Tally.ndcg
      rw [if_pos hr, if_pos (h.refs.trans hr)]
    · exact (h.ndcg hs hS hr).1
  have hk : (0 : ℚ) < gs.length := by
    exact_mod_cast List.length_pos_of_mem h0
  have hk' : (0 : ℝ) < gs.length := by
    exact_mod_cast List.length_pos_of_mem h0
  have m1 := average_one gs gs' hg hp (fun g => (T g).1.ap interp t (descending (T g).2))
    (fun g => (T' g).1.ap interp t (descending (T' g).2)) g0 h0 (fun g hg hne => by
      simp only [(hT g hg hne).1, (hT g hg hne).2])
  have m2 := average_one gs gs' hg hp (fun g => (T g).1.ndcg (descending (T g).2))
    (fun g => (T' g).1.ndcg (descending (T' g).2)) g0 h0 (fun g hg hne => by
      simp only [(hT g hg hne).1, (hT g hg hne).2])
  have hm : ((T g0).1.ap interp t (descending (T g0).2) -
      (T' g0).1.ap interp t (descending (s :: (T g0).2))) / gs.length ≤
      1 / (gs.length * ((T g0).1.reached s + 1)) := by
    rw [← div_div, div_right_comm]
    refine div_le_div_of_nonneg_right ?_ hk.le
    have := a2.2
    unfold Tally.reached
    push_cast
    linarith
  have hm0 : 0 ≤ ((T g0).1.ap interp t (descending (T g0).2) -
      (T' g0).1.ap interp t (descending (s :: (T g0).2))) / (gs.length : ℚ) :=
    div_nonneg (by linarith [a2.1]) hk.le
  have hn0 : 0 ≤ ((T g0).1.ndcg (descending (T g0).2) -
      (T' g0).1.ndcg (descending (s :: (T g0).2))) / (gs.length : ℝ) :=
    div_nonneg (by linarith [nd _ _ _ k3 k1]) hk'.le
  simp only [d2] at m1 m2
  refine ⟨?_, ?_, ?_, ?_, ?_, fun ha hN => ?_, ?_, fun ha hN => ?_⟩
  · simp only [Numbers.of, d1, add_zero]
    exact a1.1
  · simp only [Numbers.of, d1, add_zero, Tally.reached]
    push_cast
    exact a1.2
  · simp only [Numbers.of, List.map_map, Function.comp_def, add_zero]
    rw [m1]
    linarith
  · simp only [Numbers.of, List.map_map, Function.comp_def, add_zero]
    rw [m1]
    linarith
  · simp only [Numbers.of, d1]
    exact nd _ _ _ h hS
  · simp only [Numbers.of, d1, Tally.reached]
    push_cast
    exact (h.ndcg hs hS hN).2 ha
  · simp only [Numbers.of, List.map_map, Function.comp_def]
    rw [m2]
    linarith
  · simp only [Numbers.of, List.map_map, Function.comp_def]
    rw [m2]
    have h1 := (k3.ndcg hs k1 hN).2 ha
    have h2 : ((T g0).1.ndcg (descending (T g0).2) -
        (T' g0).1.ndcg (descending (s :: (T g0).2))) / (gs.length : ℝ) ≤
        1 / (gs.length * (Real.logb 2 ((T g0).1.reached s + 2) * idealGain (T g0).1.refs)) := by
      rw [mul_comm (gs.length : ℝ), ← div_div]
      refine div_le_div_of_nonneg_right ?_ hk'.le
      unfold Tally.reached
      push_cast
      linarith
    linarith

section
variable {Q L : Type} [DecidableEq Q] [DecidableEq L]

theorem segTally_addsWrong (refs : List (Event Q L)) (hyps hyps' : List (ScoredEvent Q L))
    (x : ScoredEvent Q L) (hp : hyps'.Perm (x :: hyps)) (hx : x.base ∉ refs) :
    AddsWrong x.score (hyps.map (·.score)) (segTally refs hyps) (segTally refs hyps') := by
  rw [segTally_congr refs refs hyps' (x :: hyps) (fun _ => Iff.rfl) hp]
  refine ⟨rfl, fun t _ => ?_, fun t _ => ?_, fun t u ht hu htu => ⟨?_, ?_⟩, fun t u h => ⟨?_, ?_⟩,
    fun t h => ⟨?_, ?_⟩, fun t => ?_, fun t ht => ?_⟩
  · unfold segTally
    dsimp only
    congr 1
    refine Finset.filter_congr fun r hr => ?_
    rw [List.mem_toFinset] at hr
    constructor
    · rintro ⟨y, hy, e, hs⟩
      rcases List.mem_cons.1 hy with rfl | hy
      · exact absurd (e ▸ hr) hx
      · exact ⟨y, hy, e, hs⟩
    · rintro ⟨y, hy, e, hs⟩
      exact ⟨y, List.mem_cons_of_mem _ hy, e, hs⟩
  · unfold segTally
    dsimp only
    rw [List.countP_cons]
    congr 1
    cases hst : Flt.lt x.score t <;> simp [hx]
  · unfold segTally
    dsimp only
    refine Finset.card_le_card fun r hr => ?_
    rw [Finset.mem_filter] at hr ⊢
    obtain ⟨h1, y, hy, e, hs⟩ := hr
    exact ⟨h1, y, hy, e, Flt.lt_false_trans hu hs htu⟩
  · refine List.countP_mono_left fun y _ h => ?_
    simp only [decide_eq_true_eq] at h ⊢
    exact ⟨h.1, Flt.lt_false_trans hu h.2 htu⟩
  · unfold segTally
    dsimp only
    congr 1
    refine Finset.filter_congr fun r _ => ?_
    constructor
    · rintro ⟨y, hy, e, hs⟩
      exact ⟨y, hy, e, by rw [← h _ (List.mem_map_of_mem hy)]; exact hs⟩
    · rintro ⟨y, hy, e, hs⟩
      exact ⟨y, hy, e, by rw [h _ (List.mem_map_of_mem hy)]; exact hs⟩
  · unfold segTally
    dsimp only
    refine List.countP_congr fun y hy => ?_
    rw [h _ (List.mem_map_of_mem hy)]
  · unfold segTally
    dsimp only
    rw [Finset.card_eq_zero, Finset.filter_eq_empty_iff]
    rintro r _ ⟨y, hy, _, hs⟩
    rw [h _ (List.mem_map_of_mem hy)] at hs
    cases hs
  · refine List.countP_eq_zero.2 fun y hy hs => ?_
    simp only [decide_eq_true_eq] at hs
    rw [h _ (List.mem_map_of_mem hy)] at hs
    exact absurd hs.2 (by simp)
  · unfold segTally
    dsimp only
    exact Finset.card_filter_le _ _
  · obtain ⟨y, hy, rfl⟩ := List.mem_map.1 ht
    unfold segTally
    dsimp only
    by_cases hr : y.base ∈ refs
    · refine Nat.add_pos_left (Finset.card_pos.2 ⟨y.base, ?_⟩) _
      rw [Finset.mem_filter, List.mem_toFinset]
      exact ⟨hr, y, hy, rfl, Flt.lt_irrefl' _⟩
    · refine Nat.add_pos_right _ (List.countP_pos_iff.2 ⟨y, hy, ?_⟩)
      simp [hr, Flt.lt_irrefl']

/-- The numbers of the segmentation-based evaluation with one more wrong hypothesis. -/
theorem segNumbers_oneWrong (grp : Q → Q) (interp t : Bool) (refs : List (Event Q L))
    (hyps hyps' : List (ScoredEvent Q L)) (x : ScoredEvent Q L) (hp : hyps'.Perm (x :: hyps))
    (hx : x.base ∉ refs) (hn : ∀ y ∈ hyps', y.score ≠ .nan)
    (hg : grp x.base.query ∈ refs.map (grp ·.query) ++ hyps.map (grp ·.base.query)) :
    CostsLittle (segNumbers grp interp t refs hyps) (segNumbers grp interp t refs hyps')
      ((segTally refs hyps).reached x.score)
      ((segTally (refs.filter (grp ·.query = grp x.base.query))
        (hyps.filter (grp ·.base.query = grp x.base.query))).reached x.score)
      (refs.map (grp ·.query) ++ hyps.map (grp ·.base.query)).dedup.length
      (segTally refs hyps).refs (refs.filter (grp ·.query = grp x.base.query)).toFinset.card
      (x.score ∉ hyps.map (·.score))
      (x.score ∉ (hyps.filter (grp ·.base.query = grp x.base.query)).map (·.score)) 0 := by
  have hs : x.score ≠ .nan := hn x (hp.mem_iff.2 (by simp))
  have hS : ∀ y ∈ hyps, y.score ≠ .nan := fun y hy => hn y (hp.mem_iff.2 (by simp [hy]))
  refine costsLittle interp t x.score (hyps.map (·.score)) (hyps'.map (·.score))
    (segTally refs hyps) (segTally refs hyps')
    (refs.map (grp ·.query) ++ hyps.map (grp ·.base.query)).dedup
    (refs.map (grp ·.query) ++ hyps'.map (grp ·.base.query)).dedup
    (fun g => (segTally (refs.filter (grp ·.query = g)) (hyps.filter (grp ·.base.query = g)),
        (hyps.filter (grp ·.base.query = g)).map (·.score)))
    (fun g => (segTally (refs.filter (grp ·.query = g)) (hyps'.filter (grp ·.base.query = g)),
        (hyps'.filter (grp ·.base.query = g)).map (·.score)))
    (grp x.base.query) hs ?_ ?_ (segTally_addsWrong refs hyps hyps' x hp hx) (List.nodup_dedup _) ?_
    (List.mem_dedup.2 hg) ?_ ?_ ?_ ?_
  · intro s hs'
    obtain ⟨y, hy, rfl⟩ := List.mem_map.1 hs'
    exact hS y hy
  · intro s
    rw [(hp.map _).mem_iff, List.map_cons]
  · refine (List.perm_ext_iff_of_nodup (List.nodup_dedup _) (List.nodup_dedup _)).2 fun g => ?_
    rw [List.mem_dedup, List.mem_dedup, List.mem_append, List.mem_append, (hp.map _).mem_iff,
      List.map_cons, List.mem_cons]
    constructor
    · rintro (h | rfl | h)
      · exact .inl h
      · exact List.mem_append.1 hg
      · exact .inr h
    · rintro (h | h)
      · exact .inl h
      · exact .inr (.inr h)
  · intro g _ hne
    have hf : (hyps'.filter (grp ·.base.query = g)).Perm (hyps.filter (grp ·.base.query = g)) := by
      have := hp.filter (grp ·.base.query = g)
      rwa [List.filter_cons_of_neg (by simpa using fun h => hne h.symm)] at this
    refine ⟨segTally_congr _ _ _ _ (fun _ => Iff.rfl) hf, descending_congr (fun s hs' => ?_) fun s =>
      (hf.map _).mem_iff⟩
    obtain ⟨y, hy, rfl⟩ := List.mem_map.1 hs'
    exact hn y (List.mem_of_mem_filter hy)
  · intro s hs'
    obtain ⟨y, hy, rfl⟩ := List.mem_map.1 hs'
    exact hS y (List.mem_of_mem_filter hy)
  · intro s
    have := hp.filter (grp ·.base.query = grp x.base.query)
    rw [List.filter_cons_of_pos (by simp)] at this
    dsimp only
    rw [(this.map _).mem_iff, List.map_cons]
  · refine segTally_addsWrong _ _ _ x ?_ fun h => hx (List.mem_of_mem_filter h)
    have := hp.filter (grp ·.base.query = grp x.base.query)
    rwa [List.filter_cons_of_pos (by simp)] at this

/-- The match of a wrong hypothesis. -/
def wrongMatch (x : ScoredEvent Q L) : KwsMatch Q L := ⟨none, some x, ⟨1, 0⟩⟩

omit [DecidableEq Q] [DecidableEq L] in
theorem tallyOf_addsWrong (ms ms' : List (KwsMatch Q L)) (x : ScoredEvent Q L)
    (hp : ms'.Perm (wrongMatch x :: ms)) :
    AddsWrong x.score (scoresIn ms) (tallyOf ms) (tallyOf ms') := by
  rw [tallyOf_perm hp]
  have hm : ∀ m ∈ ms, ∀ y, m.hyp = some y → y.score ∈ scoresIn ms := fun m hm y hy =>
    List.mem_filterMap.2 ⟨m, hm, by rw [hy]; rfl⟩
  refine ⟨?_, fun t _ => ?_, fun t _ => ?_, fun t u ht hu htu => ⟨?_, ?_⟩, fun t u h => ⟨?_, ?_⟩,
    fun t h => ⟨?_, ?_⟩, fun t => ?_, fun t ht => ?_⟩
  · simp [tallyOf, wrongMatch]
  · simp [tallyOf, wrongMatch]
  · unfold tallyOf
    dsimp only
    rw [List.countP_cons]
    congr 1
    cases hst : Flt.lt x.score t <;> simp [wrongMatch, hst]
  · refine List.countP_mono_left fun m _ h => ?_
    simp only [Bool.and_eq_true] at h ⊢
    refine ⟨h.1, ?_⟩
    cases hy : m.hyp with
    | none => rw [hy] at h; simp at h
    | some y =>
      rw [hy] at h
      simp only [Option.any_some, Bool.not_eq_true'] at h ⊢
      exact Flt.lt_false_trans hu h.2 htu
  · refine List.countP_mono_left fun m _ h => ?_
    simp only [Bool.and_eq_true] at h ⊢
    refine ⟨h.1, ?_⟩
    cases hy : m.hyp with
    | none => rw [hy] at h; simp at h
    | some y =>
      rw [hy] at h
      simp only [Option.any_some, Bool.not_eq_true'] at h ⊢
      exact Flt.lt_false_trans hu h.2 htu
  · refine List.countP_congr fun m hm' => ?_
    cases hy : m.hyp with
    | none => simp
    | some y => simp [h _ (hm m hm' y hy)]
  · refine List.countP_congr fun m hm' => ?_
    cases hy : m.hyp with
    | none => simp
    | some y => simp [h _ (hm m hm' y hy)]
  · refine List.countP_eq_zero.2 fun m hm' hs => ?_
    cases hy : m.hyp with
    | none => simp [hy] at hs
    | some y => simp [hy, h _ (hm m hm' y hy)] at hs
  · refine List.countP_eq_zero.2 fun m hm' hs => ?_
    cases hy : m.hyp with
    | none => simp [hy] at hs
    | some y => simp [hy, h _ (hm m hm' y hy)] at hs
  · refine List.countP_mono_left fun m _ h => ?_
    simp only [Bool.and_eq_true] at h
    exact h.1
  · obtain ⟨m, hm', hy0⟩ := List.mem_filterMap.1 ht
    obtain ⟨y, hy, rfl⟩ := Option.map_eq_some_iff.1 hy0
    cases hr : m.ref with
    | none =>
      refine Nat.add_pos_right _ (List.countP_pos_iff.2 ⟨m, hm', ?_⟩)
      simp [hr, hy, Flt.lt_irrefl']
    | some r =>
      refine Nat.add_pos_left (List.countP_pos_iff.2 ⟨m, hm', ?_⟩) _
      simp [hr, hy, Flt.lt_irrefl']

omit [DecidableEq L] in
/-- The numbers of a list of matches with one more wrong hypothesis. -/
theorem matchNumbers_oneWrong (grp : Q → Q) (interp t : Bool) (ms ms' : List (KwsMatch Q L))
    (x : ScoredEvent Q L) (hp : ms'.Perm (wrongMatch x :: ms)) (hn : ∀ s ∈ scoresIn ms', s ≠ .nan)
    (hg : grp x.base.query ∈ (ms.filterMap eventOf).map (grp ·.query)) :
    CostsLittle (matchNumbers grp interp t ms) (matchNumbers grp interp t ms')
      ((tallyOf ms).reached x.score)
      ((tallyOf (ms.filter (InGroup grp (grp x.base.query)))).reached x.score)
      ((ms.filterMap eventOf).map (grp ·.query)).dedup.length
      (tallyOf ms).refs (tallyOf (ms.filter (InGroup grp (grp x.base.query)))).refs (x.score ∉ scoresIn ms)
      (x.score ∉ scoresIn (ms.filter (InGroup grp (grp x.base.query)))) 0 := by
  have hsc : (scoresIn ms').Perm (x.score :: scoresIn ms) := by
    have := hp.filterMap (fun m => m.hyp.map (·.score))
    exact this
  have hs : x.score ≠ .nan := hn _ (hsc.mem_iff.2 (by simp))
  have hS : ∀ s ∈ scoresIn ms, s ≠ .nan := fun s hs => hn s (hsc.mem_iff.2 (by simp [hs]))
  have hev : (ms'.filterMap eventOf).Perm (x.base :: ms.filterMap eventOf) := hp.filterMap eventOf
  have sub : ∀ g, ∀ s ∈ scoresIn (ms.filter (InGroup grp g)), s ∈ scoresIn ms := by
    intro g s hs'
    obtain ⟨m, hm, h⟩ := List.mem_filterMap.1 hs'
    exact List.mem_filterMap.2 ⟨m, List.mem_of_mem_filter hm, h⟩
  have sub' : ∀ g, ∀ s ∈ scoresIn (ms'.filter (InGroup grp g)), s ∈ scoresIn ms' := by
    intro g s hs'
    obtain ⟨m, hm, h⟩ := List.mem_filterMap.1 hs'
    exact List.mem_filterMap.2 ⟨m, List.mem_of_mem_filter hm, h⟩
  have own : (ms'.filter (InGroup grp (grp x.base.query))).Perm
      (wrongMatch x :: ms.filter (InGroup grp (grp x.base.query))) := by
    have := hp.filter (InGroup grp (grp x.base.query))
    rwa [List.filter_cons_of_pos (by simp [InGroup, eventOf, wrongMatch])] at this
  refine costsLittle interp t x.score (scoresIn ms) (scoresIn ms') (tallyOf ms) (tallyOf ms')
    ((ms.filterMap eventOf).map (grp ·.query)).dedup ((ms'.filterMap eventOf).map (grp ·.query)).dedup
    (fun g => (tallyOf (ms.filter (InGroup grp g)), scoresIn (ms.filter (InGroup grp g))))
    (fun g => (tallyOf (ms'.filter (InGroup grp g)), scoresIn (ms'.filter (InGroup grp g))))
    (grp x.base.query) hs hS (fun s => hsc.mem_iff) (tallyOf_addsWrong ms ms' x hp) (List.nodup_dedup _) ?_
    (List.mem_dedup.2 hg) ?_ (fun s hs' => hS s (sub _ s hs')) ?_ (tallyOf_addsWrong _ _ x own)
  · refine (List.perm_ext_iff_of_nodup (List.nodup_dedup _) (List.nodup_dedup _)).2 fun g => ?_
    rw [List.mem_dedup, List.mem_dedup, (hev.map _).mem_iff, List.map_cons, List.mem_cons]
    constructor
    · rintro (rfl | h)
      · exact hg
      · exact h
    · exact .inr
  · intro g _ hne
    have hf : (ms'.filter (InGroup grp g)).Perm (ms.filter (InGroup grp g)) := by
      have := hp.filter (InGroup grp g)
      rwa [List.filter_cons_of_neg (by
        simpa [InGroup, eventOf, wrongMatch] using fun h => hne h.symm)] at this
    refine ⟨tallyOf_perm hf, descending_congr (fun s hs' => hn s (sub' g s hs')) fun s => ?_⟩
    exact (hf.filterMap (fun m => m.hyp.map (·.score))).mem_iff
  · intro s
    exact (own.filterMap (fun m => m.hyp.map (·.score))).mem_iff

end

section
variable {RE HE : Type}

theorem greedy_earlier {overl : HE → List RE} {score : RE → HE → MatchError}
    {earlier earlier' entries rep : List (Match RE HE)} {hs : List HE}
    (h : Greedy overl score earlier hs entries rep) (he : ∀ r, Taken earlier' r ↔ Taken earlier r) :
    Greedy overl score earlier' hs entries rep := by
  induction h generalizing earlier' with
  | nil => exact .nil _
  | cons earlier y hs entry repeats entries repeated d1 d2 _ ih =>
    refine .cons _ _ _ _ _ _ _ ?_ ?_ (ih fun r => ?_)
    · unfold Deserves at d1 ⊢
      simpa only [he] using d1
    · unfold DeservesRepeated at d2 ⊢
      simpa only [he] using d2
    · have := he r
      unfold Taken at this ⊢
      grind

/-- Without a hypothesis that no reference is accepted for, the others get what they got. -/
theorem greedy_without {overl : HE → List RE} {score : RE → HE → MatchError} (x : HE)
    (hx : ∀ r ∈ overl x, 1 ≤ (score r x).fp) (l1 l2 : List HE) :
    ∀ {earlier entries rep : List (Match RE HE)},
    Greedy overl score earlier (l1 ++ x :: l2) entries rep →
    ∃ e1 e2 rep', entries = e1 ++ ⟨none, some x, ⟨1, 0⟩⟩ :: e2 ∧
      Greedy overl score earlier (l1 ++ l2) (e1 ++ e2) rep' := by
  induction l1 with
  | nil =>
    intro earlier entries rep h
    generalize hl : [] ++ x :: l2 = l at h
    cases h with
    | nil => simp at hl
    | cons _ y hs entry repeats entries' repeated d1 d2 g =>
      simp only [List.nil_append, List.cons.injEq] at hl
      obtain ⟨rfl, rfl⟩ := hl
      have : entry = [⟨none, some x, ⟨1, 0⟩⟩] := by
        rcases d1 with d | ⟨a, r, b, e, hr, _⟩ | ⟨⟨r, hr, hlt⟩, _⟩
        · exact d.2
        · exact absurd hr (not_lt.2 (hx r (by rw [e]; simp)))
        · exact absurd hlt (not_lt.2 (hx r hr))
      subst this
      refine ⟨[], entries', repeated, rfl, greedy_earlier g fun r => ?_⟩
      unfold Taken
      simp
  | cons y l1 ih =>
    intro earlier entries rep h
    generalize hl : y :: l1 ++ x :: l2 = l at h
    cases h with
    | nil => simp at hl
    | cons _ z hs entry repeats entries' repeated d1 d2 g =>
      simp only [List.cons_append, List.cons.injEq] at hl
      obtain ⟨rfl, rfl⟩ := hl
      obtain ⟨e1, e2, rep', rfl, g'⟩ := ih g
      refine ⟨entry ++ e1, e2, repeats ++ rep', by simp, ?_⟩
      rw [List.append_assoc, List.cons_append]
      exact .cons _ _ _ _ _ _ _ d1 d2 g'

end

theorem verdict_bad {p : Prop} [Decidable p] (h : ¬ p) : 1 ≤ (verdict p).fp := by
  unfold verdict
  rw [if_neg h]
theorem taken_middle {RE HE : Type} (e1 e2 : List (Match RE HE)) (x : HE) (e : MatchError) (r : RE) :
    Taken (e1 ++ ⟨none, some x, e⟩ :: e2) r ↔ Taken (e1 ++ e2) r := by
  unfold Taken
  grind

section
variable {refs : List (Event Str (DocBox Str UInt32))}
  {hyps hyps' : List (ScoredEvent Str (DocBox Str UInt32))}
  {ms' rep' : List (KwsMatch Str (DocBox Str UInt32))}

/-- The matching without a wrong hypothesis. -/
theorem exact_without (x : ScoredEvent Str (DocBox Str UInt32)) (hp : hyps'.Perm (x :: hyps))
    (hx : ¬ Fits refs x) (h : ExactBoxMatching refs hyps' ms' rep') :
    ∃ ms rep, ExactBoxMatching refs hyps ms rep ∧ ms'.Perm (wrongMatch x :: ms) := by
  obtain ⟨l, ov, en, mi, a1, a2, a3, a4, a5, a6, rfl⟩ := h
  have hl : l.Perm (x :: hyps) := a1.trans hp
  obtain ⟨l1, l2, rfl⟩ := List.append_of_mem (hl.mem_iff.2 (List.mem_cons_self))
  obtain ⟨e1, e2, rep, rfl, g⟩ := greedy_without x (fun r hr => verdict_bad (fun hc => by
    obtain ⟨b1, b2, b3⟩ := ((a3 x (List.mem_append_right _ List.mem_cons_self)).1 r).1 hr
    exact hx ⟨r, b1, b2, b3, hc⟩)) l1 l2 a4
  refine ⟨(e1 ++ e2) ++ mi.map (fun r => ⟨some r, none, Outcome.falseNeg.error⟩), rep,
    ⟨l1 ++ l2, ov, e1 ++ e2, mi, ?_, ?_, fun y hy => a3 y ?_, g, a5, fun r => ?_, rfl⟩, ?_⟩
  · exact (List.perm_cons x).1 (List.perm_middle.symm.trans hl)
  · refine a2.sublist ?_
    exact List.Sublist.append_left (List.sublist_cons_self x l2) l1
  · rcases List.mem_append.1 hy with hy | hy
    · exact List.mem_append_left _ hy
    · exact List.mem_append_right _ (List.mem_cons_of_mem _ hy)
  · rw [a6, taken_middle]
  · rw [List.append_assoc, List.cons_append, List.append_assoc]
    exact List.perm_middle

end
end Kws
