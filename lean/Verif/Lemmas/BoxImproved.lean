import Verif.Spec.BoxRanking
import Verif.Lemmas.BoxMonotone
import Verif.Lemmas.Hits
import Verif.Props.Hits

/-! # Better hypotheses in the matching of boxes -/

namespace Kws
open Spec

/-! ## How many hypotheses pick something -/

section
variable {RE HE : Type}

theorem picked_sublist (pref : HE → List RE) {a b : List HE} (h : a.Sublist b) :
    ∀ T : Set RE, picked pref T a ≤ picked pref T b := by
  induction h with
  | slnil => intro T; exact le_rfl
  | cons x _ ih => intro T; exact (ih T).trans (picked_more pref [] x _ T).1
  | cons_cons x _ ih =>
    intro T
    cases hf : (pref x).find? (freeOf T) with
    | none => rw [picked_none hf, picked_none hf]; exact ih T
    | some r => rw [picked_some hf, picked_some hf]; exact Nat.add_le_add_right (ih _) 1

theorem picked_useful (pref : HE → List RE) (p : HE → Bool) (l : List HE)
    (h : ∀ x ∈ l, p x = false → pref x = []) : ∀ T : Set RE, picked pref T (l.filter p) = picked pref T l := by
  induction l with
  | nil => intro T; rfl
  | cons x l ih =>
    intro T
    have ih := ih fun y hy => h y (by simp [hy])
    cases hp : p x with
    | true =>
      rw [List.filter_cons_of_pos hp]
      cases hf : (pref x).find? (freeOf T) with
      | none => rw [picked_none hf, picked_none hf]; exact ih T
      | some r => rw [picked_some hf, picked_some hf, ih]
    | false =>
      rw [List.filter_cons_of_neg (by simp [hp]), picked_none (by rw [h x (by simp) hp]; rfl)]
      exact ih T

/-- At most as many hypotheses pick something as there are free references to pick. -/
theorem picked_le [DecidableEq RE] (pref : HE → List RE) (l : List HE) : ∀ T : Set RE,
    picked pref T l ≤ ((l.flatMap pref).toFinset.filter (freeOf T · = true)).card := by
  induction l with
  | nil => intro T; simp [picked]
  | cons x l ih =>
    intro T
    cases hf : (pref x).find? (freeOf T) with
    | none =>
      rw [picked_none hf]
      refine (ih T).trans (Finset.card_le_card fun r hr => ?_)
      rw [Finset.mem_filter, List.mem_toFinset] at hr ⊢
      exact ⟨by rw [List.flatMap_cons]; exact List.mem_append_right _ hr.1, hr.2⟩
    | some r =>
      rw [picked_some hf]
      have h1 : r ∉ T := by simpa using List.find?_some hf
      have h2 := List.mem_of_find?_eq_some hf
      have h3 : r ∉ (l.flatMap pref).toFinset.filter (freeOf (insert r T) · = true) := by simp
      refine (Nat.add_le_add_right (ih _) 1).trans ?_
      rw [← Finset.card_insert_of_notMem h3]
      refine Finset.card_le_card fun y hy => ?_
      rw [Finset.mem_insert, Finset.mem_filter, List.mem_toFinset, freeOf_iff] at hy
      rw [Finset.mem_filter, List.mem_toFinset, List.flatMap_cons, List.mem_append, freeOf_iff]
      rcases hy with rfl | ⟨hy, hT⟩
      · exact ⟨Or.inl h2, h1⟩
      · exact ⟨Or.inr hy, fun h => hT (Set.mem_insert_of_mem _ h)⟩

/-- If no hypothesis has a choice, all free references are picked. -/
theorem picked_single [DecidableEq RE] (pref : HE → List RE) (l : List HE)
    (h : ∀ x ∈ l, ∀ r ∈ pref x, ∀ r' ∈ pref x, r = r') : ∀ T : Set RE,
    picked pref T l = ((l.flatMap pref).toFinset.filter (freeOf T · = true)).card := by
  induction l with
  | nil => intro T; simp [picked]
  | cons x l ih =>
    intro T
    have ih := ih fun y hy => h y (by simp [hy])
    have hx := h x (by simp)
    cases hf : (pref x).find? (freeOf T) with
    | none =>
      rw [picked_none hf, ih T]
      congr 1
      ext y
      rw [Finset.mem_filter, Finset.mem_filter, List.mem_toFinset, List.mem_toFinset, List.flatMap_cons,
        List.mem_append, freeOf_iff]
      have : y ∈ pref x → y ∈ T := fun hy => by
        simpa using (List.find?_eq_none.1 hf) y hy
      tauto
    | some r =>
      rw [picked_some hf, ih]
      have h1 : r ∉ T := by simpa using List.find?_some hf
      have h2 := List.mem_of_find?_eq_some hf
      have h3 : r ∉ (l.flatMap pref).toFinset.filter (freeOf (insert r T) · = true) := by simp
      rw [← Finset.card_insert_of_notMem h3]
      congr 1
      ext y
      rw [Finset.mem_insert, Finset.mem_filter, Finset.mem_filter, List.mem_toFinset, List.mem_toFinset,
        List.flatMap_cons, List.mem_append, freeOf_iff, freeOf_iff, Set.mem_insert_iff]
      constructor
      · rintro (rfl | ⟨hy, hT⟩)
        · exact ⟨Or.inl h2, h1⟩
        · exact ⟨Or.inr hy, fun h => hT (Or.inr h)⟩
      · rintro ⟨hy | hy, hT⟩
        · exact Or.inl (hx y hy r h2)
        · by_cases e : y = r
          · exact Or.inl e
          · exact Or.inr ⟨hy, fun h => h.elim e hT⟩

/-- The false positives among some hypotheses. -/
theorem greedy_countWrong {overl : HE → List RE} {score : RE → HE → MatchError}
    {earlier entries rep : List (Match RE HE)} {hs : List HE}
    (h : Greedy overl score earlier hs entries rep) (p : HE → Bool) :
    entries.countP (fun m => m.ref.isNone && m.hyp.any p) =
      hs.countP (fun x => decide (∀ r ∈ overl x, 1 ≤ (score r x).fp) && p x) := by
  induction h with
  | nil => rfl
  | cons earlier h hs entry repeats entries repeated d1 _ _ ih =>
    rw [List.countP_append, ih, List.countP_cons, Nat.add_comm]
    congr 1
    rcases d1 with ⟨d1, rfl⟩ | ⟨l1, r, l2, e, d1, _, _, rfl⟩ | ⟨⟨r, hr, d1⟩, _, rfl⟩
    · have d1 : ∀ r ∈ overl h, 1 ≤ (score r h).fp := d1
      rw [decide_eq_true d1]
      simp
    · rw [if_neg]
      · simp
      · simp only [Bool.and_eq_true, decide_eq_true_eq, not_and]
        intro h0
        have := h0 r (by simp [e])
        exact absurd d1 (not_lt.2 this)
    · rw [if_neg]
      · simp
      · simp only [Bool.and_eq_true, decide_eq_true_eq, not_and]
        intro h0
        have := h0 r hr
        exact absurd d1 (not_lt.2 this)

end

/-! ## The matching of boxes -/

section
variable {refs : List (Event Str (DocBox Str UInt32))}
  {hyps hyps' : List (ScoredEvent Str (DocBox Str UInt32))}
  {ms rep ms' rep' : List (KwsMatch Str (DocBox Str UInt32))}

/-- The matching consists of those of the queries. -/
theorem exactBoxMatching_filter (h : ExactBoxMatching refs hyps ms rep) (P : Str → Bool) :
    ExactBoxMatching (refs.filter (fun r => P r.query)) (hyps.filter (fun x => P x.base.query))
      (ms.filter (about P)) (rep.filter (about P)) := by
  obtain ⟨l, overl, entries, missed, h1, h2, h3, h4, h5, h6, rfl⟩ := h
  rw [← keptMatch_about]
  refine ⟨l.filter (fun x => P x.base.query), overl, entries.filter (keptMatch _ _),
    missed.filter (fun r => P r.query), h1.filter _, h2.filter _, ?_,
    h4.filter _ _ (fun x hx r hr => ?_) _ (fun _ _ => Iff.rfl), h5.filter _, ?_, ?_⟩
  · intro x hx
    obtain ⟨hx1, hx2⟩ := List.mem_filter.1 hx
    obtain ⟨b, c⟩ := h3 x hx1
    refine ⟨fun r => ?_, c⟩
    rw [b, List.mem_filter]
    constructor
    · rintro ⟨a, b, c⟩
      exact ⟨⟨a, by rw [b]; exact hx2⟩, b, c⟩
    · rintro ⟨⟨a, _⟩, b, c⟩
      exact ⟨a, b, c⟩
  · rw [(((h3 x hx).1 r).1 hr).2.1]
  · intro r
    rw [List.mem_filter, List.mem_filter, h6]
    constructor
    · rintro ⟨⟨a, b⟩, c⟩
      refine ⟨⟨a, c⟩, ?_⟩
      rintro ⟨m, hm, hr⟩
      exact b ⟨m, (List.mem_filter.1 hm).1, hr⟩
    · rintro ⟨⟨a, c⟩, b⟩
      refine ⟨⟨a, ?_⟩, c⟩
      rintro ⟨m, hm, hr⟩
      refine b ⟨m, List.mem_filter.2 ⟨hm, ?_⟩, hr⟩
      unfold keptMatch
      rw [hr]
      exact c
  · rw [List.filter_append, List.filter_map]
    rfl

theorem turn_score {a b : ScoredEvent Str (DocBox Str UInt32)} (ha : a.score ≠ .nan) (hb : b.score ≠ .nan)
    (h : TurnBefore a b ∨ a = b) : Flt.lt a.score b.score = false := by
  rcases h with h | rfl
  · have h2 := turnBefore_asymm ha hb h
    rw [← turnBefore_iff b a ha] at h2
    by_contra hlt
    refine h2 ?_
    show ScoredEvent.lt a b = true
    rw [scored_lt_iff a b ha]
    exact Or.inl ((flt_lt_iff _ _).1 (by simpa using hlt))
  · exact Flt.lt_irrefl' _

/-- Hits and false positives with at least a given score. -/
theorem exact_above (h : ExactBoxMatching refs hyps ms rep) (hn : ∀ x ∈ hyps, x.score ≠ .nan) :
    ∃ (l : List (ScoredEvent Str (DocBox Str UInt32))) (pref : _ → List (Event Str (DocBox Str UInt32))),
      l.Perm hyps ∧ l.Pairwise (fun a b => TurnBefore a b ∨ a = b) ∧
      (∀ h ∈ l, (∀ r, r ∈ pref h ↔ r ∈ refs ∧ BoxPair r h) ∧
        (pref h).Pairwise (OverlapBefore (· < ·) BoxEventLt (commonU · h.base))) ∧
      (∀ s, foundAbove s ms = picked pref ∅ (l.filter (fun x => !Flt.lt x.score s))) ∧
      ∀ s, wrongAbove s ms =
        hyps.countP (fun x => decide (¬ Fits refs x) && !Flt.lt x.score s) := by
  obtain ⟨l, overl, entries, missed, h1, h2, h3, h4, h5, h6, rfl⟩ := h
  have hpref : ∀ x ∈ l, ∀ r, (r ∈ overl x ∧ (verdict (areaU x.base ≤ 2 * commonU r x.base)).fp < 1) ↔
      r ∈ refs ∧ BoxPair r x := by
    intro x hx r
    rw [verdict_lt, (h3 x hx).1]
    unfold BoxPair
    tauto
  refine ⟨l, fun h => (overl h).filter
    (fun r => (verdict (areaU h.base ≤ 2 * commonU r h.base)).fp < 1), h1, h2,
    fun x hx => ⟨fun r => ?_, (h3 x hx).2.filter _⟩, fun s => ?_, fun s => ?_⟩
  · rw [List.mem_filter, decide_eq_true_eq]
    exact hpref x hx r
  · have hsplit : ∃ pre post, l = pre ++ post ∧ (∀ x ∈ pre, Flt.lt x.score s = false) ∧
        ∀ x ∈ post, Flt.lt x.score s = true := by
      refine ⟨l.takeWhile (fun x => !Flt.lt x.score s), l.dropWhile (fun x => !Flt.lt x.score s),
        List.takeWhile_append_dropWhile.symm, fun x hx => by simpa using List.mem_takeWhile_imp hx, ?_⟩
      have hsuf : (l.dropWhile (fun x => !Flt.lt x.score s)).Sublist l := List.dropWhile_sublist _
      have hhead := List.head?_dropWhile_not (fun x => !Flt.lt x.score s) l
      cases hd : l.dropWhile (fun x => !Flt.lt x.score s) with
      | nil => simp
      | cons y t =>
        rw [hd] at hsuf hhead
        have hy : Flt.lt y.score s = true := by simpa using hhead
        intro x hx
        rcases List.mem_cons.1 hx with rfl | hx
        · exact hy
        · have hxy := (List.pairwise_cons.1 (h2.sublist hsuf)).1 x hx
          have hxl : x ∈ l := hsuf.subset (by simp [hx])
          have hyl : y ∈ l := hsuf.subset (by simp)
          have hxn := hn x (h1.mem_iff.1 hxl)
          by_contra hlt
          have := Flt.lt_false_trans hxn (turn_score (hn y (h1.mem_iff.1 hyl)) hxn hxy)
            (by simpa using hlt)
          rw [this] at hy
          exact absurd hy (by simp)
    obtain ⟨pre, post, rfl, p1, p2⟩ := hsplit
    obtain ⟨e1, e2, r1, r2, rfl, _, g1, g2⟩ := h4.split
    have hfil : (pre ++ post).filter (fun x => !Flt.lt x.score s) = pre := by
      rw [List.filter_append, List.filter_eq_self.2 (fun x hx => by simpa using p1 x hx),
        List.filter_eq_nil_iff.2 (fun x hx => by simpa using p2 x hx), List.append_nil]
    rw [hfil, ← taken_nil, ← g1.hits]
    unfold foundAbove hitCount
    rw [List.countP_append, List.countP_append]
    have c2 : e2.countP (fun m => m.ref.isSome && m.hyp.any (fun h => !Flt.lt h.score s)) = 0 := by
      rw [List.countP_eq_zero]
      intro m hm
      obtain ⟨x, hx, e⟩ := g2.hyp_mem m hm
      rw [e]
      simp [p2 x hx]
    have c3 : (missed.map (fun r => (⟨some r, none, Outcome.falseNeg.error⟩ :
        KwsMatch Str (DocBox Str UInt32)))).countP
        (fun m => m.ref.isSome && m.hyp.any (fun h => !Flt.lt h.score s)) = 0 := by
      rw [List.countP_eq_zero]
      intro m hm
      obtain ⟨r, _, rfl⟩ := List.mem_map.1 hm
      simp
    rw [c2, c3]
    show List.countP _ e1 + 0 + 0 = _
    refine List.countP_congr fun m hm => ?_
    obtain ⟨x, hx, e⟩ := g1.hyp_mem m hm
    rw [e]
    simp [p1 x hx]
  · unfold wrongAbove
    rw [List.countP_append, greedy_countWrong h4 (fun h => !Flt.lt h.score s)]
    have c3 : (missed.map (fun r => (⟨some r, none, Outcome.falseNeg.error⟩ :
        KwsMatch Str (DocBox Str UInt32)))).countP
        (fun m => m.ref.isNone && m.hyp.any (fun h => !Flt.lt h.score s)) = 0 := by
      rw [List.countP_eq_zero]
      intro m hm
      obtain ⟨r, _, rfl⟩ := List.mem_map.1 hm
      simp
    rw [c3, Nat.add_zero, ← h1.countP_eq]
    refine List.countP_congr fun x hx => ?_
    simp only [Bool.and_eq_true, decide_eq_true_eq]
    refine and_congr_left fun _ => ?_
    unfold Fits
    push Not
    constructor
    · intro hr r hr1 hr2
      obtain ⟨a, b⟩ := (hpref x hx r).2 ⟨hr1, hr2⟩
      exact absurd b (not_lt.2 (hr r a))
    · intro hr r hr1
      by_contra hlt
      obtain ⟨a, b⟩ := (hpref x hx r).1 ⟨hr1, lt_of_not_ge hlt⟩
      exact hr r a b

theorem fits_filter (P : Str → Bool) (x : ScoredEvent Str (DocBox Str UInt32)) :
    Fits (refs.filter (fun r => P r.query)) x ↔ P x.base.query = true ∧ Fits refs x := by
  unfold Fits
  simp only [List.mem_filter]
  constructor
  · rintro ⟨r, ⟨a, b⟩, c⟩
    exact ⟨by rw [← c.1]; exact b, r, a, c⟩
  · rintro ⟨b, r, a, c⟩
    exact ⟨r, ⟨a, by rw [c.1]; exact b⟩, c⟩

theorem Spec.NoMoreWrong.filter (h : NoMoreWrong refs hyps hyps') (P : Str → Bool) :
    NoMoreWrong (refs.filter (fun r => P r.query)) (hyps.filter (fun x => P x.base.query))
      (hyps'.filter (fun x => P x.base.query)) := by
  intro q s hs
  have key : ∀ l : List (ScoredEvent Str (DocBox Str UInt32)), (l.filter (fun x => P x.base.query)).countP
      (fun x => ¬ Fits (refs.filter (fun r => P r.query)) x ∧ x.base.query = q ∧ Flt.lt x.score s = false) =
      if P q then l.countP (fun x => ¬ Fits refs x ∧ x.base.query = q ∧ Flt.lt x.score s = false) else 0 := by
    intro l
    rw [List.countP_filter]
    split
    · rename_i hc
      refine List.countP_congr fun x _ => ?_
      simp only [decide_eq_true_eq, Bool.and_eq_true, fits_filter]
      constructor
      · rintro ⟨⟨h1, h2, h3⟩, h4⟩
        exact ⟨fun hm => h1 ⟨h4, hm⟩, h2, h3⟩
      · rintro ⟨h1, h2, h3⟩
        exact ⟨⟨fun hm => h1 hm.2, h2, h3⟩, by rw [h2]; exact hc⟩
    · rename_i hc
      refine List.countP_eq_zero.2 fun x _ hx => ?_
      simp only [decide_eq_true_eq, Bool.and_eq_true] at hx
      exact hc (by rw [← hx.1.2.1]; exact hx.2)
  rw [key, key]
  split
  · exact h q s hs
  · exact le_rfl

theorem Spec.NoMoreWrong.total (h : NoMoreWrong refs hyps hyps') (s : Flt) (hs : s ≠ .nan) :
    hyps'.countP (fun x => decide (¬ Fits refs x) && !Flt.lt x.score s) ≤
      hyps.countP (fun x => decide (¬ Fits refs x) && !Flt.lt x.score s) := by
  let S := (hyps.map (·.base.query) ++ hyps'.map (·.base.query)).toFinset
  have hS1 : ∀ x ∈ hyps, x.base.query ∈ S := fun x hx => by
    simp only [S, List.mem_toFinset, List.mem_append, List.mem_map]; exact Or.inl ⟨x, hx, rfl⟩
  have hS2 : ∀ x ∈ hyps', x.base.query ∈ S := fun x hx => by
    simp only [S, List.mem_toFinset, List.mem_append, List.mem_map]; exact Or.inr ⟨x, hx, rfl⟩
  have key : ∀ l : List (ScoredEvent Str (DocBox Str UInt32)), (∀ x ∈ l, x.base.query ∈ S) →
      l.countP (fun x => decide (¬ Fits refs x) && !Flt.lt x.score s) =
        ∑ q ∈ S, l.countP (fun x => ¬ Fits refs x ∧ x.base.query = q ∧ Flt.lt x.score s = false) := by
    intro l hl
    have := countP_queries l (fun x => decide (¬ Fits refs x) && !Flt.lt x.score s) (fun _ => true) S hl
    simp only [Bool.and_true, Finset.filter_true] at this
    rw [this]
    refine Finset.sum_congr rfl fun q _ => List.countP_congr fun x _ => ?_
    simp only [Bool.and_eq_true, decide_eq_true_eq, Bool.not_eq_true']
    tauto
  rw [key _ hS1, key _ hS2]
  exact Finset.sum_le_sum fun q _ => h q s hs

theorem Spec.KeepsRight.filter (h : KeepsRight refs hyps hyps') (P : Str → Bool) :
    KeepsRight (refs.filter (fun r => P r.query)) (hyps.filter (fun x => P x.base.query))
      (hyps'.filter (fun x => P x.base.query)) := by
  intro x hx
  obtain ⟨h1, h2⟩ := (fits_filter P x).1 hx
  rw [List.count_filter (p := fun x : ScoredEvent Str (DocBox Str UInt32) => P x.base.query) h1,
    List.count_filter (p := fun x : ScoredEvent Str (DocBox Str UInt32) => P x.base.query) h1]
  exact h x h2

theorem Spec.RaisesRight.filter (h : RaisesRight refs hyps hyps') (P : Str → Bool) :
    RaisesRight (refs.filter (fun r => P r.query)) (hyps.filter (fun x => P x.base.query))
      (hyps'.filter (fun x => P x.base.query)) := by
  intro x hx r hr hp
  obtain ⟨y, a, b, c⟩ := h x (List.mem_of_mem_filter hx) r (List.mem_of_mem_filter hr) hp
  exact ⟨y, List.mem_filter.2 ⟨a, by rw [← b.1]; exact (List.mem_filter.1 hr).2⟩, b, c⟩

theorem Spec.FitsOne.filter (h : FitsOne refs hyps) (P : Str → Bool) :
    FitsOne (refs.filter (fun r => P r.query)) (hyps.filter (fun x => P x.base.query)) :=
  fun y hy r hr r' hr' => h y (List.mem_of_mem_filter hy) r (List.mem_of_mem_filter hr) r'
    (List.mem_of_mem_filter hr')

/-- More right hypotheses give no fewer hits with at least a given score. -/
theorem found_keeps (h : ExactBoxMatching refs hyps ms rep) (h' : ExactBoxMatching refs hyps' ms' rep')
    (hn : ∀ x ∈ hyps, x.score ≠ .nan) (hn' : ∀ x ∈ hyps', x.score ≠ .nan)
    (hk : KeepsRight refs hyps hyps') (s : Flt) : foundAbove s ms ≤ foundAbove s ms' := by
  obtain ⟨l, pref, a1, a2, a3, a4, _⟩ := exact_above h hn
  obtain ⟨l', pref', b1, b2, b3, b4, _⟩ := exact_above h' hn'
  rw [a4, b4]
  have useless : ∀ x ∈ l.filter (fun x => !Flt.lt x.score s), decide (Fits refs x) = false → pref x = [] := by
    intro x hx hf
    rw [decide_eq_false_iff_not] at hf
    refine List.eq_nil_iff_forall_not_mem.2 fun r hr => hf ?_
    obtain ⟨c, d⟩ := ((a3 x (List.mem_of_mem_filter hx)).1 r).1 hr
    exact ⟨r, c, d⟩
  rw [← picked_useful pref (fun x => decide (Fits refs x)) _ useless]
  have hsub : ((l.filter (fun x => !Flt.lt x.score s)).filter (fun x => decide (Fits refs x))).Sublist
      (l'.filter (fun x => !Flt.lt x.score s)) := by
    have hsp : List.Subperm ((l.filter (fun x => !Flt.lt x.score s)).filter (fun x => decide (Fits refs x)))
        (l'.filter (fun x => !Flt.lt x.score s)) := by
      rw [List.subperm_iff_count]
      intro x
      by_cases hx : Fits refs x
      · rw [List.count_filter (by simpa using hx)]
        by_cases hs : Flt.lt x.score s = true
        · rw [List.count_eq_zero.2]
          · exact Nat.zero_le _
          · intro hm
            have := (List.mem_filter.1 hm).2
            simp [hs] at this
        · rw [List.count_filter (by simpa using hs), List.count_filter (by simpa using hs), a1.count_eq,
            b1.count_eq]
          exact hk x hx
      · rw [List.count_eq_zero.2]
        · exact Nat.zero_le _
        · intro hm
          exact hx (by simpa using (List.mem_filter.1 hm).2)
    obtain ⟨k, hk1, hk2⟩ := hsp
    have : k = (l.filter (fun x => !Flt.lt x.score s)).filter (fun x => decide (Fits refs x)) := by
      refine hk1.eq_of_pairwise ?_ ((b2.filter _).sublist hk2) ((a2.filter _).filter _)
      intro a b ha hb hab hba
      rcases hab with hab | rfl
      · rcases hba with hba | rfl
        · refine absurd hba (turnBefore_asymm (hn' a ?_) (hn b ?_) hab)
          · exact b1.mem_iff.1 (List.mem_of_mem_filter (hk2.subset ha))
          · exact a1.mem_iff.1 (List.mem_of_mem_filter (List.mem_of_mem_filter hb))
        · rfl
      · rfl
    rw [← this]
    exact hk2
  rw [picked_congr (pref := pref) (pref' := pref') _ fun y hy => ?_]
  · exact picked_sublist pref' hsub ∅
  · have hy1 : y ∈ l := List.mem_of_mem_filter (List.mem_of_mem_filter hy)
    have hy2 : y ∈ l' := List.mem_of_mem_filter (hsub.subset hy)
    refine eq_of_strict (overlapBefore_irrefl y.base) (overlapBefore_asymm y.base) (a3 y hy1).2
      (b3 y hy2).2 fun r => ?_
    rw [(a3 y hy1).1, (b3 y hy2).1]

/-- Right hypotheses with higher scores give no fewer hits with at least a given score, if no hypothesis
has a choice. -/
theorem found_raises (h : ExactBoxMatching refs hyps ms rep) (h' : ExactBoxMatching refs hyps' ms' rep')
    (hn : ∀ x ∈ hyps, x.score ≠ .nan) (hn' : ∀ x ∈ hyps', x.score ≠ .nan)
    (hr : RaisesRight refs hyps hyps') (ho : FitsOne refs hyps') (s : Flt) :
    foundAbove s ms ≤ foundAbove s ms' := by
  obtain ⟨l, pref, a1, a2, a3, a4, _⟩ := exact_above h hn
  obtain ⟨l', pref', b1, b2, b3, b4, _⟩ := exact_above h' hn'
  rw [a4, b4, picked_single pref' _ fun x hx r hr r' hr' => ?_]
  · refine (picked_le pref _ ∅).trans (Finset.card_le_card fun r hm => ?_)
    rw [Finset.mem_filter, List.mem_toFinset, List.mem_flatMap] at hm ⊢
    obtain ⟨⟨x, hx, hp⟩, _⟩ := hm
    obtain ⟨hx1, hx2⟩ := List.mem_filter.1 hx
    obtain ⟨c, d⟩ := ((a3 x hx1).1 r).1 hp
    have hxh := a1.mem_iff.1 hx1
    obtain ⟨y, hy, e, f⟩ := hr x hxh r c d
    have hyl := b1.mem_iff.2 hy
    refine ⟨⟨y, List.mem_filter.2 ⟨hyl, ?_⟩, ((b3 y hyl).1 r).2 ⟨c, e⟩⟩, by simp⟩
    rw [Bool.not_eq_true'] at hx2 ⊢
    exact Flt.lt_false_trans (hn x hxh) f hx2
  · have hx' := List.mem_of_mem_filter hx
    obtain ⟨c, d⟩ := ((b3 x hx').1 r).1 hr
    obtain ⟨c', d'⟩ := ((b3 x hx').1 r').1 hr'
    exact ho x (b1.mem_iff.1 hx') r c r' c' d d'

end

end Kws
