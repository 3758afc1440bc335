import Verif.Lemmas.WrongOne
import Verif.Spec.Tail

/-! # Lemmas about hypotheses that are added at the end of a ranking -/

namespace Kws
open Spec

/-! ## Areas -/

/-- The same recall, and a precision that is not lower. -/
def Raised (p p' : ℚ × ℚ) : Prop := p'.2 = p.2 ∧ p.1 ≤ p'.1

theorem areaRec_nonneg (t : Bool) (l : List (ℚ × ℚ)) : ∀ q : ℚ × ℚ, 0 ≤ q.1 → (∀ p ∈ l, 0 ≤ p.1) →
    Ascending (q :: l) → 0 ≤ areaRec t (some q) l := by
  induction l with
  | nil => intro q _ _ _; simp [areaRec]
  | cons p l ih =>
    intro q hq hl ha
    obtain ⟨a1, a2⟩ := List.pairwise_cons.1 ha
    have hp := hl p (by simp)
    have h1 := ih p hp (fun x hx => hl x (by simp [hx])) a2
    have h2 : 0 ≤ p.2 - q.2 := sub_nonneg.2 (a1 p (by simp))
    have h3 : 0 ≤ (if t = true then (p.1 + q.1) / 2 else p.1) := by split <;> linarith
    rw [areaRec]
    have := mul_nonneg h3 h2
    linarith

theorem areaRec_tail (t : Bool) {l l' : List (ℚ × ℚ)} (b : List (ℚ × ℚ)) (h : List.Forall₂ Raised l l') :
    ∀ q q', Raised q q' → 0 ≤ q'.1 → (∀ p ∈ l' ++ b, 0 ≤ p.1) → Ascending (q' :: (l' ++ b)) →
      areaRec t (some q) l ≤ areaRec t (some q') (l' ++ b) := by
  induction h with
  | nil =>
    intro q q' _ h0 h1 ha
    exact areaRec_nonneg t b q' h0 h1 ha
  | @cons p p' l l' hp _ ih =>
    intro q q' hq h0 h1 ha
    obtain ⟨a1, a2⟩ := List.pairwise_cons.1 ha
    have i := ih p p' hp (h1 p' (by simp)) (fun x hx => h1 x (by simp at hx ⊢; tauto)) a2
    rw [List.cons_append, areaRec, areaRec, ← hp.1, ← hq.1]
    have hd : 0 ≤ p'.2 - q'.2 := sub_nonneg.2 (a1 p' (by simp))
    have k : (if t = true then (p.1 + q.1) / 2 else p.1) ≤ (if t = true then (p'.1 + q'.1) / 2 else p'.1) := by
      have := hp.2
      have := hq.2
      split <;> linarith
    have := mul_le_mul_of_nonneg_right k hd
    linarith

theorem topped_tail (a b : List (ℚ × ℚ)) :
    ∃ a', List.Forall₂ Raised (topped a) a' ∧ topped (a ++ b) = a' ++ topped b := by
  induction a with
  | nil => exact ⟨[], .nil, rfl⟩
  | cons p a ih =>
    obtain ⟨a', h1, h2⟩ := ih
    refine ⟨(maxFst p.1 (a ++ b), p.2) :: a', .cons ⟨rfl, ?_⟩ h1, ?_⟩
    · obtain ⟨m1, m2⟩ := (maxFst_le p.1 (a ++ b) _).1 le_rfl
      exact (maxFst_le _ _ _).2 ⟨m1, fun x hx => m2 x (by simp [hx])⟩
    · rw [List.cons_append, topped_cons, h2]
      rfl

theorem curveOf_tail (interp : Bool) (a b : List (ℚ × ℚ)) :
    ∃ a', List.Forall₂ Raised (curveOf interp a) a' ∧ curveOf interp (a ++ b) = a' ++ curveOf interp b := by
  unfold curveOf
  cases interp with
  | true => exact topped_tail a b
  | false =>
    refine ⟨a, ?_, rfl⟩
    exact List.forall₂_same.2 fun _ _ => ⟨rfl, le_rfl⟩

/-- More points at the end do not make an area smaller. -/
theorem curveArea_tail (interp t : Bool) (a b : List (ℚ × ℚ)) (h0 : ∀ p ∈ a ++ b, 0 ≤ p.1 ∧ 0 ≤ p.2)
    (ha : Ascending (a ++ b)) : curveArea interp t a ≤ curveArea interp t (a ++ b) := by
  rw [curveArea_rec, curveArea_rec]
  have hs := curveOf_snd interp (a ++ b)
  have ha' := (ascending_map hs).2 ha
  have h1 : ∀ p ∈ curveOf interp (a ++ b), 0 ≤ p.1 := by
    intro p hp
    obtain ⟨q, hq, e⟩ := curveOf_mem hp
    exact e ▸ (h0 q hq).1
  have h2 : ∀ p ∈ curveOf interp (a ++ b), 0 ≤ p.2 := by
    intro p hp
    have : p.2 ∈ (curveOf interp (a ++ b)).map Prod.snd := List.mem_map_of_mem hp
    rw [hs] at this
    obtain ⟨q, hq, e⟩ := List.mem_map.1 this
    exact e ▸ (h0 q hq).2
  obtain ⟨a', r, e⟩ := curveOf_tail interp a b
  rw [e] at ha' h1 h2 ⊢
  revert r
  generalize curveOf interp a = c
  intro r
  cases r with
  | nil =>
    rw [List.nil_append] at ha' h1 h2 ⊢
    revert ha' h1 h2
    generalize curveOf interp b = d
    intro h2 h1 ha'
    cases d with
    | nil => exact le_rfl
    | cons p d =>
      rw [areaRec_none]
      exact areaRec_nonneg t _ (p.1, 0) (h1 p (by simp)) h1 (List.pairwise_cons.2 ⟨fun x hx => h2 x hx, ha'⟩)
  | @cons p p' l l' hp hl =>
    rw [List.cons_append] at ha' h1 h2 ⊢
    rw [areaRec_none, areaRec_none]
    exact areaRec_tail t (curveOf interp b) (List.Forall₂.cons hp hl) (p.1, 0) (p'.1, 0) ⟨rfl, hp.2⟩
      (h1 p' (by simp)) h1 (List.pairwise_cons.2 ⟨fun x hx => h2 x hx, ha'⟩)

/-! ## Tallies -/

/-- More hypotheses, all with lower scores. -/
structure Prolongs (S S' : List Flt) (c c' : Tally) : Prop where
  refs : c'.refs = c.refs
  same : ∀ s ∈ S, c'.hits s = c.hits s ∧ c'.wrong s = c.wrong s
  sub : ∀ s ∈ S, s ∈ S'
  below : ∀ s ∈ S', s ∈ S ∨ ∀ y ∈ S, Flt.lt s y = true
  num : ∀ s ∈ S', s ≠ .nan
  mono : ∀ t u, t ≠ .nan → u ≠ .nan → Flt.lt u t = false → c'.hits u ≤ c'.hits t ∧ c'.wrong u ≤ c'.wrong t

theorem Prolongs.descending {S S' : List Flt} {c c' : Tally} (h : Prolongs S S' c c') :
    ∃ b, descending S' = descending S ++ b ∧ ∀ s ∈ descending S, s ∈ S := by
  have t := descending_thresholds S (fun s hs => h.num s (h.sub s hs))
  have t' := descending_thresholds S' h.num
  set r := S'.filter (fun s => decide (s ∉ S)) with hr
  have tr := descending_thresholds r (fun s hs => h.num s (List.mem_of_mem_filter hs))
  refine ⟨Spec.descending r, ?_, fun s hs => (t.mem s).1 hs⟩
  refine gt_ext t'.sorted (List.pairwise_append.2 ⟨t.sorted, tr.sorted, ?_⟩) ?_
  · intro a ha b hb
    have hb := (tr.mem b).1 hb
    rw [hr, List.mem_filter] at hb
    rcases h.below b hb.1 with k | k
    · simp [k] at hb
    · exact k a ((t.mem a).1 ha)
  · intro s
    rw [List.mem_append, t'.mem, t.mem, tr.mem, hr, List.mem_filter]
    by_cases hs : s ∈ S
    · simp [hs, h.sub s hs]
    · simp [hs]

theorem cutGain_nonneg (cs : List (ℕ × ℕ)) (h w : ℕ) (hg : Growing h w cs) : 0 ≤ cutGain h w cs := by
  rw [cutGain_dsum cs h w hg]
  exact dsum_nonneg _ _ (by omega) (cutGains_unit cs h w hg)

theorem cutGain_tail (a b : List (ℕ × ℕ)) : ∀ h w, Growing h w (a ++ b) →
    cutGain h w a ≤ cutGain h w (a ++ b) := by
  induction a with
  | nil => intro h w hg; exact cutGain_nonneg b h w hg
  | cons c a ih =>
    intro h w hg
    rw [List.cons_append, cutGain, cutGain]
    have := ih c.1 c.2 hg.2.2
    linarith

theorem Prolongs.growing {S S' : List Flt} {c c' : Tally} (h : Prolongs S S' c c') :
    Growing 0 0 ((Spec.descending S').map (countsAt c')) := by
  have hd := descending_thresholds S' h.num
  have key : ∀ (l : List Flt) (a b : ℕ), (∀ x ∈ l, x ≠ .nan ∧ a ≤ c'.hits x ∧ b ≤ c'.wrong x) →
      l.Pairwise (fun a b => Flt.lt b a = true) → Growing a b (l.map (countsAt c')) := by
    intro l
    induction l with
    | nil => intro a b _ _; trivial
    | cons y l ih =>
      intro a b hl hp
      rw [List.pairwise_cons] at hp
      have hy := hl y (by simp)
      refine ⟨hy.2.1, hy.2.2, ih _ _ (fun x hx => ?_) hp.2⟩
      have hx' := hl x (by simp [hx])
      exact ⟨hx'.1, h.mono x y hx'.1 hy.1 (Flt.lt_asymm' _ _ (hp.1 x hx))⟩
  exact key _ 0 0 (fun x hx => ⟨h.num x ((hd.mem x).1 hx), Nat.zero_le _, Nat.zero_le _⟩) hd.sorted

theorem Prolongs.ap {S S' : List Flt} {c c' : Tally} (h : Prolongs S S' c c') (interp t : Bool) :
    c.ap interp t (Spec.descending S) ≤ c'.ap interp t (Spec.descending S') := by
  obtain ⟨b, e, hm⟩ := h.descending
  have hg := ascending_points c'.refs h.growing
  rw [List.map_map] at hg
  have ec : ∀ l : List Flt, l.map (cutPoint c'.refs ∘ countsAt c') = l.map c'.point := fun l => rfl
  rw [ec, e, List.map_append] at hg
  have eS : (Spec.descending S).map c.point = (Spec.descending S).map c'.point := by
    refine List.map_congr_left fun s hs => ?_
    unfold Tally.point
    rw [h.refs, (h.same s (hm s hs)).1, (h.same s (hm s hs)).2]
  unfold Tally.ap
  rw [e, List.map_append, eS]
  refine curveArea_tail interp t _ _ (fun p hp => ?_) hg
  rw [← List.map_append] at hp
  obtain ⟨s, _, rfl⟩ := List.mem_map.1 hp
  unfold Tally.point
  constructor <;> dsimp only <;> split <;> positivity

theorem Prolongs.ndcg {S S' : List Flt} {c c' : Tally} (h : Prolongs S S' c c') :
    c.ndcg (Spec.descending S) ≤ c'.ndcg (Spec.descending S') := by
  obtain ⟨b, e, hm⟩ := h.descending
  have hg := h.growing
  unfold Tally.ndcg
  rw [h.refs]
  split
  · exact le_rfl
  refine div_le_div_of_nonneg_right ?_ (Finset.sum_nonneg fun k _ => div_nonneg zero_le_one ?_)
  · rw [gain_cuts, gain_cuts]
    rw [e, List.map_append] at hg ⊢
    have eS : (Spec.descending S).map (fun s => (c.hits s, c.wrong s)) = (Spec.descending S).map (countsAt c') :=
      List.map_congr_left fun s hs => by
        rw [← (h.same s (hm s hs)).1, ← (h.same s (hm s hs)).2]
        rfl
    rw [eS]
    exact cutGain_tail _ _ 0 0 hg
  · exact Real.logb_nonneg (by norm_num) (by have : (0 : ℝ) ≤ k := Nat.cast_nonneg k; linarith)

/-- From the tallies to the numbers. -/
theorem noneLower {Q : Type} (interp t : Bool) {S S' : List Flt} {c c' : Tally} (gs gs' : List Q)
    (T T' : Q → Tally × List Flt) (h : Prolongs S S' c c') (hp : gs'.Perm gs)
    (hT : ∀ g ∈ gs, Prolongs (T g).2 (T' g).2 (T g).1 (T' g).1) :
    NoneLower (Numbers.of interp t (c, S) (gs.map T)) (Numbers.of interp t (c', S') (gs'.map T')) 0 := by
  refine ⟨?_, ?_, h.ndcg, ?_⟩
  · rw [add_zero]
    exact h.ap interp t
  · simp only [Numbers.of, List.map_map, Function.comp_def, add_zero]
    rw [average_perm (hp.map _)]
    exact average_le _ _ _ fun g hg => (hT g hg).ap interp t
  · simp only [Numbers.of, List.map_map, Function.comp_def]
    rw [average_perm (hp.map _)]
    exact average_le' _ _ _ fun g hg => (hT g hg).ndcg

/-! ## The segmentation-based evaluation -/

section
variable {Q L : Type} [DecidableEq Q] [DecidableEq L]

theorem segTally_prolongs (refs : List (Event Q L)) (hyps hyps' extra : List (ScoredEvent Q L))
    (hp : hyps'.Perm (hyps ++ extra)) (hb : ScoredBelow extra hyps) (hn : ∀ y ∈ hyps', y.score ≠ .nan) :
    Prolongs (hyps.map (·.score)) (hyps'.map (·.score)) (segTally refs hyps) (segTally refs hyps') := by
  rw [segTally_congr refs refs hyps' (hyps ++ extra) (fun _ => Iff.rfl) hp]
  refine ⟨rfl, fun s hs => ⟨?_, ?_⟩, fun s hs => ?_, fun s hs => ?_, fun s hs => ?_,
    fun t u _ hu htu => ⟨?_, ?_⟩⟩
  · obtain ⟨z, hz, rfl⟩ := List.mem_map.1 hs
    unfold segTally
    dsimp only
    congr 1
    refine Finset.filter_congr fun r _ => ?_
    constructor
    · rintro ⟨y, hy, e, hs'⟩
      rcases List.mem_append.1 hy with hy | hy
      · exact ⟨y, hy, e, hs'⟩
      · rw [hb y hy z hz] at hs'
        cases hs'
    · rintro ⟨y, hy, e, hs'⟩
      exact ⟨y, List.mem_append_left _ hy, e, hs'⟩
  · obtain ⟨z, hz, rfl⟩ := List.mem_map.1 hs
    unfold segTally
    dsimp only
    rw [List.countP_append, Nat.add_eq_left]
    refine List.countP_eq_zero.2 fun y hy h => ?_
    simp only [decide_eq_true_eq] at h
    rw [hb y hy z hz] at h
    cases h.2
  · rw [(hp.map _).mem_iff, List.map_append]
    exact List.mem_append_left _ hs
  · rw [(hp.map _).mem_iff, List.map_append, List.mem_append] at hs
    refine hs.imp id fun hs => ?_
    obtain ⟨x, hx, rfl⟩ := List.mem_map.1 hs
    intro y hy
    obtain ⟨z, hz, rfl⟩ := List.mem_map.1 hy
    exact hb x hx z hz
  · obtain ⟨y, hy, rfl⟩ := List.mem_map.1 hs
    exact hn y hy
  · unfold segTally
    dsimp only
    refine Finset.card_le_card fun r hr => ?_
    rw [Finset.mem_filter] at hr ⊢
    obtain ⟨h1, y, hy, e, hs⟩ := hr
    exact ⟨h1, y, hy, e, Flt.lt_false_trans hu hs htu⟩
  · refine List.countP_mono_left fun y _ h => ?_
    simp only [decide_eq_true_eq] at h ⊢
    exact ⟨h.1, Flt.lt_false_trans hu h.2 htu⟩

/-- The numbers of the segmentation-based evaluation with more hypotheses of lower scores. -/
theorem segNumbers_tail (grp : Q → Q) (interp t : Bool) (refs : List (Event Q L))
    (hyps hyps' extra : List (ScoredEvent Q L)) (hp : hyps'.Perm (hyps ++ extra))
    (hb : ScoredBelow extra hyps) (hn : ∀ y ∈ hyps', y.score ≠ .nan)
    (hg : ∀ x ∈ extra, grp x.base.query ∈ refs.map (grp ·.query) ++ hyps.map (grp ·.base.query)) :
    NoneLower (segNumbers grp interp t refs hyps) (segNumbers grp interp t refs hyps') 0 := by
  refine noneLower interp t _ _
    (fun g => (segTally (refs.filter (grp ·.query = g)) (hyps.filter (grp ·.base.query = g)),
        (hyps.filter (grp ·.base.query = g)).map (·.score)))
    (fun g => (segTally (refs.filter (grp ·.query = g)) (hyps'.filter (grp ·.base.query = g)),
        (hyps'.filter (grp ·.base.query = g)).map (·.score)))
    (segTally_prolongs refs hyps hyps' extra hp hb hn) ?_ fun g _ => ?_
  · refine (List.perm_ext_iff_of_nodup (List.nodup_dedup _) (List.nodup_dedup _)).2 fun g => ?_
    rw [List.mem_dedup, List.mem_dedup, List.mem_append, List.mem_append, (hp.map _).mem_iff,
      List.map_append, List.mem_append]
    constructor
    · rintro (h | h | h)
      · exact .inl h
      · exact .inr h
      · obtain ⟨x, hx, rfl⟩ := List.mem_map.1 h
        exact List.mem_append.1 (hg x hx)
    · rintro (h | h)
      · exact .inl h
      · exact .inr (.inl h)
  · refine segTally_prolongs _ _ _ (extra.filter (grp ·.base.query = g)) ?_
      (fun x hx y hy => hb x (List.mem_of_mem_filter hx) y (List.mem_of_mem_filter hy))
      fun y hy => hn y (List.mem_of_mem_filter hy)
    rw [← List.filter_append]
    exact hp.filter _

end

end Kws
