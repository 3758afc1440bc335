import Verif.Lemmas.Tail
import Verif.Props.BoxImprovement
import Verif.Props.HandedIn

/-! # Lemmas about boxes that are added at the end of a ranking -/

namespace Kws
open Spec

section
variable {Q L : Type}

/-- Matches of hypotheses, `a`, and of more hypotheses of lower scores, `b`; the references that are left
are `m` and `m'`. -/
theorem tallyOf_prolongs (a b m m' : List (KwsMatch Q L)) (hm : ∀ x ∈ m, x.hyp = none)
    (hm' : ∀ x ∈ m', x.hyp = none)
    (hb : ∀ x ∈ b, ∀ h, x.hyp = some h → ∀ s ∈ scoresIn a, Flt.lt h.score s = true)
    (hn : ∀ s ∈ scoresIn (a ++ b), s ≠ .nan)
    (hr : (tallyOf (a ++ b ++ m')).refs = (tallyOf (a ++ m)).refs) :
    Prolongs (scoresIn (a ++ m)) (scoresIn (a ++ b ++ m')) (tallyOf (a ++ m)) (tallyOf (a ++ b ++ m')) := by
  have z : ∀ l : List (KwsMatch Q L), (∀ x ∈ l, x.hyp = none) → scoresIn l = [] := by
    intro l hl
    refine List.filterMap_eq_nil_iff.2 fun x hx => ?_
    rw [hl x hx]
    rfl
  have app : ∀ l l' : List (KwsMatch Q L), scoresIn (l ++ l') = scoresIn l ++ scoresIn l' := fun l l' =>
    List.filterMap_append
  have e1 : scoresIn (a ++ m) = scoresIn a := by rw [app, z m hm, List.append_nil]
  have e2 : scoresIn (a ++ b ++ m') = scoresIn a ++ scoresIn b := by rw [app, z m' hm', List.append_nil, app]
  have below : ∀ s ∈ scoresIn b, ∀ y ∈ scoresIn a, Flt.lt s y = true := by
    intro s hs y hy
    obtain ⟨x, hx, h0⟩ := List.mem_filterMap.1 hs
    obtain ⟨h, hh, rfl⟩ := Option.map_eq_some_iff.1 h0
    exact hb x hx h hh y hy
  have zero : ∀ (p : KwsMatch Q L → Bool) (s : Flt) (l : List (KwsMatch Q L)),
      (∀ x ∈ l, ∀ h, x.hyp = some h → Flt.lt h.score s = true) →
      l.countP (fun x => p x && x.hyp.any (fun h => !Flt.lt h.score s)) = 0 := by
    intro p s l hl
    refine List.countP_eq_zero.2 fun x hx h => ?_
    cases hh : x.hyp with
    | none => simp [hh] at h
    | some y => simp [hh, hl x hx y hh] at h
  have none : ∀ (s : Flt) (l : List (KwsMatch Q L)), (∀ x ∈ l, x.hyp = none) →
      ∀ x ∈ l, ∀ h, x.hyp = some h → Flt.lt h.score s = true := by
    intro s l hl x hx h hh
    rw [hl x hx] at hh
    cases hh
  have mono : ∀ (p : KwsMatch Q L → Bool) (l : List (KwsMatch Q L)) (t u : Flt), u ≠ .nan →
      Flt.lt u t = false → l.countP (fun x => p x && x.hyp.any (fun h => !Flt.lt h.score u)) ≤
        l.countP (fun x => p x && x.hyp.any (fun h => !Flt.lt h.score t)) := by
    intro p l t u hu htu
    refine List.countP_mono_left fun m _ h => ?_
    simp only [Bool.and_eq_true] at h ⊢
    refine ⟨h.1, ?_⟩
    cases hy : m.hyp with
    | none => rw [hy] at h; simp at h
    | some y =>
      rw [hy] at h
      simp only [Option.any_some, Bool.not_eq_true'] at h ⊢
      exact Flt.lt_false_trans hu h.2 htu
  refine ⟨hr, fun s hs => ?_, fun s hs => ?_, fun s hs => ?_, fun s hs => ?_, fun t u _ hu htu => ⟨?_, ?_⟩⟩
  · rw [e1] at hs
    unfold tallyOf
    dsimp only
    simp only [List.countP_append]
    rw [zero _ s b (fun x hx h hh => hb x hx h hh s hs), zero _ s b (fun x hx h hh => hb x hx h hh s hs),
      zero _ s m (none s m hm), zero _ s m (none s m hm), zero _ s m' (none s m' hm'),
      zero _ s m' (none s m' hm')]
    exact ⟨rfl, rfl⟩
  · rw [e1] at hs
    rw [e2]
    exact List.mem_append_left _ hs
  · rw [e2, List.mem_append] at hs
    rw [e1]
    exact hs.imp id (below s)
  · rw [e2, ← app] at hs
    exact hn s hs
  · exact mono _ _ t u hu htu
  · exact mono _ _ t u hu htu

theorem refs_count (ms : List (KwsMatch Q L)) : (tallyOf ms).refs = (ms.filterMap (·.ref)).length := by
  unfold tallyOf
  dsimp only
  induction ms with
  | nil => rfl
  | cons m ms ih =>
    cases h : m.ref <;> simp [h, ih]

variable [DecidableEq Q]

theorem refs_inGroup (grp : Q → Q) (g : Q) (ms : List (KwsMatch Q L)) :
    (ms.filter (InGroup grp g)).filterMap (·.ref) = (ms.filterMap (·.ref)).filter (grp ·.query = g) := by
  induction ms with
  | nil => rfl
  | cons m ms ih =>
    cases h : m.ref with
    | none =>
      rw [List.filterMap_cons_none h, ← ih, List.filter_cons]
      split
      · rw [List.filterMap_cons_none h]
      · rfl
    | some r =>
      rw [List.filterMap_cons_some h, List.filter_cons, List.filter_cons, ← ih]
      have : InGroup grp g m = decide (grp r.query = g) := by
        unfold InGroup eventOf
        rw [h]
        rfl
      rw [this]
      split
      · rw [List.filterMap_cons_some h]
      · rfl

end

section
variable {refs : List (Event Str (DocBox Str UInt32))}
  {hyps hyps' extra : List (ScoredEvent Str (DocBox Str UInt32))}
  {ms rep ms' rep' : List (KwsMatch Str (DocBox Str UInt32))}

theorem turnBefore_score {a b : ScoredEvent Str (DocBox Str UInt32)} (h : Flt.lt b.score a.score = true) :
    TurnBefore a b :=
  .inl ((flt_lt_iff _ _).1 h)

/-- The matching with more hypotheses of lower scores. -/
theorem exact_tail (hp : hyps'.Perm (hyps ++ extra)) (hb : ScoredBelow extra hyps)
    (hn : ∀ y ∈ hyps', y.score ≠ .nan)
    (h : ExactBoxMatching refs hyps ms rep) (h' : ExactBoxMatching refs hyps' ms' rep') :
    ∃ a b m m' r, ms = a ++ m ∧ ms' = a ++ b ++ m' ∧ rep' = rep ++ r ∧
      (∀ x ∈ a, ∃ y ∈ hyps, x.hyp = some y) ∧ (∀ x ∈ b ++ r, ∃ y ∈ extra, x.hyp = some y) ∧
      ∀ x ∈ m ++ m', x.hyp = none := by
  obtain ⟨l, ov, en, mi, a1, a2, a3, a4, a5, a6, rfl⟩ := h
  obtain ⟨l', ov', en', mi', b1, b2, b3, b4, b5, b6, rfl⟩ := h'
  have hn1 : ∀ y ∈ hyps, y.score ≠ .nan := fun y hy => hn y (hp.mem_iff.2 (List.mem_append_left _ hy))
  have uniq : ∀ l1 l2 : List (ScoredEvent Str (DocBox Str UInt32)), l1.Perm l2 →
      (∀ y ∈ l1, y.score ≠ .nan) → l1.Pairwise (fun a b => TurnBefore a b ∨ a = b) →
      l2.Pairwise (fun a b => TurnBefore a b ∨ a = b) → l1 = l2 := by
    intro l1 l2 p hn p1 p2
    refine p.eq_of_pairwise ?_ p1 p2
    intro a b ha hb hab hba
    rcases hab with hab | rfl
    · rcases hba with hba | rfl
      · exact absurd hba (turnBefore_asymm (hn a ha) (hn b (p.mem_iff.2 hb)) hab)
      · rfl
    · rfl
  classical
  set low : ScoredEvent Str (DocBox Str UInt32) → Bool := fun y =>
    decide (∀ z ∈ hyps, Flt.lt y.score z.score = true) with hlow
  have low1 : ∀ y ∈ hyps, low y = false := by
    intro y hy
    rw [hlow]
    simp only [decide_eq_false_iff_not]
    intro k
    have := k y hy
    rw [Flt.lt_irrefl'] at this
    cases this
  have low2 : ∀ y ∈ extra, low y = true := by
    intro y hy
    rw [hlow]
    simp only [decide_eq_true_eq]
    exact hb y hy
  have f1 : hyps.filter low = [] := List.filter_eq_nil_iff.2 fun y hy => by simp [low1 y hy]
  have f2 : extra.filter low = extra := List.filter_eq_self.2 low2
  have f3 : hyps.filter (fun y => !low y) = hyps := List.filter_eq_self.2 fun y hy => by simp [low1 y hy]
  have f4 : extra.filter (fun y => !low y) = [] := List.filter_eq_nil_iff.2 fun y hy => by simp [low2 y hy]
  have pe : (l'.filter low).Perm extra := by
    have := (b1.trans hp).filter low
    rwa [List.filter_append, f1, f2] at this
  have ph : (l'.filter (fun y => !low y)).Perm hyps := by
    have := (b1.trans hp).filter (fun y => !low y)
    rwa [List.filter_append, f3, f4, List.append_nil] at this
  have el : l = l'.filter (fun y => !low y) :=
    uniq _ _ (a1.trans ph.symm) (fun y hy => hn1 y (a1.mem_iff.1 hy)) a2 (b2.filter _)
  have el' : l' = l ++ l'.filter low := by
    refine uniq _ _ ?_ (fun y hy => hn y (b1.mem_iff.1 hy)) b2 ?_
    · exact b1.trans (hp.trans (a1.symm.append pe.symm))
    · refine List.pairwise_append.2 ⟨a2, b2.filter _, fun x hx y hy => .inl (turnBefore_score ?_)⟩
      exact hb y (pe.mem_iff.1 hy) x (a1.mem_iff.1 hx)
  rw [el'] at b4
  obtain ⟨e1, e2, r1, r2, rfl, rfl, g1, g2⟩ := b4.split
  have hov : ∀ x ∈ l, ov x = ov' x := by
    intro x hx
    refine eq_of_strict (overlapBefore_irrefl x.base) (overlapBefore_asymm x.base) (a3 x hx).2
      (b3 x (by rw [el']; exact List.mem_append_left _ hx)).2 fun r => ?_
    rw [(a3 x hx).1, (b3 x (by rw [el']; exact List.mem_append_left _ hx)).1]
  obtain ⟨rfl, rfl⟩ := (a4.congr hov).unique g1
  refine ⟨en, e2, _, _, r2, rfl, rfl, rfl, fun x hx => ?_, fun x hx => ?_, fun x hx => ?_⟩
  · obtain ⟨y, hy, e⟩ := g1.hyp_mem x hx
    exact ⟨y, a1.mem_iff.1 hy, e⟩
  · rcases List.mem_append.1 hx with hx | hx
    · obtain ⟨y, hy, e⟩ := g2.hyp_mem x hx
      exact ⟨y, pe.mem_iff.1 hy, e⟩
    · obtain ⟨y, hy, e⟩ := g2.rep_hyp x hx
      exact ⟨y, pe.mem_iff.1 hy, e⟩
  · rcases List.mem_append.1 hx with hx | hx <;>
    · obtain ⟨r, _, rfl⟩ := List.mem_map.1 hx
      rfl

/-- The numbers of the matching with more hypotheses of lower scores. -/
theorem matchNumbers_tail (grp : Str → Str) (interp t : Bool) (hp : hyps'.Perm (hyps ++ extra))
    (hb : ScoredBelow extra hyps) (hn : ∀ y ∈ hyps', y.score ≠ .nan)
    (hg : ∀ x ∈ extra, ∃ r ∈ refs, grp r.query = grp x.base.query)
    (h : ExactBoxMatching refs hyps ms rep) (h' : ExactBoxMatching refs hyps' ms' rep') :
    NoneLower (matchNumbers grp interp t ms) (matchNumbers grp interp t ms') 0 := by
  obtain ⟨_, _, hr⟩ := C88_refines _ _ _ _ h
  obtain ⟨_, _, hr'⟩ := C88_refines _ _ _ _ h'
  obtain ⟨n1, m1⟩ := boxMatching_refs hr
  obtain ⟨n2, m2⟩ := boxMatching_refs hr'
  have pr : (ms'.filterMap (·.ref)).Perm (ms.filterMap (·.ref)) :=
    (List.perm_ext_iff_of_nodup n2 n1).2 fun r => by rw [m1, m2]
  obtain ⟨a, b, m, m', r, rfl, rfl, rfl, k1, k2, k3⟩ := exact_tail hp hb hn h h'
  have hmem := exactBoxMatching_mem h'
  have scores : ∀ s ∈ scoresIn a, ∃ y ∈ hyps, y.score = s := by
    intro s hs
    obtain ⟨x, hx, h0⟩ := List.mem_filterMap.1 hs
    obtain ⟨y, hy, e⟩ := k1 x hx
    rw [e] at h0
    exact ⟨y, hy, by simpa using h0⟩
  have scores' : ∀ s ∈ scoresIn (a ++ b), s ≠ .nan := by
    intro s hs
    obtain ⟨x, hx, h0⟩ := List.mem_filterMap.1 hs
    obtain ⟨y, hy, rfl⟩ := Option.map_eq_some_iff.1 h0
    exact hn y ((hmem x (.inl (List.mem_append_left _ hx))).2 y hy)
  have low : ∀ x ∈ b, ∀ y, x.hyp = some y → ∀ s ∈ scoresIn a, Flt.lt y.score s = true := by
    intro x hx y hy s hs
    obtain ⟨z, hz, rfl⟩ := scores s hs
    obtain ⟨y', hy', e⟩ := k2 x (List.mem_append_left _ hx)
    rw [hy] at e
    cases e
    exact hb _ hy' z hz
  have part : ∀ (p : KwsMatch Str (DocBox Str UInt32) → Bool) (l), ∀ s ∈ scoresIn (l.filter p), s ∈ scoresIn l := by
    intro p l s hs
    obtain ⟨x, hx, h0⟩ := List.mem_filterMap.1 hs
    exact List.mem_filterMap.2 ⟨x, List.mem_of_mem_filter hx, h0⟩
  refine noneLower interp t _ _
    (fun g => (tallyOf ((a ++ m).filter (InGroup grp g)), scoresIn ((a ++ m).filter (InGroup grp g))))
    (fun g => (tallyOf ((a ++ b ++ m').filter (InGroup grp g)), scoresIn ((a ++ b ++ m').filter (InGroup grp g))))
    (tallyOf_prolongs a b m m' (fun x hx => k3 x (List.mem_append_left _ hx))
      (fun x hx => k3 x (List.mem_append_right _ hx)) low scores' ?_) ?_ fun g _ => ?_
  · rw [refs_count, refs_count, pr.length_eq]
  · refine (List.perm_ext_iff_of_nodup (List.nodup_dedup _) (List.nodup_dedup _)).2 fun g => ?_
    rw [List.mem_dedup, List.mem_dedup]
    have inRefs : ∀ r ∈ refs, ∀ l : List (KwsMatch Str (DocBox Str UInt32)), r ∈ l.filterMap (·.ref) →
        grp r.query ∈ (l.filterMap eventOf).map (grp ·.query) := by
      intro r _ l hl
      obtain ⟨x, hx, e⟩ := List.mem_filterMap.1 hl
      refine List.mem_map.2 ⟨r, List.mem_filterMap.2 ⟨x, hx, ?_⟩, rfl⟩
      unfold eventOf
      rw [e]
      rfl
    have fromRef : ∀ x ∈ a ++ b ++ m', ∀ e, eventOf x = some e → x ∈ a ∨ ∃ r ∈ refs, grp r.query = grp e.query := by
      intro x hx e he
      cases hxr : x.ref with
      | some r =>
        have := (hmem x (.inl hx)).1 r hxr
        unfold eventOf at he
        rw [hxr] at he
        cases he
        exact .inr ⟨_, this, rfl⟩
      | none =>
        unfold eventOf at he
        rw [hxr, Option.none_or] at he
        obtain ⟨y, hy, rfl⟩ := Option.map_eq_some_iff.1 he
        rcases List.mem_append.1 hx with hx | hx
        · rcases List.mem_append.1 hx with hx | hx
          · exact .inl hx
          · obtain ⟨y', hy', e⟩ := k2 x (List.mem_append_left _ hx)
            rw [hy] at e
            cases e
            exact .inr (hg _ hy')
        · rw [k3 x (List.mem_append_right _ hx)] at hy
          cases hy
    constructor
    · intro hg'
      obtain ⟨e, he, rfl⟩ := List.mem_map.1 hg'
      obtain ⟨x, hx, he⟩ := List.mem_filterMap.1 he
      rcases fromRef x hx e he with hx | ⟨r, hr, er⟩
      · exact List.mem_map.2 ⟨e, List.mem_filterMap.2 ⟨x, List.mem_append_left _ hx, he⟩, rfl⟩
      · rw [← er]
        exact inRefs r hr _ ((m1 r).2 hr)
    · intro hg'
      obtain ⟨e, he, rfl⟩ := List.mem_map.1 hg'
      obtain ⟨x, hx, he⟩ := List.mem_filterMap.1 he
      rcases List.mem_append.1 hx with hx | hx
      · refine List.mem_map.2 ⟨e, List.mem_filterMap.2 ⟨x, ?_, he⟩, rfl⟩
        simp [hx]
      · have hh := k3 x (List.mem_append_left _ hx)
        unfold eventOf at he
        rw [hh] at he
        have he : x.ref = some e := by simpa using he
        have := (exactBoxMatching_mem h x (.inl (List.mem_append_right _ hx))).1 e he
        exact inRefs e this _ ((m2 e).2 this)
  · have hr0 : (tallyOf ((a ++ b ++ m').filter (InGroup grp g))).refs =
        (tallyOf ((a ++ m).filter (InGroup grp g))).refs := by
      rw [refs_count, refs_count, refs_inGroup, refs_inGroup, (pr.filter _).length_eq]
    dsimp only
    rw [List.filter_append, List.filter_append] at hr0 ⊢
    rw [List.filter_append] at hr0 ⊢
    refine tallyOf_prolongs _ _ _ _ (fun x hx => k3 x (List.mem_append_left _ (List.mem_of_mem_filter hx)))
      (fun x hx => k3 x (List.mem_append_right _ (List.mem_of_mem_filter hx)))
      (fun x hx y hy s hs => low x (List.mem_of_mem_filter hx) y hy s (part _ _ s hs)) ?_ hr0
    intro s hs
    rw [← List.filter_append] at hs
    exact scores' s (part _ _ s hs)

end
end Kws
