import Verif.Lemmas.Total

/-!
# Renaming queries and locations
-/

namespace Kws
open Spec

section
variable {Q L Q' L' : Type}

def Event.rename (f : Q → Q') (g : L → L') (e : Event Q L) : Event Q' L' :=
  ⟨f e.query, g e.location⟩

def ScoredEvent.rename (f : Q → Q') (g : L → L') (e : ScoredEvent Q L) : ScoredEvent Q' L' :=
  ⟨e.base.rename f g, e.score⟩

def renameMatch (f : Q → Q') (g : L → L') (m : KwsMatch Q L) : KwsMatch Q' L' :=
  ⟨m.ref.map (Event.rename f g), m.hyp.map (ScoredEvent.rename f g), m.error⟩

theorem Event.rename_inj {f : Q → Q'} {g : L → L'} (hf : Function.Injective f)
    (hg : Function.Injective g) : Function.Injective (Event.rename f g) := by
  rintro ⟨q, l⟩ ⟨q', l'⟩ h
  unfold Event.rename at h
  simp only [Event.mk.injEq] at h ⊢
  exact ⟨hf h.1, hg h.2⟩

theorem ScoredEvent.rename_inj {f : Q → Q'} {g : L → L'} (hf : Function.Injective f)
    (hg : Function.Injective g) : Function.Injective (ScoredEvent.rename f g) := by
  rintro ⟨b, s⟩ ⟨b', s'⟩ h
  unfold ScoredEvent.rename at h
  simp only [ScoredEvent.mk.injEq] at h ⊢
  exact ⟨Event.rename_inj hf hg h.1, h.2⟩

theorem renameMatch_rank (f : Q → Q') (g : L → L') (m : KwsMatch Q L) :
    rank (renameMatch f g m) = rank m := by
  unfold rank renameMatch
  cases m.hyp <;> rfl

theorem renameMatch_score (f : Q → Q') (g : L → L') (m : KwsMatch Q L) :
    matchScore (renameMatch f g m) = matchScore m := by
  rw [matchScore_eq_rank, matchScore_eq_rank, renameMatch_rank]

theorem collapse_rename (R : Rnd) (f : Q → Q') (g : L → L') (ms : List (KwsMatch Q L)) :
    collapseMatches R (ms.map (renameMatch f g)) = collapseMatches R ms := by
  unfold collapseMatches
  rw [List.foldl_map]
  congr 3
  funext acc m
  unfold collapseStep
  simp only [renameMatch_score]
  rfl

/-! ## Matching in the segmentation-based evaluation -/

theorem segEntries_rename [DecidableEq Q] [DecidableEq L] [DecidableEq Q'] [DecidableEq L']
    {f : Q → Q'} {g : L → L'} (hf : Function.Injective f) (hg : Function.Injective g)
    (refs : List (Event Q L)) (l : List (ScoredEvent Q L)) : ∀ seen : List (Event Q L),
    segEntries (refs.map (Event.rename f g)) (seen.map (Event.rename f g))
      (l.map (ScoredEvent.rename f g)) = (segEntries refs seen l).map (renameMatch f g) := by
  induction l with
  | nil => intro seen; rfl
  | cons h l ih =>
    intro seen
    have hb : (ScoredEvent.rename f g h).base = Event.rename f g h.base := rfl
    have hm : ∀ l : List (Event Q L), Event.rename f g h.base ∈ l.map (Event.rename f g) ↔ h.base ∈ l :=
      fun l => List.mem_map_of_injective (Event.rename_inj hf hg)
    have ih := ih (h.base :: seen)
    rw [List.map_cons] at ih
    simp only [List.map_cons, segEntries, hb, hm, ih, List.map_append]
    congr 1
    split
    · rfl
    · split <;> rfl

section
variable [DecidableEq Q] [DecidableEq L]

theorem segEntries_hits (refs : List (Event Q L)) (l : List (ScoredEvent Q L)) :
    ∀ (seen : List (Event Q L)) (m : KwsMatch Q L),
      (m ∈ segEntries refs seen l ∧ m.ref.isSome = true) ↔
      ∃ h, m = ⟨some h.base, some h, ⟨0, 0⟩⟩ ∧ h.base ∈ refs ∧ h.base ∉ seen ∧
        ∃ pre post, l = pre ++ h :: post ∧ ∀ x ∈ pre, x.base ≠ h.base := by
  induction l with
  | nil =>
    intro seen m
    simp [segEntries]
  | cons h l ih =>
    intro seen m
    unfold segEntries
    rw [List.mem_append, or_and_right, ih]
    constructor
    · rintro (⟨hm, hs⟩ | ⟨h', rfl, h1, h2, pre, post, rfl, h4⟩)
      · by_cases hr : h.base ∈ refs
        · rw [if_neg (not_not.2 hr)] at hm
          by_cases hsn : h.base ∈ seen
          · rw [if_pos hsn] at hm; simp at hm
          · rw [if_neg hsn, List.mem_singleton] at hm
            exact ⟨h, hm, hr, hsn, [], l, rfl, by simp⟩
        · rw [if_pos hr, List.mem_singleton] at hm
          rw [hm] at hs
          simp at hs
      · simp only [List.mem_cons, not_or] at h2
        refine ⟨h', rfl, h1, h2.2, h :: pre, post, rfl, ?_⟩
        intro x hx
        rcases List.mem_cons.1 hx with rfl | hx
        · exact Ne.symm h2.1
        · exact h4 x hx
    · rintro ⟨h', rfl, h1, h2, pre, post, e, h4⟩
      cases pre with
      | nil =>
        simp only [List.nil_append, List.cons.injEq] at e
        obtain ⟨rfl, rfl⟩ := e
        left
        rw [if_neg (not_not.2 h1), if_neg h2]
        simp
      | cons x pre =>
        simp only [List.cons_append, List.cons.injEq] at e
        obtain ⟨rfl, rfl⟩ := e
        right
        have hx := h4 h (by simp)
        refine ⟨h', rfl, h1, ?_, pre, post, rfl, fun y hy => h4 y (by simp [hy])⟩
        simp only [List.mem_cons, not_or]
        exact ⟨Ne.symm hx, h2⟩

theorem segEntries_hits_nodup (refs : List (Event Q L)) (l : List (ScoredEvent Q L)) :
    ∀ (seen : List (Event Q L)), ((segEntries refs seen l).filter (fun m => m.ref.isSome)).Nodup := by
  induction l with
  | nil => intro seen; simp [segEntries]
  | cons h l ih =>
    intro seen
    unfold segEntries
    rw [List.filter_append]
    by_cases hr : h.base ∈ refs
    · rw [if_neg (not_not.2 hr)]
      by_cases hs : h.base ∈ seen
      · rw [if_pos hs]; simpa using ih _
      · rw [if_neg hs]
        simp only [List.filter_cons, Option.isSome_some, if_true, List.filter_nil, List.cons_append,
          List.nil_append, List.nodup_cons]
        refine ⟨fun hm => ?_, ih _⟩
        rw [List.mem_filter, segEntries_hits] at hm
        obtain ⟨h', e, _, h2, _⟩ := hm
        simp only [Match.mk.injEq, Option.some.injEq] at e
        rw [e.1] at h2
        exact h2 (by simp)
    · rw [if_pos hr]; simpa using ih _

theorem segEntries_fps (refs : List (Event Q L)) (l : List (ScoredEvent Q L)) :
    ∀ (seen : List (Event Q L)), (segEntries refs seen l).filter (fun m => !m.ref.isSome) =
      (l.filter (fun h => h.base ∉ refs)).map (fun h => ⟨none, some h, ⟨1, 0⟩⟩) := by
  induction l with
  | nil => intro seen; rfl
  | cons h l ih =>
    intro seen
    unfold segEntries
    rw [List.filter_append, ih]
    by_cases hr : h.base ∈ refs
    · rw [if_neg (not_not.2 hr)]
      by_cases hs : h.base ∈ seen <;> simp [hr, hs]
    · simp [hr]

/-- In a list in decreasing order of scores, the first hypothesis of an event has the best score. -/
theorem first_iff_best (l : List (ScoredEvent Q L))
    (hs : l.Pairwise (fun a b => Flt.lt a.score b.score = false)) (hn : ∀ h ∈ l, h.score ≠ .nan)
    (h : ScoredEvent Q L) :
    (∃ pre post, l = pre ++ h :: post ∧ ∀ x ∈ pre, x.base ≠ h.base) ↔
      h ∈ l ∧ ∀ x ∈ l, x.base = h.base → Flt.lt h.score x.score = false := by
  constructor
  · rintro ⟨pre, post, rfl, hp⟩
    refine ⟨by simp, fun x hx hb => ?_⟩
    rcases List.mem_append.1 hx with hx | hx
    · exact absurd hb (hp x hx)
    · rcases List.mem_cons.1 hx with rfl | hx
      · exact Flt.lt_irrefl _
      · exact (List.pairwise_cons.1 (List.pairwise_append.1 hs).2.1).1 x hx
  · rintro ⟨hm, hbest⟩
    have key : ∀ l : List (ScoredEvent Q L), h ∈ l → ∃ pre x post, l = pre ++ x :: post ∧
        x.base = h.base ∧ ∀ y ∈ pre, y.base ≠ h.base := by
      intro l
      induction l with
      | nil => intro hm; simp at hm
      | cons a l ih =>
        intro hm
        by_cases ha : a.base = h.base
        · exact ⟨[], a, l, rfl, ha, by simp⟩
        · rcases List.mem_cons.1 hm with rfl | hm
          · exact absurd rfl ha
          · obtain ⟨pre, x, post, rfl, hx, hp⟩ := ih hm
            refine ⟨a :: pre, x, post, rfl, hx, fun y hy => ?_⟩
            rcases List.mem_cons.1 hy with rfl | hy
            · exact ha
            · exact hp y hy
    obtain ⟨pre, x, post, rfl, hx, hp⟩ := key l hm
    have hxh : x = h := by
      have h1 : Flt.lt h.score x.score = false := hbest x (by simp) hx
      rcases List.mem_append.1 hm with hm' | hm'
      · exact absurd rfl (hp h hm')
      · rcases List.mem_cons.1 hm' with e | hm'
        · exact e.symm
        · have h2 : Flt.lt x.score h.score = false :=
            (List.pairwise_cons.1 (List.pairwise_append.1 hs).2.1).1 h hm'
          have h3 : x.score = h.score := by
            rcases Flt.lt_tri x.score h.score (hn x (by simp)) (hn h hm) with h | h | h
            · rw [h2] at h; cases h
            · exact h
            · rw [h1] at h; cases h
          obtain ⟨b, s⟩ := x
          obtain ⟨b', s'⟩ := h
          simp only at hx h3
          rw [hx, h3]
    subst hxh
    exact ⟨pre, post, rfl, hp⟩

/-- Ties can be broken in any way. -/
theorem segEntries_perm (refs refs' : List (Event Q L)) (l l' : List (ScoredEvent Q L))
    (hr : ∀ r, r ∈ refs ↔ r ∈ refs') (hp : l.Perm l') (hn : ∀ h ∈ l, h.score ≠ .nan)
    (hs : l.Pairwise (fun a b => Flt.lt a.score b.score = false))
    (hs' : l'.Pairwise (fun a b => Flt.lt a.score b.score = false)) :
    (segEntries refs [] l).Perm (segEntries refs' [] l') := by
  classical
  have h1 : ((segEntries refs [] l).filter (fun m => m.ref.isSome)).Perm
      ((segEntries refs' [] l').filter (fun m => m.ref.isSome)) := by
    rw [List.perm_ext_iff_of_nodup (segEntries_hits_nodup _ _ _) (segEntries_hits_nodup _ _ _)]
    intro m
    rw [List.mem_filter, List.mem_filter, segEntries_hits, segEntries_hits]
    refine exists_congr fun h => ?_
    rw [hr, first_iff_best l hs hn, first_iff_best l' hs' (fun h hh => hn h (hp.mem_iff.2 hh))]
    simp only [hp.mem_iff]
  have h2 : ((segEntries refs [] l).filter (fun m => !m.ref.isSome)).Perm
      ((segEntries refs' [] l').filter (fun m => !m.ref.isSome)) := by
    rw [segEntries_fps, segEntries_fps]
    simp only [hr]
    exact (hp.filter _).map _
  exact (List.filter_append_perm (fun m : KwsMatch Q L => m.ref.isSome) _).symm.trans
    ((h1.append h2).trans (List.filter_append_perm (fun m : KwsMatch Q L => m.ref.isSome) _))

end

end

section
variable {Q L Q' L' : Type} [DecidableEq Q] [DecidableEq L] [Cmp Q] [LawfulCmp Q] [Cmp L] [LawfulCmp L]
  [DecidableEq Q'] [DecidableEq L'] [Cmp Q'] [LawfulCmp Q'] [Cmp L'] [LawfulCmp L']

/-- Matching renamed events in another order gives the renamed matches in another order. -/
theorem seg_rename {f : Q → Q'} {g : L → L'} (hf : Function.Injective f) (hg : Function.Injective g)
    (s : EventSet (Event Q L)) (s' : EventSet (Event Q' L')) (refs : List (Event Q L))
    (refs' : List (Event Q' L')) (l : List (ScoredEvent Q L)) (l' : List (ScoredEvent Q' L'))
    (hr : ∀ r, r ∈ refs' ↔ r ∈ refs.map (Event.rename f g))
    (hp : l'.Perm (l.map (ScoredEvent.rename f g))) (hn : ∀ h ∈ l, h.score ≠ .nan)
    (hs : l.Pairwise (fun a b => Flt.lt a.score b.score = false))
    (hs' : l'.Pairwise (fun a b => Flt.lt a.score b.score = false)) :
    ∃ t t' ms ms' rep rep', SimpleMatcher.run (plainIndex Q L) trivialScorer s refs l = .ok (t, ms, rep) ∧
      SimpleMatcher.run (plainIndex Q' L') trivialScorer s' refs' l' = .ok (t', ms', rep') ∧
      ms'.Perm (ms.map (renameMatch f g)) := by
  obtain ⟨t, missed, rep, e, m1, m2⟩ := C24_segmentation_result s refs l
  obtain ⟨t', missed', rep', e', m1', m2'⟩ := C24_segmentation_result s' refs' l'
  refine ⟨t, t', _, _, rep, rep', e, e', ?_⟩
  rw [List.map_append]
  refine List.Perm.append ?_ ?_
  · rw [← segEntries_rename hf hg]
    refine segEntries_perm _ _ _ _ hr hp ?_ hs' ?_
    · intro h hh
      obtain ⟨x, hx, rfl⟩ := List.mem_map.1 (hp.mem_iff.1 hh)
      exact hn x hx
    · rw [List.pairwise_map]
      exact hs
  · have hm : missed'.Perm (missed.map (Event.rename f g)) := by
      rw [List.perm_ext_iff_of_nodup (StdSet.sorted_nodup m1')
        ((StdSet.sorted_nodup m1).map (Event.rename_inj hf hg))]
      intro r
      rw [m2', hr]
      constructor
      · rintro ⟨h1, h2⟩
        obtain ⟨x, hx, rfl⟩ := List.mem_map.1 h1
        refine List.mem_map.2 ⟨x, (m2 x).2 ⟨hx, fun h hh hc => ?_⟩, rfl⟩
        exact h2 (h.rename f g) (hp.mem_iff.2 (List.mem_map_of_mem hh)) (by rw [← hc]; rfl)
      · intro hx
        obtain ⟨x, hx', rfl⟩ := List.mem_map.1 hx
        obtain ⟨h1, h2⟩ := (m2 x).1 hx'
        refine ⟨List.mem_map_of_mem h1, fun h hh hc => ?_⟩
        obtain ⟨y, hy, rfl⟩ := List.mem_map.1 (hp.mem_iff.1 hh)
        exact h2 y hy (Event.rename_inj hf hg hc)
    rw [List.map_map]
    refine (hm.map _).trans ?_
    rw [List.map_map]
    exact List.Perm.of_eq rfl

end

/-! ## Grouping -/

section
variable {Q L Q' L' : Type} [DecidableEq Q] [DecidableEq Q']

theorem groupMatches_keys (q2g : List (Q × Q)) (ms : List (KwsMatch Q L)) (query : KwsMatch Q L → Q)
    (hq : ∀ m ∈ ms, matchQuery m = .ok (query m)) :
    ∃ keys : List Q, keys.Nodup ∧ (∀ k, k ∈ keys ↔ ∃ m ∈ ms, groupOf q2g (query m) = k) ∧
      groupMatches q2g ms =
        .ok (keys.map (fun k => ms.filter (fun m => groupOf q2g (query m) = k))) := by
  obtain ⟨keys, k1, k2, k3, k4⟩ := group_fold (fun m => groupOf q2g (query m)) ms
  refine ⟨keys, k1, k2, ?_⟩
  have key : ∀ (l : List (KwsMatch Q L)), (∀ m ∈ l, m ∈ ms) → ∀ st,
      groupLoop q2g l st =
        .ok (l.foldl (fun st m => groupStep (groupOf q2g (query m)) m st) st) := by
    intro l
    induction l with
    | nil => intro _ st; rfl
    | cons m l ih =>
      intro hl st
      simp only [groupLoop, hq m (hl m (by simp)), bind, Except.bind, List.foldl_cons]
      exact ih (fun x hx => hl x (by simp [hx])) _
  unfold groupMatches
  simp only [key ms (fun _ h => h), k4, bind, Except.bind, pure, Except.pure]

theorem find?_map_inj {f : Q → Q'} (hf : Function.Injective f) (m : List (Q × Q)) (q : Q) :
    AMap.find? (f q) (m.map (Prod.map f f)) = (AMap.find? q m).map f := by
  induction m with
  | nil => rfl
  | cons a m ih =>
    obtain ⟨k, v⟩ := a
    simp only [List.map_cons, Prod.map_apply, AMap.find?, hf.eq_iff]
    split
    · rfl
    · exact ih

theorem groupOf_rename {f : Q → Q'} (hf : Function.Injective f) (m : List (Q × Q)) (q : Q) :
    groupOf (m.map (Prod.map f f)) (f q) = f (groupOf m q) := by
  unfold groupOf
  rw [find?_map_inj hf]
  cases AMap.find? q m <;> rfl

/-- Grouping renamed matches in another order gives the renamed groups in another order. -/
theorem groupMatches_rename {f : Q → Q'} (hf : Function.Injective f) (g : L → L')
    (q2g : List (Q × Q)) (ms : List (KwsMatch Q L)) (ms' : List (KwsMatch Q' L'))
    (hp : ms'.Perm (ms.map (renameMatch f g))) (hh : ∀ m ∈ ms, m.ref ≠ none ∨ m.hyp ≠ none) :
    ∃ groups groups' gs, groupMatches q2g ms = .ok groups ∧
      groupMatches (q2g.map (Prod.map f f)) ms' = .ok groups' ∧ groups'.Perm gs ∧
      List.Forall₂ (fun a b => b.Perm (a.map (renameMatch f g))) groups gs := by
  cases hms : ms with
  | nil =>
    subst hms
    have : ms' = [] := by simpa using hp
    subst this
    exact ⟨[], [], [], rfl, rfl, List.Perm.refl _, List.Forall₂.nil⟩
  | cons m0 ms0 =>
    rw [← hms]
    have hm : ∀ m ∈ ms, ∃ q, (m.ref.map (·.query)).or (m.hyp.map (·.base.query)) = some q := by
      intro m hm
      obtain ⟨r, h, e⟩ := m
      cases r with
      | some r => exact ⟨r.query, rfl⟩
      | none =>
        cases h with
        | some h => exact ⟨h.base.query, rfl⟩
        | none => simpa using hh _ hm
    obtain ⟨q0, _⟩ := hm m0 (by simp [hms])
    set query : KwsMatch Q L → Q :=
      fun m => ((m.ref.map (·.query)).or (m.hyp.map (·.base.query))).getD q0 with hquery
    set query' : KwsMatch Q' L' → Q' :=
      fun m => ((m.ref.map (·.query)).or (m.hyp.map (·.base.query))).getD (f q0) with hquery'
    have hren : ∀ m, query' (renameMatch f g m) = f (query m) := by
      rintro ⟨r, h, e⟩
      cases r <;> cases h <;> rfl
    have h1 : ∀ m ∈ ms, matchQuery m = .ok (query m) := by
      intro m hmm
      obtain ⟨q, hq⟩ := hm m hmm
      exact matchQuery_ok m _ (by rw [hq, hquery]; simp [hq])
    have h2 : ∀ m ∈ ms', matchQuery m = .ok (query' m) := by
      intro m hmm
      obtain ⟨x, hx, rfl⟩ := List.mem_map.1 (hp.mem_iff.1 hmm)
      obtain ⟨q, hq⟩ := hm x hx
      refine matchQuery_ok _ _ ?_
      have : ((renameMatch f g x).ref.map (·.query)).or ((renameMatch f g x).hyp.map (·.base.query)) =
          some (f q) := by
        obtain ⟨r, h, e⟩ := x
        cases r with
        | some r =>
          simp only [Option.map_some, Option.some_or, Option.some.injEq] at hq
          subst hq
          rfl
        | none =>
          cases h with
          | some h =>
            simp only [Option.map_none, Option.none_or, Option.map_some, Option.some.injEq] at hq
            subst hq
            rfl
          | none => simp at hq
      rw [hquery']
      simp only [this, Option.getD_some]
    obtain ⟨keys, k1, k2, k3⟩ := groupMatches_keys q2g ms query h1
    obtain ⟨keys', k1', k2', k3'⟩ := groupMatches_keys (q2g.map (Prod.map f f)) ms' query' h2
    refine ⟨_, _, keys.map (fun k => ms'.filter
      (fun m => groupOf (q2g.map (Prod.map f f)) (query' m) = f k)), k3, k3', ?_, ?_⟩
    · have hk : keys'.Perm (keys.map f) := by
        rw [List.perm_ext_iff_of_nodup k1' (k1.map hf)]
        intro k
        rw [k2', List.mem_map]
        constructor
        · rintro ⟨m, hmm, rfl⟩
          obtain ⟨x, hx, rfl⟩ := List.mem_map.1 (hp.mem_iff.1 hmm)
          exact ⟨groupOf q2g (query x), (k2 _).2 ⟨x, hx, rfl⟩, by rw [hren, groupOf_rename hf]⟩
        · rintro ⟨k', hk', rfl⟩
          obtain ⟨x, hx, rfl⟩ := (k2 _).1 hk'
          exact ⟨_, hp.mem_iff.2 (List.mem_map_of_mem hx), by rw [hren, groupOf_rename hf]⟩
      have := hk.map (fun k => ms'.filter
        (fun m => groupOf (q2g.map (Prod.map f f)) (query' m) = k))
      rwa [List.map_map] at this
    · rw [List.forall₂_map_left_iff, List.forall₂_map_right_iff, List.forall₂_same]
      intro k _
      refine (hp.filter _).trans ?_
      rw [List.filter_map]
      refine List.Perm.of_eq ?_
      congr 1
      refine List.filter_congr fun m _ => ?_
      simp only [Function.comp, hren, groupOf_rename hf, hf.eq_iff]

end

end Kws
