import Verif.Lemmas.Total
import Verif.Lemmas.Relabel
import Verif.Spec.Decompose
import Verif.Spec.Evaluation
import Verif.Props.Grouping

/-!
# Matching restricted to some queries
-/

set_option linter.unusedSectionVars false

namespace Kws
open Spec

section
variable {σ RE HE : Type} [Cmp RE] [LawfulCmp RE]

/-- The match is about kept events. -/
def keptMatch (p : RE → Bool) (p' : HE → Bool) (m : Match RE HE) : Bool :=
  match m.ref, m.hyp with
  | some r, _ => p r
  | none, some h => p' h
  | none, none => false

theorem erase_filter (p : RE → Bool) (r : RE) (l : List RE) :
    (StdSet.erase Cmp.lt r l).1.filter p =
      if p r then (StdSet.erase Cmp.lt r (l.filter p)).1 else l.filter p := by
  classical
  rw [StdSet.erase_eq, StdSet.erase_eq]
  induction l with
  | nil => simp
  | cons x l ih =>
    by_cases hx : x = r
    · subst hx
      by_cases hp : p x = true <;> simp [hp]
    · rw [List.erase_cons_tail (by simpa using hx)]
      by_cases hp : p x = true
      · rw [List.filter_cons_of_pos hp, List.filter_cons_of_pos hp,
          List.erase_cons_tail (by simpa using hx), ih]
        split <;> rfl
      · rw [List.filter_cons_of_neg hp, List.filter_cons_of_neg hp, ih]

/-- What the references of one hypothesis do to the kept ones. -/
theorem tryRefs_split (p : RE → Bool) (p' : HE → Bool) (scorer : RE → HE → Cpp MatchError) (hyp : HE)
    (unm os : List RE) (hos : ∀ r ∈ os, p r = p' hyp) (matched : Bool) (u : List RE)
    (res : Option (Match RE HE)) (rep : List (Match RE HE))
    (h : SimpleMatcher.tryRefs scorer hyp unm os = .ok (matched, u, res, rep)) :
    (∀ m ∈ res.toList ++ rep, keptMatch p p' m = p' hyp) ∧
    (p' hyp = true → SimpleMatcher.tryRefs scorer hyp (unm.filter p) os =
      .ok (matched, u.filter p, res, rep)) ∧
    (p' hyp = false → u.filter p = unm.filter p) := by
  induction os generalizing matched u res rep with
  | nil =>
    simp only [SimpleMatcher.tryRefs, pure, Except.pure, Except.ok.injEq, Prod.mk.injEq] at h ⊢
    obtain ⟨rfl, rfl, rfl, rfl⟩ := h
    simp
  | cons r os ih =>
    have hr := hos r (by simp)
    have ih := ih (fun x hx => hos x (by simp [hx]))
    unfold SimpleMatcher.tryRefs at h ⊢
    cases hs : scorer r hyp with
    | error f => rw [hs] at h; simp [bind, Except.bind] at h
    | ok e =>
      rw [hs] at h
      simp only [bind, Except.bind] at h ⊢
      by_cases hfp : e.fp < 1
      · simp only [if_pos hfp] at h ⊢
        by_cases hm : (StdSet.find? Cmp.lt r unm).isSome = true
        · rw [if_pos hm] at h
          simp only [pure, Except.pure, Except.ok.injEq, Prod.mk.injEq] at h
          obtain ⟨rfl, rfl, rfl, rfl⟩ := h
          refine ⟨?_, fun hp => ?_, fun hp => ?_⟩
          · intro m hm
            simp only [Option.toList_some, List.append_nil, List.mem_singleton] at hm
            subst hm
            simpa [keptMatch, Match.make] using hr
          · rw [if_pos]
            · rw [erase_filter, if_pos (hr.trans hp)]
              rfl
            · rw [StdSet.find?_isSome] at hm ⊢
              exact List.mem_filter.2 ⟨hm, hr.trans hp⟩
          · rw [erase_filter, if_neg]
            rw [hr, hp]
            decide
        · rw [if_neg hm] at h
          cases ht : SimpleMatcher.tryRefs scorer hyp unm os with
          | error f => rw [ht] at h; simp at h
          | ok t =>
            obtain ⟨m', u', res', rep'⟩ := t
            rw [ht] at h
            simp only [pure, Except.pure, Except.ok.injEq, Prod.mk.injEq] at h
            obtain ⟨rfl, rfl, rfl, rfl⟩ := h
            obtain ⟨i1, i2, i3⟩ := ih m' u' res' rep' ht
            refine ⟨?_, fun hp => ?_, i3⟩
            · intro m hm
              rw [List.mem_append, List.mem_cons] at hm
              rcases hm with hm | rfl | hm
              · exact i1 m (by simp [hm])
              · simpa [keptMatch, Match.make] using hr
              · exact i1 m (by simp [hm])
            · rw [if_neg, i2 hp]
              · rfl
              · intro hc
                rw [StdSet.find?_isSome] at hm hc
                exact hm (List.mem_filter.1 hc).1
      · simp only [if_neg hfp] at h ⊢
        exact ih matched u res rep h

theorem filter_all {α : Type} {p : α → Bool} {l : List α} (h : ∀ x ∈ l, p x = true) : l.filter p = l :=
  List.filter_eq_self.2 h

theorem filter_none {α : Type} {p : α → Bool} {l : List α} (h : ∀ x ∈ l, p x = false) :
    l.filter p = [] :=
  List.filter_eq_nil_iff.2 (fun x hx => by rw [h x hx]; decide)

theorem loop_split (p : RE → Bool) (p' : HE → Bool) (ix : RefIndex σ RE HE)
    (scorer : RE → HE → Cpp MatchError) (s s' : σ) (hyps : List HE)
    (hi : ∀ h ov, ix.findOverlapping s h = .ok ov → (∀ r ∈ ov, p r = p' h) ∧
      (p' h = true → ix.findOverlapping s' h = .ok ov)) :
    ∀ (unm u : List RE) (res rep : List (Match RE HE)),
      SimpleMatcher.loop ix scorer s unm hyps = .ok (u, res, rep) →
      SimpleMatcher.loop ix scorer s' (unm.filter p) (hyps.filter p') =
        .ok (u.filter p, res.filter (keptMatch p p'), rep.filter (keptMatch p p')) := by
  induction hyps with
  | nil =>
    intro unm u res rep h
    simp only [SimpleMatcher.loop, pure, Except.pure, Except.ok.injEq, Prod.mk.injEq,
      List.filter_nil] at h ⊢
    obtain ⟨rfl, rfl, rfl⟩ := h
    simp
  | cons x hyps ih =>
    intro unm u res rep h
    unfold SimpleMatcher.loop at h
    cases ho : ix.findOverlapping s x with
    | error f => rw [ho] at h; simp [bind, Except.bind] at h
    | ok ov =>
      rw [ho] at h
      simp only [bind, Except.bind] at h
      obtain ⟨o1, o2⟩ := hi x ov ho
      cases ht : SimpleMatcher.tryRefs scorer x unm ov with
      | error f => rw [ht] at h; simp at h
      | ok t =>
        obtain ⟨matched, u1, res1, rep1⟩ := t
        rw [ht] at h
        simp only at h
        obtain ⟨t1, t2, t3⟩ := tryRefs_split p p' scorer x unm ov o1 _ _ _ _ ht
        cases hl : SimpleMatcher.loop ix scorer s u1 hyps with
        | error f => rw [hl] at h; simp at h
        | ok t' =>
          obtain ⟨u2, res2, rep2⟩ := t'
          rw [hl] at h
          simp only [pure, Except.pure, Except.ok.injEq, Prod.mk.injEq] at h
          obtain ⟨rfl, rfl, rfl⟩ := h
          have ih := ih u1 u2 res2 rep2 hl
          have hfp : ∀ m ∈ (if matched = true then [] else [Match.makeFalsePositive x] :
              List (Match RE HE)), keptMatch p p' m = p' x := by
            intro m hm
            split at hm
            · simp at hm
            · rw [List.mem_singleton] at hm
              subst hm
              rfl
          have hhere : ∀ m ∈ res1.toList ++ (if matched = true then [] else
              [Match.makeFalsePositive x] : List (Match RE HE)), keptMatch p p' m = p' x := by
            intro m hm
            rcases List.mem_append.1 hm with hm | hm
            · exact t1 m (by simp [hm])
            · exact hfp m hm
          have hrep : ∀ m ∈ rep1, keptMatch p p' m = p' x := fun m hm => t1 m (by simp [hm])
          rw [List.filter_append, List.filter_append (p := keptMatch p p') rep1]
          by_cases hp : p' x = true
          · rw [List.filter_cons_of_pos hp]
            unfold SimpleMatcher.loop
            rw [o2 hp]
            simp only [bind, Except.bind, t2 hp, ih, pure, Except.pure]
            rw [filter_all (fun m hm => (hhere m hm).trans hp),
              filter_all (fun m hm => (hrep m hm).trans hp)]
          · rw [Bool.not_eq_true] at hp
            rw [List.filter_cons_of_neg (by rw [hp]; decide), ← t3 hp, ih,
              filter_none (fun m hm => (hhere m hm).trans hp),
              filter_none (fun m hm => (hrep m hm).trans hp)]
            rfl

/-- A hypothesis that overlaps nothing gives a false positive. -/
theorem loop_lonely (ix : RefIndex σ RE HE) (scorer : RE → HE → Cpp MatchError) (s : σ) (x : HE)
    (hx : ix.findOverlapping s x = .ok []) (hyps : List HE) (hm : x ∈ hyps) :
    ∀ (unm u : List RE) (res rep : List (Match RE HE)),
      SimpleMatcher.loop ix scorer s unm hyps = .ok (u, res, rep) →
      Match.makeFalsePositive x ∈ res := by
  induction hyps with
  | nil => simp at hm
  | cons y hyps ih =>
    intro unm u res rep h
    unfold SimpleMatcher.loop at h
    simp only [bind, Except.bind] at h
    cases ho : ix.findOverlapping s y with
    | error f => rw [ho] at h; simp at h
    | ok ov =>
      rw [ho] at h
      simp only at h
      cases ht : SimpleMatcher.tryRefs scorer y unm ov with
      | error f => rw [ht] at h; simp at h
      | ok t =>
        obtain ⟨matched, u1, res1, rep1⟩ := t
        rw [ht] at h
        simp only at h
        cases hl : SimpleMatcher.loop ix scorer s u1 hyps with
        | error f => rw [hl] at h; simp at h
        | ok t' =>
          obtain ⟨u2, res2, rep2⟩ := t'
          rw [hl] at h
          simp only [pure, Except.pure, Except.ok.injEq, Prod.mk.injEq] at h
          obtain ⟨rfl, rfl, rfl⟩ := h
          rcases List.mem_cons.1 hm with rfl | hm
          · rw [hx] at ho
            injection ho with ho
            subst ho
            simp only [SimpleMatcher.tryRefs, pure, Except.pure, Except.ok.injEq,
              Prod.mk.injEq] at ht
            obtain ⟨rfl, -, rfl, -⟩ := ht
            simp
          · exact List.mem_append_right _ (ih hm _ _ _ _ hl)

/-- Searching restricted to the kept references. -/
structure Splits (ix : RefIndex σ RE HE) (s : σ) (p : RE → Bool) (p' : HE → Bool) : Prop where
  mem : ∀ (refs : List RE) h ov,
    ix.findOverlapping (refs.foldl ix.insert (ix.clear s)) h = .ok ov → ∀ r ∈ ov, r ∈ refs
  same : ∀ (refs : List RE) h ov,
    ix.findOverlapping (refs.foldl ix.insert (ix.clear s)) h = .ok ov → ∀ r ∈ ov, p r = p' h
  kept : ∀ (refs : List RE) h ov,
    ix.findOverlapping (refs.foldl ix.insert (ix.clear s)) h = .ok ov → p' h = true →
    ix.findOverlapping ((refs.filter p).foldl ix.insert (ix.clear s)) h = .ok ov

theorem run_split (p : RE → Bool) (p' : HE → Bool) (ix : RefIndex σ RE HE)
    (scorer : RE → HE → Cpp MatchError) (s s' : σ) (refs : List RE) (hyps : List HE)
    (hi : Splits ix s p p') (ms rep : List (Match RE HE))
    (h : SimpleMatcher.run ix scorer s refs hyps = .ok (s', ms, rep)) :
    ∃ s'', SimpleMatcher.run ix scorer s (refs.filter p) (hyps.filter p') =
      .ok (s'', ms.filter (keptMatch p p'), rep.filter (keptMatch p p')) := by
  unfold SimpleMatcher.run at h ⊢
  simp only [bind, Except.bind] at h ⊢
  cases hl : SimpleMatcher.loop ix scorer (refs.foldl ix.insert (ix.clear s))
      (StdSet.ofList Cmp.lt refs) hyps with
  | error f => rw [hl] at h; simp at h
  | ok t =>
    obtain ⟨u, res, rep'⟩ := t
    rw [hl] at h
    simp only [pure, Except.pure, Except.ok.injEq, Prod.mk.injEq] at h
    obtain ⟨rfl, rfl, rfl⟩ := h
    have hof : StdSet.ofList Cmp.lt (refs.filter p) = (StdSet.ofList Cmp.lt refs).filter p :=
      StdSet.sorted_ext (StdSet.ofList_sorted _)
        ((StdSet.ofList_sorted refs).sublist List.filter_sublist)
        (fun x => by rw [StdSet.mem_ofList, List.mem_filter, List.mem_filter, StdSet.mem_ofList])
    rw [hof, loop_split p p' ix scorer _ ((refs.filter p).foldl ix.insert (ix.clear s)) hyps
      (fun h ov ho => ⟨hi.same refs h ov ho, hi.kept refs h ov ho⟩) _ _ _ _ hl]
    refine ⟨(refs.filter p).foldl ix.insert (ix.clear s), ?_⟩
    simp only [pure, Except.pure]
    rw [List.filter_append, List.filter_map]
    rfl

end

/-! ## The two tools -/

section
variable {Q L : Type} [Cmp Q] [LawfulCmp Q] [Cmp L] [LawfulCmp L]

theorem plain_splits (s : EventSet (Event Q L)) (P : Q → Bool) :
    Splits (plainIndex Q L) s (fun r => P r.query) (fun h => P h.base.query) := by
  classical
  refine ⟨fun refs h ov ho r hr => ?_, fun refs h ov ho r hr => ?_, fun refs h ov ho hp => ?_⟩
  · rw [plain_find] at ho
    injection ho with ho
    subst ho
    split at hr
    · rw [List.mem_singleton] at hr
      subst hr
      assumption
    · simp at hr
  · rw [plain_find] at ho
    injection ho with ho
    subst ho
    split at hr
    · rw [List.mem_singleton] at hr
      subst hr
      rfl
    · simp at hr
  · rw [plain_find] at ho ⊢
    injection ho with ho
    subst ho
    congr 1
    simp only [List.mem_filter, hp, and_true]

end

section
variable {Q D T : Type} [DecidableEq Q] [DecidableEq D] [Cmp Q] [LawfulCmp Q]
  [Cmp D] [LawfulCmp D] [Coord T] [LawfulCmp T]

theorem DocEventSet.findOverlapping_bucket (S : StdSort) (s : DocEventSet Q D T)
    (e : Event Q (DocBox D T)) : s.findOverlapping S e = (do
      let aux ← DocEventSet.collect e (s.bucket e.query e.location.document)
      let sorted ← S.sort (fun a b => DocEventSet.pairLt b a) aux
      return sorted.map (·.2)) := by
  unfold DocEventSet.findOverlapping DocEventSet.bucket
  cases AMap.find? e.query s.byQuery with
  | none => rfl
  | some p =>
    simp only [Option.bind_some]
    cases AMap.find? e.location.document p <;> rfl

theorem collect_mem (e : Event Q (DocBox D T)) (l : List (Event Q (DocBox D T)))
    (aux : List (T × Event Q (DocBox D T))) (h : DocEventSet.collect e l = .ok aux) :
    ∀ x ∈ aux, x.2 ∈ l := by
  induction l generalizing aux with
  | nil =>
    injection h with h
    subst h
    simp
  | cons y l ih =>
    unfold DocEventSet.collect at h
    simp only [bind, Except.bind] at h
    cases ha : y.location.intersectionArea e.location with
    | error f => rw [ha] at h; simp at h
    | ok a =>
      rw [ha] at h
      simp only at h
      cases hc : DocEventSet.collect e l with
      | error f => rw [hc] at h; simp at h
      | ok rest =>
        rw [hc] at h
        simp only [pure, Except.pure, Except.ok.injEq] at h
        subst h
        intro x hx
        split at hx
        · rcases List.mem_cons.1 hx with rfl | hx
          · simp
          · exact List.mem_cons_of_mem _ (ih rest hc x hx)
        · exact List.mem_cons_of_mem _ (ih rest hc x hx)

theorem doc_found (S : StdSort) (s : DocEventSet Q D T) (refs : List (Event Q (DocBox D T)))
    (h : ScoredEvent Q (DocBox D T)) (ov : List (Event Q (DocBox D T)))
    (ho : (docIndex S Q D T).findOverlapping
      (refs.foldl (docIndex S Q D T).insert ((docIndex S Q D T).clear s)) h = .ok ov) :
    ∀ r ∈ ov, r ∈ refs ∧ r.query = h.base.query := by
  intro r hr
  have hh := doc_foldl_holds S refs s h.base.query h.base.location.document
  change DocEventSet.findOverlapping S _ h.base = .ok ov at ho
  rw [DocEventSet.findOverlapping_bucket] at ho
  simp only [bind, Except.bind] at ho
  cases hc : DocEventSet.collect h.base
      ((refs.foldl (docIndex S Q D T).insert ((docIndex S Q D T).clear s)).bucket h.base.query
        h.base.location.document) with
  | error f => rw [hc] at ho; simp at ho
  | ok aux =>
    rw [hc] at ho
    simp only at ho
    cases hsrt : S.sort (fun a b => DocEventSet.pairLt b a) aux with
    | error f => rw [hsrt] at ho; simp at ho
    | ok l =>
      rw [hsrt] at ho
      simp only [pure, Except.pure, Except.ok.injEq] at ho
      subst ho
      have hT := (pairLt_strictTotal T (Event Q (DocBox D T))
        (DocEventSet.pairLt) (fun a b => rfl)).flip
      obtain ⟨l', e1, e2⟩ := S.ok _ aux (hT.strictWeak aux)
      rw [hsrt] at e1
      injection e1 with e1
      subst e1
      obtain ⟨y, hy, rfl⟩ := List.mem_map.1 hr
      have := (hh.2 y.2).1 (collect_mem _ _ _ hc y (e2.perm.mem_iff.1 hy))
      exact ⟨this.1, this.2.1⟩

theorem doc_splits (S : StdSort) (s : DocEventSet Q D T) (P : Q → Bool) :
    Splits (docIndex S Q D T) s (fun r => P r.query) (fun h => P h.base.query) := by
  refine ⟨fun refs h ov ho r hr => (doc_found S s refs h ov ho r hr).1,
    fun refs h ov ho r hr => by rw [(doc_found S s refs h ov ho r hr).2], fun refs h ov ho hp => ?_⟩
  · change DocEventSet.findOverlapping S _ h.base = .ok ov at ho
    change DocEventSet.findOverlapping S _ h.base = .ok ov
    rw [DocEventSet.findOverlapping_bucket] at ho ⊢
    have hb : ((refs.filter (fun r => P r.query)).foldl (docIndex S Q D T).insert
          ((docIndex S Q D T).clear s)).bucket h.base.query h.base.location.document =
        (refs.foldl (docIndex S Q D T).insert ((docIndex S Q D T).clear s)).bucket h.base.query
          h.base.location.document := by
      have h1 := doc_foldl_holds S refs s h.base.query h.base.location.document
      have h2 := doc_foldl_holds S (refs.filter (fun r => P r.query)) s h.base.query
        h.base.location.document
      refine StdSet.sorted_ext h2.1 h1.1 (fun x => ?_)
      rw [h1.2, h2.2]
      simp only [List.mem_filter]
      constructor
      · rintro ⟨⟨a, _⟩, b⟩
        exact ⟨a, b⟩
      · rintro ⟨a, b⟩
        exact ⟨⟨a, by rw [b.1]; exact hp⟩, b⟩
    rw [hb]
    exact ho

end

/-! ## Sorting -/

section
variable {Q L : Type} [Cmp Q] [LawfulCmp Q] [Cmp L] [LawfulCmp L]

theorem sortHyps_filter (S : StdSort) (criterion : Str) (hyps l : List (ScoredEvent Q L))
    (hn : ∀ h ∈ hyps, h.score ≠ .nan) (p : ScoredEvent Q L → Bool)
    (h : sortHyps S criterion hyps = .ok l) :
    sortHyps S criterion (hyps.filter p) = .ok (l.filter p) := by
  have ho := C07_scored_order_partial Q L
  have hn' : ∀ h ∈ hyps.filter p, h.score ≠ .nan := fun h hh => hn h (List.mem_filter.1 hh).1
  have key : ∀ (f : ScoredEvent Q L → ScoredEvent Q L → Bool),
      ((∀ a b : ScoredEvent Q L, a.score ≠ .nan → b.score ≠ .nan →
          (f a b = true ↔ ScoredLt (fun a b => Cmp.lt a b = true) (fun a b => Cmp.lt a b = true) a b)) ∨
        (∀ a b : ScoredEvent Q L, a.score ≠ .nan → b.score ≠ .nan →
          (f a b = true ↔
            ScoredLt (fun a b => Cmp.lt a b = true) (fun a b => Cmp.lt a b = true) b a))) →
      S.sort f hyps = .ok l → S.sort f (hyps.filter p) = .ok (l.filter p) := by
    intro f hf h
    obtain ⟨l1, a1, a2⟩ := S.ok _ _ (ho.weak_of f hf hyps hn)
    rw [h] at a1
    injection a1 with a1
    subst a1
    obtain ⟨l2, b1, b2⟩ := S.ok _ _ (ho.weak_of f hf _ hn')
    rw [b1]
    congr 1
    exact ho.sorted_unique f hf hn' (List.Perm.refl _) b2
      ⟨a2.perm.filter p, a2.sorted.sublist List.filter_sublist⟩
  unfold sortHyps at h ⊢
  by_cases h1 : criterion = "desc".toList
  · rw [if_pos h1] at h ⊢
    exact key _ (Or.inr gt_ops) h
  · rw [if_neg h1] at h ⊢
    by_cases h2 : criterion = "asc".toList
    · rw [if_pos h2] at h ⊢
      exact key _ (Or.inl lt_ops) h
    · rw [if_neg h2] at h ⊢
      injection h with h
      subst h
      rfl

end

/-! ## Evaluation -/

section
variable {μ σ Q L G : Type}

/-- The average precision, which is always defined. -/
def apWith (R : Rnd) (o : ToolOptions) (g : List (KwsMatch Q L)) : ℚ :=
  match globalAP R g o.collapse o.interp o.trapezoid with
  | .ok v => v
  | .error _ => 0

theorem globalAP_with (R : Rnd) (o : ToolOptions) (g : List (KwsMatch Q L)) :
    globalAP R g o.collapse o.interp o.trapezoid = .ok (apWith R o g) := by
  obtain ⟨v, h⟩ := globalAP_total R g o.collapse o.interp o.trapezoid
  unfold apWith
  rw [h]

theorem meanAP_with (R : Rnd) (S : StdSort) (o : ToolOptions) (groups : List (List (KwsMatch Q L))) :
    meanAP R S groups o.collapse o.interp o.trapezoid false =
      .ok (roundedMean R (groups.map (apWith R o))) := by
  have key : ∀ (groups : List (List (KwsMatch Q L))) acc,
      meanAPLoop R S o.collapse o.interp o.trapezoid false acc groups =
        .ok ((groups.map (apWith R o)).foldl (fun a v => R.f64 (a + v)) acc) := by
    intro groups
    induction groups with
    | nil => intro acc; rfl
    | cons g groups ih =>
      intro acc
      simp only [meanAPLoop, Bool.false_eq_true, if_false, globalAP_with, bind, Except.bind, pure,
        Except.pure, ih, List.map_cons, List.foldl_cons]
  unfold meanAP roundedMean
  simp only [key, bind, Except.bind, pure, Except.pure, List.map_eq_nil_iff, List.length_map]
  cases groups with
  | nil => rfl
  | cons g groups => simp

theorem meanNDCG_with (R : Rnd) (S : StdSort) (c : Bool) (groups : List (List (KwsMatch Q L))) :
    meanNDCG R S groups c false = .ok (average (groups.map (fun g => globalNDCG R g c))) := by
  have key : ∀ (groups : List (List (KwsMatch Q L))) acc,
      meanNDCGLoop R S c false acc groups =
        .ok (acc + (groups.map (fun g => globalNDCG R g c)).sum) := by
    intro groups
    induction groups with
    | nil => intro acc; simp [meanNDCGLoop, pure, Except.pure]
    | cons g groups ih =>
      intro acc
      simp only [meanNDCGLoop, Bool.false_eq_true, if_false, bind, Except.bind, pure,
        Except.pure, ih, List.map_cons, List.sum_cons, add_assoc]
  unfold meanNDCG average
  simp only [key, bind, Except.bind, pure, Except.pure, zero_add, List.length_map]
  cases groups with
  | nil => simp
  | cons g groups => simp

theorem assess_plain (R : Rnd) (S : StdSort) (rng : Rng G) (w : World) (o : ToolOptions)
    (ho : PlainOptions o) (ms : List (KwsMatch Q L)) (groups : List (List (KwsMatch Q L)))
    (dump : Option (List (KwsMatch Q L) × List (KwsMatch Q L))) :
    assess R S rng w o ms groups dump = .ok
      { gAP := ⟨apWith R o ms, none⟩
        mAP := ⟨roundedMean R (groups.map (apWith R o)), none⟩
        gNDCG := ⟨globalNDCG R ms o.collapse, none⟩
        mNDCG := ⟨average (groups.map (fun g => globalNDCG R g o.collapse)), none⟩
        dump := dump } := by
  unfold assess globalStatistic meanStatistic
  simp only [ho.gap, ho.map, ho.gndcg, ho.mndcg, ho.grp, ho.mrp, Bool.false_eq_true, if_false,
    if_true, globalAP_with, meanAP_with, meanNDCG_with, bind, Except.bind, pure, Except.pure]

variable [DecidableEq Q] [Cmp Q] [Cmp L]

theorem evaluate_eq (R : Rnd) (S : StdSort) (rng : Rng G) (kit : ToolKit μ σ Q L) (w : World)
    (o : ToolOptions) (q2g : List (Q × Q)) (refs : List (Event Q L)) (hyps : List (ScoredEvent Q L)) :
    evaluate R S rng kit w o q2g refs hyps =
      (sortHyps S o.sort (usedHyps q2g hyps)).bind fun l =>
      (SimpleMatcher.run kit.index kit.scorer kit.refsSet (usedRefs q2g refs) l).bind fun t =>
      if o.dumpMatches ≠ [] ∧ w.writable o.dumpMatches = false then .ok .failed
      else if t.2.1.foldl (fun n m => n + m.error.nh) 0 > l.length then .ok .failed
      else (groupMatches q2g t.2.1).bind fun groups =>
        (assess R S rng w o t.2.1 groups
          (if o.dumpMatches = [] then none else some (t.2.1, t.2.2))).bind fun r =>
        .ok (.done r) := rfl

theorem evaluate_dump (R : Rnd) (S : StdSort) (rng : Rng G) (kit : ToolKit μ σ Q L) (w : World)
    (o : ToolOptions) (q2g : List (Q × Q)) (refs : List (Event Q L)) (hyps : List (ScoredEvent Q L))
    (r : Report Q L) (h : evaluate R S rng kit w o q2g refs hyps = .ok (.done r)) :
    ¬ (o.dumpMatches ≠ [] ∧ w.writable o.dumpMatches = false) := by
  intro hc
  rw [evaluate_eq] at h
  cases h1 : sortHyps S o.sort (usedHyps q2g hyps) with
  | error f => rw [h1] at h; cases h
  | ok l =>
    rw [h1] at h
    simp only [Except.bind] at h
    cases h2 : SimpleMatcher.run kit.index kit.scorer kit.refsSet (usedRefs q2g refs) l with
    | error f => rw [h2] at h; cases h
    | ok t =>
      rw [h2] at h
      simp only [if_pos hc] at h
      cases h

variable [LawfulCmp Q] [LawfulCmp L]

/-- Events are only compared with events of the same query. -/
def QueryWise (kit : ToolKit μ σ Q L) : Prop :=
  ∀ P : Q → Bool, Splits kit.index kit.refsSet (fun r => P r.query) (fun h => P h.base.query)

omit [DecidableEq Q] [LawfulCmp Q] [LawfulCmp L] [Cmp Q] [Cmp L] in
theorem keptMatch_about (P : Q → Bool) :
    keptMatch (fun r : Event Q L => P r.query) (fun h : ScoredEvent Q L => P h.base.query) =
      about P := by
  funext m
  obtain ⟨r, h, e⟩ := m
  cases r <;> cases h <;> rfl

/-- The queries of the matches are those of the events. -/
theorem run_queries (kit : ToolKit μ σ Q L) (hk : QueryWise kit) (refs : List (Event Q L))
    (hyps : List (ScoredEvent Q L)) (s' : σ) (ms rep : List (KwsMatch Q L))
    (h : SimpleMatcher.run kit.index kit.scorer kit.refsSet refs hyps = .ok (s', ms, rep)) :
    (∀ m ∈ ms, ∃ q, queryOf m = some q) ∧
    ∀ q, (∃ m ∈ ms, queryOf m = some q) ↔
      (∃ e ∈ refs, e.query = q) ∨ ∃ x ∈ hyps, x.base.query = q := by
  obtain ⟨hits, fns, rfl, _, hp, ⟨hs, hs1, hs2⟩, hh⟩ := run_facts _ _ _ _ _ _ _ _ h
  have hr : ∀ r, r ∈ hits.filterMap (·.ref) ++ fns ↔ r ∈ refs := fun r => by
    rw [hp.mem_iff, StdSet.mem_ofList]
  refine ⟨?_, fun q => ⟨?_, ?_⟩⟩
  · intro m hm
    rcases List.mem_append.1 hm with hm | hm
    · rcases hh m hm with ⟨x, rfl⟩ | ⟨r, x, e, rfl, _⟩
      · exact ⟨_, rfl⟩
      · exact ⟨_, rfl⟩
    · obtain ⟨r, _, rfl⟩ := List.mem_map.1 hm
      exact ⟨_, rfl⟩
  · rintro ⟨m, hm, hq⟩
    rcases List.mem_append.1 hm with hm | hm
    · rcases hh m hm with ⟨x, rfl⟩ | ⟨r, x, e, rfl, _⟩
      · refine Or.inr ⟨x, ?_, by simpa [queryOf, Match.makeFalsePositive] using hq⟩
        have : some x ∈ hits.map (·.hyp) := List.mem_map.2 ⟨_, hm, rfl⟩
        rw [hs2] at this
        obtain ⟨y, hy, e⟩ := List.mem_map.1 this
        injection e with e
        subst e
        exact hs1.subset hy
      · refine Or.inl ⟨r, ?_, by simpa [queryOf, Match.make] using hq⟩
        exact (hr r).1 (List.mem_append_left _ (List.mem_filterMap.2 ⟨_, hm, rfl⟩))
    · obtain ⟨r, hr', rfl⟩ := List.mem_map.1 hm
      exact Or.inl ⟨r, (hr r).1 (List.mem_append_right _ hr'),
        by simpa [queryOf, Match.makeFalseNegative] using hq⟩
  · have key : (∃ e ∈ refs, e.query = q) →
        ∃ m ∈ hits ++ fns.map Match.makeFalseNegative, queryOf m = some q := by
      rintro ⟨e, he, rfl⟩
      rcases List.mem_append.1 ((hr e).2 he) with h' | h'
      · obtain ⟨m, hm, hm'⟩ := List.mem_filterMap.1 h'
        exact ⟨m, List.mem_append_left _ hm, by simp [queryOf, hm']⟩
      · exact ⟨_, List.mem_append_right _ (List.mem_map.2 ⟨e, h', rfl⟩), rfl⟩
    rintro (h' | ⟨x, hx, rfl⟩)
    · exact key h'
    · by_cases hc : ∃ e ∈ refs, e.query = x.base.query
      · exact key hc
      · have hrun := h
        unfold SimpleMatcher.run at hrun
        simp only [bind, Except.bind] at hrun
        cases hl : SimpleMatcher.loop kit.index kit.scorer
            (refs.foldl kit.index.insert (kit.index.clear kit.refsSet))
            (StdSet.ofList Cmp.lt refs) hyps with
        | error f => rw [hl] at hrun; simp at hrun
        | ok t =>
          obtain ⟨u, res, rep'⟩ := t
          rw [hl] at hrun
          simp only [pure, Except.pure, Except.ok.injEq, Prod.mk.injEq] at hrun
          refine ⟨Match.makeFalsePositive x, ?_, rfl⟩
          rw [← hrun.2.1]
          refine List.mem_append_left _ (loop_lonely _ _ _ x ?_ hyps hx _ _ _ _ hl)
          have hov : ∀ ov, kit.index.findOverlapping
              (refs.foldl kit.index.insert (kit.index.clear kit.refsSet)) x = .ok ov → ov = [] := by
            intro ov ho
            cases ov with
            | nil => rfl
            | cons r ov =>
              refine absurd ⟨r, (hk (fun _ => true)).mem refs x _ ho r (by simp), ?_⟩ hc
              have := (hk (fun q => decide (q = x.base.query))).same refs x _ ho r (by simp)
              simpa using this
          -- the search of every hypothesis succeeded
          have hfind : ∀ (hyps : List (ScoredEvent Q L)) unm t, x ∈ hyps →
              SimpleMatcher.loop kit.index kit.scorer
                (refs.foldl kit.index.insert (kit.index.clear kit.refsSet)) unm hyps = .ok t →
              ∃ ov, kit.index.findOverlapping
                (refs.foldl kit.index.insert (kit.index.clear kit.refsSet)) x = .ok ov := by
            intro hyps
            induction hyps with
            | nil => intro _ _ hx; simp at hx
            | cons y hyps ih =>
              intro unm t hx hl
              unfold SimpleMatcher.loop at hl
              simp only [bind, Except.bind] at hl
              cases ho : kit.index.findOverlapping
                  (refs.foldl kit.index.insert (kit.index.clear kit.refsSet)) y with
              | error f => rw [ho] at hl; simp at hl
              | ok ov =>
                rcases List.mem_cons.1 hx with rfl | hx
                · exact ⟨ov, ho⟩
                · rw [ho] at hl
                  simp only at hl
                  generalize SimpleMatcher.tryRefs kit.scorer y unm ov = a at hl
                  cases a with
                  | error f => simp at hl
                  | ok a =>
                    obtain ⟨_, u1, _, _⟩ := a
                    simp only at hl
                    generalize hb : SimpleMatcher.loop kit.index kit.scorer
                      (refs.foldl kit.index.insert (kit.index.clear kit.refsSet)) u1 hyps = b at hl
                    cases b with
                    | error f => simp at hl
                    | ok b => exact ih u1 b hx hb
          obtain ⟨ov, ho⟩ := hfind hyps _ _ hx hl
          rw [ho, hov ov ho]

end

end Kws
