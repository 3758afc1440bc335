import Verif.Spec.Ties
import Verif.Props.Evaluation

/-!
# C88: the matching of the box tool is determined
-/

namespace Kws
open Spec

theorem boxEventLt_iff (a b : Event Str (DocBox Str UInt32)) :
    Event.lt a b = true ↔ BoxEventLt a b := by
  rw [event_lt_iff]
  unfold BoxEventLt EventLt LtP
  have h1 : ∀ a b : Str, Cmp.lt a b = true ↔ a < b := fun a b => by simp [Cmp.lt]
  have h2 : ∀ a b : UInt32, Cmp.lt a b = true ↔ a < b := fun a b => by simp [Cmp.lt]
  have h3 : ∀ a b : DocBox Str UInt32, Cmp.lt a b = true ↔ DocBoxLt (· < ·) (· < ·) a b := by
    intro a b
    rw [show Cmp.lt a b = DocBox.lt a b from rfl, docbox_lt_iff]
    unfold DocBoxLt BoxLt LtP
    simp only [h1, h2]
  simp only [h1, h3]

theorem turnBefore_iff (a b : ScoredEvent Str (DocBox Str UInt32)) (hb : b.score ≠ .nan) :
    ScoredEvent.gt a b = true ↔ TurnBefore a b := by
  rw [show ScoredEvent.gt a b = ScoredEvent.lt b a from rfl, scored_lt_iff b a hb]
  unfold TurnBefore ScoredLt
  have := boxEventLt_iff b.base a.base
  rw [event_lt_iff] at this
  rw [this]
  rfl

theorem boxEventLt_total (a b : Event Str (DocBox Str UInt32)) :
    BoxEventLt a b ∨ a = b ∨ BoxEventLt b a := by
  simp only [← boxEventLt_iff]
  rcases LawfulCmp.tri a b with h | h | h
  · exact .inl h
  · exact .inr (.inl h)
  · exact .inr (.inr h)

theorem boxEventLt_irrefl (a : Event Str (DocBox Str UInt32)) : ¬ BoxEventLt a a := by
  rw [← boxEventLt_iff, show Event.lt a a = Cmp.lt a a from rfl, LawfulCmp.irrefl]
  decide

theorem boxEventLt_trans {a b c : Event Str (DocBox Str UInt32)} (h : BoxEventLt a b)
    (h' : BoxEventLt b c) : BoxEventLt a c := by
  rw [← boxEventLt_iff] at *
  exact LawfulCmp.trans a b c h h'

/-- The search of the box tool, with the order of its result. -/
theorem box_search_order (S : StdSort) (s : DocEventSet Str Str UInt32)
    (refs : List (Event Str (DocBox Str UInt32))) (h : ScoredEvent Str (DocBox Str UInt32))
    (hr : ∀ r ∈ refs, EdgesOkU r.location.toBBox) (hh : InRangeU h.base)
    (overl : List (Event Str (DocBox Str UInt32)))
    (he : (docIndex S Str Str UInt32).findOverlapping
        (refs.foldl (docIndex S Str Str UInt32).insert ((docIndex S Str Str UInt32).clear s)) h =
        .ok overl) :
    overl.Pairwise (OverlapBefore (· < ·) BoxEventLt (commonU · h.base)) := by
  have hex : ∀ x : Event Str (DocBox Str UInt32), ∃ a,
      x.location.toBBox.intersectionArea h.base.location.toBBox = .ok a := fun x => u32_inter_ok _ _
  choose area harea using hex
  obtain ⟨l, h1, h2, h3, h4⟩ := DocEventSet.find_spec S _ _ (doc_foldl_holds S refs s) h.base area
    (by
      intro x _ _ hd
      unfold DocBox.intersectionArea
      rw [if_pos ((LawfulCmp.eq_iff _ _).2 hd), harea])
  rw [show (docIndex S Str Str UInt32).findOverlapping _ h = _ from h1, Except.ok.injEq] at he
  subst he
  have hval : ∀ r ∈ refs, r.location.document = h.base.location.document →
      (area r).toNat = commonU r h.base := by
    intro r hr' hd
    refine inter_val r h.base (hr r hr') hh.1 ((common_le_right _ _).trans_lt hh.2) (area r) ?_
    unfold Event.intersectionArea DocBox.intersectionArea
    rw [if_pos ((LawfulCmp.eq_iff _ _).2 hd), harea]
  refine h4.imp_of_mem ?_
  rintro x y hx hy hxy
  obtain ⟨x1, _, x3, _⟩ := (h3 x).1 hx
  obtain ⟨y1, _, y3, _⟩ := (h3 y).1 hy
  rcases hxy with hxy | ⟨hxy, hlt⟩
  · left
    change commonU y h.base < commonU x h.base
    rw [← hval x x1 x3, ← hval y y1 y3]
    have : area y < area x := by simpa [Cmp.lt] using hxy
    exact UInt32.lt_iff_toNat_lt.1 this
  · right
    refine ⟨?_, (boxEventLt_iff y x).1 hlt⟩
    change commonU x h.base = commonU y h.base
    rw [← hval x x1 x3, ← hval y y1 y3, hxy]

/-- The matching of the box tool after the sorting of the hypotheses. -/
theorem box_exact (R : Rnd) (S : StdSort) (s : DocEventSet Str Str UInt32)
    (refs : List (Event Str (DocBox Str UInt32))) (hyps l : List (ScoredEvent Str (DocBox Str UInt32)))
    (hl : sortHyps S "desc".toList hyps = .ok l) (hfin : ∀ h ∈ hyps, h.score ≠ .nan)
    (hr : ∀ r ∈ refs, EdgesOkU r.location.toBBox) (hh : ∀ h ∈ hyps, InRangeU h.base)
    (hR : R = Rnd.exact ∨ R.Faithful ∧ ∀ h ∈ hyps, areaU h.base ≤ 2 ^ 24) : ∃ s' ms rep,
    SimpleMatcher.run (docIndex S Str Str UInt32) (iohScorer R (1 / 2)) s refs l = .ok (s', ms, rep) ∧
    ExactBoxMatching refs hyps ms rep := by
  rw [sortHyps, if_pos rfl] at hl
  have hsw : StrictWeakOn ScoredEvent.gt hyps := by
    by_contra hc
    rw [S.bad _ _ hc] at hl
    cases hl
  obtain ⟨l', e, hp⟩ := S.ok _ _ hsw
  rw [e, Except.ok.injEq] at hl
  subst hl
  have hm : ∀ h ∈ l', h ∈ hyps := fun h hx => hp.perm.mem_iff.1 hx
  obtain ⟨overl, hov⟩ := box_inputs R S s refs l' hr (fun h hx => hh h (hm h hx)) (by
    rcases hR with hR | ⟨hR, ha⟩
    · exact Or.inl hR
    · exact Or.inr ⟨hR, fun h hx => ha h (hm h hx)⟩)
  obtain ⟨entries, missed, rep, f1, f2, f3, f4⟩ := run_spec (docIndex S Str Str UInt32)
    (iohScorer R (1 / 2)) s overl (fun r h => verdict (areaU h.base ≤ 2 * commonU r h.base)) refs l'
    (fun x hx => (hov x hx).1) (fun x hx r hr' => (((hov x hx).2.2.1 r).1 hr').1)
    (fun x hx => (hov x hx).2.2.2.2)
  refine ⟨_, _, _, f1, l', overl, entries, missed, hp.perm, ?_, fun h hx => ⟨(hov h hx).2.2.1, ?_⟩, f2,
    f3.imp fun {a b} hab => (boxEventLt_iff a b).1 hab, f4, rfl⟩
  · refine hp.sorted.imp_of_mem ?_
    intro a b ha hb hab
    have hna := hfin a (hm a ha)
    have hnb := hfin b (hm b hb)
    have hord := (C07_scored_order_partial Str (DocBox Str UInt32)).tri a b hna hnb
    rcases hord with h | h | h
    · replace h := (scored_lt_iff a b hna).2 h
      rw [show ScoredEvent.gt b a = ScoredEvent.lt a b from rfl] at hab
      rw [hab] at h
      cases h
    · exact .inr h
    · exact .inl ((turnBefore_iff a b hnb).1 ((scored_lt_iff b a hnb).2 h))
  · exact box_search_order S s refs h hr (hh h (hm h hx)) _ (hov h hx).1

section
variable {G : Type}

/-- The run of the box tool with all ties. -/
theorem box_ties (R : Rnd) (S : StdSort) (rng : Rng G) (w : World) (o : ToolOptions) (t u : Str)
    (refs : List (Event Str (DocBox Str UInt32))) (hyps : List (ScoredEvent Str (DocBox Str UInt32)))
    (ht : w.file o.refFilename = some t) (hu : hypText w o = some u)
    (hrefs : Yields BoxEventText (lines t) refs)
    (hhyps : Yields (ScoredText R BoxEventText) (lines u) hyps)
    (hr : ∀ r ∈ refs, EdgesOkU r.location.toBBox) (hh : ∀ h ∈ hyps, InRangeU h.base)
    (h24 : R = Rnd.ieee → ∀ h ∈ hyps, areaU h.base ≤ 2 ^ 24)
    (hd : o.sort = "desc".toList) (hc : o.collapse = true) (r : Report Str (DocBox Str UInt32)) (ε : ℚ)
    (hT : Tolerance R (refs.length + hyps.length) ε)
    (h : mainWith R S rng (icdarKit R S) w o = .ok (.done r)) :
    ∃ ms rep,
      ExactBoxMatching (keep (·.query) (listedQueries w o) refs)
        (keep (·.base.query) (listedQueries w o) hyps) ms rep ∧
      r.dump = (if o.dumpMatches = [] then none else some (ms, rep)) ∧
      Shows r (matchNumbers (groupFor w o) o.interp o.trapezoid ms) ε := by
  have hr0 : o.refFilename ≠ [] := by
    intro hr
    unfold mainWith at h
    rw [if_pos hr] at h
    cases h
  have v1 := yields_valid hrefs
  have v2 := yields_valid hhyps
  rw [(icdar_plain R S).main_good S rng w o hr0 t u ht hu v1 v2,
    yields_events (Format.boxRefs (R := R)) hrefs, yields_events Format.boxHyps hhyps,
    (icdar_plain R S).mapQuery] at h
  cases hq : readQueryMap (fun (m : Unit) q => (m, (.ok q : Cpp Str))) w o () with
  | error x => rw [hq] at h; cases h
  | ok x =>
    rw [hq] at h
    cases x with
    | none => cases h
    | some q2g =>
      obtain ⟨q1, q2⟩ := readQueryMap_spec w o q2g hq
      have hfin := (icdar_plain R S).finite u v2
      rw [yields_events Format.boxHyps hhyps] at hfin
      obtain ⟨l, s', ms, rep, e1, e2, e3, e4, e5, e6, e7⟩ := evaluate_numbers R S rng (icdarKit R S)
        (icdar_safe R S) (by
          intro a b e he hf
          obtain ⟨i, hi⟩ := inter_ok a b.base
          have := ioh_eq R (1 / 2) a b i hi
          rw [show (icdarKit R S).scorer a b = iohScorer R (1 / 2) a b from rfl, this] at he
          injection he with he
          subst he
          unfold verdict at hf ⊢
          split
          · rfl
          · rename_i hne; rw [if_neg hne] at hf; norm_num at hf) w o q2g refs hyps r _ ε hT le_rfl
        hfin hd hc h
      have k1 : usedRefs q2g refs = keep (·.query) (listedQueries w o) refs := by
        unfold usedRefs
        rw [filter_keep _ _ q1]
      have k2 : usedHyps q2g hyps = keep (·.base.query) (listedQueries w o) hyps := by
        unfold usedHyps
        rw [filter_keep _ _ q1]
      have hsub : ∀ x ∈ usedHyps q2g hyps, x ∈ hyps := fun x hx => usedHyps_mem q2g hyps x hx
      have hsubr : ∀ x ∈ usedRefs q2g refs, x ∈ refs := by
        intro x hx
        rw [k1] at hx
        unfold keep at hx
        split at hx
        · exact hx
        · exact (List.mem_filter.1 hx).1
      have hg : groupOf q2g = groupFor w o := funext q2
      rw [hg] at e7
      refine ⟨ms, rep, ?_, e6, e7⟩
      obtain ⟨s1, ms1, rep1, f1, f2⟩ := box_exact R S DocEventSet.new (usedRefs q2g refs)
        (usedHyps q2g hyps) l e1 (fun x hx => hfin x (hsub x hx)) (fun x hx => hr x (hsubr x hx))
        (fun x hx => hh x (hsub x hx)) (by
          rcases hT with ⟨rfl, _⟩ | ⟨rfl, _⟩
          · exact Or.inl rfl
          · exact Or.inr ⟨ieee_faithful, fun x hx => h24 rfl x (hsub x hx)⟩)
      rw [show SimpleMatcher.run (icdarKit R S).index (icdarKit R S).scorer (icdarKit R S).refsSet
        (usedRefs q2g refs) l = _ from f1, Except.ok.injEq, Prod.mk.injEq, Prod.mk.injEq] at e4
      obtain ⟨_, rfl, rfl⟩ := e4
      rw [← k1, ← k2]
      exact f2

/-- C88: the matching of a run of the box tool, with all ties resolved. -/
theorem C88_box (S : StdSort) (rng : Rng G) (w : World) (o : ToolOptions) (t u : Str)
    (refs : List (Event Str (DocBox Str UInt32))) (hyps : List (ScoredEvent Str (DocBox Str UInt32)))
    (ht : w.file o.refFilename = some t) (hu : hypText w o = some u)
    (hrefs : Yields BoxEventText (lines t) refs)
    (hhyps : Yields (ScoredText Rnd.exact BoxEventText) (lines u) hyps)
    (hr : ∀ r ∈ refs, EdgesOkU r.location.toBBox) (hh : ∀ h ∈ hyps, InRangeU h.base)
    (hd : o.sort = "desc".toList) (hc : o.collapse = true) (r : Report Str (DocBox Str UInt32))
    (h : mainWith Rnd.exact S rng (icdarKit Rnd.exact S) w o = .ok (.done r)) :
    ∃ ms rep,
      ExactBoxMatching (keep (·.query) (listedQueries w o) refs)
        (keep (·.base.query) (listedQueries w o) hyps) ms rep ∧
      r.dump = (if o.dumpMatches = [] then none else some (ms, rep)) ∧
      let n := matchNumbers (groupFor w o) o.interp o.trapezoid ms
      r.gAP.value = n.gAP ∧ r.mAP.value = n.mAP ∧ r.gNDCG.value = n.gNDCG ∧
        r.mNDCG.value = n.mNDCG := by
  obtain ⟨ms, rep, h3, h4, h5⟩ := box_ties Rnd.exact S rng w o t u refs hyps ht hu hrefs
    hhyps hr hh (fun h => by
      have := congrArg (fun R : Rnd => R.f64 (1 / 3)) h
      exact absurd this (by decide +kernel)) hd hc r 0 (Or.inl ⟨rfl, rfl⟩) h
  exact ⟨ms, rep, h3, h4, sub_eq_zero.1 (abs_nonpos_iff.1 h5.gAP),
    sub_eq_zero.1 (abs_nonpos_iff.1 h5.mAP), h5.gNDCG, h5.mNDCG⟩

/-- C88 in IEEE arithmetic: the matching is the same. -/
theorem C88_box_rounded (S : StdSort) (rng : Rng G) (w : World) (o : ToolOptions) (t u : Str)
    (refs : List (Event Str (DocBox Str UInt32))) (hyps : List (ScoredEvent Str (DocBox Str UInt32)))
    (ht : w.file o.refFilename = some t) (hu : hypText w o = some u)
    (hrefs : Yields BoxEventText (lines t) refs)
    (hhyps : Yields (ScoredText Rnd.ieee BoxEventText) (lines u) hyps)
    (hr : ∀ r ∈ refs, EdgesOkU r.location.toBBox)
    (hh : ∀ h ∈ hyps, EdgesOkU h.base.location.toBBox ∧ areaU h.base ≤ 2 ^ 24)
    (hl : refs.length + hyps.length ≤ 2 ^ 24)
    (hd : o.sort = "desc".toList) (hc : o.collapse = true) (r : Report Str (DocBox Str UInt32))
    (h : mainWith Rnd.ieee S rng (icdarKit Rnd.ieee S) w o = .ok (.done r)) :
    ∃ ms rep,
      ExactBoxMatching (keep (·.query) (listedQueries w o) refs)
        (keep (·.base.query) (listedQueries w o) hyps) ms rep ∧
      r.dump = (if o.dumpMatches = [] then none else some (ms, rep)) ∧
      Shows r (matchNumbers (groupFor w o) o.interp o.trapezoid ms)
        ((refs.length + hyps.length + 3) ^ 2 / 2 ^ 52) := by
  refine box_ties Rnd.ieee S rng w o t u refs hyps ht hu hrefs hhyps hr
    (fun x hx => ⟨(hh x hx).1, by have := (hh x hx).2; omega⟩) (fun _ x hx => (hh x hx).2) hd hc r _
    (Or.inr ⟨rfl, hl, ?_⟩) h
  push_cast
  rfl

end

/-! ## The matching is determined -/

theorem turnBefore_asymm {a b : ScoredEvent Str (DocBox Str UInt32)} (ha : a.score ≠ .nan)
    (hb : b.score ≠ .nan) (h : TurnBefore a b) : ¬ TurnBefore b a := by
  intro h'
  rw [← turnBefore_iff a b hb] at h
  rw [← turnBefore_iff b a ha] at h'
  have c := C07_scored_order_partial Str (DocBox Str UInt32)
  have h1 := (c.lt_iff b a hb ha).1 h
  have h2 := (c.lt_iff a b ha hb).1 h'
  exact c.irrefl a ha (c.trans a b a ha hb ha h2 h1)

/-- Strictly ordered lists with the same members are equal. -/
theorem eq_of_strict {α : Type} {r : α → α → Prop} (irr : ∀ a, ¬ r a a)
    (asymm : ∀ a b, r a b → ¬ r b a) {l l' : List α} (h : l.Pairwise r) (h' : l'.Pairwise r)
    (hm : ∀ a, a ∈ l ↔ a ∈ l') : l = l' := by
  have nd : ∀ {k : List α}, k.Pairwise r → k.Nodup := fun hk =>
    hk.imp fun {a b} hab (e : a = b) => irr a (by rw [← e] at hab; exact hab)
  exact ((List.perm_ext_iff_of_nodup (nd h) (nd h')).2 hm).eq_of_pairwise
    (fun a b _ _ hab hba => absurd hba (asymm a b hab)) h h'

theorem overlapBefore_irrefl (e : Event Str (DocBox Str UInt32)) (x : Event Str (DocBox Str UInt32)) :
    ¬ OverlapBefore (· < ·) BoxEventLt (commonU · e) x x := by
  rintro (h | ⟨_, h⟩)
  · exact lt_irrefl _ h
  · exact boxEventLt_irrefl x h

theorem overlapBefore_asymm (e : Event Str (DocBox Str UInt32)) (x y : Event Str (DocBox Str UInt32))
    (h : OverlapBefore (· < ·) BoxEventLt (commonU · e) x y) :
    ¬ OverlapBefore (· < ·) BoxEventLt (commonU · e) y x := by
  rintro (h' | ⟨h1', h2'⟩) <;> rcases h with h | ⟨h1, h2⟩
  · exact lt_asymm h h'
  · change commonU x e < commonU y e at h'
    change commonU x e = commonU y e at h1
    omega
  · change commonU y e < commonU x e at h
    change commonU y e = commonU x e at h1'
    omega
  · exact boxEventLt_irrefl x (boxEventLt_trans h2' h2)

theorem Spec.Greedy.congr {RE HE : Type} {overl overl' : HE → List RE}
    {score : RE → HE → MatchError} {earlier : List (Match RE HE)} {l : List HE}
    {e r : List (Match RE HE)} (h : Greedy overl score earlier l e r)
    (ho : ∀ x ∈ l, overl x = overl' x) : Greedy overl' score earlier l e r := by
  induction h with
  | nil earlier => exact .nil _
  | cons earlier h hs entry repeats entries repeated h1 h2 _ ih =>
    have := ho h (by simp)
    exact .cons _ _ _ _ _ _ _ (this ▸ h1) (this ▸ h2) (ih fun x hx => ho x (by simp [hx]))

/-- C88: references and hypotheses, in whatever order, determine the matches and repeated matches,
and their order. -/
theorem C88_determined (refs refs' : List (Event Str (DocBox Str UInt32)))
    (hyps hyps' : List (ScoredEvent Str (DocBox Str UInt32)))
    (ms rep ms' rep' : List (Match (Event Str (DocBox Str UInt32))
      (ScoredEvent Str (DocBox Str UInt32))))
    (hr : ∀ r, r ∈ refs ↔ r ∈ refs') (hh : hyps.Perm hyps') (hn : ∀ h ∈ hyps, h.score ≠ .nan)
    (h : ExactBoxMatching refs hyps ms rep) (h' : ExactBoxMatching refs' hyps' ms' rep') :
    ms = ms' ∧ rep = rep' := by
  obtain ⟨l, ov, en, mi, a1, a2, a3, a4, a5, a6, rfl⟩ := h
  obtain ⟨l', ov', en', mi', b1, b2, b3, b4, b5, b6, rfl⟩ := h'
  have hl : l = l' := by
    refine (a1.trans (hh.trans b1.symm)).eq_of_pairwise ?_ a2 b2
    intro a b ha hb hab hba
    rcases hab with hab | rfl
    · rcases hba with hba | rfl
      · exact absurd hba (turnBefore_asymm (hn a (a1.mem_iff.1 ha))
          (hn b (hh.mem_iff.2 (b1.mem_iff.1 hb))) hab)
      · rfl
    · rfl
  subst hl
  have hov : ∀ x ∈ l, ov x = ov' x := by
    intro x hx
    refine eq_of_strict (overlapBefore_irrefl x.base) (overlapBefore_asymm x.base) (a3 x hx).2
      (b3 x hx).2 fun r => ?_
    rw [(a3 x hx).1, (b3 x hx).1, hr]
  obtain ⟨rfl, rfl⟩ := (a4.congr hov).unique b4
  have : mi = mi' := by
    refine eq_of_strict boxEventLt_irrefl
      (fun a b hab hba => boxEventLt_irrefl a (boxEventLt_trans hab hba)) a5 b5 fun r => ?_
    rw [a6, b6, hr]
  rw [this]
  exact ⟨rfl, rfl⟩

/-- C88: the exact matching is one of those that C67 describes. -/
theorem C88_refines (refs : List (Event Str (DocBox Str UInt32)))
    (hyps : List (ScoredEvent Str (DocBox Str UInt32)))
    (ms rep : List (Match (Event Str (DocBox Str UInt32)) (ScoredEvent Str (DocBox Str UInt32))))
    (h : ExactBoxMatching refs hyps ms rep) : ∃ l, l.Perm hyps ∧ BoxMatching refs l ms rep := by
  obtain ⟨l, ov, en, mi, a1, a2, a3, a4, a5, a6, rfl⟩ := h
  refine ⟨l, a1, ov, en, mi, fun x hx => ⟨?_, (a3 x hx).1, ?_⟩, a4, ?_, a6, rfl⟩
  · exact (a3 x hx).2.imp fun {a b} hab (e : a = b) => overlapBefore_irrefl x.base a (by
      rw [← e] at hab; exact hab)
  · refine (a3 x hx).2.imp fun {a b} hab => ?_
    rcases hab with hab | ⟨hab, _⟩
    · exact le_of_lt hab
    · exact le_of_eq hab.symm
  · exact a5.imp fun {a b} hab (e : a = b) => boxEventLt_irrefl a (by rw [← e] at hab; exact hab)

/-- Both ties: two hypotheses with the same score, and one that shares the same with two references.
The one further to the right goes first and is given the reference further to the right. -/
example :
    let e (x : UInt32) : Event Str (DocBox Str UInt32) := ⟨['q'], ⟨⟨x, 0, 2, 1⟩, ['d']⟩⟩
    ExactBoxMatching [e 0, e 2] [⟨e 0, .fin 1⟩, ⟨e 1, .fin 1⟩]
      [⟨some (e 2), some ⟨e 1, .fin 1⟩, ⟨0, 0⟩⟩, ⟨some (e 0), some ⟨e 0, .fin 1⟩, ⟨0, 0⟩⟩] [] := by
  intro e
  refine ⟨[⟨e 1, .fin 1⟩, ⟨e 0, .fin 1⟩],
    fun h => if h = ⟨e 1, .fin 1⟩ then [e 2, e 0] else [e 0],
    [⟨some (e 2), some ⟨e 1, .fin 1⟩, ⟨0, 0⟩⟩, ⟨some (e 0), some ⟨e 0, .fin 1⟩, ⟨0, 0⟩⟩], [],
    by decide +kernel, ?_, ?_, ?_, by simp, ?_, rfl⟩
  · simp only [List.pairwise_cons, List.mem_singleton, forall_eq, List.not_mem_nil, false_implies,
      implies_true, List.Pairwise.nil, and_true]
    exact Or.inl ((turnBefore_iff _ _ (by decide)).1 (by decide +kernel))
  · intro h hh
    simp only [List.mem_cons, List.not_mem_nil, or_false] at hh
    have key : ∀ (ov refs : List (Event Str (DocBox Str UInt32))) (b : Event Str (DocBox Str UInt32)),
        (∀ r ∈ ov, r ∈ refs) → (∀ r ∈ refs, r ∈ ov ↔ r.query = b.query ∧ 0 < commonU r b) →
        ∀ r, r ∈ ov ↔ r ∈ refs ∧ r.query = b.query ∧ 0 < commonU r b := by
      intro ov refs b h1 h2 r
      exact ⟨fun h => ⟨h1 r h, (h2 r (h1 r h)).1 h⟩, fun h => (h2 r h.1).2 h.2⟩
    rcases hh with rfl | rfl
    · refine ⟨key _ _ _ (by decide +kernel) (by decide +kernel), ?_⟩
      change List.Pairwise _ (if _ then _ else _)
      rw [if_pos rfl]
      simp only [List.pairwise_cons, List.mem_singleton, forall_eq, List.not_mem_nil, false_implies,
        implies_true, List.Pairwise.nil, and_true]
      exact Or.inr ⟨by decide +kernel, (boxEventLt_iff _ _).1 (by decide +kernel)⟩
    · refine ⟨key _ _ _ (by decide +kernel) (by decide +kernel), ?_⟩
      change List.Pairwise _ (if (⟨e 0, .fin 1⟩ : ScoredEvent Str (DocBox Str UInt32)) = ⟨e 1, .fin 1⟩
        then _ else _)
      rw [if_neg (by decide +kernel)]
      exact List.pairwise_singleton _ _
  · refine .cons _ _ _ [_] [] [_] _ (Or.inr (Or.inl ⟨[], e 2, [e 0], by decide +kernel,
      by decide +kernel, by simp [Taken], by simp, by decide +kernel⟩))
      ⟨[], [e 2, e 0], by decide +kernel, by simp, ?_, by simp⟩ ?_
    · intro r hr
      simp only [List.head?_cons, Option.some.injEq] at hr
      subst hr
      exact ⟨by decide +kernel, by simp [Taken]⟩
    refine .cons _ _ _ [_] [] [] _ (Or.inr (Or.inl ⟨[], e 0, [], by decide +kernel,
      by decide +kernel, by unfold Taken; decide +kernel, by simp, by decide +kernel⟩))
      ⟨[], [e 0], by decide +kernel, by simp, ?_, by simp⟩ (.nil _)
    intro r hr
    simp only [List.head?_cons, Option.some.injEq] at hr
    subst hr
    exact ⟨by decide +kernel, by unfold Taken; decide +kernel⟩
  · intro r
    simp only [Taken, List.mem_cons, List.not_mem_nil, or_false, exists_eq_or_imp, exists_eq_left,
      Option.some.injEq, false_iff, not_and, not_not]
    rintro (rfl | rfl)
    · exact Or.inr rfl
    · exact Or.inl rfl

end Kws
