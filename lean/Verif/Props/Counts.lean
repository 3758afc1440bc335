import Verif.Props.ToolMatching
import Verif.Props.Scorers
import Verif.Lemmas.Ieee

/-!
# C103: the counts of a matching are numbers of hypotheses and references
-/

namespace Kws
open Spec

section
variable {σ RE HE : Type} [Cmp RE] [LawfulCmp RE]

/-- C103: whatever the scorer and the arithmetic, the sum of `NR` is the number of different
references. -/
theorem C103_references [DecidableEq RE] (ix : RefIndex σ RE HE) (scorer : RE → HE → Cpp MatchError)
    (s s' : σ) (refs : List RE) (hyps : List HE) (result rep : List (Match RE HE))
    (h : SimpleMatcher.run ix scorer s refs hyps = .ok (s', result, rep)) :
    (result.map (fun m => m.error.nr)).sum = refs.toFinset.card := by
  have hlen : (result.filterMap (·.ref)).length = refs.toFinset.card := by
    obtain ⟨h1, h2, _⟩ := C14_every_ref_once ix scorer s s' refs hyps result rep h
    rw [← List.toFinset_card_of_nodup h1]
    congr 1
    ext r
    rw [List.mem_toFinset, List.mem_toFinset, h2]
  rw [← hlen]
  obtain ⟨hits, fns, rfl, _, _, _, h5⟩ := run_facts ix scorer s s' refs hyps result rep h
  have key : ∀ m ∈ hits ++ fns.map Match.makeFalseNegative,
      m.error.nr = if m.ref.isSome then 1 else 0 := by
    intro m hm
    rcases List.mem_append.1 hm with hm | hm
    · rcases h5 m hm with ⟨x, rfl⟩ | ⟨r, x, e, rfl, _, he⟩
      · simp [Match.makeFalsePositive, MatchError.nr]
      · simp [Match.make, MatchError.nr, he]
    · obtain ⟨r, _, rfl⟩ := List.mem_map.1 hm
      simp [Match.makeFalseNegative, MatchError.nr]
  generalize hits ++ fns.map Match.makeFalseNegative = ms at key
  induction ms with
  | nil => rfl
  | cons m ms ih =>
    have := ih (fun x hx => key x (List.mem_cons_of_mem _ hx))
    rw [List.map_cons, List.sum_cons, key m List.mem_cons_self, this, List.filterMap_cons]
    cases m.ref with
    | none => simp
    | some r => simp [Nat.add_comm]

/-- The sum of `NH` is the number of entries with a hypothesis if every accepted pair has an error that
tells it from a reference that is not found. -/
theorem counts_hypotheses (ix : RefIndex σ RE HE) (scorer : RE → HE → Cpp MatchError)
    (s s' : σ) (refs : List RE) (hyps : List HE) (result rep : List (Match RE HE))
    (hsc : ∀ r ∈ refs, ∀ x ∈ hyps, ∀ e, scorer r x = .ok e → e.fp < 1 → 0 < e.fp ∨ e.fn < 1)
    (h : SimpleMatcher.run ix scorer s refs hyps = .ok (s', result, rep)) :
    (result.map (fun m => m.error.nh)).sum = result.countP (·.hyp.isSome) := by
  have hr := (C14_every_ref_once ix scorer s s' refs hyps result rep h).2.1
  obtain ⟨hits, fns, rfl, _, _, ⟨hs, h3, h4⟩, h5⟩ := run_facts ix scorer s s' refs hyps result rep h
  have key : ∀ m ∈ hits ++ fns.map Match.makeFalseNegative,
      m.error.nh = if m.hyp.isSome then 1 else 0 := by
    intro m hm
    rcases List.mem_append.1 hm with hm' | hm'
    · rcases h5 m hm' with ⟨x, rfl⟩ | ⟨r, x, e, rfl, he, hfp⟩
      · simp [Match.makeFalsePositive, MatchError.nh]
      · have hx : x ∈ hyps := by
          have : some x ∈ hits.map (·.hyp) := List.mem_map.2 ⟨_, hm', rfl⟩
          rw [h4] at this
          obtain ⟨y, hy, e⟩ := List.mem_map.1 this
          injection e with e
          exact e ▸ h3.subset hy
        have hrr : r ∈ refs := (hr r).1 (List.mem_filterMap.2 ⟨_, hm, rfl⟩)
        have := hsc r hrr x hx e he hfp
        simp [Match.make, MatchError.nh, this]
    · obtain ⟨r, _, rfl⟩ := List.mem_map.1 hm'
      simp [Match.makeFalseNegative, MatchError.nh]
  generalize hits ++ fns.map Match.makeFalseNegative = ms at key
  induction ms with
  | nil => rfl
  | cons m ms ih =>
    have := ih (fun x hx => key x (List.mem_cons_of_mem _ hx))
    rw [List.map_cons, List.sum_cons, key m List.mem_cons_self, this, List.countP_cons]
    omega

end

section
variable {σ Q L : Type} [Cmp Q] [LawfulCmp Q] [Cmp L] [LawfulCmp L]

/-- C103: with the scorer of the segmentation-based tool, the sum of `NH` is the number of entries with
a hypothesis. -/
theorem C103_trivial (ix : RefIndex σ (Event Q L) (ScoredEvent Q L)) (s s' : σ)
    (refs : List (Event Q L)) (hyps : List (ScoredEvent Q L)) (result rep : List (KwsMatch Q L))
    (h : SimpleMatcher.run ix trivialScorer s refs hyps = .ok (s', result, rep)) :
    (result.map (fun m => m.error.nh)).sum = result.countP (·.hyp.isSome) :=
  counts_hypotheses ix _ s s' refs hyps result rep (fun r _ x _ e he hfp => by
    unfold trivialScorer at he
    split at he <;> (injection he with he; subst he; simp_all)) h

end

section
variable {σ Q D : Type} [DecidableEq Q] [DecidableEq D] [Cmp Q] [LawfulCmp Q] [Cmp D] [LawfulCmp D]

omit [DecidableEq Q] [DecidableEq D] in
/-- C103: with the scorers with a threshold, whatever it is and in any arithmetic, the sum of `NH` is
the number of entries with a hypothesis. -/
theorem C103_threshold (R : Rnd) (threshold : ℚ)
    (ix : RefIndex σ (Event Q (DocBox D UInt32)) (ScoredEvent Q (DocBox D UInt32))) (s s' : σ)
    (refs : List (Event Q (DocBox D UInt32))) (hyps : List (ScoredEvent Q (DocBox D UInt32)))
    (result rep : List (KwsMatch Q (DocBox D UInt32)))
    (h : SimpleMatcher.run ix (iohScorer R threshold) s refs hyps = .ok (s', result, rep) ∨
      SimpleMatcher.run ix (iouScorer R threshold) s refs hyps = .ok (s', result, rep)) :
    (result.map (fun m => m.error.nh)).sum = result.countP (·.hyp.isSome) := by
  rcases h with h | h
  · refine counts_hypotheses ix _ s s' refs hyps result rep (fun r _ x _ e he hfp => ?_) h
    simp only [iohScorer, bind, Except.bind, pure, Except.pure] at he
    grind
  · refine counts_hypotheses ix _ s s' refs hyps result rep (fun r _ x _ e he hfp => ?_) h
    simp only [iouScorer, bind, Except.bind, pure, Except.pure] at he
    grind

/-- C103: with the soft scorer in exact arithmetic, the sum of `NH` is the number of entries with a
hypothesis. -/
theorem C103_soft (ix : RefIndex σ (Event Q (DocBox D UInt32)) (ScoredEvent Q (DocBox D UInt32)))
    (s s' : σ) (refs : List (Event Q (DocBox D UInt32))) (hyps : List (ScoredEvent Q (DocBox D UInt32)))
    (result rep : List (KwsMatch Q (DocBox D UInt32)))
    (hr : ∀ r ∈ refs, InRangeU r) (hh : ∀ x ∈ hyps, InRangeU x.base)
    (h : SimpleMatcher.run ix (softScorer Rnd.exact) s refs hyps = .ok (s', result, rep)) :
    (result.map (fun m => m.error.nh)).sum = result.countP (·.hyp.isSome) := by
  refine counts_hypotheses ix _ s s' refs hyps result rep (fun r hr' x hx e he hfp => ?_) h
  by_cases hq : r.query = x.base.query
  · rw [C23_soft_value _ _ (hr r hr') (hh x hx) hq, Except.ok.injEq] at he
    subst he
    right
    simp only at hfp ⊢
    have hc : 0 < commonU r x.base := by
      by_contra h0
      have h0 : commonU r x.base = 0 := by omega
      rw [h0] at hfp
      split at hfp <;> simp at hfp
    have hle : commonU r x.base ≤ areaU r := common_le_left r x.base
    rw [if_neg (by omega)]
    have : (0 : ℚ) < (commonU r x.base : ℚ) / areaU r := by
      have h1 : (0 : ℚ) < commonU r x.base := by exact_mod_cast hc
      have h2 : (0 : ℚ) < areaU r := by exact_mod_cast lt_of_lt_of_le hc hle
      positivity
    linarith
  · rw [C23_soft_other_query _ _ _ hq, Except.ok.injEq] at he
    subst he
    simp at hfp

/-- C103 in `float` arithmetic, for the soft scorer and references of area at most `2^24`. Missing for
C103: larger references, see `C103_soft_refuted`. -/
theorem C103_soft_partial (R : Rnd) (hR : R.Faithful)
    (ix : RefIndex σ (Event Q (DocBox D UInt32)) (ScoredEvent Q (DocBox D UInt32)))
    (s s' : σ) (refs : List (Event Q (DocBox D UInt32))) (hyps : List (ScoredEvent Q (DocBox D UInt32)))
    (result rep : List (KwsMatch Q (DocBox D UInt32)))
    (hr : ∀ r ∈ refs, InRangeU r ∧ areaU r ≤ 2 ^ 24) (hh : ∀ x ∈ hyps, InRangeU x.base)
    (h : SimpleMatcher.run ix (softScorer R) s refs hyps = .ok (s', result, rep)) :
    (result.map (fun m => m.error.nh)).sum = result.countP (·.hyp.isSome) := by
  refine counts_hypotheses ix _ s s' refs hyps result rep (fun r hr' x hx e he hfp => ?_) h
  obtain ⟨hri, hra⟩ := hr r hr'
  by_cases hq : r.query = x.base.query
  · rw [soft_eq _ _ _ hri (hh x hx) hq, Except.ok.injEq] at he
    subst he
    right
    simp only at hfp ⊢
    have hc : 0 < commonU r x.base := by
      by_contra h0
      have h0 : commonU r x.base = 0 := by omega
      rw [h0] at hfp
      simp [hR.zero32, hR.one32] at hfp
    have hle : commonU r x.base ≤ areaU r := common_le_left r x.base
    have h2 : (0 : ℚ) < areaU r := by exact_mod_cast lt_of_lt_of_le hc hle
    rw [hR.nat32 _ hra, if_pos h2, hR.nat32 _ (hle.trans hra)]
    have h1 : (1 : ℚ) / 2 ^ 24 ≤ R.f32 ((commonU r x.base : ℚ) / areaU r) := by
      have := hR.dyadic32 1 24 (by norm_num) (by norm_num)
      rw [Nat.cast_one] at this
      rw [← this]
      refine hR.mono32 _ _ ?_
      rw [div_le_div_iff₀ (by norm_num) h2, one_mul]
      have a : (1 : ℚ) ≤ commonU r x.base := by exact_mod_cast hc
      have b : (areaU r : ℚ) ≤ 2 ^ 24 := by exact_mod_cast hra
      nlinarith
    have h3 := hR.dyadic32 (2 ^ 24 - 1) 24 (by norm_num) (by norm_num)
    refine lt_of_le_of_lt (hR.mono32 _ (((2 ^ 24 - 1 : ℕ) : ℚ) / 2 ^ 24) ?_) ?_
    · norm_num at h1 ⊢
      linarith
    · rw [h3]
      norm_num
  · rw [C23_soft_other_query _ _ _ hq, Except.ok.injEq] at he
    subst he
    simp at hfp

end

/-- C103 is false for the soft scorer in `float` arithmetic: a hypothesis of one pixel inside a
reference of 8192 × 8192 pixels is matched, and the sum of `NH` is 0. -/
theorem C103_soft_refuted (S : StdSort) (s : DocEventSet Nat Nat UInt32) :
    ∃ (refs : List (Event Nat (DocBox Nat UInt32))) (hyps : List (ScoredEvent Nat (DocBox Nat UInt32)))
      (s' : DocEventSet Nat Nat UInt32) (result rep : List (KwsMatch Nat (DocBox Nat UInt32))),
      (∀ r ∈ refs, InRangeU r) ∧ (∀ x ∈ hyps, InRangeU x.base) ∧
      SimpleMatcher.run (docIndex S Nat Nat UInt32) (softScorer Rnd.ieee) s refs hyps =
        .ok (s', result, rep) ∧
      result.countP (·.hyp.isSome) = 1 ∧ (result.map (fun m => m.error.nh)).sum = 0 := by
  let r : Event Nat (DocBox Nat UInt32) := ⟨1, ⟨⟨0, 0, 8192, 8192⟩, 7⟩⟩
  let x : ScoredEvent Nat (DocBox Nat UInt32) := ⟨⟨1, ⟨⟨5, 5, 1, 1⟩, 7⟩⟩, .fin 0⟩
  have hsc : softScorer Rnd.ieee r x = .ok ⟨0, 1⟩ := by decide +kernel
  obtain ⟨ov, h1, h2, h3, _⟩ := C17_box_search S s [r] x
  have hov : ov = [r] := by
    have hmem : r ∈ ov := (h3 r).2 ⟨by simp, rfl, rfl, 1, by decide +kernel, by decide⟩
    have hall : ∀ y ∈ ov, y = r := fun y hy => by simpa using ((h3 y).1 hy).1
    refine List.perm_singleton.1 ((List.perm_ext_iff_of_nodup h2 (by simp)).2 fun y => ?_)
    rw [List.mem_singleton]
    exact ⟨hall y, fun e => e ▸ hmem⟩
  subst hov
  obtain ⟨entries, missed, rep, a1, a2, _, a4⟩ := run_spec (docIndex S Nat Nat UInt32)
    (softScorer Rnd.ieee) s (fun _ => [r]) (fun _ _ => ⟨0, 1⟩) [r] [x]
    (fun y hy => by rw [List.mem_singleton.1 hy]; exact h1)
    (fun y _ z hz => hz)
    (fun y hy z hz => by rw [List.mem_singleton.1 hy, List.mem_singleton.1 hz]; exact hsc)
  have he : entries = [⟨some r, some x, ⟨0, 1⟩⟩] := by
    cases a2 with
    | cons _ _ _ entry repeats entries' repeated d1 d2 d3 =>
      cases d3
      rcases d1 with ⟨b1, _⟩ | ⟨l1, y, l2, b1, _, _, _, b5⟩ | ⟨_, b2, _⟩
      · have := b1 r (by simp)
        norm_num at this
      · have : y ∈ [r] := by rw [b1]; simp
        rw [List.mem_singleton.1 this] at b5
        simpa using b5
      · have := b2 r (by simp) (by norm_num)
        simp [Taken] at this
  have hm : missed = [] := by
    refine List.eq_nil_iff_forall_not_mem.2 fun y hy => ?_
    obtain ⟨b1, b2⟩ := (a4 y).1 hy
    rw [List.mem_singleton.1 b1, he] at b2
    exact b2 ⟨_, List.mem_singleton.2 rfl, rfl⟩
  subst he hm
  have hr : InRangeU r := ⟨by unfold EdgesOkU; decide, by
    unfold areaU; rw [cellsU_card]; decide⟩
  have hx : InRangeU x.base := ⟨by unfold EdgesOkU; decide, by
    unfold areaU; rw [cellsU_card]; decide⟩
  refine ⟨[r], [x], _, _, _, by simpa using hr, by simpa using hx, a1, by simp, ?_⟩
  simp [MatchError.nh]

/-- Two hypotheses of one reference, one of no reference, a reference listed twice: two different
references, two entries with a hypothesis. -/
example : (SimpleMatcher.run (plainIndex Nat Nat) trivialScorer EventSet.new [⟨1, 1⟩, ⟨1, 1⟩, ⟨1, 2⟩]
      [⟨⟨1, 1⟩, .fin 3⟩, ⟨⟨1, 1⟩, .fin 2⟩, ⟨⟨2, 2⟩, .fin 1⟩]).map (fun t =>
        ((t.2.1.map (fun m => m.error.nr)).sum, (t.2.1.map (fun m => m.error.nh)).sum,
          t.2.1.countP (·.hyp.isSome))) = .ok (2, 2, 2) := by
  decide +kernel

/-- Boxes in range, scored softly in `float` arithmetic and matched by an index that finds everything:
one pair of false-positive rate 1/2 and false-negative rate 3/4, one false positive. -/
example :
    let ix : RefIndex (List (Event Nat (DocBox Nat UInt32))) (Event Nat (DocBox Nat UInt32))
        (ScoredEvent Nat (DocBox Nat UInt32)) := ⟨fun _ => [], fun l r => r :: l, fun l _ => .ok l⟩
    let r : Event Nat (DocBox Nat UInt32) := ⟨1, ⟨⟨0, 0, 2, 2⟩, 7⟩⟩
    let x : ScoredEvent Nat (DocBox Nat UInt32) := ⟨⟨1, ⟨⟨1, 0, 2, 1⟩, 7⟩⟩, .fin 0⟩
    let y : ScoredEvent Nat (DocBox Nat UInt32) := ⟨⟨2, ⟨⟨1, 0, 2, 1⟩, 7⟩⟩, .fin 0⟩
    InRangeU r ∧ areaU r ≤ 2 ^ 24 ∧ InRangeU x.base ∧ InRangeU y.base ∧
    (SimpleMatcher.run ix (softScorer Rnd.ieee) [] [r] [x, y]).map (fun t =>
        t.2.1.map (fun m => (m.ref.isSome, m.hyp.isSome, m.error))) =
      .ok [(true, true, ⟨1 / 2, 3 / 4⟩), (false, true, ⟨1, 0⟩)] := by
  intro ix r x y
  refine ⟨⟨?_, ?_⟩, ?_, ⟨?_, ?_⟩, ⟨?_, ?_⟩, by decide +kernel⟩
  all_goals first
    | (unfold EdgesOkU; decide)
    | (unfold areaU; rw [cellsU_card]; decide)

end Kws
