import Verif.Lemmas.AP

/-!
# C32 - C34: collapsing and sorting

`rank m` is the score of the hypothesis of `m`, or -inf if there is none; `total es` is the sum of a
list of errors and their counts.
-/

set_option linter.unusedSectionVars false

namespace Kws
open Spec

section
variable {Q L : Type}

/-! ## C32 -/

/-- C32: collapsing preserves the totals (in exact arithmetic). -/
theorem C32_totals (ms : List (KwsMatch Q L)) :
    ((collapseMatches Rnd.exact ms).map (·.fp)).sum = (ms.map (fun m => m.error.fp)).sum ∧
    ((collapseMatches Rnd.exact ms).map (·.fn)).sum = (ms.map (fun m => m.error.fn)).sum ∧
    ((collapseMatches Rnd.exact ms).map (·.nh)).sum = (ms.map (fun m => m.error.nh)).sum ∧
    ((collapseMatches Rnd.exact ms).map (·.nr)).sum = (ms.map (fun m => m.error.nr)).sum :=
  ⟨(collapse_mass ms).1, (collapse_mass ms).2, (collapse_sums _ ms).1, (collapse_sums _ ms).2⟩

/-- C32: the counts are preserved under any rounding. -/
theorem C32_counts (R : Rnd) (ms : List (KwsMatch Q L)) :
    ((collapseMatches R ms).map (·.nh)).sum = (ms.map (fun m => m.error.nh)).sum ∧
    ((collapseMatches R ms).map (·.nr)).sum = (ms.map (fun m => m.error.nr)).sum :=
  collapse_sums R ms

/-- C32: a list without NaN whose scores never increase collapses to one entry per distinct score,
in decreasing order of score, each the sum of the errors with that score. -/
theorem C32_one_per_score (ms : List (KwsMatch Q L)) (hn : ∀ m ∈ ms, rank m ≠ .nan)
    (hs : ms.Pairwise (fun a b => Flt.lt (rank a) (rank b) = false)) :
    ∃ scores : List Flt, scores.Pairwise (fun a b => Flt.lt b a = true) ∧
      (∀ s, s ∈ scores ↔ ∃ m ∈ ms, rank m = s) ∧
      collapseMatches Rnd.exact ms =
        scores.map (fun s => total ((ms.filter (fun m => rank m = s)).map (·.error))) := by
  obtain ⟨scores, h1, h2, h3⟩ := collapseAcc_sorted ms hn hs
  refine ⟨scores, h1, h2, ?_⟩
  rw [collapse_eq, h3, List.reverse_reverse, List.map_map]
  rfl

/-- The example in the comment of core/Assessment.h:50-59. -/
example : collapseMatches Rnd.exact (Q := Nat) (L := Nat)
    [⟨some ⟨1, 1⟩, some ⟨⟨1, 1⟩, .fin (9 / 10)⟩, ⟨0, 0⟩⟩, ⟨none, some ⟨⟨1, 2⟩, .fin (9 / 10)⟩, ⟨1, 0⟩⟩,
      ⟨some ⟨2, 2⟩, none, ⟨0, 1⟩⟩, ⟨some ⟨2, 3⟩, none, ⟨0, 1⟩⟩] = [⟨1, 0, 2, 1⟩, ⟨0, 2, 0, 2⟩] := by
  decide +kernel

/-! ## C33 -/

/-- C33: two score-sorted arrangements of the same matches collapse to the same points. -/
theorem C33_collapse_ties (ms ms' : List (KwsMatch Q L)) (hp : ms.Perm ms')
    (hn : ∀ m ∈ ms, rank m ≠ .nan)
    (h : ms.Pairwise (fun a b => Flt.lt (rank a) (rank b) = false))
    (h' : ms'.Pairwise (fun a b => Flt.lt (rank a) (rank b) = false)) :
    collapseMatches Rnd.exact ms = collapseMatches Rnd.exact ms' :=
  collapse_perm ms ms' hp hn h h'

/-- C33: the same in single precision for up to 2^24 hard matches. -/
theorem C33_collapse_ties_rounded (R : Rnd) (hR : R.Faithful) (ms ms' : List (KwsMatch Q L))
    (hp : ms.Perm ms') (hn : ∀ m ∈ ms, rank m ≠ .nan)
    (h : ms.Pairwise (fun a b => Flt.lt (rank a) (rank b) = false))
    (h' : ms'.Pairwise (fun a b => Flt.lt (rank a) (rank b) = false))
    (hh : ∀ m ∈ ms, (m.error.fp = 0 ∨ m.error.fp = 1) ∧ (m.error.fn = 0 ∨ m.error.fn = 1))
    (hl : ms.length ≤ 2 ^ 24) :
    collapseMatches R ms = collapseMatches R ms' := by
  rw [collapse_hard R ms hh (fits32_of R hR _ hl),
    collapse_hard R ms' (fun m hm => hh m (hp.mem_iff.2 hm))
      (fits32_of R hR _ (by rw [← hp.length_eq]; exact hl)),
    collapse_perm ms ms' hp hn h h']

/-- Collapsing gives the same result for the sorted versions of two arrangements. -/
theorem collapse_sort (R : Rnd) (S S' : StdSort) (ms ms' : List (KwsMatch Q L)) (hp : ms.Perm ms')
    (hn : NoNaN ms) (hR : R = Rnd.exact ∨ R.Faithful ∧ ms.length ≤ 2 ^ 24 ∧
      ∀ m ∈ ms, (m.error.fp = 0 ∨ m.error.fp = 1) ∧ (m.error.fn = 0 ∨ m.error.fn = 1)) :
    ∃ l l', sortMatches S ms = .ok l ∧ sortMatches S' ms' = .ok l' ∧
      collapseMatches R l = collapseMatches R l' := by
  obtain ⟨l, a1, a2, a3, a4, _⟩ := sortMatches_spec S ms hn
  obtain ⟨l', b1, b2, b3, b4, _⟩ := sortMatches_spec S' ms' (fun m hm => hn m (hp.mem_iff.2 hm))
  have hll : l.Perm l' := a2.trans (hp.trans b2.symm)
  refine ⟨l, l', a1, b1, ?_⟩
  rcases hR with rfl | ⟨hR, hlen, hh⟩
  · exact collapse_perm l l' hll a4 a3 b3
  · exact C33_collapse_ties_rounded R hR l l' hll a4 a3 b3
      (fun m hm => hh m (a2.mem_iff.1 hm)) (by rw [a2.length_eq]; exact hlen)

/-- C33: with collapsing and sorting, the measures do not depend on the sorting algorithm nor on the
order of the matches in the groups; in exact arithmetic, and for at most 2^24 hard matches in
floating-point arithmetic. -/
theorem C33_global (R : Rnd) (S S' : StdSort) (groups groups' : List (List (KwsMatch Q L)))
    (hp : groups.flatten.Perm groups'.flatten) (hn : ∀ m ∈ groups.flatten, rank m ≠ .nan)
    (hR : R = Rnd.exact ∨ R.Faithful ∧ groups.flatten.length ≤ 2 ^ 24 ∧ ∀ m ∈ groups.flatten,
      (m.error.fp = 0 ∨ m.error.fp = 1) ∧ (m.error.fn = 0 ∨ m.error.fn = 1))
    (interp trapezoid : Bool) :
    globalAPGrouped R S groups true interp trapezoid true =
      globalAPGrouped R S' groups' true interp trapezoid true ∧
    globalNDCGGrouped R S groups true true = globalNDCGGrouped R S' groups' true true := by
  obtain ⟨l, l', h1, h2, h3⟩ := collapse_sort R S S' _ _ hp hn hR
  constructor
  · unfold globalAPGrouped
    simp only [if_true, h1, h2, bind, Except.bind, globalAP, matchesPR, h3]
  · unfold globalNDCGGrouped
    simp only [if_true, h1, h2, bind, Except.bind, globalNDCG, h3]

/-- C33: the same for the means over groups (groups may list their matches in any order). -/
theorem C33_mean (R : Rnd) (S S' : StdSort) (groups groups' : List (List (KwsMatch Q L)))
    (hp : List.Forall₂ List.Perm groups groups')
    (hn : ∀ g ∈ groups, ∀ m ∈ g, rank m ≠ .nan)
    (hR : R = Rnd.exact ∨ R.Faithful ∧ ∀ g ∈ groups, g.length ≤ 2 ^ 24 ∧ ∀ m ∈ g,
      (m.error.fp = 0 ∨ m.error.fp = 1) ∧ (m.error.fn = 0 ∨ m.error.fn = 1))
    (interp trapezoid : Bool) :
    meanAP R S groups true interp trapezoid true = meanAP R S' groups' true interp trapezoid true ∧
    meanNDCG R S groups true true = meanNDCG R S' groups' true true := by
  have key : ∀ groups groups' : List (List (KwsMatch Q L)), List.Forall₂ List.Perm groups groups' →
      (∀ g ∈ groups, ∀ m ∈ g, rank m ≠ .nan) →
      (R = Rnd.exact ∨ R.Faithful ∧ ∀ g ∈ groups, g.length ≤ 2 ^ 24 ∧ ∀ m ∈ g,
        (m.error.fp = 0 ∨ m.error.fp = 1) ∧ (m.error.fn = 0 ∨ m.error.fn = 1)) →
      (∀ acc, meanAPLoop R S true interp trapezoid true acc groups =
        meanAPLoop R S' true interp trapezoid true acc groups') ∧
      (∀ acc, meanNDCGLoop R S true true acc groups = meanNDCGLoop R S' true true acc groups') := by
    intro groups groups' hp
    induction hp with
    | nil => intro _ _; exact ⟨fun _ => rfl, fun _ => rfl⟩
    | @cons g g' gs gs' hg _ ih =>
      intro hn hR
      obtain ⟨i1, i2⟩ := ih (fun x hx => hn x (by simp [hx])) (by
        rcases hR with h | ⟨h, h'⟩
        · exact Or.inl h
        · exact Or.inr ⟨h, fun x hx => h' x (by simp [hx])⟩)
      obtain ⟨l, l', h1, h2, h3⟩ := collapse_sort R S S' _ _ hg (hn g (by simp)) (by
        rcases hR with h | ⟨h, h'⟩
        · exact Or.inl h
        · exact Or.inr ⟨h, h' g (by simp)⟩)
      constructor
      · intro acc
        simp only [meanAPLoop, if_true, h1, h2, bind, Except.bind, globalAP, matchesPR, h3]
        cases computeAP R (computePR R (collapseMatches R l') interp).1
          (computePR R (collapseMatches R l') interp).2 trapezoid with
        | error e => rfl
        | ok v => exact i1 _
      · intro acc
        simp only [meanNDCGLoop, if_true, h1, h2, bind, Except.bind, globalNDCG, h3]
        exact i2 _
  obtain ⟨k1, k2⟩ := key groups groups' hp hn hR
  unfold meanAP meanNDCG
  rw [k1, k2, hp.length_eq]
  exact ⟨rfl, rfl⟩

/-- C33: without collapsing, ties matter: the two score-sorted arrangements of a hit and a false
positive with equal scores have different average precision. -/
theorem C33_collapse_needed : ∃ (a b : KwsMatch Nat Nat), rank a = rank b ∧ rank a ≠ .nan ∧
    globalAP Rnd.exact [a, b] false false false ≠ globalAP Rnd.exact [b, a] false false false ∧
    globalAP Rnd.exact [a, b] true false false = globalAP Rnd.exact [b, a] true false false :=
  ⟨⟨some ⟨1, 1⟩, some ⟨⟨1, 1⟩, .fin 1⟩, ⟨0, 0⟩⟩, ⟨none, some ⟨⟨1, 2⟩, .fin 1⟩, ⟨1, 0⟩⟩, by decide,
    by decide, by decide +kernel, by decide +kernel⟩

/-! ## C34 -/

/-- C34: sorting gives a permutation in which ranks never increase and the matches without
hypothesis come last. -/
theorem C34_sort (S : StdSort) (ms : List (KwsMatch Q L)) (hn : ∀ m ∈ ms, rank m ≠ .nan) :
    ∃ ms', sortMatches S ms = .ok ms' ∧ ms'.Perm ms ∧
      ms'.Pairwise (fun a b => Flt.lt (rank a) (rank b) = false) ∧
      ms'.Pairwise (fun a b => b.hyp.isSome → a.hyp.isSome) := by
  obtain ⟨ms', h1, h2, h3, _, h5⟩ := sortMatches_spec S ms hn
  refine ⟨ms', h1, h2, h3, h5.sorted.imp ?_⟩
  intro a b h hb
  unfold scoreGreater at h
  cases ha : a.hyp with
  | some x => rfl
  | none =>
    rw [ha] at h
    obtain ⟨y, hy⟩ := Option.isSome_iff_exists.1 hb
    rw [hy] at h
    simp [Match.hasHyp, hy] at h

/-- C34: the comparator is a strict weak order exactly if no score is NaN or all other scores are
equal. -/
theorem C34_comparator (ms : List (KwsMatch Q L)) :
    StrictWeakOn scoreGreater ms ↔
      (∀ m ∈ ms, rank m ≠ .nan) ∨
      (∀ a ∈ ms, ∀ b ∈ ms, ∀ x y, a.hyp = some x → b.hyp = some y → x.score ≠ .nan →
        y.score ≠ .nan → x.score = y.score) := by
  constructor
  · intro h
    by_contra hc
    push Not at hc
    obtain ⟨⟨n, hn, hn'⟩, a, ha, b, hb, x, y, hx, hy, hxn, hyn, hne⟩ := hc
    have hnan : ∃ z, n.hyp = some z ∧ z.score = .nan := by
      unfold rank at hn'
      cases hz : n.hyp with
      | none => rw [hz] at hn'; simp at hn'
      | some z => rw [hz] at hn'; exact ⟨z, rfl, hn'⟩
    obtain ⟨z, hz, hz'⟩ := hnan
    have l1 : ∀ f, Flt.lt .nan f = false := by intro f; cases f <;> rfl
    have l2 : ∀ f, Flt.lt f .nan = false := by intro f; cases f <;> rfl
    have := h.incomp a ha n hn b hb
      (by unfold scoreGreater; rw [hx, hz]; simp [hz', l1])
      (by unfold scoreGreater; rw [hx, hz]; simp [hz', l2])
      (by unfold scoreGreater; rw [hy, hz]; simp [hz', l2])
      (by unfold scoreGreater; rw [hy, hz]; simp [hz', l1])
    unfold scoreGreater at this
    rw [hx, hy] at this
    simp only at this
    rcases Flt.lt_tri x.score y.score hxn hyn with h' | h' | h'
    · rw [h'] at this; exact absurd this.2 (by decide)
    · exact hne h'
    · rw [h'] at this; exact absurd this.1 (by decide)
  · rintro (h | h)
    · exact scoreGreater_strictWeak ms h
    · have hf : ∀ a ∈ ms, ∀ b ∈ ms, ∀ x y, a.hyp = some x → b.hyp = some y →
          Flt.lt x.score y.score = false := by
        intro a ha b hb x y hx hy
        by_contra hc
        rw [Bool.not_eq_false] at hc
        have hnn := Flt.lt_ne_nan _ _ hc
        rw [h a ha b hb x y hx hy hnn.1 hnn.2, Flt.lt_irrefl] at hc
        exact absurd hc (by decide)
      refine ⟨?_, ?_, ?_⟩
      · intro a ha
        unfold scoreGreater
        cases hx : a.hyp with
        | none => simp [Match.hasHyp, hx]
        | some x => exact hf a ha a ha x x hx hx
      · intro a ha b hb c hc
        unfold scoreGreater
        cases hx : a.hyp <;> cases hy : b.hyp <;> cases hz : c.hyp <;> simp [Match.hasHyp, hx, hy]
        rename_i x y z
        intro h1
        rw [hf b hb a ha y x hy hx] at h1
        exact absurd h1 (by decide)
      · intro a ha b hb c hc
        unfold scoreGreater
        cases hx : a.hyp <;> cases hy : b.hyp <;> cases hz : c.hyp <;>
          simp [Match.hasHyp, hx, hy, hz]
        rename_i x y z
        intro _ _ _ _
        exact ⟨hf c hc a ha z x hz hx, hf a ha c hc x z hx hz⟩

/-- C34: otherwise sorting is undefined. -/
theorem C34_sort_undefined (S : StdSort) (ms : List (KwsMatch Q L)) (a b n : KwsMatch Q L)
    (x y z : ScoredEvent Q L) (ha : a ∈ ms) (hb : b ∈ ms) (hn : n ∈ ms) (hx : a.hyp = some x)
    (hy : b.hyp = some y) (hz : n.hyp = some z) (hnan : z.score = .nan)
    (hlt : Flt.lt x.score y.score = true) : sortMatches S ms = .error .ub := by
  refine S.bad _ _ fun h => ?_
  rcases (C34_comparator ms).1 h with h | h
  · exact h n hn (by unfold rank; rw [hz]; exact hnan)
  · have hnn := Flt.lt_ne_nan _ _ hlt
    rw [h a ha b hb x y hx hy hnn.1 hnn.2, Flt.lt_irrefl] at hlt
    exact absurd hlt (by decide)

end

/-- A list with a NaN that cannot be sorted, and one without that can. -/
example : sortMatches insertionStdSort (Q := Nat) (L := Nat)
      [⟨none, some ⟨⟨1, 1⟩, .fin 1⟩, ⟨1, 0⟩⟩, ⟨none, some ⟨⟨1, 2⟩, .nan⟩, ⟨1, 0⟩⟩,
        ⟨none, some ⟨⟨1, 3⟩, .fin 2⟩, ⟨1, 0⟩⟩] = .error .ub :=
  C34_sort_undefined _ _ ⟨none, some ⟨⟨1, 1⟩, .fin 1⟩, ⟨1, 0⟩⟩ ⟨none, some ⟨⟨1, 3⟩, .fin 2⟩, ⟨1, 0⟩⟩
    ⟨none, some ⟨⟨1, 2⟩, .nan⟩, ⟨1, 0⟩⟩ _ _ _ (by simp) (by simp) (by simp) rfl rfl rfl rfl
    (by decide +kernel)

end Kws
