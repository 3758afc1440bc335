import Verif.Lemmas.Ndcg

/-!
# C36: NDCG

The measures are computed over the reals.
-/

set_option linter.unusedSectionVars false

namespace Kws
open Spec

section
variable {Q L : Type}

theorem rates_tp (e : MatchError) (h : Rates e) : (e.nh : ℝ) - (e.fp : ℝ) ≤ e.nr := by
  have h0 : (0 : ℝ) ≤ e.fp := by exact_mod_cast h.1
  rcases rates_cases e h with ⟨a, b, c, d⟩ | ⟨a, b, c, d⟩ | ⟨c, d⟩
  · rw [a, c, d]; norm_num
  · rw [a, c, d]; norm_num
  · rw [c, d]; push_cast; linarith

theorem sum_tp {α : Type} (l : List α) (f : α → ℕ) (g : α → ℚ) :
    (l.map (fun e => ((f e : ℝ) - (g e : ℝ)))).sum = ((l.map f).sum : ℕ) - ((l.map g).sum : ℚ) := by
  induction l with
  | nil => simp
  | cons e l ih => simp only [List.map_cons, List.sum_cons, ih, Nat.cast_add, Rat.cast_add]; ring

theorem globalNDCG_exact_unit (ms : List (KwsMatch Q L)) (collapse : Bool)
    (h : ∀ m ∈ ms, Rates m.error) :
    0 ≤ globalNDCG Rnd.exact ms collapse ∧ globalNDCG Rnd.exact ms collapse ≤ 1 := by
  have htot : (((ms.map (fun m => m.error.nh)).sum : ℕ) : ℝ) - ((ms.map (fun m => m.error.fp)).sum : ℚ) ≤
      ((ms.map (fun m => m.error.nr)).sum : ℕ) := by
    rw [← sum_tp]
    induction ms with
    | nil => simp
    | cons m ms ih =>
      simp only [List.map_cons, List.sum_cons, Nat.cast_add]
      exact add_le_add (rates_tp _ (h m (by simp))) (ih (fun x hx => h x (by simp [hx])))
  unfold globalNDCG
  split
  · refine computeNDCG_unit _ (collapse_ok _ exact_faithful ms h (fits32_exact _) (fits32_exact _)) ?_
    rw [sum_tp, (collapse_sums _ ms).1, (collapse_sums _ ms).2, (collapse_mass ms).1]
    exact htot
  · refine computeNDCG_unit _ (errors_ok ms h) ?_
    rw [sum_tp, (errors_sums ms).1, (errors_sums ms).2.1, (errors_sums ms).2.2.1]
    exact htot

/-- C36: NDCG is in [0,1]; with or without collapsing. `R` is the rounding used to add up collapsed
error rates: exact arithmetic, or any faithful rounding with at most 2^24 hard matches. -/
theorem C36_unit (R : Rnd) (ms : List (KwsMatch Q L)) (collapse : Bool)
    (h : ∀ m ∈ ms, Rates m.error)
    (hR : R = Rnd.exact ∨ R.Faithful ∧ ms.length ≤ 2 ^ 24 ∧ ∀ m ∈ ms,
      (m.error.fp = 0 ∨ m.error.fp = 1) ∧ (m.error.fn = 0 ∨ m.error.fn = 1)) :
    0 ≤ globalNDCG R ms collapse ∧ globalNDCG R ms collapse ≤ 1 := by
  have he : globalNDCG R ms collapse = globalNDCG Rnd.exact ms collapse := by
    rcases hR with rfl | ⟨hR, hl, hh⟩
    · rfl
    · unfold globalNDCG
      rw [collapse_hard R ms hh (fits32_of R hR _ hl)]
  rw [he]
  exact globalNDCG_exact_unit ms collapse h

/-- C36: it is 0 without references, and 1 if there is a match and all matches are hits. -/
theorem C36_extremes (ms : List (KwsMatch Q L)) (collapse : Bool) :
    ((∀ m ∈ ms, m.error = Outcome.falsePos.error) → globalNDCG Rnd.exact ms collapse = 0) ∧
    (ms ≠ [] → (∀ m ∈ ms, m.error = Outcome.hit.error) → globalNDCG Rnd.exact ms collapse = 1) := by
  constructor
  · intro h
    have hz : (ms.map (fun m => m.error.nr)).sum = 0 := List.sum_eq_zero (by
      intro x hx
      obtain ⟨m, hm, rfl⟩ := List.mem_map.1 hx
      rw [h m hm]; rfl)
    unfold globalNDCG
    split
    · rw [computeNDCG_eq, (collapse_sums _ ms).2, if_pos hz]
    · rw [computeNDCG_eq, (errors_sums ms).2.1, if_pos hz]
  · intro hne h
    have hc : (ms.map (fun m => m.error.nh)) = (ms.map (fun m => m.error.nr)) := by
      refine List.map_congr_left fun m hm => ?_
      rw [h m hm]; rfl
    have hp : 0 < (ms.map (fun m => m.error.nr)).sum := by
      cases ms with
      | nil => exact absurd rfl hne
      | cons m ms =>
        have : m.error.nr = 1 := by rw [h m (by simp)]; rfl
        simp only [List.map_cons, List.sum_cons, this]; omega
    have hf : (ms.map (fun m => m.error.fp)).sum = 0 := List.sum_eq_zero (by
      intro x hx
      obtain ⟨m, hm, rfl⟩ := List.mem_map.1 hx
      rw [h m hm]; rfl)
    unfold globalNDCG
    split
    · refine computeNDCG_perfect _ ?_ ?_ ?_
      · have hok := collapse_ok Rnd.exact exact_faithful ms
          (fun m hm => by rw [h m hm]; unfold Rates Outcome.error; norm_num) (fits32_exact _)
          (fits32_exact _)
        have hm := (collapse_mass ms).1
        rw [hf] at hm
        intro e he
        by_contra hne'
        have hpos : 0 < IsError.fp e := lt_of_le_of_ne (hok e he).fp0 (Ne.symm hne')
        have : IsError.fp e ≤ ((collapseMatches Rnd.exact ms).map IsError.fp).sum :=
          List.single_le_sum (by
            intro x hx
            obtain ⟨c, hc, rfl⟩ := List.mem_map.1 hx
            exact (hok c hc).fp0) _ (List.mem_map_of_mem he)
        linarith
      · rw [(collapse_sums _ ms).1, (collapse_sums _ ms).2, hc]
      · rw [(collapse_sums _ ms).2]; exact hp
    · refine computeNDCG_perfect _ ?_ ?_ ?_
      · intro e he
        obtain ⟨m, hm, rfl⟩ := List.mem_map.1 he
        rw [h m hm]; rfl
      · rw [(errors_sums ms).1, (errors_sums ms).2.1, hc]
      · rw [(errors_sums ms).2.1]; exact hp

/-- C36: the mean over groups is 0 without groups, otherwise the arithmetic mean; it is in [0,1]. -/
theorem C36_mean (S : StdSort) (groups : List (List (KwsMatch Q L))) (collapse sort : Bool)
    (h : ∀ g ∈ groups, ∀ m ∈ g, Rates m.error)
    (hn : sort = true → ∀ g ∈ groups, ∀ m ∈ g, rank m ≠ .nan) :
    ∃ (vs : List ℝ) (v : ℝ),
      List.Forall₂ (fun g x => ∃ g', (if sort then sortMatches S g else .ok g) = .ok g' ∧
        globalNDCG Rnd.exact g' collapse = x) groups vs ∧
      meanNDCG Rnd.exact S groups collapse sort = .ok v ∧
      v = (if groups = [] then 0 else vs.sum / groups.length) ∧ 0 ≤ v ∧ v ≤ 1 := by
  have key : ∀ groups : List (List (KwsMatch Q L)), (∀ g ∈ groups, ∀ m ∈ g, Rates m.error) →
      (sort = true → ∀ g ∈ groups, ∀ m ∈ g, rank m ≠ .nan) → ∃ vs : List ℝ,
      List.Forall₂ (fun g x => ∃ g', (if sort then sortMatches S g else .ok g) = .ok g' ∧
        globalNDCG Rnd.exact g' collapse = x) groups vs ∧
      (0 ≤ vs.sum ∧ vs.sum ≤ vs.length) ∧
      ∀ acc, meanNDCGLoop Rnd.exact S collapse sort acc groups = .ok (acc + vs.sum) := by
    intro groups
    induction groups with
    | nil => intro _ _; exact ⟨[], List.Forall₂.nil, by simp, by
        intro acc; simp [meanNDCGLoop, pure, Except.pure]⟩
    | cons g gs ih =>
      intro h hn
      obtain ⟨vs, i1, i2, i3⟩ := ih (fun x hx => h x (by simp [hx]))
        (fun hs x hx => hn hs x (by simp [hx]))
      have hg : ∃ g', (if sort then sortMatches S g else .ok g) = .ok g' ∧ g'.Perm g := by
        cases sort with
        | false => exact ⟨g, rfl, List.Perm.refl _⟩
        | true =>
          obtain ⟨g', h1, h2, _⟩ := sortMatches_spec S g (hn rfl g (by simp))
          exact ⟨g', h1, h2⟩
      obtain ⟨g', g1, g2⟩ := hg
      have hu := globalNDCG_exact_unit g' collapse (fun m hm => h g (by simp) m (g2.mem_iff.1 hm))
      refine ⟨_ :: vs, List.Forall₂.cons ⟨g', g1, rfl⟩ i1, ?_, ?_⟩
      · simp only [List.sum_cons, List.length_cons]
        push_cast
        constructor <;> linarith [i2.1, i2.2, hu.1, hu.2]
      · intro acc
        have e : meanNDCGLoop Rnd.exact S collapse sort acc (g :: gs) =
            meanNDCGLoop Rnd.exact S collapse sort (acc + globalNDCG Rnd.exact g' collapse) gs := by
          cases sort with
          | false =>
            simp only [Bool.false_eq_true, if_false, Except.ok.injEq] at g1
            subst g1
            simp only [meanNDCGLoop, Bool.false_eq_true, if_false, bind, Except.bind, pure,
              Except.pure]
          | true =>
            simp only [if_true] at g1
            simp only [meanNDCGLoop, if_true, bind, Except.bind, g1]
        rw [e, i3, List.sum_cons, add_assoc]
  obtain ⟨vs, h1, h2, h3⟩ := key groups h hn
  have hl := h1.length_eq
  refine ⟨vs, _, h1, ?_, rfl, ?_⟩
  · unfold meanNDCG
    simp only [h3, bind, Except.bind, pure, Except.pure, zero_add]
    congr 1
    by_cases hg : groups = []
    · subst hg; simp
    · rw [if_pos (List.length_pos_of_ne_nil hg), if_neg hg]
  · split
    · norm_num
    · rename_i hg
      have hp : (0 : ℝ) < groups.length := by exact_mod_cast List.length_pos_of_ne_nil hg
      rw [← hl] at h2
      exact ⟨div_nonneg h2.1 hp.le, by rw [div_le_one hp]; exact h2.2⟩

end

/-- NDCG strictly between the extremes: a false positive followed by a hit. -/
example : let ms : List (KwsMatch Nat Nat) :=
      [⟨none, some ⟨⟨1, 2⟩, .fin 2⟩, ⟨1, 0⟩⟩, ⟨some ⟨1, 1⟩, some ⟨⟨1, 1⟩, .fin 1⟩, ⟨0, 0⟩⟩]
    (∀ m ∈ ms, Rates m.error) ∧ globalNDCG Rnd.exact ms false = 1 / Real.logb 2 3 := by
  refine ⟨by unfold Rates; decide +kernel, ?_⟩
  simp [globalNDCG, getMatchErrors, computeNDCG, numTotalReferences, IsError.nr, IsError.nh,
    IsError.fp, MatchError.nr, MatchError.nh, dcgLoop, dcgRun, idealDcg]
  norm_num

end Kws
