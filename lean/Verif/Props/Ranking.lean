import Verif.Spec.Ranking
import Verif.Lemmas.Ranking
import Verif.Props.Evaluation

/-! # C69, C70, C72: which rankings get better measures -/

set_option linter.unusedSectionVars false

namespace Kws
open Spec

section
variable {Q L : Type}

theorem found_among (n : ℕ) (ms : List (KwsMatch Q L)) : found n ms = among .hit n (ms.map outcomeOf) := by
  rw [among_outcomes]
  rfl

theorem references_eq (ms : List (KwsMatch Q L)) : references ms =
    (ms.map outcomeOf).count .hit + (ms.map outcomeOf).count .falseNeg := by
  rw [refs_outcomes]
  rfl

/-! ## C70 -/

/-- C70: a ranking that has found at least as many references after each number of matches, out of no
more references, does not get a lower average precision or NDCG (without collapsing, any formula, exact
arithmetic). -/
theorem C70_ranking (ms ms' : List (KwsMatch Q L)) (h : ∀ m ∈ ms, HardMatch m)
    (h' : ∀ m ∈ ms', HardMatch m) (hl : MissedLast ms) (hl' : MissedLast ms')
    (hf : ∀ n, found n ms ≤ found n ms') (hr : references ms' ≤ references ms)
    (interp trapezoid : Bool) :
    (∃ v v', globalAP Rnd.exact ms false interp trapezoid = .ok v ∧
      globalAP Rnd.exact ms' false interp trapezoid = .ok v' ∧ v ≤ v') ∧
    globalNDCG Rnd.exact ms false ≤ globalNDCG Rnd.exact ms' false := by
  obtain ⟨bs, n, e, hb⟩ := outcomes_split ms h hl
  obtain ⟨bs', n', e', hb'⟩ := outcomes_split ms' h' hl'
  have noHit : ∀ (bs : List Outcome) (n k : ℕ), among .hit k (bs ++ List.replicate n Outcome.falseNeg) =
      among .hit k bs := by
    intro bs n k
    unfold among
    rw [List.take_append, List.count_append, List.take_replicate]
    simp [List.count_replicate]
  have hb2 : ∀ (bs : List Outcome) (n : ℕ), Outcome.falseNeg ∉ bs →
      (bs ++ List.replicate n Outcome.falseNeg).count .hit +
      (bs ++ List.replicate n Outcome.falseNeg).count .falseNeg = bs.count .hit + n := by
    intro bs n hb
    simp [List.count_append, List.count_replicate, List.count_eq_zero.2 hb]
  have dom : ∀ k, among .hit k bs ≤ among .hit k bs' := by
    intro k
    have := hf k
    rwa [found_among, found_among, e, e', noHit, noHit] at this
  have refs : bs'.count .hit + n' ≤ bs.count .hit + n := by
    have := hr
    rwa [references_eq, references_eq, e, e', hb2 _ _ hb, hb2 _ _ hb'] at this
  have hits : bs.count .hit ≤ bs'.count .hit := by
    have := dom (max bs.length bs'.length)
    unfold among at this
    rwa [List.take_of_length_le (by omega), List.take_of_length_le (by omega)] at this
  constructor
  · refine ⟨_, _, globalAP_exact _ _ _ _, globalAP_exact _ _ _ _, ?_⟩
    unfold matchesPR
    simp only [Bool.false_eq_true, if_false]
    rw [errors_outcomes ms h, errors_outcomes ms' h', e, e']
    rw [ranked_ap bs n hb interp trapezoid, ranked_ap bs' n' hb' interp trapezoid]
    -- the sum over the references of the first ranking
    have far : ∑ i ∈ Finset.range (bs.count .hit + n),
        atHit (hts trapezoid none (hitCurve interp (rankCounts bs))) i =
        ∑ i ∈ Finset.range (bs'.count .hit + n'),
          atHit (hts trapezoid none (hitCurve interp (rankCounts bs))) i := by
      refine (Finset.sum_subset (Finset.range_mono refs) fun i _ hi => ?_).symm
      refine atHit_nothing _ _ _ _ fun q hq => ?_
      have := rankCounts_le bs q hq
      rw [Finset.mem_range] at hi
      omega
    rw [far]
    rcases Nat.eq_zero_or_pos (bs'.count .hit + n') with h0 | hpos
    · rw [h0]
      simp
    · refine div_le_div₀ (Finset.sum_nonneg fun i _ => atHit_nonneg _ _ _ _)
        (Finset.sum_le_sum fun i _ => ranked_mono bs bs' hb hb' dom interp trapezoid i)
        (by exact_mod_cast hpos) (by exact_mod_cast refs)
  · unfold globalNDCG
    simp only [Bool.false_eq_true, if_false]
    rw [errors_outcomes ms h, errors_outcomes ms' h', e, e', computeNDCG_eq, computeNDCG_eq,
      gains_ranked bs n hb, gains_ranked bs' n' hb']
    have nr : ∀ os : List Outcome, ((os.map Outcome.error).map IsError.nr).sum =
        os.count .hit + os.count .falseNeg := by
      intro os
      induction os with
      | nil => rfl
      | cons o os ih =>
        rw [List.map_cons, List.map_cons, List.sum_cons, ih]
        cases o <;> simp [IsError.nr, Outcome.error, MatchError.nr] <;> omega
    rw [nr, nr, hb2 _ _ hb, hb2 _ _ hb']
    have nonneg : ∀ bs : List Outcome, 0 ≤ dsum 1 (hitGains bs) := by
      intro bs
      refine dsum_nonneg _ 1 le_rfl fun x hx => ?_
      obtain ⟨o, _, rfl⟩ := List.mem_map.1 hx
      split <;> norm_num
    by_cases h0 : bs'.count .hit + n' = 0
    · have hz : bs.count .hit = 0 := by omega
      have : dsum 1 (hitGains bs) = 0 := by
        refine le_antisymm ?_ (nonneg bs)
        have := dsum_hits_mono bs [] (fun k => by
          unfold among
          exact le_trans (List.Sublist.count_le _ (List.take_sublist _ _)) (by rw [hz]; omega))
        simpa [hitGains, dsum] using this
      rw [if_pos h0, this]
      simp
    · rw [if_neg h0, if_neg (by omega)]
      refine div_le_div₀ (nonneg bs') (dsum_hits_mono bs bs' dom) (ideal_pos _ (by omega)) ?_
      exact Finset.sum_le_sum_of_subset_of_nonneg (Finset.range_mono refs)
        fun k _ _ => (disc_pos _ (by omega)).le

/-- C70: exchanging a false positive with the hit that follows it is such an improvement. -/
theorem C70_exchange (A B : List (KwsMatch Q L)) (f m : KwsMatch Q L)
    (h : ∀ x ∈ A ++ f :: m :: B, HardMatch x) (hl : MissedLast (A ++ f :: m :: B))
    (hf : f.ref = none) (hm : IsHit m = true) (interp trapezoid : Bool) :
    (∃ v v', globalAP Rnd.exact (A ++ f :: m :: B) false interp trapezoid = .ok v ∧
      globalAP Rnd.exact (A ++ m :: f :: B) false interp trapezoid = .ok v' ∧ v ≤ v') ∧
    globalNDCG Rnd.exact (A ++ f :: m :: B) false ≤ globalNDCG Rnd.exact (A ++ m :: f :: B) false := by
  have hfh : IsHit f = false := by simp [IsHit, hf]
  have perm : (A ++ m :: f :: B).Perm (A ++ f :: m :: B) :=
    List.Perm.append_left A (List.Perm.swap f m B)
  refine C70_ranking _ _ h (fun x hx => h x (perm.mem_iff.1 hx)) hl ?_ ?_ ?_ interp trapezoid
  · unfold MissedLast at hl ⊢
    rw [List.pairwise_append, List.pairwise_cons, List.pairwise_cons] at hl ⊢
    obtain ⟨h1, ⟨h2, h3, h4⟩, h5⟩ := hl
    refine ⟨h1, ⟨?_, fun b hb => h2 b (by simp [hb]), h4⟩, fun a ha b hb => h5 a ha b (by
      simp only [List.mem_cons] at hb ⊢; tauto)⟩
    intro b hb hn
    unfold IsHit at hm
    rw [hn] at hm
    simp at hm
  · intro n
    unfold found
    rw [List.take_append, List.take_append, List.countP_append, List.countP_append]
    refine Nat.add_le_add_left ?_ _
    rcases n - A.length with _ | _ | k
    · simp
    · simp [hm, hfh]
    · simp only [List.take_succ_cons, List.countP_cons, hm, hfh]
      omega
  · exact le_of_eq (perm.countP_eq _)

/-- C70 with collapsing: if at each score at least as many references are found with at least this
score, with no more false positives, out of no more references, then the interpolated average precision
(the default) is not lower. -/
theorem C70_thresholds_partial (ms ms' : List (KwsMatch Q L)) (h : ∀ m ∈ ms, HardMatch m)
    (h' : ∀ m ∈ ms', HardMatch m) (hn : ∀ m ∈ ms, rank m ≠ .nan) (hn' : ∀ m ∈ ms', rank m ≠ .nan)
    (hs : ms.Pairwise (fun a b => Flt.lt (rank a) (rank b) = false))
    (hs' : ms'.Pairwise (fun a b => Flt.lt (rank a) (rank b) = false))
    (hf : ∀ s, s ≠ .nan → foundAbove s ms ≤ foundAbove s ms')
    (hw : ∀ s, s ≠ .nan → wrongAbove s ms' ≤ wrongAbove s ms)
    (hr : references ms' ≤ references ms) (trapezoid : Bool) :
    ∃ v v', globalAP Rnd.exact ms true true trapezoid = .ok v ∧
      globalAP Rnd.exact ms' true true trapezoid = .ok v' ∧ v ≤ v' := by
  classical
  exact ⟨_, _, (C65_measures ms h hn hs true trapezoid).1, (C65_measures ms' h' hn' hs' true trapezoid).1,
    ap_mono _ _ _ _ (tallyOf_counts ms hn _ (scoresIn_thresholds ms hn))
      (tallyOf_counts ms' hn' _ (scoresIn_thresholds ms' hn')) hf hw hr trapezoid⟩

/-! ## C69 -/

/-- C69: false positives ranked after all hits do not change average precision or NDCG, whatever the
options (exact arithmetic). -/
theorem C69_trailing (A F M : List (KwsMatch Q L)) (h : ∀ m ∈ A ++ F ++ M, HardMatch m)
    (hn : ∀ m ∈ A ++ F ++ M, rank m ≠ .nan)
    (hs : (A ++ F ++ M).Pairwise (fun a b => Flt.lt (rank a) (rank b) = false))
    (hA : ∀ a ∈ A, a.hyp.isSome = true) (hF : ∀ f ∈ F, f.ref = none) (hM : ∀ m ∈ M, m.hyp = none)
    (hlate : ∀ a ∈ A, IsHit a = true → ∀ f ∈ F, Flt.lt (rank f) (rank a) = true)
    (collapse interp trapezoid : Bool) :
    globalAP Rnd.exact (A ++ F ++ M) collapse interp trapezoid =
      globalAP Rnd.exact (A ++ M) collapse interp trapezoid ∧
    globalNDCG Rnd.exact (A ++ F ++ M) collapse = globalNDCG Rnd.exact (A ++ M) collapse := by
  classical
  have sub : (A ++ M).Sublist (A ++ F ++ M) :=
    List.Sublist.append (List.sublist_append_left A F) (List.Sublist.refl M)
  have h0 : ∀ m ∈ A ++ M, HardMatch m := fun m hm => h m (sub.subset hm)
  have hn0 : ∀ m ∈ A ++ M, rank m ≠ .nan := fun m hm => hn m (sub.subset hm)
  cases collapse with
  | true =>
    obtain ⟨a1, a2⟩ := C65_measures (A ++ F ++ M) h hn hs interp trapezoid
    obtain ⟨b1, b2⟩ := C65_measures (A ++ M) h0 hn0 (hs.sublist sub) interp trapezoid
    obtain ⟨c1, c2⟩ := collapsed_tail A F M hF hM hn (fun a ha h1 h2 => hlate a ha (by
      simp [IsHit, h1, h2])) _ _ (scoresIn_thresholds _ hn0) (scoresIn_thresholds _ hn)
    rw [a1, a2, b1, b2, c1, c2]
    exact ⟨rfl, rfl⟩
  | false =>
    have hFh : ∀ f ∈ F, f.hyp.isSome = true := by
      intro f hf
      rcases h f (by simp [hf]) with ⟨h1, _⟩ | ⟨_, h2, _⟩ | ⟨h1, _⟩
      · rw [hF f hf] at h1; cases h1
      · exact h2
      · rw [hF f hf] at h1; cases h1
    have last : ∀ l : List (KwsMatch Q L), (∀ a ∈ l, a.hyp.isSome = true) → MissedLast (l ++ M) := by
      intro l hl
      unfold MissedLast
      rw [List.pairwise_append]
      refine ⟨List.pairwise_iff_forall_sublist.2 fun {a b} hab hn => ?_,
        List.pairwise_iff_forall_sublist.2 fun {a b} hab _ => hM b (hab.subset (by simp)),
        fun a ha b hb _ => hM b hb⟩
      have := hl a (hab.subset (by simp))
      rw [hn] at this
      cases this
    have m1 := last A hA
    have m2 := last (A ++ F) (fun a ha => by
      rcases List.mem_append.1 ha with h | h
      · exact hA a h
      · exact hFh a h)
    have found0 : ∀ (l : List (KwsMatch Q L)) n, (∀ f ∈ l, IsHit f = false) → (l.take n).countP IsHit = 0 := by
      intro l n hl
      rw [List.countP_eq_zero]
      intro a ha
      simp [hl a (List.mem_of_mem_take ha)]
    have f1 : ∀ f ∈ F, IsHit f = false := fun f hf => by simp [IsHit, hF f hf]
    have f2 : ∀ f ∈ M, IsHit f = false := fun f hf => by simp [IsHit, hM f hf]
    have hfound : ∀ n, found n (A ++ F ++ M) = found n (A ++ M) := by
      intro n
      unfold found
      rw [List.append_assoc, List.take_append, List.countP_append, found0 (F ++ M) _ (fun f hf => by
          rcases List.mem_append.1 hf with h | h
          · exact f1 f h
          · exact f2 f h), List.take_append, List.countP_append, found0 _ _ f2]
    have hrefs : references (A ++ F ++ M) = references (A ++ M) := by
      unfold references
      have : F.countP (fun m => m.ref.isSome) = 0 := by
        rw [List.countP_eq_zero]
        intro f hf
        simp [hF f hf]
      rw [List.countP_append, List.countP_append, List.countP_append, this, Nat.add_zero]
    obtain ⟨⟨v, v', a1, a2, a3⟩, a4⟩ := C70_ranking _ _ h h0 m2 m1 (fun n => (hfound n).le) hrefs.ge interp trapezoid
    obtain ⟨⟨u, u', b1, b2, b3⟩, b4⟩ := C70_ranking _ _ h0 h m1 m2 (fun n => (hfound n).ge) hrefs.le interp trapezoid
    rw [a1] at b2
    rw [a2] at b1
    injection b2 with b2
    injection b1 with b1
    subst b2 b1
    exact ⟨by rw [a1, a2, le_antisymm a3 b3], le_antisymm a4 b4⟩

end

/-! ## Collapsing without interpolation -/

/-- A hypothesis for reference `i` with score `s`. -/
def hitAt (i : Nat) (s : ℚ) : KwsMatch Nat Nat := ⟨some ⟨1, i⟩, some ⟨⟨1, i⟩, .fin s⟩, ⟨0, 0⟩⟩

/-- A false positive with score `s`. -/
def wrongAt (s : ℚ) : KwsMatch Nat Nat := ⟨none, some ⟨⟨2, 1⟩, .fin s⟩, ⟨1, 0⟩⟩

/-- The second list is at least as good as the first one at each score. -/
structure NoWorse (ms ms' : List (KwsMatch Nat Nat)) : Prop where
  hard : ∀ m ∈ ms, HardMatch m
  hard' : ∀ m ∈ ms', HardMatch m
  nan : ∀ m ∈ ms, rank m ≠ .nan
  nan' : ∀ m ∈ ms', rank m ≠ .nan
  sorted : ms.Pairwise (fun a b => Flt.lt (rank a) (rank b) = false)
  sorted' : ms'.Pairwise (fun a b => Flt.lt (rank a) (rank b) = false)
  found : ∀ s, s ≠ .nan → foundAbove s ms ≤ foundAbove s ms'
  wrong : ∀ s, s ≠ .nan → wrongAbove s ms' ≤ wrongAbove s ms
  refs : references ms' ≤ references ms

theorem hitAt_hard (i : Nat) (s : ℚ) : HardMatch (hitAt i s) := Or.inl ⟨rfl, rfl, rfl⟩
theorem wrongAt_hard (s : ℚ) : HardMatch (wrongAt s) := Or.inr (Or.inl ⟨rfl, rfl, rfl⟩)

theorem noWorse_rectangle : NoWorse [wrongAt 2, hitAt 1 1, hitAt 2 1] [wrongAt 2, hitAt 1 2, hitAt 2 1] where
  hard := by simp [hitAt_hard, wrongAt_hard]
  hard' := by simp [hitAt_hard, wrongAt_hard]
  nan := by decide +kernel
  nan' := by decide +kernel
  sorted := by decide +kernel
  sorted' := by decide +kernel
  found s hs := by
    cases s <;> simp [foundAbove, hitAt, wrongAt, Flt.lt, List.countP_cons] at *
    split_ifs <;> first | omega | (exfalso; linarith)
  wrong s hs := by simp [wrongAbove, hitAt, wrongAt, List.countP_cons]
  refs := by decide

theorem noWorse_trapezoid : NoWorse [wrongAt 3, hitAt 1 2, hitAt 2 1] [wrongAt 3, hitAt 1 2, hitAt 2 2] where
  hard := by simp [hitAt_hard, wrongAt_hard]
  hard' := by simp [hitAt_hard, wrongAt_hard]
  nan := by decide +kernel
  nan' := by decide +kernel
  sorted := by decide +kernel
  sorted' := by decide +kernel
  found s hs := by
    cases s <;> simp [foundAbove, hitAt, wrongAt, Flt.lt, List.countP_cons] at *
    split_ifs <;> first | omega | (exfalso; linarith)
  wrong s hs := by simp [wrongAbove, hitAt, wrongAt, List.countP_cons]
  refs := by decide

theorem noWorse_ndcg : NoWorse [hitAt 1 3, wrongAt 2, hitAt 2 1] [hitAt 1 3, wrongAt 2, hitAt 2 2] where
  hard := by simp [hitAt_hard, wrongAt_hard]
  hard' := by simp [hitAt_hard, wrongAt_hard]
  nan := by decide +kernel
  nan' := by decide +kernel
  sorted := by decide +kernel
  sorted' := by decide +kernel
  found s hs := by
    cases s <;> simp [foundAbove, hitAt, wrongAt, Flt.lt, List.countP_cons] at *
    split_ifs <;> first | omega | (exfalso; linarith)
  wrong s hs := by simp [wrongAbove, hitAt, wrongAt, List.countP_cons]
  refs := by decide

/-- C70 is false for average precision with collapsing and without interpolation: giving one of two hits
the score of a false positive above them lowers it from 2/3 to 7/12, and with trapezoids giving the last
hit the score of the one before lowers it from 5/12 to 1/3. -/
theorem C70_collapsed_ap_refuted :
    (∃ ms ms', NoWorse ms ms' ∧ globalAP Rnd.exact ms true false false = .ok (2 / 3) ∧
      globalAP Rnd.exact ms' true false false = .ok (7 / 12)) ∧
    (∃ ms ms', NoWorse ms ms' ∧ globalAP Rnd.exact ms true false true = .ok (5 / 12) ∧
      globalAP Rnd.exact ms' true false true = .ok (1 / 3)) :=
  ⟨⟨_, _, noWorse_rectangle, by decide +kernel, by decide +kernel⟩,
    ⟨_, _, noWorse_trapezoid, by decide +kernel, by decide +kernel⟩⟩

/-- C70 is false for NDCG with collapsing: a hit that ties with the false positive above it shares its
relevance. -/
theorem C70_collapsed_ndcg_refuted :
    ∃ ms ms', NoWorse ms ms' ∧ globalNDCG Rnd.exact ms' true < globalNDCG Rnd.exact ms true := by
  refine ⟨_, _, noWorse_ndcg, ?_⟩
  rw [(C65_measures _ noWorse_ndcg.hard noWorse_ndcg.nan noWorse_ndcg.sorted false false).2,
    (C65_measures _ noWorse_ndcg.hard' noWorse_ndcg.nan' noWorse_ndcg.sorted' false false).2]
  have d1 : descending (scoresIn [hitAt 1 3, wrongAt 2, hitAt 2 1]) = [.fin 3, .fin 2, .fin 1] := by
    decide +kernel
  have d2 : descending (scoresIn [hitAt 1 3, wrongAt 2, hitAt 2 2]) = [.fin 3, .fin 2] := by
    decide +kernel
  have c1 : (tallyOf [hitAt 1 3, wrongAt 2, hitAt 2 1]).counts [.fin 3, .fin 2, .fin 1] =
      [(1, 0), (1, 1), (2, 1)] := by decide +kernel
  have c2 : (tallyOf [hitAt 1 3, wrongAt 2, hitAt 2 2]).counts [.fin 3, .fin 2] =
      [(1, 0), (2, 1)] := by decide +kernel
  have r1 : (tallyOf [hitAt 1 3, wrongAt 2, hitAt 2 1]).refs = 2 := by decide +kernel
  have r2 : (tallyOf [hitAt 1 3, wrongAt 2, hitAt 2 2]).refs = 2 := by decide +kernel
  rw [d1, d2]
  simp only [Tally.counts, List.map_cons, List.map_nil, List.cons.injEq, Prod.mk.injEq, and_true] at c1 c2
  obtain ⟨⟨a1, a2⟩, ⟨a3, a4⟩, a5, a6⟩ := c1
  obtain ⟨⟨b1, b2⟩, b3, b4⟩ := c2
  unfold Tally.ndcg
  rw [r1, r2, if_neg (by norm_num), if_neg (by norm_num)]
  have l4 : Real.logb 2 4 = 2 := by
    rw [show (4 : ℝ) = 2 ^ (2 : ℝ) by norm_num, Real.logb_rpow (by norm_num) (by norm_num)]
  have l3 : 10 / 7 < Real.logb 2 3 := by
    rw [Real.lt_logb_iff_rpow_lt (by norm_num) (by norm_num)]
    have h1 : ((2 : ℝ) ^ (10 / 7 : ℝ)) ^ (7 : ℕ) = 2 ^ (10 : ℕ) := by
      rw [← Real.rpow_natCast, ← Real.rpow_mul (by norm_num), ← Real.rpow_natCast]
      norm_num
    by_contra hc
    push Not at hc
    have := pow_le_pow_left₀ (by norm_num : (0 : ℝ) ≤ 3) hc 7
    rw [h1] at this
    norm_num at this
  have hroot : (2 : ℝ) ^ (1 / 2 : ℝ) < 1415 / 1000 := by
    rw [← Real.sqrt_eq_rpow, Real.sqrt_lt' (by norm_num)]
    norm_num
  have l3' : 1 / Real.logb 2 3 < 7 / 10 := by
    rw [div_lt_iff₀ (by linarith)]
    linarith
  have pos : (0 : ℝ) < ∑ k ∈ Finset.range 2, 1 / Real.logb 2 ((k : ℝ) + 2) := by
    have := ideal_pos 2 (by norm_num)
    refine lt_of_lt_of_eq this (Finset.sum_congr rfl fun k _ => ?_)
    unfold disc
    push_cast
    rw [show (1 : ℝ) + k + 1 = k + 2 by ring]
  refine div_lt_div_of_pos_right ?_ pos
  simp only [Tally.gain, a1, a2, a3, a4, a5, a6, b1, b2, b3, b4]
  simp only [Finset.sum_Ico_eq_sum_range]
  norm_num [Finset.sum_range_succ, l4]
  norm_num at l3' hroot
  have hone : (1 : ℝ) ≤ 2 ^ (1 / 2 : ℝ) := Real.one_le_rpow (by norm_num) (by norm_num)
  have hmul : ((2 : ℝ) ^ (1 / 2 : ℝ) - 1) * (Real.logb 2 3)⁻¹ ≤ (415 / 1000) * (7 / 10) :=
    mul_le_mul (by linarith) l3'.le (inv_nonneg.2 (by linarith)) (by norm_num)
  rw [div_eq_mul_inv _ (Real.logb 2 3)]
  linarith

/-- The cases of C70: after a hit, a false positive, another hit and a missed reference, moving the second
hit up; and giving the second hit a higher score than the false positive. -/
def orderExample : List (KwsMatch Nat Nat) :=
  [hitAt 1 3, wrongAt 2, hitAt 2 1, ⟨some ⟨1, 3⟩, none, ⟨0, 1⟩⟩]

def orderExample' : List (KwsMatch Nat Nat) :=
  [hitAt 1 3, hitAt 2 (5 / 2), wrongAt 2, ⟨some ⟨1, 3⟩, none, ⟨0, 1⟩⟩]

theorem orderExample_hard : (∀ m ∈ orderExample, HardMatch m) ∧ (∀ m ∈ orderExample', HardMatch m) := by
  have : HardMatch (⟨some ⟨1, 3⟩, none, ⟨0, 1⟩⟩ : KwsMatch Nat Nat) := Or.inr (Or.inr ⟨rfl, rfl, rfl⟩)
  simp [orderExample, orderExample', hitAt_hard, wrongAt_hard, this]

example : MissedLast orderExample ∧ MissedLast orderExample' ∧
    (∀ n, found n orderExample ≤ found n orderExample') ∧
    references orderExample' ≤ references orderExample ∧
    globalAP Rnd.exact orderExample false true false = .ok (5 / 9) ∧
    globalAP Rnd.exact orderExample' false true false = .ok (2 / 3) := by
  refine ⟨by simp [MissedLast, orderExample, hitAt, wrongAt],
    by simp [MissedLast, orderExample', hitAt, wrongAt], ?_, by decide +kernel, by decide +kernel,
    by decide +kernel⟩
  intro n
  rcases n with _ | _ | _ | _ | n <;>
    simp [found, orderExample, orderExample', hitAt, wrongAt, IsHit]

example : (∀ s, s ≠ .nan → foundAbove s orderExample ≤ foundAbove s orderExample') ∧
    (∀ s, s ≠ .nan → wrongAbove s orderExample' ≤ wrongAbove s orderExample) ∧
    references orderExample' ≤ references orderExample ∧
    globalAP Rnd.exact orderExample true true false = .ok (5 / 9) ∧
    globalAP Rnd.exact orderExample' true true false = .ok (2 / 3) := by
  refine ⟨fun s hs => ?_, fun s hs => ?_, by decide +kernel, by decide +kernel, by decide +kernel⟩
  · cases s <;> simp [foundAbove, orderExample, orderExample', hitAt, wrongAt, Flt.lt, List.countP_cons] at *
    split_ifs <;> first | omega | (exfalso; linarith)
  · simp [wrongAbove, orderExample, orderExample', hitAt, wrongAt, List.countP_cons]

/-- The case of C69: a false positive after two hits. -/
example : [hitAt 1 3, wrongAt 2, hitAt 2 1] ++ [wrongAt (1 / 2)] ++
      [(⟨some ⟨1, 3⟩, none, ⟨0, 1⟩⟩ : KwsMatch Nat Nat)] ≠ [] ∧
    (∀ a ∈ [hitAt 1 3, wrongAt 2, hitAt 2 1], IsHit a = true →
      ∀ f ∈ [wrongAt (1 / 2)], Flt.lt (rank f) (rank a) = true) ∧
    ([hitAt 1 3, wrongAt 2, hitAt 2 1] ++ [wrongAt (1 / 2)] ++
      [(⟨some ⟨1, 3⟩, none, ⟨0, 1⟩⟩ : KwsMatch Nat Nat)]).Pairwise
        (fun a b => Flt.lt (rank a) (rank b) = false) ∧
    globalAP Rnd.exact ([hitAt 1 3, wrongAt 2, hitAt 2 1] ++ [wrongAt (1 / 2)] ++
      [⟨some ⟨1, 3⟩, none, ⟨0, 1⟩⟩]) true false true = .ok (19 / 36) := by
  decide +kernel

/-! ## C72 -/

section
variable {Q L : Type}

theorem curve_mono (t : Bool) (pr pr' rc : List ℚ) (hl : pr.length = pr'.length)
    (h : ∀ i, pr.getD i 0 ≤ pr'.getD i 0) (hl2 : pr.length = rc.length)
    (hr : rc.Pairwise (· ≤ ·)) (h0 : ∀ x ∈ rc, 0 ≤ x) :
    areaUnder t pr rc ≤ areaUnder t pr' rc := by
  unfold areaUnder
  rw [← hl]
  refine Finset.sum_le_sum fun i hi => ?_
  rw [Finset.mem_range] at hi
  refine mul_le_mul_of_nonneg_right ?_ ?_
  · split
    · linarith [h i, h (i - 1)]
    · exact h i
  · rw [List.getD_eq_getElem?_getD, List.getElem?_eq_getElem (by omega), Option.getD_some]
    split
    · rw [sub_zero]
      exact h0 _ (List.getElem_mem _)
    · rw [List.getD_eq_getElem?_getD, List.getElem?_eq_getElem (by omega), Option.getD_some]
      have := List.pairwise_iff_getElem.1 hr (i - 1) i (by omega) (by omega) (by omega)
      linarith

/-- C72: interpolation does not lower average precision (exact arithmetic). -/
theorem C72_interpolation (ms : List (KwsMatch Q L)) (h : ∀ m ∈ ms, Rates m.error)
    (collapse trapezoid : Bool) :
    ∃ v v', globalAP Rnd.exact ms collapse false trapezoid = .ok v ∧
      globalAP Rnd.exact ms collapse true trapezoid = .ok v' ∧ v ≤ v' := by
  refine ⟨_, _, globalAP_exact _ _ _ _, globalAP_exact _ _ _ _, ?_⟩
  have hm := C25_recall_monotone ms collapse false h
  have hu := C25_unit ms collapse false h
  have hlen := matchesPR_lengths Rnd.exact ms collapse false
  have key : ∀ {ε : Type} [IsError ε] (es : List ε),
      (computePR Rnd.exact es false).1.length = (computePR Rnd.exact es true).1.length ∧
      (∀ i, (computePR Rnd.exact es false).1.getD i 0 ≤ (computePR Rnd.exact es true).1.getD i 0) ∧
      (computePR Rnd.exact es true).2 = (computePR Rnd.exact es false).2 := by
    intro ε _ es
    obtain ⟨_, h2, _, h4⟩ := C27_least_majorant Rnd.exact es
    have l1 := (computePR_lengths Rnd.exact es false).1
    have l2 := (computePR_lengths Rnd.exact es true).1
    refine ⟨by rw [l1, l2], fun i => ?_, h4⟩
    rw [List.getD_eq_getElem?_getD, List.getD_eq_getElem?_getD]
    by_cases hi : i < es.length
    · have hx := List.getElem?_eq_getElem (l := (computePR Rnd.exact es true).1) (i := i) (by omega)
      have hg := C27_interpolated_is_max Rnd.exact es i _ hx
      rw [hx, List.getElem?_eq_getElem (by omega), Option.getD_some, Option.getD_some]
      refine hg.2 ?_
      simp only [Set.mem_ofPred_eq]
      rw [List.mem_drop_iff_getElem]
      exact ⟨0, by omega, by simp⟩
    · rw [List.getElem?_eq_none (by omega), List.getElem?_eq_none (by omega)]
  have both : (matchesPR Rnd.exact ms collapse false).1.length = (matchesPR Rnd.exact ms collapse true).1.length ∧
      (∀ i, (matchesPR Rnd.exact ms collapse false).1.getD i 0 ≤
        (matchesPR Rnd.exact ms collapse true).1.getD i 0) ∧
      (matchesPR Rnd.exact ms collapse true).2 = (matchesPR Rnd.exact ms collapse false).2 := by
    unfold matchesPR
    cases collapse
    · exact key _
    · exact key _
  rw [both.2.2]
  exact curve_mono _ _ _ _ both.1 both.2.1 (by rw [hlen.1, hlen.2]) hm (fun x hx => (hu.2 x hx).1)

theorem precOf_rank (bs : List Outcome) (hb : Outcome.falseNeg ∉ bs) (pre post : List (ℕ × ℕ)) (c b : ℕ × ℕ)
    (i : ℕ) (e : rankCounts bs = pre ++ c :: post) (h1 : ∀ q ∈ pre, q.1 ≤ i) (h2 : i < c.1)
    (hl : pre.getLast? = some b) : precOf b ≤ precOf c := by
  obtain ⟨f1, f2⟩ := rankCounts_first e h1 h2
  obtain ⟨l1, ec, el⟩ := rankCounts_split e
  have hne : pre.length ≠ 0 := by
    intro h0
    rw [List.length_eq_zero_iff.1 h0] at hl
    cases hl
  rw [hl, if_neg hne] at el
  injection el with el
  rw [ec, el, rank_precision bs hb _ (by omega) (by omega), rank_precision bs hb _ (by omega) (by omega), f1, f2]
  have hle : i ≤ pre.length := by
    have := among_split bs hb pre.length (by omega)
    omega
  have hpos : (0 : ℚ) < pre.length := by exact_mod_cast Nat.pos_of_ne_zero hne
  rw [div_le_div_iff₀ hpos (by positivity)]
  have : (i : ℚ) ≤ pre.length := by exact_mod_cast hle
  push_cast
  nlinarith

/-- C72: without collapsing, the trapezoids are not larger than the rectangles, and the same with
interpolation (exact arithmetic). -/
theorem C72_trapezoid (ms : List (KwsMatch Q L)) (h : ∀ m ∈ ms, HardMatch m) (hl : MissedLast ms) :
    (∃ v v', globalAP Rnd.exact ms false false true = .ok v ∧
      globalAP Rnd.exact ms false false false = .ok v' ∧ v ≤ v') ∧
    globalAP Rnd.exact ms false true true = globalAP Rnd.exact ms false true false := by
  obtain ⟨bs, n, e, hb⟩ := outcomes_split ms h hl
  have ap : ∀ interp t, globalAP Rnd.exact ms false interp t = .ok
      ((∑ i ∈ Finset.range (bs.count .hit + n),
        atHit (hts t none (hitCurve interp (rankCounts bs))) i) / (bs.count .hit + n : ℕ)) := by
    intro interp t
    rw [globalAP_exact]
    unfold matchesPR
    simp only [Bool.false_eq_true, if_false]
    rw [errors_outcomes ms h, e, ranked_ap bs n hb interp t]
  rw [ap, ap, ap, ap]
  refine ⟨⟨_, _, rfl, rfl, ?_⟩, ?_⟩
  · refine div_le_div_of_nonneg_right (Finset.sum_le_sum fun i _ => ?_) (by positivity)
    rcases split_hit (rankCounts bs) Prod.fst i with h0 | ⟨pre, c, post, ec, h1, h2⟩
    · rw [atHit_nothing _ _ _ _ h0, atHit_nothing _ _ _ _ h0]
    · rw [ec, atHit_curve false true pre post c i h1 h2, atHit_curve false false pre post c i h1 h2]
      cases hb' : pre.getLast? with
      | none => simp
      | some b =>
        have := precOf_rank bs hb pre post c b i ec h1 h2 hb'
        simp only [if_true, Bool.false_eq_true, if_false]
        linarith
  · congr 2
    refine Finset.sum_congr rfl fun i _ => ?_
    rcases split_hit (rankCounts bs) Prod.fst i with h0 | ⟨pre, c, post, ec, h1, h2⟩
    · rw [atHit_nothing _ _ _ _ h0, atHit_nothing _ _ _ _ h0]
    · rw [ec, atHit_curve true true pre post c i h1 h2, atHit_curve true false pre post c i h1 h2]
      cases hb' : pre.getLast? with
      | none => simp
      | some b =>
        have hbc := precOf_rank bs hb pre post c b i ec h1 h2 hb'
        have : bestFrom b (c :: post) = bestFrom c post := by
          refine le_antisymm ((bestFrom_le _ _ _).2 ?_) ((bestFrom_le _ _ _).2 ?_)
          · intro d hd
            rcases List.mem_cons.1 hd with rfl | hd
            · exact hbc.trans (le_bestFrom (by simp))
            · exact le_bestFrom hd
          · exact fun d hd => le_bestFrom (List.mem_cons_of_mem _ hd)
        simp only [if_true, Bool.false_eq_true, if_false, this]
        ring

/-- C72: with collapsing the trapezoids can be larger: 11/12 instead of 5/6 for a hit that is followed by a
hit that ties with a false positive. -/
theorem C72_collapsed_differs : ∃ ms : List (KwsMatch Nat Nat), (∀ m ∈ ms, HardMatch m) ∧
    (∀ m ∈ ms, rank m ≠ .nan) ∧ ms.Pairwise (fun a b => Flt.lt (rank a) (rank b) = false) ∧
    ∃ v v', globalAP Rnd.exact ms true false false = .ok v ∧
      globalAP Rnd.exact ms true false true = .ok v' ∧ v < v' := by
  refine ⟨[hitAt 1 2, hitAt 2 1, wrongAt 1], by simp [hitAt_hard, wrongAt_hard], by decide +kernel,
    by decide +kernel, 5 / 6, 11 / 12, by decide +kernel, by decide +kernel, by norm_num⟩

end

/-- The four formulas for a false positive between two hits, and a missed reference. -/
example : (∀ m ∈ orderExample, Rates m.error) ∧
    globalAP Rnd.exact orderExample false false true = .ok (19 / 36) ∧
    globalAP Rnd.exact orderExample false false false = .ok (5 / 9) ∧
    globalAP Rnd.exact orderExample false true true = .ok (5 / 9) ∧
    globalAP Rnd.exact orderExample false true false = .ok (5 / 9) := by
  refine ⟨?_, by decide +kernel, by decide +kernel, by decide +kernel, by decide +kernel⟩
  simp [orderExample, hitAt, wrongAt, Rates]

end Kws
