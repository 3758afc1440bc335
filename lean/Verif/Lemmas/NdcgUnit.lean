import Verif.Lemmas.NdcgGain

/-! NDCG in `double`: the range and the extreme values. -/

set_option linter.unusedSectionVars false

namespace Kws
open Spec

section
variable (m : Libm) (hm : m.Accurate)
include hm

theorem fsum_ones_ge (n : ℕ) : ∀ (j : ℕ) (acc : ℚ), 1 ≤ j → j + n ≤ 2 ^ 53 → Rnd.ieee.f64 acc = acc →
    acc ≤ fsum m j acc (List.replicate n 1) := by
  induction n with
  | zero => intro j acc _ _ _; exact le_rfl
  | succ n ih =>
    intro j acc hj hn ha
    rw [List.replicate_succ, fsum]
    have hl := (log2_range m hm (j + 1) (by omega) (by omega)).1
    have h0 : 0 ≤ Rnd.ieee.f64 (1 / m.log2 ((j + 1 : ℕ) : ℚ)) :=
      ieee_faithful.nonneg64 (div_nonneg (by norm_num) (le_trans (by norm_num) hl))
    refine le_trans ?_ (ih (j + 1) _ (by omega) (by omega) (ieee_precise.idem64 _))
    conv_lhs => rw [← ha]
    exact ieee_faithful.mono64 _ _ (by linarith)

/-- Gains 0 and 1 are best placed first, also with rounding. -/
theorem fsum_le (g : List ℚ) : ∀ (i j n : ℕ) (acc acc' : ℚ), (∀ x ∈ g, x = 0 ∨ x = 1) → g.sum ≤ n →
    1 ≤ j → j ≤ i → i + g.length ≤ 2 ^ 40 → j + n ≤ 2 ^ 53 → acc ≤ acc' → Rnd.ieee.f64 acc = acc →
    Rnd.ieee.f64 acc' = acc' → fsum m i acc g ≤ fsum m j acc' (List.replicate n 1) := by
  induction g with
  | nil =>
    intro i j n acc acc' _ _ hj _ _ hn h _ h'
    exact h.trans (fsum_ones_ge m hm n j acc' hj hn h')
  | cons x g ih =>
    intro i j n acc acc' hx hs hj hij hi hn h ha ha'
    rw [List.length_cons] at hi
    rw [List.sum_cons] at hs
    have hg0 : 0 ≤ g.sum := List.sum_nonneg fun y hy => by
      rcases hx y (by simp [hy]) with rfl | rfl <;> norm_num
    rcases hx x (by simp) with rfl | rfl
    · rw [fsum, zero_div, ieee_faithful.zero64, add_zero, ha]
      exact ih (i + 1) j n acc acc' (fun y hy => hx y (by simp [hy])) (by linarith) hj (by omega)
        (by omega) hn h ha ha'
    · cases n with
      | zero => rw [Nat.cast_zero] at hs; linarith
      | succ n =>
        rw [List.replicate_succ, fsum, fsum]
        have hl := (log2_range m hm (j + 1) (by omega) (by omega)).1
        have hlm := log2_mono m hm (j + 1) (i + 1) (by omega) (by omega) (by omega)
        refine ih (i + 1) (j + 1) n _ _ (fun y hy => hx y (by simp [hy])) (by push_cast at hs; linarith)
          (by omega) (by omega) (by omega) (by omega) ?_ (ieee_precise.idem64 _) (ieee_precise.idem64 _)
        refine ieee_faithful.mono64 _ _ (add_le_add h (ieee_faithful.mono64 _ _ ?_))
        exact one_div_le_one_div_of_le (lt_of_lt_of_le (by norm_num) hl) hlm

omit hm in
theorem fsum_zero (g : List ℚ) : ∀ i, (∀ x ∈ g, x = 0) → fsum m i 0 g = 0 := by
  induction g with
  | nil => intro i _; rfl
  | cons x g ih =>
    intro i h
    rw [fsum, h x (by simp), zero_div, ieee_faithful.zero64, add_zero, ieee_faithful.zero64]
    exact ih _ fun y hy => h y (by simp [hy])

variable {ε : Type} [IsError ε]

omit hm in
theorem gainsD_length (es : List ε) : (gainsD m es).length = (es.map IsError.nh).sum := by
  unfold gainsD
  rw [List.length_flatMap]
  simp

/-- The result, if there is a reference. -/
theorem computeNDCGD_eq (es : List ε) (hn : (es.map IsError.nh).sum ≤ 2 ^ 30)
    (hT : (es.map IsError.nr).sum ≤ 2 ^ 30) (hp : 0 < (es.map IsError.nr).sum) :
    0 < fsum m 1 0 (List.replicate (es.map IsError.nr).sum 1) ∧
    computeNDCGD Rnd.ieee m es = .ok (Rnd.ieee.f64 (fsum m 1 0 (gainsD m es) /
      fsum m 1 0 (List.replicate (es.map IsError.nr).sum 1))) := by
  unfold computeNDCGD
  simp only [numTotal_eq]
  rw [if_pos hp, dcgLoopD_eq m hm es 1 0 le_rfl (by omega), idealDcgD_eq m hm _ 1 0 le_rfl (by omega)]
  simp only [bind, Except.bind]
  obtain ⟨_, z1, _⟩ := ideal_btw m hm (es.map IsError.nr).sum (by omega)
  have hZ := ideal_pos _ hp
  have hz' : (0 : ℝ) < fsum m 1 0 (List.replicate (es.map IsError.nr).sum 1) :=
    lt_of_lt_of_le (mul_pos (pow_pos (by norm_num) _) hZ) z1
  have hz : 0 < fsum m 1 0 (List.replicate (es.map IsError.nr).sum 1) := by exact_mod_cast hz'
  refine ⟨hz, ?_⟩
  unfold fdiv
  rw [if_neg hz.ne']

omit hm in
theorem computeNDCGD_none (es : List ε) (h : (es.map IsError.nr).sum = 0) :
    computeNDCGD Rnd.ieee m es = .ok 0 := by
  unfold computeNDCGD
  simp only [numTotal_eq]
  rw [if_neg (by omega)]
  rfl

/-- Gains 0 and 1, at most as many ones as there are references: the result is in [0,1]. -/
theorem computeNDCGD_unit (es : List ε) (hn : (es.map IsError.nh).sum ≤ 2 ^ 30)
    (hT : (es.map IsError.nr).sum ≤ 2 ^ 30) (hg : ∀ x ∈ gainsD m es, x = 0 ∨ x = 1)
    (hs : (gainsD m es).sum ≤ (es.map IsError.nr).sum) :
    ∃ v, computeNDCGD Rnd.ieee m es = .ok v ∧ 0 ≤ v ∧ v ≤ 1 := by
  rcases Nat.eq_zero_or_pos (es.map IsError.nr).sum with h0 | hp
  · exact ⟨0, computeNDCGD_none m es h0, le_rfl, by norm_num⟩
  obtain ⟨hz, he⟩ := computeNDCGD_eq m hm es hn hT hp
  refine ⟨_, he, ?_, ?_⟩
  · refine ieee_faithful.nonneg64 (div_nonneg ?_ hz.le)
    exact (fsum_btw m hm (gainsD m es) (fun x hx => (hg x hx).imp id (fun h => by rw [h]; norm_num))
      1 0 0 0 le_rfl (by rw [gainsD_length]; omega) (Or.inl rfl) le_rfl (by simp) (by simp)).1.nonneg
  · refine ieee_faithful.le_one64 ?_
    rw [div_le_one hz]
    refine fsum_le m hm _ 1 1 _ 0 0 hg hs le_rfl le_rfl (by rw [gainsD_length]; omega) (by omega) le_rfl
      ieee_faithful.zero64 ieee_faithful.zero64

theorem computeNDCGD_perfect (es : List ε) (hn : (es.map IsError.nh).sum ≤ 2 ^ 30)
    (h : ∀ e ∈ es, IsError.fp e = 0)
    (hs : (es.map IsError.nh).sum = (es.map IsError.nr).sum) (hp : 0 < (es.map IsError.nr).sum) :
    computeNDCGD Rnd.ieee m es = .ok 1 := by
  obtain ⟨hz, he⟩ := computeNDCGD_eq m hm es hn (hs ▸ hn) hp
  rw [he]
  have hg : gainsD m es = List.replicate (es.map IsError.nr).sum 1 := by
    rw [← hs]
    refine List.eq_replicate_iff.2 ⟨gainsD_length m es, fun x hx => ?_⟩
    obtain ⟨e, he, hx⟩ := List.mem_flatMap.1 hx
    rw [List.eq_of_mem_replicate hx]
    unfold gainD
    rw [h e he, zero_div, ieee_faithful.zero32, sub_zero, ieee_faithful.one32]
    exact gain_one m hm
  rw [hg, div_self hz.ne', ieee_faithful.one64]

theorem computeNDCGD_worthless (es : List ε) (hn : (es.map IsError.nh).sum ≤ 2 ^ 24)
    (hT : (es.map IsError.nr).sum ≤ 2 ^ 30) (h : ∀ e ∈ es, IsError.fp e = IsError.nh e) :
    computeNDCGD Rnd.ieee m es = .ok 0 := by
  rcases Nat.eq_zero_or_pos (es.map IsError.nr).sum with h0 | hp
  · exact computeNDCGD_none m es h0
  obtain ⟨hz, he⟩ := computeNDCGD_eq m hm es (hn.trans (by norm_num)) hT hp
  rw [he, fsum_zero m _ 1, zero_div, ieee_faithful.zero64]
  intro x hx
  obtain ⟨e, he, hx⟩ := List.mem_flatMap.1 hx
  obtain ⟨h0, rfl⟩ := List.mem_replicate.1 hx
  have hq : ((IsError.nh e : ℕ) : ℚ) ≠ 0 := by exact_mod_cast h0
  unfold gainD
  rw [h e he, ieee_faithful.nat32 _ (le_trans (mem_le_sum IsError.nh es e he) hn), div_self hq,
    ieee_faithful.one32, sub_self, ieee_faithful.zero32]
  exact gain_zero m hm

end

section
variable {Q L : Type}

/-- The hypotheses of a collapsed point share a score. -/
theorem collapse_count (R : Rnd) (ms : List (KwsMatch Q L)) :
    ∀ c ∈ collapseMatches R ms, ∃ s, c.nh ≤ ((ms.filter (fun m => rank m = s)).map (fun m => m.error.nh)).sum := by
  have key : ∀ ms : List (KwsMatch Q L), ∀ p ∈ collapseAcc R ms,
      p.1.nh ≤ ((ms.filter (fun m => rank m = p.2)).map (fun m => m.error.nh)).sum := by
    intro ms
    induction ms using List.reverseRecOn with
    | nil => intro p hp; simp [collapseAcc] at hp
    | append_singleton ms m ih =>
      intro p hp
      rw [List.filter_append, List.map_append, List.sum_append]
      rw [collapseAcc_snoc] at hp
      have hnew : ∀ k : ℕ, (MatchErrorCounts.ofError m.error).nh ≤
          k + (([m].filter (fun x => rank x = matchScore m)).map (fun m => m.error.nh)).sum := by
        intro k
        rw [matchScore_eq_rank]
        simp [MatchErrorCounts.ofError]
      cases hc : collapseAcc R ms with
      | nil =>
        rw [hc] at hp
        simp only [collapseStep, List.mem_singleton] at hp
        subst hp
        exact hnew _
      | cons q rest =>
        obtain ⟨c, s⟩ := q
        rw [hc] at hp ih
        unfold collapseStep at hp
        simp only at hp
        split at hp
        · rcases List.mem_cons.1 hp with rfl | hp
          · exact hnew _
          · exact (ih p hp).trans (Nat.le_add_right _ _)
        · rename_i hne
          rcases List.mem_cons.1 hp with rfl | hp
          · have h1 := ih (c, s) (by simp)
            have hs : rank m = s := by
              rw [matchScore_eq_rank] at hne
              revert hne
              generalize rank m = x
              intro hne
              cases x <;> cases s <;> simp_all [Flt.ne, Flt.eq]
            refine Nat.add_le_add h1 ?_
            simp [hs]
          · exact (ih p (by simp [hp])).trans (Nat.le_add_right _ _)
  intro c hc
  rw [collapse_eq] at hc
  obtain ⟨p, hp, rfl⟩ := List.mem_map.1 hc
  exact ⟨p.2, key ms p (List.mem_reverse.1 hp)⟩

/-- Collapsed hard errors are whole numbers. -/
theorem collapse_whole (ms : List (KwsMatch Q L)) (h : ∀ m ∈ ms, Hard m.error) :
    ∀ c ∈ collapseMatches Rnd.exact ms, ∃ a : ℕ, c.fp = a := by
  have key : ∀ ms : List (KwsMatch Q L), (∀ m ∈ ms, Hard m.error) →
      ∀ p ∈ collapseAcc Rnd.exact ms, ∃ a : ℕ, p.1.fp = a := by
    intro ms
    induction ms using List.reverseRecOn with
    | nil => intro _ p hp; simp [collapseAcc] at hp
    | append_singleton ms m ih =>
      intro h p hp
      have ih' := ih (fun x hx => h x (by simp [hx]))
      have hm : ∃ a : ℕ, m.error.fp = a := by
        rcases (h m (by simp)).1 with h | h
        · exact ⟨0, by simp [h]⟩
        · exact ⟨1, by simp [h]⟩
      obtain ⟨a, ha⟩ := hm
      rw [collapseAcc_snoc] at hp
      cases hc : collapseAcc Rnd.exact ms with
      | nil =>
        rw [hc] at hp
        simp only [collapseStep, List.mem_singleton] at hp
        subst hp
        exact ⟨a, ha⟩
      | cons q rest =>
        obtain ⟨c, s⟩ := q
        rw [hc] at hp ih'
        unfold collapseStep at hp
        simp only at hp
        split at hp
        · rcases List.mem_cons.1 hp with rfl | hp
          · exact ⟨a, ha⟩
          · exact ih' p hp
        · rcases List.mem_cons.1 hp with rfl | hp
          · obtain ⟨b, hb⟩ := ih' (c, s) (by simp)
            simp only at hb
            refine ⟨b + a, ?_⟩
            show c.fp + m.error.fp = _
            rw [hb, ha]
            push_cast
            rfl
          · exact ih' p (by simp [hp])
  intro c hc
  rw [collapse_eq] at hc
  obtain ⟨p, hp, rfl⟩ := List.mem_map.1 hc
  exact key ms h p (List.mem_reverse.1 hp)

end

end Kws
