import Verif.Lemmas.PR
import Verif.Lemmas.Sort

/-! Facts about scores, sorting by score and collapsing -/

set_option linter.unusedSectionVars false

namespace Kws
open Spec

/-! ## Scores -/

namespace Flt

theorem lt_irrefl (a : Flt) : lt a a = false := by
  cases a <;> simp [lt]

theorem lt_trans' (a b c : Flt) (h1 : lt a b = true) (h2 : lt b c = true) : lt a c = true := by
  cases a <;> cases b <;> cases c <;> simp_all [lt]
  exact lt_trans h1 h2

theorem lt_tri (a b : Flt) (ha : a ≠ nan) (hb : b ≠ nan) : lt a b = true ∨ a = b ∨ lt b a = true := by
  cases a <;> cases b <;> simp_all [lt]
  exact lt_trichotomy _ _

theorem lt_ne_nan (a b : Flt) (h : lt a b = true) : a ≠ nan ∧ b ≠ nan := by
  cases a <;> cases b <;> simp_all [lt]

theorem ne_iff (a b : Flt) (ha : a ≠ nan) (_hb : b ≠ nan) : ne a b = true ↔ a ≠ b := by
  unfold ne eq
  cases a <;> cases b <;> simp_all

theorem ninf_le (a : Flt) : lt a ninf = false := by cases a <;> simp [lt]

end Flt

section
variable {Q L : Type}

theorem matchScore_eq_rank (m : KwsMatch Q L) : matchScore m = rank m := by
  unfold matchScore rank
  cases m.hyp <;> rfl

/-- No rank is NaN. -/
def NoNaN (ms : List (KwsMatch Q L)) : Prop := ∀ m ∈ ms, rank m ≠ .nan

/-- Ranks never increase. -/
def ByRank (ms : List (KwsMatch Q L)) : Prop :=
  ms.Pairwise (fun a b => Flt.lt (rank a) (rank b) = false)

/-! ## Collapsing -/

/-- The accumulator of `collapseMatches`. -/
def collapseAcc (R : Rnd) (ms : List (KwsMatch Q L)) : List (MatchErrorCounts × Flt) :=
  ms.foldl (collapseStep R) []

theorem collapseAcc_snoc (R : Rnd) (ms : List (KwsMatch Q L)) (m : KwsMatch Q L) :
    collapseAcc R (ms ++ [m]) = collapseStep R (collapseAcc R ms) m := by
  unfold collapseAcc
  rw [List.foldl_append]
  rfl

theorem collapse_eq (R : Rnd) (ms : List (KwsMatch Q L)) :
    collapseMatches R ms = (collapseAcc R ms).reverse.map (·.1) := rfl

/-- Reference and hypothesis counts are conserved under any rounding. -/
theorem collapseAcc_counts (R : Rnd) (ms : List (KwsMatch Q L)) :
    ((collapseAcc R ms).map (fun p => p.1.nh)).sum = (ms.map (fun m => m.error.nh)).sum ∧
    ((collapseAcc R ms).map (fun p => p.1.nr)).sum = (ms.map (fun m => m.error.nr)).sum := by
  induction ms using List.reverseRecOn with
  | nil => exact ⟨rfl, rfl⟩
  | append_singleton ms m ih =>
    rw [collapseAcc_snoc]
    simp only [List.map_append, List.sum_append, List.map_cons, List.map_nil, List.sum_cons,
      List.sum_nil, ← ih.1, ← ih.2]
    cases h : collapseAcc R ms with
    | nil => simp [collapseStep, MatchErrorCounts.ofError]
    | cons p rest =>
      obtain ⟨c, s⟩ := p
      unfold collapseStep
      simp only
      split
      · simp [MatchErrorCounts.ofError]; omega
      · simp [MatchErrorCounts.addError]; omega

/-- The masses are conserved in exact arithmetic. -/
theorem collapseAcc_mass (ms : List (KwsMatch Q L)) :
    ((collapseAcc Rnd.exact ms).map (fun p => p.1.fp)).sum = (ms.map (fun m => m.error.fp)).sum ∧
    ((collapseAcc Rnd.exact ms).map (fun p => p.1.fn)).sum = (ms.map (fun m => m.error.fn)).sum := by
  induction ms using List.reverseRecOn with
  | nil => exact ⟨rfl, rfl⟩
  | append_singleton ms m ih =>
    rw [collapseAcc_snoc]
    simp only [List.map_append, List.sum_append, List.map_cons, List.map_nil, List.sum_cons,
      List.sum_nil, ← ih.1, ← ih.2]
    cases h : collapseAcc Rnd.exact ms with
    | nil => simp [collapseStep, MatchErrorCounts.ofError]
    | cons p rest =>
      obtain ⟨c, s⟩ := p
      unfold collapseStep
      simp only
      split
      · simp only [MatchErrorCounts.ofError, List.map_cons, List.sum_cons]
        constructor <;> ring
      · simp only [MatchErrorCounts.addError, Rnd.exact, id_eq, List.map_cons, List.sum_cons]
        constructor <;> ring

theorem mem_le_sum {α : Type} (f : α → Nat) (l : List α) (a : α) (h : a ∈ l) : f a ≤ (l.map f).sum := by
  induction l with
  | nil => simp at h
  | cons x xs ih =>
    simp only [List.map_cons, List.sum_cons]
    rcases List.mem_cons.1 h with rfl | h
    · omega
    · have := ih h; omega

/-- Collapsed errors satisfy the bounds of `ErrOk`. -/
theorem collapseAcc_ok (R : Rnd) (hR : R.Faithful) (ms : List (KwsMatch Q L)) :
    (∀ m ∈ ms, Rates m.error) → Fits32 R (ms.map (fun m => m.error.nh)).sum →
    Fits32 R (ms.map (fun m => m.error.nr)).sum → ∀ p ∈ collapseAcc R ms, ErrOk p.1 := by
  induction ms using List.reverseRecOn with
  | nil => intro _ _ _ p hp; simp [collapseAcc] at hp
  | append_singleton ms m ih =>
    intro h1 h2 h3 p hp
    rw [collapseAcc_snoc] at hp
    simp only [List.map_append, List.sum_append, List.map_cons, List.map_nil, List.sum_cons,
      List.sum_nil, Nat.add_zero] at h2 h3
    have ih' := ih (fun x hx => h1 x (by simp [hx])) (fun k hk => h2 k (by omega))
      (fun k hk => h3 k (by omega))
    have hm := rates_errOk m.error (h1 m (by simp))
    have hof : ErrOk (MatchErrorCounts.ofError m.error) := ⟨hm.fp0, hm.fp1, hm.fn0, hm.fn1⟩
    have hc := collapseAcc_counts R ms
    cases h : collapseAcc R ms with
    | nil =>
      rw [h] at hp
      simp only [collapseStep, List.mem_singleton] at hp
      subst hp
      exact hof
    | cons q rest =>
      obtain ⟨c, s⟩ := q
      rw [h] at hp ih' hc
      unfold collapseStep at hp
      simp only at hp
      split at hp
      · rw [List.mem_cons] at hp
        rcases hp with rfl | hp
        · exact hof
        · exact ih' p hp
      · rw [List.mem_cons] at hp
        rcases hp with rfl | hp
        · have hq : ErrOk c := ih' (c, s) (by simp)
          simp only [List.map_cons, List.sum_cons] at hc
          refine ⟨hR.nonneg32 (add_nonneg hq.fp0 hm.fp0), ?_, hR.nonneg32 (add_nonneg hq.fn0 hm.fn0), ?_⟩
          · show R.f32 (c.fp + m.error.fp) ≤ ((c.nh + m.error.nh : Nat) : ℚ)
            rw [← h2 (c.nh + m.error.nh) (by omega)]
            refine hR.mono32 _ _ ?_
            push_cast
            exact add_le_add hq.fp1 hm.fp1
          · show R.f32 (c.fn + m.error.fn) ≤ ((c.nr + m.error.nr : Nat) : ℚ)
            rw [← h3 (c.nr + m.error.nr) (by omega)]
            refine hR.mono32 _ _ ?_
            push_cast
            exact add_le_add hq.fn1 hm.fn1
        · exact ih' p (by simp [hp])

/-- Closed form of collapsing for a list sorted by score. -/
theorem collapseAcc_sorted (ms : List (KwsMatch Q L)) : NoNaN ms → ByRank ms →
    ∃ scores : List Flt, scores.Pairwise (fun a b => Flt.lt b a = true) ∧
      (∀ s, s ∈ scores ↔ ∃ m ∈ ms, rank m = s) ∧
      collapseAcc Rnd.exact ms =
        (scores.map (fun s => (total ((ms.filter (fun m => rank m = s)).map (·.error)), s))).reverse := by
  induction ms using List.reverseRecOn with
  | nil => intro _ _; exact ⟨[], by simp [collapseAcc]⟩
  | append_singleton ms m ih =>
    intro hn hs
    have hn' : NoNaN ms := fun x hx => hn x (by simp [hx])
    have hs' := List.pairwise_append.1 hs
    have hmn : rank m ≠ .nan := hn m (by simp)
    obtain ⟨scores, h1, h2, h3⟩ := ih hn' hs'.1
    have htot : ∀ (l : List (KwsMatch Q L)) (c : MatchErrorCounts),
        total (l.map (·.error)) = c →
        total ((l ++ [m]).map (·.error)) = c.addError Rnd.exact m.error := by
      rintro l _ rfl
      simp only [total, MatchErrorCounts.addError, Rnd.exact, id_eq, List.map_append,
        List.sum_append, List.map_cons, List.map_nil, List.sum_cons, List.sum_nil, add_zero]
    rw [collapseAcc_snoc, h3]
    rcases List.eq_nil_or_concat scores with rfl | ⟨init, t, rfl⟩
    · have : ms = [] := by
        cases ms with
        | nil => rfl
        | cons x xs => exact absurd ((h2 (rank x)).2 ⟨x, by simp, rfl⟩) (by simp)
      subst this
      refine ⟨[rank m], by simp, by simp [eq_comm], ?_⟩
      simp [collapseStep, total, MatchErrorCounts.ofError, matchScore_eq_rank]
    · rw [List.concat_eq_append] at *
      obtain ⟨mt, hmt, hmt'⟩ := (h2 t).1 (by simp)
      have htn : t ≠ .nan := by rw [← hmt']; exact hn' mt hmt
      have hle : Flt.lt t (rank m) = false := by
        rw [← hmt']; exact hs'.2.2 mt hmt m (by simp)
      simp only [List.map_append, List.map_cons, List.map_nil, List.reverse_append,
        List.reverse_cons, List.reverse_nil, List.nil_append, List.singleton_append]
      have h1' := List.pairwise_append.1 h1
      unfold collapseStep
      simp only [matchScore_eq_rank]
      by_cases heq : rank m = t
      · have hne : ¬ Flt.ne (rank m) t = true := by
          rw [Flt.ne_iff _ _ hmn htn]; simpa using heq
        rw [if_neg hne]
        refine ⟨init ++ [t], h1, ?_, ?_⟩
        · intro s
          rw [h2]
          simp only [List.mem_append, List.mem_singleton]
          constructor
          · rintro ⟨x, hx, hx'⟩; exact ⟨x, Or.inl hx, hx'⟩
          · rintro ⟨x, hx | rfl, hx'⟩
            · exact ⟨x, hx, hx'⟩
            · exact ⟨mt, hmt, by rw [hmt', ← hx', heq]⟩
        · rw [List.map_append, List.reverse_append]
          simp only [List.map_cons, List.map_nil, List.reverse_cons, List.reverse_nil,
            List.nil_append, List.singleton_append]
          congr 1
          · rw [List.filter_append]
            have : [m].filter (fun m => decide (rank m = t)) = [m] := by simp [heq]
            rw [this]
            rw [htot _ _ rfl]
          · congr 1
            refine List.map_congr_left fun s hs => ?_
            have hst : Flt.lt t s = true := h1'.2.2 s hs t (by simp)
            have : s ≠ t := by
              rintro rfl; rw [Flt.lt_irrefl] at hst; exact absurd hst (by decide)
            rw [List.filter_append]
            have : [m].filter (fun m => decide (rank m = s)) = [] := by
              simp [heq, this.symm]
            rw [this, List.append_nil]
      · have hne : Flt.ne (rank m) t = true := (Flt.ne_iff _ _ hmn htn).2 heq
        rw [if_pos hne]
        have hlt : Flt.lt (rank m) t = true := by
          rcases Flt.lt_tri (rank m) t hmn htn with h | h | h
          · exact h
          · exact absurd h heq
          · rw [hle] at h; exact absurd h (by decide)
        have hall : ∀ s ∈ init ++ [t], Flt.lt (rank m) s = true := by
          intro s hs
          rw [List.mem_append, List.mem_singleton] at hs
          rcases hs with hs | rfl
          · exact Flt.lt_trans' _ _ _ hlt (h1'.2.2 s hs t (by simp))
          · exact hlt
        have hnot : ∀ s ∈ init ++ [t], rank m ≠ s := by
          intro s hs h
          have := hall s hs
          rw [h, Flt.lt_irrefl] at this
          exact absurd this (by decide)
        refine ⟨init ++ [t] ++ [rank m], ?_, ?_, ?_⟩
        · rw [List.pairwise_append]
          refine ⟨h1, by simp, ?_⟩
          intro s hs x hx
          rw [List.mem_singleton] at hx
          subst hx
          exact hall s hs
        · intro s
          rw [List.mem_append, h2, List.mem_singleton]
          simp only [List.mem_append, List.mem_singleton]
          constructor
          · rintro (⟨x, hx, hx'⟩ | rfl)
            · exact ⟨x, Or.inl hx, hx'⟩
            · exact ⟨m, Or.inr rfl, rfl⟩
          · rintro ⟨x, hx | rfl, hx'⟩
            · exact Or.inl ⟨x, hx, hx'⟩
            · exact Or.inr hx'.symm
        · have hkeep : ∀ s ∈ init ++ [t], (ms ++ [m]).filter (fun m => decide (rank m = s)) =
              ms.filter (fun m => decide (rank m = s)) := by
            intro s hs
            rw [List.filter_append]
            have : [m].filter (fun m => decide (rank m = s)) = [] := by simp [hnot s hs]
            rw [this, List.append_nil]
          have hnew : (ms ++ [m]).filter (fun x => decide (rank x = rank m)) = [m] := by
            rw [List.filter_append]
            have h4 : ms.filter (fun x => decide (rank x = rank m)) = [] := by
              rw [List.filter_eq_nil_iff]
              intro x hx
              rw [decide_eq_true_iff]
              intro h
              exact hnot _ ((h2 (rank x)).2 ⟨x, hx, rfl⟩) h.symm
            rw [h4]; simp
          rw [List.map_append, List.reverse_append]
          simp only [List.map_cons, List.map_nil, List.reverse_cons, List.reverse_nil,
            List.nil_append, List.singleton_append]
          congr 1
          · rw [hnew]; simp [total, MatchErrorCounts.ofError]
          · rw [List.map_append, List.reverse_append]
            simp only [List.map_cons, List.map_nil, List.reverse_cons, List.reverse_nil,
              List.nil_append, List.singleton_append]
            congr 1
            · rw [hkeep t (by simp)]
            · congr 1
              refine List.map_congr_left fun s hs => ?_
              rw [hkeep s (by simp [hs])]

theorem total_perm {l l' : List MatchError} (h : l.Perm l') : total l = total l' := by
  unfold total
  rw [(h.map _).sum_eq, (h.map (·.fn)).sum_eq, (h.map (·.nh)).sum_eq, (h.map (·.nr)).sum_eq]

/-- Collapsing sorted lists only depends on the multiset of matches. -/
theorem collapse_perm (ms ms' : List (KwsMatch Q L)) (hp : ms.Perm ms') (hn : NoNaN ms)
    (h : ByRank ms) (h' : ByRank ms') :
    collapseMatches Rnd.exact ms = collapseMatches Rnd.exact ms' := by
  have hn' : NoNaN ms' := fun m hm => hn m (hp.mem_iff.2 hm)
  obtain ⟨s, a1, a2, a3⟩ := collapseAcc_sorted ms hn h
  obtain ⟨s', b1, b2, b3⟩ := collapseAcc_sorted ms' hn' h'
  have hirr : ∀ (x : List Flt), x.Pairwise (fun a b => Flt.lt b a = true) → x.Nodup := by
    intro x hx
    refine hx.imp ?_
    rintro a b h rfl
    rw [Flt.lt_irrefl] at h
    exact absurd h (by decide)
  have hss : s.Perm s' := by
    refine (List.perm_ext_iff_of_nodup (hirr _ a1) (hirr _ b1)).2 fun x => ?_
    rw [a2, b2]
    exact ⟨fun ⟨m, hm, e⟩ => ⟨m, hp.mem_iff.1 hm, e⟩, fun ⟨m, hm, e⟩ => ⟨m, hp.mem_iff.2 hm, e⟩⟩
  have hse : s = s' := hss.eq_of_pairwise (fun a b _ _ h1 h2 => by
    have := Flt.lt_trans' _ _ _ h1 h2
    rw [Flt.lt_irrefl] at this
    exact absurd this (by decide)) a1 b1
  subst hse
  rw [collapse_eq, collapse_eq, a3, b3]
  congr 2
  congr 1
  refine List.map_congr_left fun x _ => ?_
  rw [total_perm ((hp.filter _).map _)]

/-- Hard errors: both rates are 0 or 1. -/
def Hard (e : MatchError) : Prop := (e.fp = 0 ∨ e.fp = 1) ∧ (e.fn = 0 ∨ e.fn = 1)

/-- With hard errors that fit into `float`, collapsing is exact. -/
theorem collapse_hard (R : Rnd) (ms : List (KwsMatch Q L)) (hh : ∀ m ∈ ms, Hard m.error)
    (hf : Fits32 R ms.length) : collapseMatches R ms = collapseMatches Rnd.exact ms := by
  have key : ∀ ms : List (KwsMatch Q L), (∀ m ∈ ms, Hard m.error) → Fits32 R ms.length →
      collapseAcc R ms = collapseAcc Rnd.exact ms ∧
      ∀ p ∈ collapseAcc R ms, ∃ a b : ℕ, p.1.fp = a ∧ p.1.fn = b ∧ a ≤ ms.length ∧ b ≤ ms.length := by
    intro ms
    induction ms using List.reverseRecOn with
    | nil => intro _ _; exact ⟨rfl, by simp [collapseAcc]⟩
    | append_singleton ms m ih =>
      intro hh hf
      rw [List.length_append, List.length_singleton] at hf
      obtain ⟨h1, h2⟩ := ih (fun x hx => hh x (by simp [hx])) (fun k hk => hf k (by omega))
      have hm := hh m (by simp)
      have hnat : ∃ x y : ℕ, m.error.fp = x ∧ m.error.fn = y ∧ x ≤ 1 ∧ y ≤ 1 := by
        obtain ⟨h | h, h' | h'⟩ := hm
        · exact ⟨0, 0, by simp [h, h']⟩
        · exact ⟨0, 1, by simp [h, h']⟩
        · exact ⟨1, 0, by simp [h, h']⟩
        · exact ⟨1, 1, by simp [h, h']⟩
      obtain ⟨x, y, hx, hy, hx1, hy1⟩ := hnat
      rw [collapseAcc_snoc, collapseAcc_snoc, ← h1]
      simp only [List.length_append, List.length_singleton]
      cases hc : collapseAcc R ms with
      | nil =>
        refine ⟨rfl, fun p hp => ?_⟩
        simp only [collapseStep, List.mem_singleton] at hp
        subst hp
        exact ⟨x, y, hx, hy, by omega, by omega⟩
      | cons q rest =>
        obtain ⟨c, s⟩ := q
        rw [hc] at h2
        obtain ⟨a, b, ha, hb, ha', hb'⟩ := h2 (c, s) (by simp)
        simp only at ha hb
        have e1 : R.f32 (c.fp + m.error.fp) = ((a + x : ℕ) : ℚ) := by
          rw [ha, hx, ← Nat.cast_add]; exact hf _ (by omega)
        have e2 : R.f32 (c.fn + m.error.fn) = ((b + y : ℕ) : ℚ) := by
          rw [hb, hy, ← Nat.cast_add]; exact hf _ (by omega)
        have e3 : c.addError R m.error = c.addError Rnd.exact m.error := by
          unfold MatchErrorCounts.addError
          rw [e1, e2]
          simp [Rnd.exact, ha, hb, hx, hy]
        unfold collapseStep
        simp only
        split
        · refine ⟨rfl, fun p hp => ?_⟩
          rw [List.mem_cons] at hp
          rcases hp with rfl | hp
          · exact ⟨x, y, hx, hy, by omega, by omega⟩
          · obtain ⟨a, b, h3, h4, h5, h6⟩ := h2 p hp
            exact ⟨a, b, h3, h4, by omega, by omega⟩
        · refine ⟨by rw [e3], fun p hp => ?_⟩
          rw [List.mem_cons] at hp
          rcases hp with rfl | hp
          · exact ⟨a + x, b + y, e1, e2, by omega, by omega⟩
          · obtain ⟨a, b, h3, h4, h5, h6⟩ := h2 p (by simp [hp])
            exact ⟨a, b, h3, h4, by omega, by omega⟩
  rw [collapse_eq, collapse_eq, (key ms hh hf).1]

end

end Kws
