import Verif.Lemmas.Collapse

/-! Facts about the curves of match lists and average precision -/

set_option linter.unusedSectionVars false

namespace Kws
open Spec

section
variable {ε : Type} [IsError ε]

theorem computePR_lengths (R : Rnd) (es : List ε) (interp : Bool) :
    (computePR R es interp).1.length = es.length ∧ (computePR R es interp).2.length = es.length := by
  unfold computePR
  simp only
  split <;> simp [interpolate_length, prLoop_length]

theorem computePR_pr_mem (R : Rnd) (es : List ε) (interp : Bool) (x : ℚ)
    (hx : x ∈ (computePR R es interp).1) : x ∈ (prLoop R (numTotalReferences es) {} es).map (·.1) := by
  unfold computePR at hx
  simp only at hx
  split at hx
  · exact interpolate_mem _ _ hx
  · exact hx

theorem computePR_bounds (R : Rnd) (hR : R.Faithful) (es : List ε) (interp : Bool)
    (hes : ∀ e ∈ es, ErrOk e)
    (hh : Fits64 R (es.map IsError.nh).sum) (hr : Fits64 R (es.map IsError.nr).sum) :
    (∀ x ∈ (computePR R es interp).1, 0 ≤ x ∧ x ≤ 1) ∧
    (∀ x ∈ (computePR R es interp).2, 0 ≤ x ∧ x ≤ 1) := by
  have hb := prLoop_bounds R hR es hes hh hr
  constructor
  · intro x hx
    obtain ⟨p, hp, rfl⟩ := List.mem_map.1 (computePR_pr_mem R es interp x hx)
    exact ⟨(hb p hp).1, (hb p hp).2.1⟩
  · intro x hx
    obtain ⟨p, hp, rfl⟩ := List.mem_map.1 hx
    exact ⟨(hb p hp).2.2.1, (hb p hp).2.2.2⟩

/-- Precision and recall in exact arithmetic. -/
theorem computePR_exact_get (es : List ε) (k : Nat) (hk : k < es.length) :
    (computePR Rnd.exact es false).1[k]? = some
      (if 0 < ((es.take (k + 1)).map IsError.nh).sum then
        1 - ((es.take (k + 1)).map IsError.fp).sum / (((es.take (k + 1)).map IsError.nh).sum : ℚ)
      else 1) ∧
    ∀ interp, (computePR Rnd.exact es interp).2[k]? = some
      (if 0 < (es.map IsError.nr).sum then
        ((((es.take (k + 1)).map IsError.nr).sum : ℚ) - ((es.take (k + 1)).map IsError.fn).sum) /
          ((es.map IsError.nr).sum : ℚ)
      else 1) := by
  have hg := prLoop_get Rnd.exact (numTotalReferences es) es {} k hk
  have c := run_counts Rnd.exact (es.take (k + 1)) {}
  have d := run_exact (es.take (k + 1)) {}
  simp only [zero_add] at c d
  constructor
  · simp only [computePR, Bool.false_and, Bool.false_eq_true, if_false, List.getElem?_map, hg,
      Option.map_some, PRSums.precision, c, d]
    rfl
  · intro interp
    simp only [computePR, List.getElem?_map, hg, Option.map_some, PRSums.recall, c, d]
    rw [numTotal_eq]
    rfl

theorem sum_take_mono (f : ε → ℚ) (es : List ε) (hf : ∀ e ∈ es, 0 ≤ f e) (i j : Nat) (h : i ≤ j) :
    ((es.take i).map f).sum ≤ ((es.take j).map f).sum := by
  have : es.take j = es.take i ++ (es.take j).drop i := by
    conv_lhs => rw [← List.take_append_drop i (es.take j), List.take_take, min_eq_left h]
  rw [this, List.map_append, List.sum_append]
  have : 0 ≤ (((es.take j).drop i).map f).sum := by
    refine List.sum_nonneg ?_
    intro x hx
    obtain ⟨e, he, rfl⟩ := List.mem_map.1 hx
    exact hf e (List.mem_of_mem_take (List.mem_of_mem_drop he))
  linarith

theorem sum_sub_cast (es : List ε) :
    (((es.map IsError.nr).sum : ℕ) : ℚ) - (es.map IsError.fn).sum =
      (es.map (fun e => (IsError.nr e : ℚ) - IsError.fn e)).sum := by
  induction es with
  | nil => simp
  | cons e es ih =>
    simp only [List.map_cons, List.sum_cons, ← ih, Nat.cast_add]
    ring

theorem recall_mono (es : List ε) (interp : Bool) (hes : ∀ e ∈ es, ErrOk e) :
    (computePR Rnd.exact es interp).2.Pairwise (· ≤ ·) := by
  rw [List.pairwise_iff_getElem]
  intro i j hi hj hij
  have hl := (computePR_lengths Rnd.exact es interp).2
  have gi := (computePR_exact_get es i (by omega)).2 interp
  have gj := (computePR_exact_get es j (by omega)).2 interp
  rw [List.getElem?_eq_getElem hi, Option.some.injEq] at gi
  rw [List.getElem?_eq_getElem hj, Option.some.injEq] at gj
  rw [gi, gj]
  split
  · rename_i h
    refine div_le_div_of_nonneg_right ?_ (by positivity)
    rw [sum_sub_cast, sum_sub_cast]
    exact sum_take_mono _ es (fun e he => by have := (hes e he).fn1; linarith) _ _ (by omega)
  · exact le_rfl

/-! ## Average precision -/

theorem dotFrom_exact (l : List (ℚ × ℚ)) : ∀ acc, dotFrom Rnd.exact acc l =
    acc + (l.map (fun p => p.1 * p.2)).sum := by
  induction l with
  | nil => intro acc; simp [dotFrom]
  | cons p l ih =>
    intro acc
    have := ih (acc + p.1 * p.2)
    unfold dotFrom at *
    rw [List.foldl_cons]
    simp only [Rnd.exact, id_eq] at *
    rw [this]
    simp [add_assoc]

theorem heights_length (R : Rnd) (t : Bool) (pr : List ℚ) : ∀ prev, (heights R t prev pr).length = pr.length := by
  induction pr with
  | nil => intro; rfl
  | cons p ps ih => intro prev; simp [heights, ih]

theorem heights_getD_succ (t : Bool) (pr : List ℚ) : ∀ (prev : Option ℚ) (i : Nat), i + 1 < pr.length →
    (heights Rnd.exact t prev pr).getD (i + 1) 0 =
      if t = true then (pr.getD (i + 1) 0 + pr.getD i 0) / 2 else pr.getD (i + 1) 0 := by
  induction pr with
  | nil => intro _ i hi; simp at hi
  | cons p ps ih =>
    intro prev i hi
    simp only [heights, List.getD_cons_succ]
    cases i with
    | zero =>
      cases ps with
      | nil => simp at hi
      | cons q qs =>
        cases t <;> simp [heights, Rnd.exact]
        ring
    | succ i =>
      rw [ih (some p) i (by simpa using hi)]
      simp

theorem heights_getD_zero (R : Rnd) (t : Bool) (pr : List ℚ) :
    (heights R t none pr).getD 0 0 = pr.getD 0 0 := by
  cases pr with
  | nil => rfl
  | cons p ps => cases t <;> simp [heights]

theorem zip_sum (a : List ℚ) : ∀ b : List ℚ, b.length ≤ a.length →
    ((a.zip b).map (fun p => p.1 * p.2)).sum =
      ∑ i ∈ Finset.range b.length, a.getD i 0 * b.getD i 0 := by
  induction a with
  | nil => intro b hb; have : b = [] := by simpa using hb
           subst this; simp
  | cons x xs ih =>
    intro b hb
    cases b with
    | nil => simp
    | cons y ys =>
      have := ih ys (by simpa using hb)
      simp only [List.zip_cons_cons, List.map_cons, List.sum_cons, this, List.length_cons,
        Finset.sum_range_succ', List.getD_cons_succ, List.getD_cons_zero]
      ring

/-- The height at a point of the area under the curve. -/
def heightAt (t : Bool) (pr : List ℚ) (i : Nat) : ℚ :=
  if t = true ∧ 0 < i then (pr.getD i 0 + pr.getD (i - 1) 0) / 2 else pr.getD i 0

theorem heights_getD (t : Bool) (pr : List ℚ) (i : Nat) (hi : i < pr.length) :
    (heights Rnd.exact t none pr).getD i 0 = heightAt t pr i := by
  unfold heightAt
  cases i with
  | zero => rw [heights_getD_zero]; simp
  | succ i => rw [heights_getD_succ t pr none i hi]; simp

theorem computeAP_exact (pr rc : List ℚ) (t : Bool) (h : pr.length = rc.length) :
    computeAP Rnd.exact pr rc t = .ok (areaUnder t pr rc) := by
  unfold computeAP
  rw [if_pos h]
  simp only [dotFrom_exact, zero_add]
  congr 1
  have hl := heights_length Rnd.exact t pr none
  rw [zip_sum _ _ (by omega), zip_sum _ _ (by simp; omega), List.length_tail, hl]
  have h2 : areaUnder t pr rc = ∑ i ∈ Finset.range pr.length, heightAt t pr i *
      (rc.getD i 0 - if i = 0 then 0 else rc.getD (i - 1) 0) := rfl
  rw [h2]
  have ht : ∀ i, (heights Rnd.exact t none pr).tail.getD i 0 =
      (heights Rnd.exact t none pr).getD (i + 1) 0 := by
    intro i
    cases heights Rnd.exact t none pr <;> simp
  show _ - _ = _
  cases hn : pr.length with
  | zero => simp
  | succ n =>
    rw [Nat.add_sub_cancel, Finset.sum_range_succ', Finset.sum_range_succ', add_sub_right_comm,
      ← Finset.sum_sub_distrib]
    congr 1
    · refine Finset.sum_congr rfl fun i hi => ?_
      rw [Finset.mem_range] at hi
      rw [ht, heights_getD t pr (i + 1) (by omega)]
      simp only [Nat.add_sub_cancel, Nat.succ_ne_zero, if_false]
      ring
    · rw [heights_getD t pr 0 (by omega)]
      simp [mul_comm]

theorem getD_mem_bounds (l : List ℚ) (hl : ∀ x ∈ l, 0 ≤ x ∧ x ≤ 1) (i : Nat) :
    0 ≤ l.getD i 0 ∧ l.getD i 0 ≤ 1 := by
  rw [List.getD_eq_getElem?_getD]
  cases h : l[i]? with
  | none => simp
  | some x => exact hl x (List.mem_of_getElem? h)

theorem heightAt_bounds (t : Bool) (pr : List ℚ) (hp : ∀ x ∈ pr, 0 ≤ x ∧ x ≤ 1) (i : Nat) :
    0 ≤ heightAt t pr i ∧ heightAt t pr i ≤ 1 := by
  unfold heightAt
  have a := getD_mem_bounds pr hp i
  have b := getD_mem_bounds pr hp (i - 1)
  split
  · constructor <;> linarith
  · exact a

theorem telescope (rc : List ℚ) (n : Nat) :
    ∑ i ∈ Finset.range (n + 1), (rc.getD i 0 - if i = 0 then 0 else rc.getD (i - 1) 0) = rc.getD n 0 := by
  induction n with
  | zero => simp
  | succ n ih => rw [Finset.sum_range_succ, ih]; simp

theorem areaUnder_bounds (t : Bool) (pr rc : List ℚ) (h : pr.length = rc.length)
    (hp : ∀ x ∈ pr, 0 ≤ x ∧ x ≤ 1) (hr : ∀ x ∈ rc, 0 ≤ x ∧ x ≤ 1) (hm : rc.Pairwise (· ≤ ·)) :
    0 ≤ areaUnder t pr rc ∧ areaUnder t pr rc ≤ 1 := by
  have hinc : ∀ i ∈ Finset.range pr.length,
      0 ≤ rc.getD i 0 - if i = 0 then 0 else rc.getD (i - 1) 0 := by
    intro i hi
    rw [Finset.mem_range] at hi
    split
    · have := (getD_mem_bounds rc hr i).1; linarith
    · have h1 : i < rc.length := by omega
      have h2 : i - 1 < rc.length := by omega
      rw [List.getD_eq_getElem?_getD, List.getD_eq_getElem?_getD, List.getElem?_eq_getElem h1,
        List.getElem?_eq_getElem h2, sub_nonneg]
      exact (List.pairwise_iff_getElem.1 hm) (i - 1) i h2 h1 (by omega)
  have h2 : areaUnder t pr rc = ∑ i ∈ Finset.range pr.length, heightAt t pr i *
      (rc.getD i 0 - if i = 0 then 0 else rc.getD (i - 1) 0) := rfl
  rw [h2]
  refine ⟨Finset.sum_nonneg fun i hi => mul_nonneg (heightAt_bounds t pr hp i).1 (hinc i hi), ?_⟩
  refine le_trans (Finset.sum_le_sum fun i hi =>
    mul_le_of_le_one_left (hinc i hi) (heightAt_bounds t pr hp i).2) ?_
  cases hn : pr.length with
  | zero => simp
  | succ n => rw [telescope]; exact (getD_mem_bounds rc hr n).2

end

/-! ## Curves of match lists -/

section
variable {Q L : Type}

/-- The collapsed errors as used by the curves. -/
theorem collapse_sums (R : Rnd) (ms : List (KwsMatch Q L)) :
    ((collapseMatches R ms).map IsError.nh).sum = (ms.map (fun m => m.error.nh)).sum ∧
    ((collapseMatches R ms).map IsError.nr).sum = (ms.map (fun m => m.error.nr)).sum := by
  rw [← (collapseAcc_counts R ms).1, ← (collapseAcc_counts R ms).2, collapse_eq]
  simp only [List.map_map, List.map_reverse, List.sum_reverse]
  exact ⟨rfl, rfl⟩

theorem collapse_mass (ms : List (KwsMatch Q L)) :
    ((collapseMatches Rnd.exact ms).map IsError.fp).sum = (ms.map (fun m => m.error.fp)).sum ∧
    ((collapseMatches Rnd.exact ms).map IsError.fn).sum = (ms.map (fun m => m.error.fn)).sum := by
  rw [← (collapseAcc_mass ms).1, ← (collapseAcc_mass ms).2, collapse_eq]
  simp only [List.map_map, List.map_reverse, List.sum_reverse]
  exact ⟨rfl, rfl⟩

theorem errors_sums (ms : List (KwsMatch Q L)) :
    ((getMatchErrors ms).map IsError.nh).sum = (ms.map (fun m => m.error.nh)).sum ∧
    ((getMatchErrors ms).map IsError.nr).sum = (ms.map (fun m => m.error.nr)).sum ∧
    ((getMatchErrors ms).map IsError.fp).sum = (ms.map (fun m => m.error.fp)).sum ∧
    ((getMatchErrors ms).map IsError.fn).sum = (ms.map (fun m => m.error.fn)).sum := by
  unfold getMatchErrors
  simp only [List.map_map]
  exact ⟨rfl, rfl, rfl, rfl⟩

theorem collapse_ok (R : Rnd) (hR : R.Faithful) (ms : List (KwsMatch Q L))
    (h : ∀ m ∈ ms, Rates m.error) (h1 : Fits32 R (ms.map (fun m => m.error.nh)).sum)
    (h2 : Fits32 R (ms.map (fun m => m.error.nr)).sum) : ∀ c ∈ collapseMatches R ms, ErrOk c := by
  intro c hc
  rw [collapse_eq] at hc
  obtain ⟨p, hp, rfl⟩ := List.mem_map.1 hc
  exact collapseAcc_ok R hR ms h h1 h2 p (List.mem_reverse.1 hp)

theorem errors_ok (ms : List (KwsMatch Q L)) (h : ∀ m ∈ ms, Rates m.error) :
    ∀ e ∈ getMatchErrors ms, ErrOk e := by
  intro e he
  obtain ⟨m, hm, rfl⟩ := List.mem_map.1 he
  exact rates_errOk _ (h m hm)

theorem sum_le_length {α : Type} (l : List α) (f : α → Nat) (hf : ∀ a, f a ≤ 1) :
    (l.map f).sum ≤ l.length := by
  induction l with
  | nil => simp
  | cons a l ih => simp only [List.map_cons, List.sum_cons, List.length_cons]; have := hf a; omega

theorem matchesPR_bounds (R : Rnd) (hR : R.Faithful) (ms : List (KwsMatch Q L))
    (collapse interp : Bool) (h : ∀ m ∈ ms, Rates m.error)
    (h64 : Fits64 R ms.length) (h32 : collapse = true → Fits32 R ms.length) :
    (∀ x ∈ (matchesPR R ms collapse interp).1, 0 ≤ x ∧ x ≤ 1) ∧
    (∀ x ∈ (matchesPR R ms collapse interp).2, 0 ≤ x ∧ x ≤ 1) := by
  have l1 := sum_le_length ms (fun m => m.error.nh) (fun m => nh_le_one m.error)
  have l2 := sum_le_length ms (fun m => m.error.nr) (fun m => nr_le_one m.error)
  unfold matchesPR
  cases collapse with
  | true =>
    have h32 := h32 rfl
    rw [if_pos rfl]
    refine computePR_bounds R hR _ interp
      (collapse_ok R hR ms h (fun k hk => h32 k (by omega)) (fun k hk => h32 k (by omega))) ?_ ?_
    · rw [(collapse_sums R ms).1]; exact fun k hk => h64 k (by omega)
    · rw [(collapse_sums R ms).2]; exact fun k hk => h64 k (by omega)
  | false =>
    rw [if_neg (by simp)]
    refine computePR_bounds R hR _ interp (errors_ok ms h) ?_ ?_
    · rw [(errors_sums ms).1]; exact fun k hk => h64 k (by omega)
    · rw [(errors_sums ms).2.1]; exact fun k hk => h64 k (by omega)

theorem matchesPR_mono (ms : List (KwsMatch Q L)) (collapse interp : Bool)
    (h : ∀ m ∈ ms, Rates m.error) : (matchesPR Rnd.exact ms collapse interp).2.Pairwise (· ≤ ·) := by
  unfold matchesPR
  split
  · exact recall_mono _ interp (collapse_ok _ exact_faithful ms h (fits32_exact _) (fits32_exact _))
  · exact recall_mono _ interp (errors_ok ms h)

theorem matchesPR_lengths (R : Rnd) (ms : List (KwsMatch Q L)) (collapse interp : Bool) :
    (matchesPR R ms collapse interp).1.length =
      (if collapse then (collapseMatches R ms).length else ms.length) ∧
    (matchesPR R ms collapse interp).2.length =
      (if collapse then (collapseMatches R ms).length else ms.length) := by
  unfold matchesPR
  split
  · exact computePR_lengths _ _ _
  · have := computePR_lengths R (getMatchErrors ms) interp
    simpa [getMatchErrors] using this

theorem globalAP_exact (ms : List (KwsMatch Q L)) (collapse interp trap : Bool) :
    globalAP Rnd.exact ms collapse interp trap =
      .ok (areaUnder trap (matchesPR Rnd.exact ms collapse interp).1
        (matchesPR Rnd.exact ms collapse interp).2) := by
  unfold globalAP
  have := matchesPR_lengths Rnd.exact ms collapse interp
  exact computeAP_exact _ _ _ (by rw [this.1, this.2])

theorem globalAP_unit (ms : List (KwsMatch Q L)) (collapse interp trap : Bool)
    (h : ∀ m ∈ ms, Rates m.error) :
    ∃ ap, globalAP Rnd.exact ms collapse interp trap = .ok ap ∧ 0 ≤ ap ∧ ap ≤ 1 := by
  refine ⟨_, globalAP_exact ms collapse interp trap, ?_⟩
  have hb := matchesPR_bounds Rnd.exact exact_faithful ms collapse interp h (fits64_exact _)
    (fun _ => fits32_exact _)
  have := matchesPR_lengths Rnd.exact ms collapse interp
  exact areaUnder_bounds trap _ _ (by rw [this.1, this.2]) hb.1 hb.2 (matchesPR_mono ms _ _ h)

/-! ## Sorting -/

theorem scoreGreater_iff (a b : KwsMatch Q L) (ha : a.hyp.isSome) (hb : b.hyp.isSome) :
    scoreGreater a b = Flt.lt (rank b) (rank a) := by
  unfold scoreGreater rank
  obtain ⟨x, hx⟩ := Option.isSome_iff_exists.1 ha
  obtain ⟨y, hy⟩ := Option.isSome_iff_exists.1 hb
  rw [hx, hy]
  rfl

theorem scoreGreater_false (a b : KwsMatch Q L) (h : scoreGreater b a = false) :
    Flt.lt (rank a) (rank b) = false := by
  unfold scoreGreater at h
  unfold rank
  cases ha : a.hyp <;> cases hb : b.hyp <;> simp_all [Match.hasHyp, Flt.ninf_le]

theorem scoreGreater_strictWeak (ms : List (KwsMatch Q L)) (hn : NoNaN ms) :
    StrictWeakOn scoreGreater ms := by
  have hr : ∀ m ∈ ms, ∀ h, m.hyp = some h → h.score ≠ .nan := by
    intro m hm h hh
    have := hn m hm
    unfold rank at this
    rw [hh] at this
    exact this
  refine ⟨?_, ?_, ?_⟩
  · intro a _
    unfold scoreGreater
    cases h : a.hyp <;> simp [Match.hasHyp, h, Flt.lt_irrefl]
  · intro a _ b _ c _
    unfold scoreGreater
    cases ha : a.hyp <;> cases hb : b.hyp <;> cases hc : c.hyp <;>
      simp [Match.hasHyp, ha, hb]
    exact fun h1 h2 => Flt.lt_trans' _ _ _ h2 h1
  · intro a ha b hb c hc
    have ra := hr a ha
    have rb := hr b hb
    have rc := hr c hc
    unfold scoreGreater
    cases ha : a.hyp <;> cases hb : b.hyp <;> cases hc : c.hyp <;>
      simp [Match.hasHyp, ha, hb, hc]
    rename_i x y z
    intro h1 h2 h3 h4
    have e1 : x.score = y.score := by
      rcases Flt.lt_tri x.score y.score (ra x ha) (rb y hb) with h | h | h
      · rw [h] at h2; exact absurd h2 (by decide)
      · exact h
      · rw [h] at h1; exact absurd h1 (by decide)
    rw [e1]
    exact ⟨h3, h4⟩

theorem sortMatches_spec (S : StdSort) (ms : List (KwsMatch Q L)) (hn : NoNaN ms) :
    ∃ ms', sortMatches S ms = .ok ms' ∧ ms'.Perm ms ∧ ByRank ms' ∧ NoNaN ms' ∧
      SortedPerm scoreGreater ms ms' := by
  obtain ⟨l', h1, h2⟩ := S.ok scoreGreater ms (scoreGreater_strictWeak ms hn)
  refine ⟨l', h1, h2.perm, ?_, fun m hm => hn m (h2.perm.mem_iff.1 hm), h2⟩
  exact h2.sorted.imp (fun {a b} h => scoreGreater_false a b h)

end

end Kws
