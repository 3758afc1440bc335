import Verif.Spec.Cuts
import Verif.Lemmas.Numbers
import Verif.Lemmas.CurveRounding

/-!
Facts about the numbers of a list of matches in any order.
-/

set_option linter.unusedSectionVars false

namespace Kws
open Spec

/-! ## Measures of counted errors -/

section
variable {ε : Type} [IsError ε]

/-- The error stands for `c.1` hits, `c.2.1` false positives and `c.2.2` missed references. -/
structure Counted (e : ε) (c : ℕ × ℕ × ℕ) : Prop where
  nh : IsError.nh e = c.1 + c.2.1
  nr : IsError.nr e = c.1 + c.2.2
  fp : IsError.fp e = c.2.1
  fn : IsError.fn e = c.2.2

/-- Running sums. -/
def cum : ℕ → ℕ → List (ℕ × ℕ × ℕ) → List (ℕ × ℕ)
  | _, _, [] => []
  | h, w, c :: cs => (h + c.1, w + c.2.1) :: cum (h + c.1) (w + c.2.1) cs

theorem prLoop_cum (TR : ℕ) {es : List ε} {cs : List (ℕ × ℕ × ℕ)} (h : List.Forall₂ Counted es cs) :
    ∀ a b c : ℕ, prLoop Rnd.exact TR ⟨a + c, a + b, b, c⟩ es = (cum a b cs).map (cutPoint TR) := by
  induction h with
  | nil => intro a b c; rfl
  | @cons e d es cs hd _ ih =>
    intro a b c
    have hs : PRSums.step Rnd.exact ⟨a + c, a + b, b, c⟩ e =
        ⟨a + d.1 + (c + d.2.2), a + d.1 + (b + d.2.1), ((b + d.2.1 : ℕ) : ℚ), ((c + d.2.2 : ℕ) : ℚ)⟩ := by
      unfold PRSums.step
      rw [hd.nh, hd.nr, hd.fp, hd.fn]
      simp only [Rnd.exact, id, PRSums.mk.injEq]
      push_cast
      refine ⟨?_, ?_, rfl, rfl⟩ <;> omega
    rw [prLoop, hs, ih, cum, List.map_cons]
    congr 1
    unfold PRSums.precision PRSums.recall cutPoint
    simp only [Rnd.exact, id, Prod.mk.injEq]
    constructor
    · by_cases h0 : a + d.1 + (b + d.2.1) = 0
      · rw [if_neg (by omega), if_pos h0]
      · rw [if_pos (by omega), if_neg h0]
        have : ((a + d.1 + (b + d.2.1) : ℕ) : ℚ) ≠ 0 := by exact_mod_cast h0
        push_cast at this ⊢
        field_simp
        ring
    · by_cases h0 : TR = 0
      · rw [if_neg (by omega), if_pos h0]
      · rw [if_pos (by omega), if_neg h0]
        push_cast
        congr 1
        ring

theorem dcgLoop_cum {es : List ε} {cs : List (ℕ × ℕ × ℕ)} (h : List.Forall₂ Counted es cs) :
    ∀ (a b : ℕ) (acc : ℝ), dcgLoop (a + b + 1) acc es = acc + cutGain a b (cum a b cs) := by
  induction h with
  | nil => intro a b acc; simp [dcgLoop, cum, cutGain]
  | @cons e d es cs hd _ ih =>
    intro a b acc
    rw [dcgLoop, cum, cutGain, hd.nh, hd.fp]
    simp only
    have hidx : a + b + 1 + (d.1 + d.2.1) = a + d.1 + (b + d.2.1) + 1 := by omega
    by_cases h0 : d.1 + d.2.1 > 0
    · rw [if_pos h0, hidx, ih, dcgRun_eq, add_assoc]
      congr 1
      congr 1
      unfold dsum
      rw [List.length_replicate, Finset.sum_Ico_eq_sum_range,
        show a + d.1 + (b + d.2.1) - (a + b) = d.1 + d.2.1 by omega]
      refine Finset.sum_congr rfl fun k hk => ?_
      rw [Finset.mem_range] at hk
      rw [List.getD_eq_getElem?_getD, List.getElem?_replicate, if_pos hk, Option.getD_some]
      unfold disc
      rw [mul_one_div]
      have hne : ((d.1 : ℝ) + d.2.1) ≠ 0 := by exact_mod_cast h0.ne'
      congr 2
      · congr 1
        push_cast
        rw [add_sub_cancel_left, add_sub_cancel_left]
        field_simp
        ring
      · push_cast
        ring
    · rw [if_neg h0]
      have e1 : d.1 = 0 := by omega
      have e2 : d.2.1 = 0 := by omega
      rw [e1, e2]
      simp only [Nat.add_zero]
      rw [ih]
      simp

theorem refs_cum {es : List ε} {cs : List (ℕ × ℕ × ℕ)} (h : List.Forall₂ Counted es cs) :
    numTotalReferences es = (cs.map (fun c => c.1 + c.2.2)).sum := by
  rw [numTotal_eq]
  induction h with
  | nil => rfl
  | cons hd _ ih => simp only [List.map_cons, List.sum_cons, ih, hd.nr]

theorem computeNDCG_cum {es : List ε} {cs : List (ℕ × ℕ × ℕ)} (h : List.Forall₂ Counted es cs) :
    computeNDCG es = if numTotalReferences es = 0 then 0 else
      cutGain 0 0 (cum 0 0 cs) / ∑ k ∈ Finset.range (numTotalReferences es), 1 / Real.logb 2 (k + 2) := by
  unfold computeNDCG
  by_cases h0 : numTotalReferences es = 0
  · simp [h0]
  · have := dcgLoop_cum h 0 0 0
    simp only [zero_add] at this
    simp only
    rw [if_pos (by omega), if_neg h0, this, idealDcg_eq, zero_add]
    congr 1
    refine Finset.sum_congr rfl fun k _ => ?_
    unfold disc
    congr 2
    push_cast
    ring

end

/-! ## Cells of a list of matches -/

section
variable {Q L : Type}

/-- hit, false positive, missed reference -/
def cell (m : KwsMatch Q L) : ℕ × ℕ × ℕ :=
  (if IsHit m then 1 else 0, if IsWrong m then 1 else 0, if m.hyp.isNone then 1 else 0)

theorem cell_hard {m : KwsMatch Q L} (h : HardMatch m) : Counted m.error (cell m) := by
  obtain ⟨r, y, e⟩ := m
  rcases h with ⟨h1, h2, h3⟩ | ⟨h1, h2, h3⟩ | ⟨h1, h2, h3⟩ <;>
    cases r <;> cases y <;> simp_all <;>
    constructor <;>
    simp [cell, IsHit, IsWrong, Outcome.error, IsError.nh, IsError.nr, IsError.fp, IsError.fn,
      MatchError.nh, MatchError.nr]

theorem cell_refs {m : KwsMatch Q L} (h : HardMatch m) :
    (cell m).1 + (cell m).2.2 = if m.ref.isSome then 1 else 0 := by
  obtain ⟨r, y, e⟩ := m
  rcases h with ⟨h1, h2, _⟩ | ⟨h1, h2, _⟩ | ⟨h1, h2, _⟩ <;> cases r <;> cases y <;>
    simp_all [cell, IsHit]

/-- The cells of matches; runs of equal score are taken together. -/
def runs (c : ℕ × ℕ × ℕ) (s : Flt) : List (KwsMatch Q L) → List (ℕ × ℕ × ℕ)
  | [] => [c]
  | m :: ms => if rank m ≠ s then c :: runs (cell m) (rank m) ms else runs (c + cell m) s ms

/-- The cells of a list of matches. -/
def cells (collapse : Bool) (ms : List (KwsMatch Q L)) : List (ℕ × ℕ × ℕ) :=
  if collapse then match ms with
    | [] => []
    | m :: ms => runs (cell m) (rank m) ms
  else ms.map cell

theorem collapse_runs (ms : List (KwsMatch Q L)) : (∀ m ∈ ms, HardMatch m) → NoNaN ms →
    ∀ (c : MatchErrorCounts) (d : ℕ × ℕ × ℕ) (s : Flt) (rest : List (MatchErrorCounts × Flt)),
    s ≠ .nan → Counted c d →
    ∃ es, ((ms.foldl (collapseStep Rnd.exact) ((c, s) :: rest)).reverse).map (·.1) =
      (rest.reverse).map (·.1) ++ es ∧ List.Forall₂ Counted es (runs d s ms) := by
  induction ms with
  | nil =>
    intro _ _ c d s rest _ hc
    exact ⟨[c], by simp, .cons hc .nil⟩
  | cons m ms ih =>
    intro hh hn c d s rest hs hc
    have ih := ih (fun x hx => hh x (by simp [hx])) (fun x hx => hn x (by simp [hx]))
    have hm := cell_hard (hh m (by simp))
    have hr : rank m ≠ .nan := hn m (by simp)
    rw [List.foldl_cons, collapseStep]
    simp only [matchScore_eq_rank]
    unfold runs
    by_cases h : rank m ≠ s
    · rw [if_pos ((Flt.ne_iff _ _ hr hs).2 h), if_pos h]
      obtain ⟨es, e1, e2⟩ := ih (MatchErrorCounts.ofError m.error) (cell m) (rank m) ((c, s) :: rest) hr
        ⟨hm.nh, hm.nr, hm.fp, hm.fn⟩
      exact ⟨c :: es, by rw [e1]; simp, .cons hc e2⟩
    · rw [if_neg (fun h' => h ((Flt.ne_iff _ _ hr hs).1 h')), if_neg h]
      refine ih _ _ s rest hs ⟨?_, ?_, ?_, ?_⟩
      · have := hc.nh; have := hm.nh
        simp only [IsError.nh, MatchErrorCounts.addError, Prod.fst_add, Prod.snd_add] at *
        omega
      · have := hc.nr; have := hm.nr
        simp only [IsError.nr, MatchErrorCounts.addError, Prod.fst_add, Prod.snd_add] at *
        omega
      · have h1 := hc.fp; have h2 := hm.fp
        simp only [IsError.fp, MatchErrorCounts.addError, Prod.fst_add, Prod.snd_add, Rnd.exact, id] at *
        rw [h1, h2]; push_cast; rfl
      · have h1 := hc.fn; have h2 := hm.fn
        simp only [IsError.fn, MatchErrorCounts.addError, Prod.snd_add, Rnd.exact, id] at *
        rw [h1, h2]; push_cast; rfl

theorem collapse_cells (ms : List (KwsMatch Q L)) (hh : ∀ m ∈ ms, HardMatch m) (hn : NoNaN ms) :
    List.Forall₂ Counted (collapseMatches Rnd.exact ms) (cells true ms) := by
  cases ms with
  | nil => exact .nil
  | cons m ms =>
    have hm := cell_hard (hh m (by simp))
    obtain ⟨es, e1, e2⟩ := collapse_runs ms (fun x hx => hh x (by simp [hx]))
      (fun x hx => hn x (by simp [hx])) (MatchErrorCounts.ofError m.error) (cell m) (rank m) []
      (hn m (by simp)) ⟨hm.nh, hm.nr, hm.fp, hm.fn⟩
    unfold collapseMatches
    rw [List.foldl_cons, collapseStep, matchScore_eq_rank, e1]
    exact e2

theorem errors_cells (ms : List (KwsMatch Q L)) (hh : ∀ m ∈ ms, HardMatch m) :
    List.Forall₂ Counted (getMatchErrors ms) (cells false ms) := by
  unfold getMatchErrors cells
  simp only [Bool.false_eq_true, if_false]
  rw [List.forall₂_map_left_iff, List.forall₂_map_right_iff, List.forall₂_same]
  exact fun m hm => cell_hard (hh m hm)

/-! ## Cuts -/

/-- `cuts` after some hits and false positives -/
def cutsFrom (collapse : Bool) (h w : ℕ) (ms : List (KwsMatch Q L)) : List (ℕ × ℕ) :=
  ((List.range ms.length).filter
    (fun k => !collapse || decide ((ms[k]?).map rank ≠ (ms[k + 1]?).map rank))).map
    (fun k => (h + (ms.take (k + 1)).countP IsHit, w + (ms.take (k + 1)).countP IsWrong))

theorem cutsFrom_zero (collapse : Bool) (ms : List (KwsMatch Q L)) :
    cutsFrom collapse 0 0 ms = cuts collapse ms := by
  unfold cutsFrom cuts
  simp

theorem cutsFrom_cons (collapse : Bool) (h w : ℕ) (m : KwsMatch Q L) (ms : List (KwsMatch Q L)) :
    cutsFrom collapse h w (m :: ms) =
      (if collapse = true ∧ some (rank m) = (ms[0]?).map rank then []
        else [(h + (cell m).1, w + (cell m).2.1)]) ++
      cutsFrom collapse (h + (cell m).1) (w + (cell m).2.1) ms := by
  unfold cutsFrom
  rw [List.length_cons, List.range_succ_eq_map, List.filter_cons]
  have e : ((List.range ms.length).map Nat.succ).filter (fun k => !collapse ||
      decide (((m :: ms)[k]?).map rank ≠ ((m :: ms)[k + 1]?).map rank)) =
      ((List.range ms.length).filter (fun k => !collapse ||
        decide ((ms[k]?).map rank ≠ (ms[k + 1]?).map rank))).map Nat.succ := by
    rw [List.filter_map]
    rfl
  rw [e]
  have e2 : ∀ l : List ℕ, (l.map Nat.succ).map (fun k =>
      (h + ((m :: ms).take (k + 1)).countP IsHit, w + ((m :: ms).take (k + 1)).countP IsWrong)) =
      l.map (fun k => (h + (cell m).1 + (ms.take (k + 1)).countP IsHit,
        w + (cell m).2.1 + (ms.take (k + 1)).countP IsWrong)) := by
    intro l
    rw [List.map_map]
    refine List.map_congr_left fun k _ => ?_
    simp only [Function.comp, Nat.succ_eq_add_one, List.take_succ_cons, List.countP_cons, cell,
      Prod.mk.injEq]
    constructor <;> omega
  by_cases hc : collapse = true ∧ some (rank m) = (ms[0]?).map rank
  · rw [if_pos hc, if_neg (by simp [hc.1, ← hc.2]), e2, List.nil_append]
  · rw [if_neg hc, if_pos ?_, List.map_cons, e2]
    · simp [cell, List.countP_cons]
    · cases collapse
      · rfl
      · simp only [true_and] at hc
        simpa using hc

theorem cum_cells (ms : List (KwsMatch Q L)) : ∀ h w, cum h w (ms.map cell) = cutsFrom false h w ms := by
  induction ms with
  | nil => intro h w; rfl
  | cons m ms ih => intro h w; rw [List.map_cons, cum, ih, cutsFrom_cons]; simp

theorem cum_runs (ms : List (KwsMatch Q L)) : ∀ (h w : ℕ) (c : ℕ × ℕ × ℕ) (s : Flt),
    cum h w (runs c s ms) = (if some s = (ms[0]?).map rank then [] else [(h + c.1, w + c.2.1)]) ++
      cutsFrom true (h + c.1) (w + c.2.1) ms := by
  induction ms with
  | nil => intro h w c s; simp [runs, cum, cutsFrom]
  | cons m ms ih =>
    intro h w c s
    unfold runs
    rw [cutsFrom_cons]
    by_cases hs : rank m ≠ s
    · have h1 : ¬ some s = ((m :: ms)[0]?).map rank := by simpa using Ne.symm hs
      rw [if_pos hs, cum, ih, if_neg h1]
      simp
    · have h1 : some s = ((m :: ms)[0]?).map rank := by simpa using (not_not.1 hs).symm
      rw [if_neg hs, ih, if_pos h1]
      rw [not_not] at hs
      subst hs
      simp [add_assoc]

theorem cum_eq (collapse : Bool) (ms : List (KwsMatch Q L)) :
    cum 0 0 (cells collapse ms) = cuts collapse ms := by
  rw [← cutsFrom_zero]
  unfold cells
  cases collapse with
  | false => exact cum_cells ms 0 0
  | true =>
    rw [if_pos rfl]
    cases ms with
    | nil => rfl
    | cons m ms => simp only [cum_runs, cutsFrom_cons, true_and]

theorem runs_refs (ms : List (KwsMatch Q L)) : ∀ (c : ℕ × ℕ × ℕ) (s : Flt),
    ((runs c s ms).map (fun c => c.1 + c.2.2)).sum =
      c.1 + c.2.2 + (ms.map (fun m => (cell m).1 + (cell m).2.2)).sum := by
  induction ms with
  | nil => intro c s; simp [runs]
  | cons m ms ih =>
    intro c s
    unfold runs
    split
    · simp [ih]
    · simp only [ih, Prod.fst_add, Prod.snd_add, List.map_cons, List.sum_cons]
      omega

theorem cells_refs (collapse : Bool) (ms : List (KwsMatch Q L)) (hh : ∀ m ∈ ms, HardMatch m) :
    ((cells collapse ms).map (fun c => c.1 + c.2.2)).sum = references ms := by
  have key : ∀ ms : List (KwsMatch Q L), (∀ m ∈ ms, HardMatch m) →
      (ms.map (fun m => (cell m).1 + (cell m).2.2)).sum = references ms := by
    intro ms
    induction ms with
    | nil => intro _; rfl
    | cons m ms ih =>
      intro hh
      rw [List.map_cons, List.sum_cons, ih (fun x hx => hh x (by simp [hx])), cell_refs (hh m (by simp))]
      unfold references
      rw [List.countP_cons]
      omega
  rw [← key ms hh]
  unfold cells
  cases collapse with
  | false => simp [List.map_map, Function.comp_def]
  | true =>
    cases ms with
    | nil => rfl
    | cons m ms =>
      simp only [if_true, List.map_cons, List.sum_cons]
      exact runs_refs ms (cell m) (rank m)

/-- The measures of a list of matches, in exact arithmetic. -/
theorem measures_list (ms : List (KwsMatch Q L)) (collapse : Bool) (hh : ∀ m ∈ ms, HardMatch m)
    (hn : collapse = true → NoNaN ms) :
    (∀ interp t, globalAP Rnd.exact ms collapse interp t = .ok (listAP collapse interp t ms)) ∧
    globalNDCG Rnd.exact ms collapse = listNDCG collapse ms := by
  cases collapse with
  | false =>
    have hc := errors_cells ms hh
    have hr := refs_cum hc
    rw [cells_refs false ms hh] at hr
    have hp := prLoop_cum (references ms) hc 0 0 0
    constructor
    · intro interp t
      rw [globalAP_exact]
      unfold matchesPR
      simp only [Bool.false_eq_true, if_false]
      rw [computePR_points, hr]
      simp only [Nat.cast_zero, zero_add] at hp
      rw [hp, cum_eq]
      rfl
    · unfold globalNDCG
      simp only [Bool.false_eq_true, if_false]
      rw [computeNDCG_cum hc, hr, cum_eq]
      rfl
  | true =>
    have hc := collapse_cells ms hh (hn rfl)
    have hr := refs_cum hc
    rw [cells_refs true ms hh] at hr
    have hp := prLoop_cum (references ms) hc 0 0 0
    constructor
    · intro interp t
      rw [globalAP_exact]
      unfold matchesPR
      rw [if_pos rfl, computePR_points, hr]
      simp only [Nat.cast_zero, zero_add] at hp
      rw [hp, cum_eq]
      rfl
    · unfold globalNDCG
      rw [if_pos rfl, computeNDCG_cum hc, hr, cum_eq]
      rfl

theorem matchesPR_list (ms : List (KwsMatch Q L)) (collapse interp : Bool) (hh : ∀ m ∈ ms, HardMatch m)
    (hn : collapse = true → NoNaN ms) :
    let pts := (cuts collapse ms).map (cutPoint (references ms))
    matchesPR Rnd.exact ms collapse interp =
      ((if interp then topped pts else pts).map Prod.fst, (if interp then topped pts else pts).map Prod.snd)
      := by
  intro pts
  unfold matchesPR
  cases collapse with
  | false =>
    have hc := errors_cells ms hh
    have hr := refs_cum hc
    rw [cells_refs false ms hh] at hr
    have hp := prLoop_cum (references ms) hc 0 0 0
    simp only [Nat.cast_zero, zero_add] at hp
    simp only [Bool.false_eq_true, if_false]
    rw [computePR_points, hr, hp, cum_eq]
  | true =>
    have hc := collapse_cells ms hh (hn rfl)
    have hr := refs_cum hc
    rw [cells_refs true ms hh] at hr
    have hp := prLoop_cum (references ms) hc 0 0 0
    simp only [Nat.cast_zero, zero_add] at hp
    rw [if_pos rfl, computePR_points, hr, hp, cum_eq]

theorem exactCurve_list (ms : List (KwsMatch Q L)) (collapse interp : Bool) (hh : ∀ m ∈ ms, HardMatch m)
    (hn : collapse = true → NoNaN ms) : exactCurve collapse interp ms = listCurve collapse interp ms := by
  have hz : ∀ l : List (ℚ × ℚ), (l.map Prod.snd).zip (l.map Prod.fst) = l.map Prod.swap := by
    intro l
    induction l with
    | nil => rfl
    | cons p l ih => simp only [List.map_cons, List.zip_cons_cons, ih]; rfl
  unfold exactCurve listCurve
  rw [matchesPR_list ms collapse interp hh hn]
  exact hz _

theorem fineCurve_list (ms : List (KwsMatch Q L)) (collapse interp : Bool) (hh : ∀ m ∈ ms, HardMatch m)
    (hn : NoNaN ms) : FineCurve collapse interp ms := by
  refine ⟨hh, max 1 (references ms), by omega, max_le_max le_rfl List.countP_le_length, ?_⟩
  rw [matchesPR_list ms collapse interp hh (fun _ => hn)]
  intro x hx
  have hx : x ∈ ((cuts collapse ms).map (cutPoint (references ms))).map Prod.snd := by
    simp only at hx
    split at hx
    · rwa [topped_snd] at hx
    · exact hx
  rw [List.map_map] at hx
  obtain ⟨c, hc, rfl⟩ := List.mem_map.1 hx
  obtain ⟨k, _, rfl⟩ := List.mem_map.1 hc
  simp only [Function.comp, cutPoint]
  by_cases h0 : references ms = 0
  · rw [if_pos h0, h0]
    exact ⟨1, by simp, by simp⟩
  · rw [if_neg h0, max_eq_right (by omega)]
    refine ⟨_, ?_, rfl⟩
    refine ((List.take_sublist _ _).countP_le).trans ?_
    unfold references
    refine List.countP_mono_left fun m _ hm => ?_
    unfold IsHit at hm
    simp only [Bool.and_eq_true] at hm
    exact hm.1

theorem listNDCG_rounded {R : Rnd} {n : ℕ} {ε : ℚ} (hR : Tolerance R n ε) (collapse : Bool)
    (ms : List (KwsMatch Q L)) (hh : ∀ m ∈ ms, HardMatch m) (hn : NoNaN ms) (hl : ms.length ≤ n) :
    globalNDCG R ms collapse = listNDCG collapse ms := by
  rw [← (measures_list ms collapse hh (fun _ => hn)).2]
  cases collapse with
  | false => rfl
  | true => classical exact ndcg_exact hR ms hh hl

theorem listAP_rounded {R : Rnd} {n : ℕ} {ε : ℚ} (hR : Tolerance R n ε) (collapse interp t : Bool)
    (ms : List (KwsMatch Q L)) (hh : ∀ m ∈ ms, HardMatch m) (hn : NoNaN ms) (hl : ms.length ≤ n) (v : ℚ)
    (hv : globalAP R ms collapse interp t = .ok v) : |v - listAP collapse interp t ms| ≤ ε := by
  have hm := (measures_list ms collapse hh (fun _ => hn)).1 interp t
  rcases hR with ⟨rfl, rfl⟩ | ⟨rfl, hn, rfl⟩
  · rw [hm] at hv
    injection hv with hv
    rw [hv]
    simp
  · obtain ⟨v1, v2, e1, e2, e3⟩ := C64_ap_hard ms collapse interp t (fun m hm => (hh m hm).outcome)
      (hl.trans hn)
    rw [hv] at e1
    rw [hm] at e2
    injection e1 with e1
    injection e2 with e2
    subst e1 e2
    refine e3.trans ?_
    have hq : (ms.length : ℚ) ≤ n := by exact_mod_cast hl
    gcongr
    nlinarith

/-- The matches, sorted if requested. -/
def arrange (S : StdSort) (sorted : Bool) (ms : List (KwsMatch Q L)) : List (KwsMatch Q L) :=
  if sorted then match sortMatches S ms with
    | .ok l => l
    | .error _ => []
  else ms

theorem arrange_spec (S : StdSort) (sorted : Bool) (ms : List (KwsMatch Q L)) (hn : NoNaN ms) :
    Arranged sorted ms (arrange S sorted ms) ∧ (arrange S sorted ms).Perm ms ∧
    (if sorted then sortMatches S ms else pure ms) = .ok (arrange S sorted ms) := by
  unfold Arranged arrange
  cases sorted with
  | false => exact ⟨rfl, List.Perm.refl _, rfl⟩
  | true =>
    obtain ⟨l, h1, h2, h3, _, _⟩ := sortMatches_spec S ms hn
    simp only [if_true, h1]
    exact ⟨⟨h2, h3⟩, h2, trivial⟩

theorem meanAP_list (S : StdSort) (collapse interp t sorted : Bool) (groups : List (List (KwsMatch Q L)))
    (hh : ∀ g ∈ groups, ∀ m ∈ g, HardMatch m) (hn : ∀ g ∈ groups, NoNaN g) :
    meanAP Rnd.exact S groups collapse interp t sorted =
      .ok (average (groups.map (fun g => listAP collapse interp t (arrange S sorted g)))) := by
  have key : ∀ groups : List (List (KwsMatch Q L)), (∀ g ∈ groups, ∀ m ∈ g, HardMatch m) →
      (∀ g ∈ groups, NoNaN g) → ∀ acc, meanAPLoop Rnd.exact S collapse interp t sorted acc groups =
      .ok (acc + (groups.map (fun g => listAP collapse interp t (arrange S sorted g))).sum) := by
    intro groups
    induction groups with
    | nil => intro _ _ acc; simp [meanAPLoop, pure, Except.pure]
    | cons g groups ih =>
      intro hh hn acc
      obtain ⟨_, a2, a3⟩ := arrange_spec S sorted g (hn g (by simp))
      have := (measures_list (arrange S sorted g) collapse
        (fun m hm => hh g (by simp) m (a2.mem_iff.1 hm))
        (fun _ m hm => hn g (by simp) m (a2.mem_iff.1 hm))).1 interp t
      have hs : meanAPLoop Rnd.exact S collapse interp t sorted acc (g :: groups) =
          (if sorted then sortMatches S g else pure g).bind fun ms =>
            (globalAP Rnd.exact ms collapse interp t).bind fun ap =>
              meanAPLoop Rnd.exact S collapse interp t sorted (Rnd.exact.f64 (acc + ap)) groups := by
        cases sorted <;> rfl
      rw [hs, a3]
      simp only [Except.bind, this,
        ih (fun x hx => hh x (by simp [hx])) (fun x hx => hn x (by simp [hx])),
        List.map_cons, List.sum_cons]
      simp only [Rnd.exact, id, add_assoc]
  unfold meanAP average
  rw [key groups hh hn]
  simp only [bind, Except.bind, pure, Except.pure, zero_add, List.length_map, Rnd.exact, id]
  split
  · rfl
  · rename_i h0
    have : groups = [] := List.length_eq_zero_iff.1 (by omega)
    simp [this]

theorem meanNDCG_list {R : Rnd} {n : ℕ} {ε : ℚ} (hR : Tolerance R n ε) (S : StdSort)
    (collapse sorted : Bool) (groups : List (List (KwsMatch Q L)))
    (hh : ∀ g ∈ groups, ∀ m ∈ g, HardMatch m) (hn : ∀ g ∈ groups, NoNaN g)
    (hl : ∀ g ∈ groups, g.length ≤ n) :
    meanNDCG R S groups collapse sorted =
      .ok (average (groups.map (fun g => listNDCG collapse (arrange S sorted g)))) := by
  have key : ∀ groups : List (List (KwsMatch Q L)), (∀ g ∈ groups, ∀ m ∈ g, HardMatch m) →
      (∀ g ∈ groups, NoNaN g) → (∀ g ∈ groups, g.length ≤ n) →
      ∀ acc, meanNDCGLoop R S collapse sorted acc groups =
      .ok (acc + (groups.map (fun g => listNDCG collapse (arrange S sorted g))).sum) := by
    intro groups
    induction groups with
    | nil => intro _ _ _ acc; simp [meanNDCGLoop, pure, Except.pure]
    | cons g groups ih =>
      intro hh hn hl acc
      obtain ⟨_, a2, a3⟩ := arrange_spec S sorted g (hn g (by simp))
      have := listNDCG_rounded hR collapse (arrange S sorted g)
        (fun m hm => hh g (by simp) m (a2.mem_iff.1 hm))
        (fun m hm => hn g (by simp) m (a2.mem_iff.1 hm)) (by rw [a2.length_eq]; exact hl g (by simp))
      have hs : meanNDCGLoop R S collapse sorted acc (g :: groups) =
          (if sorted then sortMatches S g else pure g).bind fun ms =>
            meanNDCGLoop R S collapse sorted (acc + globalNDCG R ms collapse) groups := by
        cases sorted <;> rfl
      rw [hs, a3]
      simp only [Except.bind, this, ih (fun x hx => hh x (by simp [hx]))
        (fun x hx => hn x (by simp [hx])) (fun x hx => hl x (by simp [hx])), List.map_cons, List.sum_cons,
        add_assoc]
  unfold meanNDCG average
  rw [key groups hh hn hl]
  simp only [bind, Except.bind, pure, Except.pure, zero_add, List.length_map]
  split
  · rfl
  · rename_i h0
    have : groups = [] := List.length_eq_zero_iff.1 (by omega)
    simp [this]

variable [DecidableEq Q]

/-- The numbers of an assessment, in any order, with or without collapsing or confidence intervals. -/
theorem assess_list {G : Type} (R : Rnd) (S : StdSort) (rng : Rng G) (w : World) (o : ToolOptions)
    (q2g : List (Q × Q)) (ms : List (KwsMatch Q L)) (groups : List (List (KwsMatch Q L)))
    (dump : Option (List (KwsMatch Q L) × List (KwsMatch Q L))) (r : Report Q L) (n : ℕ) (ε : ℚ)
    (hT : Tolerance R n ε) (hl : ms.length ≤ n) (hh : ∀ m ∈ ms, HardMatch m) (hn : NoNaN ms)
    (hg : groupMatches q2g ms = .ok groups) (h : assess R S rng w o ms groups dump = .ok r) :
    ShowsList (groupOf q2g) o r ms ε := by
  obtain ⟨g1, g2, _⟩ := groupMatches_facts _ _ _ hg
  obtain ⟨keys, k1, k2, k3⟩ := groupMatches_events q2g ms (fun m hm => (hh m hm).event)
  rw [hg] at k3
  injection k3 with k3
  obtain ⟨a1, a2, a3, a4, _⟩ := assess_ok _ _ _ _ _ _ _ _ _ h
  have A1 := global_value _ _ _ _ _ _ _ _ _ _ _ a1
  have A2 := mean_value _ _ _ _ _ _ _ _ _ a2
  have A3 := global_value _ _ _ _ _ _ _ _ _ _ _ a3
  have A4 := mean_value _ _ _ _ _ _ _ _ _ a4
  have hperm : keys.Perm (groupsIn (groupOf q2g) ms) :=
    (List.perm_ext_iff_of_nodup k1 (List.nodup_dedup _)).2 (fun k => by rw [k2, List.mem_dedup])
  have hlen : groups.length ≤ ms.length := by
    rw [k3, List.length_map, hperm.length_eq]
    refine ((List.dedup_sublist _).length_le).trans ?_
    rw [List.length_map]
    exact List.length_filterMap_le _ _
  have hgh : ∀ g ∈ groups, ∀ m ∈ g, HardMatch m := fun g hg m hm => hh m ((g2 g hg).subset hm)
  have hgn : ∀ g ∈ groups, NoNaN g := fun g hg m hm => hn m ((g2 g hg).subset hm)
  have hgl : ∀ g ∈ groups, g.length ≤ n := fun g hg => ((g2 g hg).length_le).trans hl
  -- the list a global number is computed from
  have glob : ∀ b : Bool, ∃ l, Arranged b ms l ∧ l.Perm ms ∧
      ∀ {K : Type} (f : List (KwsMatch Q L) → Cpp K) (v : Cpp K),
      (if b then (do
        let all ← if true = true then sortMatches S groups.flatten else pure groups.flatten
        f all) else f ms) = v → f l = v := by
    intro b
    cases b with
    | false => exact ⟨ms, by simp [Arranged], List.Perm.refl _, fun f v hv => by simpa using hv⟩
    | true =>
      obtain ⟨l, h1, h2, h3, _, _⟩ := sortMatches_spec S groups.flatten
        (fun m hm => hn m (g1.mem_iff.1 hm))
      refine ⟨l, ?_, h2.trans g1, fun f v hv => ?_⟩
      · unfold Arranged
        rw [if_pos rfl]
        exact ⟨h2.trans g1, h3⟩
      · simpa only [if_true, h1, bind, Except.bind] using hv
  have hmem : ∀ l : List (KwsMatch Q L), l.Perm ms → (∀ m ∈ l, HardMatch m) ∧ NoNaN l ∧ l.length ≤ n :=
    fun l hp => ⟨fun m hm => hh m (hp.mem_iff.1 hm), fun m hm => hn m (hp.mem_iff.1 hm),
      by rw [hp.length_eq]; exact hl⟩
  have hfilt : ∀ g, NoNaN (ms.filter (InGroup (groupOf q2g) g)) :=
    fun g m hm => hn m (List.mem_filter.1 hm).1
  refine ⟨?_, ?_, ?_, ?_⟩
  · obtain ⟨l, l1, l2, l3⟩ := glob o.ciGap
    obtain ⟨m1, m2, m3⟩ := hmem l l2
    exact ⟨l, l1, listAP_rounded hT _ _ _ l m1 m2 m3 _
      (l3 (fun l => globalAP R l o.collapse o.interp o.trapezoid) _ A1)⟩
  · refine ⟨fun g => arrange S o.ciMap (ms.filter (InGroup (groupOf q2g) g)),
      fun g => (arrange_spec S _ _ (hfilt g)).1, ?_⟩
    have hx := meanAP_list S o.collapse o.interp o.trapezoid o.ciMap groups hgh hgn
    have he : average (groups.map (fun g => listAP o.collapse o.interp o.trapezoid
        (arrange S o.ciMap g))) = average ((groupsIn (groupOf q2g) ms).map (fun g =>
          listAP o.collapse o.interp o.trapezoid
            (arrange S o.ciMap (ms.filter (InGroup (groupOf q2g) g))))) := by
      rw [k3, List.map_map]
      exact average_perm (hperm.map _)
    rw [he] at hx
    rcases hT with ⟨rfl, rfl⟩ | ⟨rfl, hn', rfl⟩
    · rw [hx] at A2
      injection A2 with A2
      rw [A2]
      simp
    · obtain ⟨v, v', e1, e2, e3⟩ := C64_mean_ap S groups o.collapse o.interp o.trapezoid o.ciMap n hn'
        (fun g hg m hm => (hgh g hg m hm).outcome) hgl
        (by have := hlen.trans (hl.trans hn'); omega) (fun _ g hg => hgn g hg)
      rw [A2] at e1
      rw [hx] at e2
      injection e1 with e1
      injection e2 with e2
      subst e1 e2
      refine e3.trans ?_
      have hgq : (groups.length : ℚ) ≤ n := by exact_mod_cast hlen.trans hl
      rw [← add_div]
      gcongr
      nlinarith
  · obtain ⟨l, l1, l2, l3⟩ := glob o.ciGndcg
    obtain ⟨m1, m2, m3⟩ := hmem l l2
    have := l3 (fun l => (.ok (globalNDCG R l o.collapse) : Cpp ℝ)) _ A3
    injection this with this
    exact ⟨l, l1, by rw [← this, listNDCG_rounded hT _ l m1 m2 m3]⟩
  · refine ⟨fun g => arrange S o.ciMndcg (ms.filter (InGroup (groupOf q2g) g)),
      fun g => (arrange_spec S _ _ (hfilt g)).1, ?_⟩
    rw [meanNDCG_list hT S _ _ groups hgh hgn hgl] at A4
    injection A4 with A4
    rw [← A4, k3, List.map_map]
    exact average_perm (hperm.map _)

/-- The curves of an assessment in exact and in floating-point arithmetic. -/
def ShowsCurves {Q' L' : Type} (R : Rnd) (o : ToolOptions) (r : Report Q' L') (n : ℕ) (c : Curves) : Prop :=
  (R = Rnd.exact → HasCurves o r c) ∧
  (R = Rnd.ieee → n ≤ 2 ^ 24 → o.curveSamples ≤ 2 ^ 24 → HasCurvesNear o r c (curvesError n))

theorem exactCurves_list (grp : Q → Q) (o : ToolOptions) (ms : List (KwsMatch Q L))
    (hh : ∀ m ∈ ms, HardMatch m) (hn : NoNaN ms) : exactCurves grp o ms =
      listCurves grp o.curveSamples o.collapse o.interp o.trapezoid ms := by
  have key : ∀ g, exactCurve o.collapse o.interp (ms.filter (InGroup grp g)) =
      listCurve o.collapse o.interp (ms.filter (InGroup grp g)) := fun g =>
    exactCurve_list _ _ _ (fun m hm => hh m (List.mem_filter.1 hm).1)
      (fun _ m hm => hn m (List.mem_filter.1 hm).1)
  unfold exactCurves listCurves groupsIn
  simp only [key, exactCurve_list ms _ _ hh (fun _ => hn)]

theorem assess_curveList {G : Type} (R : Rnd) (S : StdSort) (rng : Rng G) (w : World) (o : ToolOptions)
    (q2g : List (Q × Q)) (ms : List (KwsMatch Q L)) (groups : List (List (KwsMatch Q L)))
    (dump : Option (List (KwsMatch Q L) × List (KwsMatch Q L))) (r : Report Q L) (n : ℕ)
    (hl : ms.length ≤ n) (hh : ∀ m ∈ ms, HardMatch m) (hn : NoNaN ms)
    (hg : groupMatches q2g ms = .ok groups) (h : assess R S rng w o ms groups dump = .ok r) :
    ShowsCurves R o r n (listCurves (groupOf q2g) o.curveSamples o.collapse o.interp o.trapezoid ms) := by
  rw [← exactCurves_list _ o ms hh hn]
  constructor
  · rintro rfl
    exact assess_curvesSpec S rng w o q2g ms groups dump r hh hg h
  · rintro rfl hn' hs
    exact assess_curvesNear Rnd.ieee ieee_precise ieee_relErr S rng w o q2g ms groups dump r
      (fun l hl => fineCurve_list l _ _ (fun m hm => hh m (hl.subset hm)) (fun m hm => hn m (hl.subset hm)))
      n hl hn' hs hg h

end

/-! ## Evaluating -/

section
variable {μ σ Q L G : Type} [DecidableEq Q] [Cmp Q] [LawfulCmp Q] [DecidableEq L] [Cmp L] [LawfulCmp L]

theorem sortHyps_inOrder (S : StdSort) (criterion : Str) (hyps l : List (ScoredEvent Q L))
    (hn : ∀ h ∈ hyps, h.score ≠ .nan) (h : sortHyps S criterion hyps = .ok l) :
    InOrder criterion hyps l ∧ l.Perm hyps := by
  unfold InOrder
  by_cases hd : criterion = "desc".toList
  · subst hd
    obtain ⟨l', h1, h2, h3⟩ := sortHyps_desc S hyps hn
    rw [h] at h1
    injection h1 with h1
    subst h1
    rw [if_pos rfl]
    exact ⟨⟨h2, h3⟩, h2⟩
  · rw [if_neg hd]
    by_cases ha : criterion = "asc".toList
    · rw [if_pos ha]
      unfold sortHyps at h
      rw [if_neg hd, if_pos ha] at h
      obtain ⟨l', h1, h2⟩ := S.ok _ _ ((C07_scored_order_partial Q L).weak_of ScoredEvent.lt
        (Or.inl lt_ops) hyps hn)
      rw [h] at h1
      injection h1 with h1
      subst h1
      refine ⟨⟨h2.perm, h2.sorted.imp_of_mem ?_⟩, h2.perm⟩
      intro a b ha hb hab
      by_contra hc
      rw [Bool.not_eq_false] at hc
      have : ScoredEvent.lt b a = true := gt_score a b hc
      rw [this] at hab
      exact absurd hab (by decide)
    · rw [if_neg ha]
      unfold sortHyps at h
      rw [if_neg hd, if_neg ha] at h
      injection h with h
      exact ⟨h.symm, by rw [h]⟩

/-- The numbers of an evaluation are those of the matches of a run on the hypotheses in the order asked
for. -/
theorem evaluate_list (R : Rnd) (S : StdSort) (rng : Rng G) (kit : ToolKit μ σ Q L)
    (hh : ∀ r x e, kit.scorer r x = .ok e → e.fp < 1 → e = ⟨0, 0⟩) (w : World)
    (o : ToolOptions) (q2g : List (Q × Q)) (refs : List (Event Q L)) (hyps : List (ScoredEvent Q L))
    (r : Report Q L) (n : ℕ) (ε : ℚ) (hT : Tolerance R n ε) (hn : refs.length + hyps.length ≤ n)
    (hnan : ∀ h ∈ hyps, h.score ≠ .nan)
    (h : evaluate R S rng kit w o q2g refs hyps = .ok (.done r)) :
    ∃ (l : List (ScoredEvent Q L)) (s' : σ) (ms rep : List (KwsMatch Q L)),
      InOrder o.sort (usedHyps q2g hyps) l ∧ l.Perm (usedHyps q2g hyps) ∧
      SimpleMatcher.run kit.index kit.scorer kit.refsSet (usedRefs q2g refs) l = .ok (s', ms, rep) ∧
      r.dump = (if o.dumpMatches = [] then none else some (ms, rep)) ∧
      ShowsList (groupOf q2g) o r ms ε ∧
      ShowsCurves R o r n
        (listCurves (groupOf q2g) o.curveSamples o.collapse o.interp o.trapezoid ms) := by
  obtain ⟨l, s', ms, rep, groups, h1, h2, h3, h4⟩ := evaluate_done _ _ _ _ _ _ _ _ _ _ h
  obtain ⟨o1, o2⟩ := sortHyps_inOrder S o.sort _ l (fun x hx => hnan x (usedHyps_mem q2g hyps x hx)) h1
  have hl := run_length _ _ _ _ _ _ _ _ h2
  have hu := used_length q2g refs hyps
  have hp := o2.length_eq
  have hm := run_hardMatch _ _ _ _ _ _ _ _ h2 hh
  have hk := (run_ranks _ _ _ _ _ _ _ _ h2
    (fun x hx => hnan x (usedHyps_mem q2g hyps x (o2.mem_iff.1 hx)))).1
  exact ⟨l, s', ms, rep, o1, o2, h2, (assess_ok _ _ _ _ _ _ _ _ _ h4).2.2.2.2,
    assess_list R S rng w o q2g ms groups _ r n ε hT (by omega) hm hk h3 h4,
    assess_curveList R S rng w o q2g ms groups _ r n (by omega) hm hk h3 h4⟩

end

/-! ## Renaming -/

section
variable {Q L Q' L' : Type}

theorem rank_rename (f : Q → Q') (g : L → L') (m : KwsMatch Q L) : rank (renameMatch f g m) = rank m := by
  obtain ⟨r, y, e⟩ := m
  cases y <;> rfl

theorem isHit_rename (f : Q → Q') (g : L → L') (m : KwsMatch Q L) :
    IsHit (renameMatch f g m) = IsHit m := by
  obtain ⟨r, y, e⟩ := m
  cases r <;> cases y <;> rfl

theorem isWrong_rename (f : Q → Q') (g : L → L') (m : KwsMatch Q L) :
    IsWrong (renameMatch f g m) = IsWrong m := by
  obtain ⟨r, y, e⟩ := m
  cases r <;> cases y <;> rfl

theorem references_rename (f : Q → Q') (g : L → L') (ms : List (KwsMatch Q L)) :
    references (ms.map (renameMatch f g)) = references ms := by
  unfold references
  rw [List.countP_map]
  refine List.countP_congr fun m _ => ?_
  obtain ⟨r, y, e⟩ := m
  cases r <;> simp [renameMatch]

theorem cuts_rename (f : Q → Q') (g : L → L') (collapse : Bool) (ms : List (KwsMatch Q L)) :
    cuts collapse (ms.map (renameMatch f g)) = cuts collapse ms := by
  have hr : (rank ∘ renameMatch f g : KwsMatch Q L → Flt) = rank := funext (rank_rename f g)
  have hi : (IsHit ∘ renameMatch f g : KwsMatch Q L → Bool) = IsHit := funext (isHit_rename f g)
  have hw : (IsWrong ∘ renameMatch f g : KwsMatch Q L → Bool) = IsWrong := funext (isWrong_rename f g)
  unfold cuts
  simp only [List.length_map, List.getElem?_map, Option.map_map, hr, ← List.map_take, List.countP_map, hi,
    hw]

theorem listAP_rename (f : Q → Q') (g : L → L') (collapse interp t : Bool) (ms : List (KwsMatch Q L)) :
    listAP collapse interp t (ms.map (renameMatch f g)) = listAP collapse interp t ms := by
  unfold listAP
  rw [cuts_rename, references_rename]

theorem listNDCG_rename (f : Q → Q') (g : L → L') (collapse : Bool) (ms : List (KwsMatch Q L)) :
    listNDCG collapse (ms.map (renameMatch f g)) = listNDCG collapse ms := by
  unfold listNDCG
  rw [cuts_rename, references_rename]

theorem renameMatch_inj {f : Q → Q'} {g : L → L'} (hf : Function.Injective f)
    (hg : Function.Injective g) : Function.Injective (renameMatch f g : KwsMatch Q L → KwsMatch Q' L') := by
  have h1 := Event.rename_inj hf hg
  have h2 : Function.Injective (ScoredEvent.rename f g : ScoredEvent Q L → ScoredEvent Q' L') := by
    rintro ⟨a, b⟩ ⟨c, d⟩ h
    simp only [ScoredEvent.rename, ScoredEvent.mk.injEq] at h
    rw [h1 h.1, h.2]
  rintro ⟨a, b, c⟩ ⟨a', b', c'⟩ h
  simp only [renameMatch, Match.mk.injEq] at h
  rw [Option.map_injective h1 h.1, Option.map_injective h2 h.2.1, h.2.2]

theorem perm_map_inv {α β : Type} {f : α → β} (hf : Function.Injective f) {l : List α} {l' : List β}
    (h : l'.Perm (l.map f)) : ∃ l0 : List α, l0.Perm l ∧ l' = l0.map f := by
  have hm : ∀ x ∈ l', x ∈ Set.range f := by
    intro x hx
    obtain ⟨y, _, rfl⟩ := List.mem_map.1 (h.mem_iff.1 hx)
    exact ⟨y, rfl⟩
  have : l' ∈ Set.range (List.map f) := by rw [Set.range_list_map]; exact hm
  obtain ⟨l0, rfl⟩ := this
  exact ⟨l0, (List.map_perm_map_iff hf).1 h, rfl⟩

theorem arranged_rename {f : Q → Q'} {g : L → L'} (hf : Function.Injective f)
    (hg : Function.Injective g) (b : Bool) (ms : List (KwsMatch Q L)) (l' : List (KwsMatch Q' L'))
    (h : Arranged b (ms.map (renameMatch f g)) l') :
    ∃ l, Arranged b ms l ∧ l' = l.map (renameMatch f g) := by
  unfold Arranged at h ⊢
  cases b with
  | false => exact ⟨ms, by simp, by simpa using h⟩
  | true =>
    simp only [if_true] at h ⊢
    obtain ⟨l0, h1, rfl⟩ := perm_map_inv (renameMatch_inj hf hg) h.1
    refine ⟨l0, ⟨h1, ?_⟩, rfl⟩
    have := h.2
    rw [List.pairwise_map] at this
    simpa only [rank_rename] using this

variable [DecidableEq Q] [DecidableEq Q']

theorem eventOf_rename (f : Q → Q') (g : L → L') (m : KwsMatch Q L) :
    eventOf (renameMatch f g m) = (eventOf m).map (Event.rename f g) := by
  obtain ⟨r, y, e⟩ := m
  cases r <;> cases y <;> rfl

theorem groupsIn_rename {f : Q → Q'} (g : L → L') (hf : Function.Injective f) (grp : Q → Q)
    (grp' : Q' → Q') (hgrp : ∀ q, grp' (f q) = f (grp q)) (ms : List (KwsMatch Q L)) :
    groupsIn grp' (ms.map (renameMatch f g)) = (groupsIn grp ms).map f := by
  unfold groupsIn
  rw [← List.dedup_map_of_injective hf, List.filterMap_map, List.map_map]
  congr 1
  have : (eventOf ∘ renameMatch f g : KwsMatch Q L → _) =
      fun m => (eventOf m).map (Event.rename f g) := funext (eventOf_rename f g)
  rw [this, ← List.map_filterMap, List.map_map]
  refine List.map_congr_left fun e _ => ?_
  exact hgrp e.query

theorem inGroup_rename {f : Q → Q'} (g : L → L') (hf : Function.Injective f) (grp : Q → Q)
    (grp' : Q' → Q') (hgrp : ∀ q, grp' (f q) = f (grp q)) (k : Q) (ms : List (KwsMatch Q L)) :
    (ms.map (renameMatch f g)).filter (InGroup grp' (f k)) =
      (ms.filter (InGroup grp k)).map (renameMatch f g) := by
  rw [List.filter_map]
  congr 1
  refine List.filter_congr fun m _ => ?_
  unfold InGroup
  rw [Function.comp, eventOf_rename]
  cases eventOf m with
  | none => rfl
  | some e => simp [Event.rename, hgrp, hf.eq_iff]

omit [DecidableEq Q] [DecidableEq Q'] in
theorem listCurve_rename (f : Q → Q') (g : L → L') (collapse interp : Bool) (ms : List (KwsMatch Q L)) :
    listCurve collapse interp (ms.map (renameMatch f g)) = listCurve collapse interp ms := by
  unfold listCurve
  rw [cuts_rename, references_rename]

theorem listCurves_rename {f : Q → Q'} (g : L → L') (hf : Function.Injective f) (grp : Q → Q)
    (grp' : Q' → Q') (hgrp : ∀ q, grp' (f q) = f (grp q)) (n : ℕ) (collapse interp linear : Bool)
    (ms : List (KwsMatch Q L)) : listCurves grp' n collapse interp linear (ms.map (renameMatch f g)) =
      listCurves grp n collapse interp linear ms := by
  unfold listCurves
  simp only [listCurve_rename, groupsIn_rename g hf grp grp' hgrp, List.map_map, Function.comp_def,
    inGroup_rename g hf grp grp' hgrp, List.map_eq_nil_iff]

theorem showsList_rename {Q'' L'' : Type} {f : Q → Q'} {g : L → L'} (hf : Function.Injective f)
    (hg : Function.Injective g) (grp : Q → Q) (grp' : Q' → Q') (hgrp : ∀ q, grp' (f q) = f (grp q))
    (o : ToolOptions) (r : Report Q'' L'') (ms : List (KwsMatch Q L)) (ε : ℚ)
    (h : ShowsList grp' o r (ms.map (renameMatch f g)) ε) : ShowsList grp o r ms ε := by
  have pull : ∀ (b : Bool) (l' : Q' → List (KwsMatch Q' L')),
      (∀ k, Arranged b ((ms.map (renameMatch f g)).filter (InGroup grp' k)) (l' k)) →
      ∃ l : Q → List (KwsMatch Q L), (∀ k, Arranged b (ms.filter (InGroup grp k)) (l k)) ∧
        ∀ k, l' (f k) = (l k).map (renameMatch f g) := by
    intro b l' hl
    have := fun k => arranged_rename hf hg b (ms.filter (InGroup grp k)) (l' (f k))
      (by rw [← inGroup_rename g hf grp grp' hgrp]; exact hl (f k))
    choose l h1 h2 using this
    exact ⟨l, h1, h2⟩
  refine ⟨?_, ?_, ?_, ?_⟩
  · obtain ⟨l', h1, h2⟩ := h.gAP
    obtain ⟨l, h3, rfl⟩ := arranged_rename hf hg _ _ _ h1
    rw [listAP_rename] at h2
    exact ⟨l, h3, h2⟩
  · obtain ⟨l', h1, h2⟩ := h.mAP
    obtain ⟨l, h3, h4⟩ := pull _ l' h1
    refine ⟨l, h3, ?_⟩
    rw [groupsIn_rename g hf grp grp' hgrp, List.map_map] at h2
    simpa only [Function.comp_def, h4, listAP_rename] using h2
  · obtain ⟨l', h1, h2⟩ := h.gNDCG
    obtain ⟨l, h3, rfl⟩ := arranged_rename hf hg _ _ _ h1
    rw [listNDCG_rename] at h2
    exact ⟨l, h3, h2⟩
  · obtain ⟨l', h1, h2⟩ := h.mNDCG
    obtain ⟨l, h3, h4⟩ := pull _ l' h1
    refine ⟨l, h3, ?_⟩
    rw [groupsIn_rename g hf grp grp' hgrp, List.map_map] at h2
    simpa only [Function.comp_def, h4, listNDCG_rename] using h2

omit [DecidableEq Q] [DecidableEq Q'] in
theorem inOrder_rename {f : Q → Q'} {g : L → L'} (hf : Function.Injective f)
    (hg : Function.Injective g) (sort : Str) (hyps : List (ScoredEvent Q L)) (l' : List (ScoredEvent Q' L'))
    (h : InOrder sort (hyps.map (ScoredEvent.rename f g)) l') :
    ∃ l, InOrder sort hyps l ∧ l' = l.map (ScoredEvent.rename f g) := by
  have h2 : Function.Injective (ScoredEvent.rename f g : ScoredEvent Q L → ScoredEvent Q' L') := by
    rintro ⟨a, b⟩ ⟨c, d⟩ h
    simp only [ScoredEvent.rename, ScoredEvent.mk.injEq] at h
    rw [Event.rename_inj hf hg h.1, h.2]
  unfold InOrder at h ⊢
  by_cases hd : sort = "desc".toList
  · simp only [if_pos hd] at h ⊢
    obtain ⟨l0, h1, rfl⟩ := perm_map_inv h2 h.1
    exact ⟨l0, ⟨h1, List.pairwise_map.1 h.2⟩, rfl⟩
  · simp only [if_neg hd] at h ⊢
    by_cases ha : sort = "asc".toList
    · simp only [if_pos ha] at h ⊢
      obtain ⟨l0, h1, rfl⟩ := perm_map_inv h2 h.1
      exact ⟨l0, ⟨h1, List.pairwise_map.1 h.2⟩, rfl⟩
    · simp only [if_neg ha] at h ⊢
      exact ⟨hyps, rfl, h⟩

variable [DecidableEq L] [DecidableEq L']

/-- A segmentation-based matching of renamed events is a renamed matching. -/
theorem segMatching_rename {f : Q → Q'} {g : L → L'} (hf : Function.Injective f)
    (hg : Function.Injective g) (refs : List (Event Q L)) (l : List (ScoredEvent Q L))
    (ms' : List (KwsMatch Q' L'))
    (h : SegMatching (refs.map (Event.rename f g)) (l.map (ScoredEvent.rename f g)) ms') :
    ∃ ms, SegMatching refs l ms ∧ ms' = ms.map (renameMatch f g) := by
  obtain ⟨missed', h1, h2, rfl⟩ := h
  have hi := Event.rename_inj hf hg (f := f) (g := g)
  have hm : ∀ x ∈ missed', x ∈ Set.range (Event.rename f g) := by
    intro x hx
    obtain ⟨y, _, rfl⟩ := List.mem_map.1 ((h2 x).1 hx).1
    exact ⟨y, rfl⟩
  have : missed' ∈ Set.range (List.map (Event.rename f g)) := by rw [Set.range_list_map]; exact hm
  obtain ⟨missed, rfl⟩ := this
  refine ⟨_, ⟨missed, h1.of_map _, fun r => ?_, rfl⟩, ?_⟩
  · have := h2 (r.rename f g)
    rw [List.mem_map_of_injective hi, List.mem_map_of_injective hi] at this
    rw [this]
    refine and_congr_right fun _ => ?_
    simp only [List.mem_map, forall_exists_index, and_imp, forall_apply_eq_imp_iff₂]
    refine forall₂_congr fun x _ => ?_
    show Event.rename f g x.base ≠ _ ↔ _
    rw [hi.ne_iff]
  · have := segEntries_rename hf hg refs l []
    rw [List.map_nil] at this
    rw [this, List.map_append, List.map_map, List.map_map]
    rfl

end

end Kws
