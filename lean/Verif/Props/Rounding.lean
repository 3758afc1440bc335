import Verif.Lemmas.Rounding
import Verif.Props.Curves
import Verif.Props.Scorers

/-!
# C64: average precision in double precision

The other files prove the metrics in exact arithmetic. Here the same functions are run with the
rounding of IEEE-754 (`Rnd.ieee`) and compared with exact arithmetic.
-/

namespace Kws
open Spec

section
variable {Q L : Type}

/-- The errors of the matches are multiples of `2^-24` in [0,1]: the values of all scorers (see
`C64_soft_on_grid`). -/
def GridErrors (ms : List (KwsMatch Q L)) : Prop :=
  ∀ m ∈ ms, ∃ a b : ℕ, a ≤ 2 ^ 24 ∧ b ≤ 2 ^ 24 ∧ m.error = ⟨a / 2 ^ 24, b / 2 ^ 24⟩

theorem gridOk_soft (ms : List (KwsMatch Q L)) (h : GridErrors ms) (hl : ms.length ≤ 2 ^ 29) :
    GridOk false ms := by
  refine ⟨?_, by simp, hl⟩
  intro m hm
  obtain ⟨a, b, ha, hb, he⟩ := h m hm
  have ha' : (a : ℚ) ≤ 2 ^ 24 := by exact_mod_cast ha
  have hb' : (b : ℚ) ≤ 2 ^ 24 := by exact_mod_cast hb
  refine ⟨?_, a, b, ?_, ?_⟩
  · rw [he]
    unfold Rates
    simp only
    refine ⟨by positivity, ?_, by positivity, ?_⟩
    · rw [div_le_one (by positivity)]; exact ha'
    · rw [div_le_one (by positivity)]; exact hb'
  · rw [he]; rfl
  · rw [he]; rfl

theorem gridOk_hard (collapse : Bool) (ms : List (KwsMatch Q L)) (h : ∀ m ∈ ms, Hard m.error)
    (hl : ms.length ≤ 2 ^ 24) : GridOk collapse ms :=
  ⟨fun m hm => ⟨hard_rates _ (h m hm), hard_grid _ (h m hm)⟩, fun _ => ⟨hl, h⟩,
    hl.trans (by norm_num)⟩

/-- C64: with hits, false positives and false negatives only, the average precision computed in
double precision differs from the exact one by at most `n (n + 4) / 2^52` for `n` matches, with any
options. -/
theorem C64_ap_hard (ms : List (KwsMatch Q L)) (collapse interp trapezoid : Bool)
    (h : ∀ m ∈ ms, m.error = Outcome.hit.error ∨ m.error = Outcome.falsePos.error ∨
      m.error = Outcome.falseNeg.error) (hl : ms.length ≤ 2 ^ 24) :
    ∃ v v', globalAP Rnd.ieee ms collapse interp trapezoid = .ok v ∧
      globalAP Rnd.exact ms collapse interp trapezoid = .ok v' ∧
      |v - v'| ≤ ms.length * (ms.length + 4) / 2 ^ 52 := by
  refine globalAP_near Rnd.ieee ieee_precise ieee_relErr ms collapse interp trapezoid
    (gridOk_hard collapse ms ?_ hl)
  intro m hm
  rcases h m hm with e | e | e <;> rw [e] <;> simp [Hard, Outcome.error]

/-- C64: without collapsing the same holds for soft errors. -/
theorem C64_ap_soft (ms : List (KwsMatch Q L)) (interp trapezoid : Bool)
    (h : GridErrors ms) (hl : ms.length ≤ 2 ^ 29) :
    ∃ v v', globalAP Rnd.ieee ms false interp trapezoid = .ok v ∧
      globalAP Rnd.exact ms false interp trapezoid = .ok v' ∧
      |v - v'| ≤ ms.length * (ms.length + 4) / 2 ^ 52 :=
  globalAP_near Rnd.ieee ieee_precise ieee_relErr ms false interp trapezoid (gridOk_soft ms h hl)

/-- C64: each point of the curves is exact up to `2^-53` (precision) and `2^-54` (recall). -/
theorem C64_curves (ms : List (KwsMatch Q L)) (interp : Bool) (h : GridErrors ms)
    (hl : ms.length ≤ 2 ^ 29) :
    List.Forall₂ (fun x y => |x - y| ≤ 1 / 2 ^ 53) (matchesPR Rnd.ieee ms false interp).1
      (matchesPR Rnd.exact ms false interp).1 ∧
    List.Forall₂ (fun x y => |x - y| ≤ 1 / 2 ^ 54) (matchesPR Rnd.ieee ms false interp).2
      (matchesPR Rnd.exact ms false interp).2 := by
  obtain ⟨h1, h2, _⟩ := matchesPR_near Rnd.ieee ieee_precise ms false interp (gridOk_soft ms h hl)
  refine ⟨?_, h2⟩
  have : (2 / 2 ^ 54 : ℚ) = 1 / 2 ^ 53 := by norm_num
  rw [← this]
  exact h1

/-- C25: recall never decreases in double precision either, if the errors are multiples of
`2^-24`. -/
theorem C25_recall_monotone_double (ms : List (KwsMatch Q L)) (interp : Bool) (h : GridErrors ms)
    (hl : ms.length ≤ 2 ^ 29) : (matchesPR Rnd.ieee ms false interp).2.Pairwise (· ≤ ·) :=
  (matchesPR_near Rnd.ieee ieee_precise ms false interp (gridOk_soft ms h hl)).2.2

/-- C25: the same with collapsing, for hits, false positives and false negatives. -/
theorem C25_recall_monotone_collapsed (ms : List (KwsMatch Q L)) (interp : Bool)
    (h : ∀ m ∈ ms, m.error = Outcome.hit.error ∨ m.error = Outcome.falsePos.error ∨
      m.error = Outcome.falseNeg.error) (hl : ms.length ≤ 2 ^ 24) :
    (matchesPR Rnd.ieee ms true interp).2.Pairwise (· ≤ ·) := by
  refine (matchesPR_near Rnd.ieee ieee_precise ms true interp (gridOk_hard true ms ?_ hl)).2.2
  intro m hm
  rcases h m hm with e | e | e <;> rw [e] <;> simp [Hard, Outcome.error]

end

section
variable {Q D : Type} [Cmp Q] [LawfulCmp Q] [DecidableEq Q] [Cmp D] [LawfulCmp D] [DecidableEq D]

/-- C64: the errors of the soft scorer are multiples of `2^-24` in [0,1]. -/
theorem C64_soft_on_grid (ref : Event Q (DocBox D UInt32))
    (hyp : ScoredEvent Q (DocBox D UInt32)) (hr : InRangeU ref) (hh : InRangeU hyp.base) :
    ∃ a b : ℕ, a ≤ 2 ^ 24 ∧ b ≤ 2 ^ 24 ∧
      softScorer Rnd.ieee ref hyp = .ok ⟨a / 2 ^ 24, b / 2 ^ 24⟩ := by
  obtain ⟨e, he, h1, h2, h3, h4⟩ := C23_soft_in_unit Rnd.ieee ieee_faithful ref hyp hr hh
  have fin : ∀ x : ℚ, x ≤ 1 → (∃ m : ℕ, x = m / 2 ^ 24) → ∃ m : ℕ, m ≤ 2 ^ 24 ∧ x = m / 2 ^ 24 := by
    rintro x hx ⟨m, rfl⟩
    rw [div_le_one (by positivity)] at hx
    exact ⟨m, by exact_mod_cast hx, rfl⟩
  have key : ∀ a c : ℕ, c ≤ a → ∃ m : ℕ,
      Rnd.ieee.f32 (1 - if 0 < Rnd.ieee.f32 a then
        Rnd.ieee.f32 (Rnd.ieee.f32 c / Rnd.ieee.f32 a) else 0) = m / 2 ^ 24 := by
    intro a c hc
    refine Ieee.round32_compl _ ?_ ?_
    · split_ifs
      · exact Ieee.round_idem 24 _ (by norm_num) _
      · simp [Ieee.round]
    · split_ifs with ha
      · exact ieee_faithful.le_one32
          (by rw [div_le_one ha]; exact ieee_faithful.mono32 _ _ (by exact_mod_cast hc))
      · norm_num
  by_cases hq : ref.query = hyp.base.query
  · rw [soft_eq _ _ _ hr hh hq, Except.ok.injEq] at he
    subst he
    obtain ⟨a, ha, ha'⟩ := fin _ h2 (key _ _ (common_le_right ref hyp.base))
    obtain ⟨b, hb, hb'⟩ := fin _ h4 (key _ _ (common_le_left ref hyp.base))
    simp only at ha' hb'
    exact ⟨a, b, ha, hb, by rw [soft_eq _ _ _ hr hh hq, ha', hb']⟩
  · refine ⟨2 ^ 24, 2 ^ 24, le_rfl, le_rfl, ?_⟩
    rw [C23_soft_other_query _ _ _ hq]
    norm_num

end
section
variable {Q L : Type}

theorem meanAPLoop_near (S : StdSort) (collapse interp trapezoid sort : Bool) (N : ℕ) (hN : N ≤ 2 ^ 24)
    (K : ℕ) (hK : K ≤ 2 ^ 51) (groups : List (List (KwsMatch Q L)))
    (h : ∀ g ∈ groups, ∀ m ∈ g, Hard m.error) (hl : ∀ g ∈ groups, g.length ≤ N)
    (hn : sort = true → ∀ g ∈ groups, ∀ m ∈ g, rank m ≠ .nan) :
    ∀ (k : ℕ) (acc acc' d : ℚ), k + groups.length ≤ K → |acc| ≤ 2 * k → |acc - acc'| ≤ d →
    ∃ v v', meanAPLoop Rnd.ieee S collapse interp trapezoid sort acc groups = .ok v ∧
      meanAPLoop Rnd.exact S collapse interp trapezoid sort acc' groups = .ok v' ∧
      |v - v'| ≤ d + groups.length * (apError N + 2 * K / 2 ^ 53) ∧
      |v| ≤ 2 * (k + groups.length) := by
  induction groups with
  | nil =>
    intro k acc acc' d _ h1 h2
    exact ⟨acc, acc', rfl, rfl, by simpa using h2, by simpa using h1⟩
  | cons g gs ih =>
    intro k acc acc' d hk h1 h2
    simp only [List.length_cons] at hk
    have hg : ∃ g', (if sort then sortMatches S g else .ok g) = .ok g' ∧ g'.Perm g := by
      cases sort with
      | false => exact ⟨g, rfl, List.Perm.refl _⟩
      | true =>
        obtain ⟨g', h1, h2, _⟩ := sortMatches_spec S g (hn rfl g (by simp))
        exact ⟨g', h1, h2⟩
    obtain ⟨g', g1, g2⟩ := hg
    have hgl : g'.length ≤ N := by rw [g2.length_eq]; exact hl g (by simp)
    have hgh : ∀ m ∈ g', Hard m.error := fun m hm => h g (by simp) m (g2.mem_iff.1 hm)
    obtain ⟨v, v', e1, e2, e3⟩ := globalAP_near Rnd.ieee ieee_precise ieee_relErr g' collapse interp
      trapezoid (gridOk_hard collapse g' hgh (hgl.trans hN))
    obtain ⟨v'', e4, e5, e6⟩ := globalAP_unit g' collapse interp trapezoid
      (fun m hm => hard_rates _ (hgh m hm))
    rw [e2, Except.ok.injEq] at e4
    subst e4
    have e3' := e3.trans (apError_mono hgl)
    have hsmall : apError N ≤ 1 := by
      refine (apError_mono hN).trans ?_
      unfold apError; norm_num
    have hk1 : (k : ℚ) + 1 ≤ K := by exact_mod_cast (by omega : k + 1 ≤ K)
    have hk0 : (0 : ℚ) ≤ k := by positivity
    have hsum : |acc + v| ≤ 2 * (k + 1) := by
      rw [abs_le] at *
      constructor <;> linarith [h1.1, h1.2, e3'.1, e3'.2]
    have r := ieee_relErr (acc + v) (2 * K) (hsum.trans (by linarith)) (by linarith)
    have hb : |Rnd.ieee.f64 (acc + v)| ≤ 2 * ((k + 1 : ℕ) : ℚ) := by
      have hx : Rnd.ieee.f64 (2 * ((k : ℚ) + 1)) = 2 * (k + 1) := by
        have := ieee_faithful.nat64 (2 * (k + 1)) (by omega)
        push_cast at this
        exact this
      have hx' : Rnd.ieee.f64 (-(2 * ((k : ℚ) + 1))) = -(2 * (k + 1)) := by
        have := Ieee.round_neg 53 (-1074) (2 * ((k : ℚ) + 1))
        rw [show Ieee.round 53 (-1074) (2 * ((k : ℚ) + 1)) = 2 * (k + 1) from hx] at this
        exact this
      push_cast
      rw [abs_le] at hsum ⊢
      constructor
      · rw [← hx']; exact ieee_faithful.mono64 _ _ hsum.1
      · rw [← hx]; exact ieee_faithful.mono64 _ _ hsum.2
    obtain ⟨w, w', i1, i2, i3, i4⟩ := ih (fun x hx => h x (by simp [hx]))
      (fun x hx => hl x (by simp [hx])) (fun hs x hx => hn hs x (by simp [hx])) (k + 1)
      (Rnd.ieee.f64 (acc + v)) (acc' + v') (d + (apError N + 2 * K / 2 ^ 53)) (by omega) hb (by
        rw [abs_le] at *
        constructor <;> linarith [h2.1, h2.2, e3'.1, e3'.2, r.1, r.2])
    have step : ∀ (R : Rnd) (a u : ℚ), globalAP R g' collapse interp trapezoid = .ok u →
        meanAPLoop R S collapse interp trapezoid sort a (g :: gs) =
          meanAPLoop R S collapse interp trapezoid sort (R.f64 (a + u)) gs := by
      intro R a u hu
      cases sort with
      | false =>
        simp only [Bool.false_eq_true, if_false, Except.ok.injEq] at g1
        subst g1
        simp only [meanAPLoop, Bool.false_eq_true, if_false, bind, Except.bind, pure, Except.pure, hu]
      | true =>
        simp only [if_true] at g1
        simp only [meanAPLoop, if_true, bind, Except.bind, g1, hu]
    refine ⟨w, w', by rw [step _ _ _ e1, i1], by rw [step _ _ _ e2]; exact i2, ?_, ?_⟩
    · simp only [List.length_cons]
      push_cast
      refine i3.trans (le_of_eq (by ring))
    · simp only [List.length_cons]
      push_cast at i4 ⊢
      linarith

/-- C64: the mean average precision of at most `2^51` groups of at most `n ≤ 2^24` hits, false
positives and false negatives each differs from the exact one by at most
`n (n + 4) / 2^52 + (g + 1) / 2^52` where `g` is the number of groups. -/
theorem C64_mean_ap (S : StdSort) (groups : List (List (KwsMatch Q L)))
    (collapse interp trapezoid sort : Bool) (n : ℕ) (hn : n ≤ 2 ^ 24)
    (h : ∀ g ∈ groups, ∀ m ∈ g, m.error = Outcome.hit.error ∨ m.error = Outcome.falsePos.error ∨
      m.error = Outcome.falseNeg.error) (hl : ∀ g ∈ groups, g.length ≤ n)
    (hg : groups.length ≤ 2 ^ 51)
    (hnan : sort = true → ∀ g ∈ groups, ∀ m ∈ g, rank m ≠ .nan) :
    ∃ v v', meanAP Rnd.ieee S groups collapse interp trapezoid sort = .ok v ∧
      meanAP Rnd.exact S groups collapse interp trapezoid sort = .ok v' ∧
      |v - v'| ≤ n * (n + 4) / 2 ^ 52 + (groups.length + 1) / 2 ^ 52 := by
  have hh : ∀ g ∈ groups, ∀ m ∈ g, Hard m.error := by
    intro g hg m hm
    rcases h g hg m hm with e | e | e <;> rw [e] <;> simp [Hard, Outcome.error]
  obtain ⟨v, v', e1, e2, e3, e4⟩ := meanAPLoop_near S collapse interp trapezoid sort n hn
    groups.length hg groups hh hl hnan 0 0 0 0 (by omega) (by simp) (by simp)
  refine ⟨_, _, by unfold meanAP; rw [e1]; rfl, by unfold meanAP; rw [e2]; rfl, ?_⟩
  rcases Nat.eq_zero_or_pos groups.length with h0 | hpos
  · rw [h0]
    simp only [gt_iff_lt, lt_irrefl, if_false, sub_self, abs_zero]
    positivity
  · rw [if_pos hpos, if_pos hpos]
    have hq : (0 : ℚ) < groups.length := by exact_mod_cast hpos
    rw [ieee_faithful.nat64 _ (hg.trans (by norm_num))]
    show |Rnd.ieee.f64 (v / groups.length) - v' / groups.length| ≤ _
    simp only [Nat.cast_zero, zero_add] at e3 e4
    have b : |v / groups.length| ≤ 2 := by
      rw [abs_div, abs_of_pos hq, div_le_iff₀ hq]; exact e4
    have r := ieee_relErr _ 2 b (by norm_num)
    have c : |v / groups.length - v' / groups.length| ≤ apError n + 2 * groups.length / 2 ^ 53 := by
      rw [← sub_div, abs_div, abs_of_pos hq, div_le_iff₀ hq]
      linarith
    have e : (n * (n + 4) / 2 ^ 52 : ℚ) = apError n := rfl
    rw [e]
    rw [abs_le] at *
    constructor <;> linarith [r.1, r.2, c.1, c.2]

end

section
variable {Q L : Type}

theorem dotFrom_zero (R : Rnd) (h0 : R.f64 0 = 0) (l : List (ℚ × ℚ))
    (h : ∀ p ∈ l, p.1 * p.2 = 0) : dotFrom R 0 l = 0 := by
  induction l with
  | nil => rfl
  | cons p l ih =>
    have : dotFrom R 0 (p :: l) = dotFrom R (R.f64 (0 + R.f64 (p.1 * p.2))) l := rfl
    rw [this, h p (by simp), h0, add_zero, h0]
    exact ih (fun q hq => h q (by simp [hq]))

theorem heights_zero (R : Rnd) (h0 : R.f64 0 = 0) (t : Bool) (l : List ℚ) (h : ∀ p ∈ l, p = 0) :
    ∀ prev : Option ℚ, (∀ q, prev = some q → q = 0) → ∀ x ∈ heights R t prev l, x = 0 := by
  induction l with
  | nil => intro _ _ x hx; simp [heights] at hx
  | cons p l ih =>
    intro prev hp x hx
    have hp0 := h p (by simp)
    unfold heights at hx
    rcases List.mem_cons.1 hx with rfl | hx
    · cases t with
      | false => exact hp0
      | true =>
        cases prev with
        | none => exact hp0
        | some q =>
          simp only [hp0, hp q rfl, add_zero, h0, mul_zero]
    · exact ih (fun q hq => h q (by simp [hq])) (some p)
        (fun q hq => by injection hq with hq; rw [← hq, hp0]) x hx

theorem worthless_double {ε : Type} [IsError ε] (es : List ε) (interp trapezoid : Bool)
    (h : ∀ e ∈ es, IsError.fp e = (IsError.nh e : ℚ) ∧ IsError.fn e = (IsError.nr e : ℚ) ∧
      0 < IsError.nh e + IsError.nr e) (hg : ∀ e ∈ es, OnGrid e) (hes : ∀ e ∈ es, ErrOk e)
    (hh : (es.map IsError.nh).sum ≤ 2 ^ 29) (hr : (es.map IsError.nr).sum ≤ 2 ^ 29) :
    computeAP Rnd.ieee (computePR Rnd.ieee es interp).1 (computePR Rnd.ieee es interp).2 trapezoid =
      .ok 0 := by
  have z : Rnd.ieee.f64 0 = 0 := ieee_faithful.zero64
  have hpt : ∀ p ∈ prLoop Rnd.ieee (numTotalReferences es) {} es,
      (0 < numTotalReferences es ∧ p.2 = 0) ∨ (numTotalReferences es = 0 ∧ p.1 = 0) := by
    intro p hp
    obtain ⟨k, hk, hkp⟩ := List.mem_iff_getElem.1 hp
    rw [prLoop_length] at hk
    obtain ⟨s, a, b, hs, g1, -, -⟩ := prLoop_grid Rnd.ieee ieee_faithful es hg hes hh hr k hk
    obtain ⟨_, e1⟩ := List.getElem?_eq_some_iff.1 g1
    rw [e1] at hkp
    subst hkp
    have c := run_counts Rnd.exact (es.take (k + 1)) {}
    have d := run_exact (es.take (k + 1)) {}
    simp only [zero_add] at c d
    rw [← hs] at c d
    have l1 := sum_take_le IsError.nh es (k + 1)
    have l2 := sum_take_le IsError.nr es (k + 1)
    have hsum : ∀ l : List ε, (∀ e ∈ l, e ∈ es) →
        (l.map IsError.fp).sum = (((l.map IsError.nh).sum : ℕ) : ℚ) ∧
        (l.map IsError.fn).sum = (((l.map IsError.nr).sum : ℕ) : ℚ) := by
      intro l hl
      induction l with
      | nil => simp
      | cons e l ih =>
        obtain ⟨i1, i2⟩ := ih (fun x hx => hl x (by simp [hx]))
        obtain ⟨h1, h2, _⟩ := h e (hl e (by simp))
        simp only [List.map_cons, List.sum_cons, Nat.cast_add, i1, i2, h1, h2, and_self]
    obtain ⟨s1, s2⟩ := hsum (es.take (k + 1)) (fun e he => List.mem_of_mem_take he)
    rw [s1, ← c.2] at d
    rw [s2, ← c.1] at d
    have hN := ieee_faithful.nat64 s.sumNR (by rw [c.1]; omega)
    have hH := ieee_faithful.nat64 s.sumNH (by rw [c.2]; omega)
    rcases Nat.eq_zero_or_pos (numTotalReferences es) with h0 | hpos
    · right
      refine ⟨h0, ?_⟩
      have hpos : 0 < s.sumNH := by
        rw [numTotal_eq] at h0
        obtain ⟨e, es', rfl⟩ : ∃ e es', es = e :: es' := by
          cases es with
          | nil => simp at hk
          | cons e es' => exact ⟨e, es', rfl⟩
        have := (h e (by simp)).2.2
        simp only [List.map_cons, List.sum_cons] at h0
        rw [c.2]
        simp only [List.take_succ_cons, List.map_cons, List.sum_cons]
        omega
      have hq : (s.sumNH : ℚ) ≠ 0 := by exact_mod_cast hpos.ne'
      show s.precision Rnd.ieee = 0
      unfold PRSums.precision
      rw [if_pos hpos, hH, d.1, div_self hq]
      have : Rnd.ieee.f64 1 = 1 := by
        have := ieee_faithful.nat64 1 (by norm_num); exact_mod_cast this
      rw [this, sub_self, z]
    · left
      refine ⟨hpos, ?_⟩
      show s.recall Rnd.ieee _ = 0
      unfold PRSums.recall
      rw [if_pos hpos, hN, d.2, sub_self, z, zero_div, z]
  have hl := computePR_lengths Rnd.ieee es interp
  unfold computeAP
  rw [if_pos (by rw [hl.1, hl.2])]
  have hfin : ∀ hs : List ℚ, (∀ p ∈ (computePR Rnd.ieee es interp).2.zip hs, p.1 * p.2 = 0) →
      dotFrom Rnd.ieee 0 ((computePR Rnd.ieee es interp).2.zip hs) = 0 :=
    fun hs h => dotFrom_zero _ z _ h
  have hrc : ∀ r ∈ (computePR Rnd.ieee es interp).2, ∃ p ∈ prLoop Rnd.ieee (numTotalReferences es) {} es,
      p.2 = r := fun r hr => by
    obtain ⟨p, hp, e⟩ := List.mem_map.1 hr
    exact ⟨p, hp, e⟩
  have hmain : ∀ hs : List ℚ,
      (∀ x ∈ hs, x ∈ heights Rnd.ieee trapezoid none (computePR Rnd.ieee es interp).1) →
      dotFrom Rnd.ieee 0 ((computePR Rnd.ieee es interp).2.zip hs) = 0 := by
    intro hs hsub
    refine hfin hs ?_
    intro p hp
    obtain ⟨p1, p2⟩ := List.of_mem_zip hp
    rcases Nat.eq_zero_or_pos (numTotalReferences es) with h0 | hpos
    · have hpr : ∀ x ∈ (computePR Rnd.ieee es interp).1, x = 0 := by
        have hraw : ∀ x ∈ (computePR Rnd.ieee es false).1, x = 0 := by
          intro x hx
          obtain ⟨q, hq, rfl⟩ := List.mem_map.1 hx
          rcases hpt q hq with h1 | h1
          · omega
          · exact h1.2
        cases interp with
        | false => exact hraw
        | true =>
          intro x hx
          obtain ⟨i, hi, hxi⟩ := List.mem_iff_getElem.1 hx
          have := C27_interpolated_is_max Rnd.ieee es i x
            (by rw [List.getElem?_eq_some_iff]; exact ⟨hi, hxi⟩)
          exact hraw x (List.mem_of_mem_drop this.1)
      rw [heights_zero _ z trapezoid _ hpr none (by simp) _ (hsub _ p2), mul_zero]
    · obtain ⟨q, hq, e⟩ := hrc _ p1
      rcases hpt q hq with h1 | h1
      · rw [← e, h1.2, zero_mul]
      · omega
  simp only [hmain _ (fun x hx => hx), hmain _ (fun x hx => List.mem_of_mem_tail hx), sub_self, z]

/-- C30: without a hit the average precision is exactly 0 also in double precision. -/
theorem C30_worthless_double (ms : List (KwsMatch Q L)) (collapse interp trapezoid : Bool)
    (h : ∀ m ∈ ms, m.error = Outcome.falsePos.error ∨ m.error = Outcome.falseNeg.error)
    (hl : ms.length ≤ 2 ^ 24) :
    globalAP Rnd.ieee ms collapse interp trapezoid = .ok 0 := by
  have h0 := worthless_hard ms h
  have hh : ∀ m ∈ ms, Hard m.error := by
    intro m hm
    rcases h m hm with e | e <;> rw [e] <;> simp [Hard, Outcome.error]
  have hg : ∀ m ∈ ms, OnGrid m.error := fun m hm => hard_grid _ (hh m hm)
  have hrt : ∀ m ∈ ms, Rates m.error := fun m hm => (h0 m hm).2.2.2
  have l1 := sum_le_length ms (fun m => m.error.nh) (fun m => nh_le_one m.error)
  have l2 := sum_le_length ms (fun m => m.error.nr) (fun m => nr_le_one m.error)
  unfold globalAP matchesPR
  simp only
  split
  · rw [collapse_hard Rnd.ieee ms hh (fits32_of Rnd.ieee ieee_faithful _ hl)]
    refine worthless_double _ interp trapezoid (worthless_collapse ms h) (collapse_grid ms hg)
      (collapse_ok Rnd.exact exact_faithful ms hrt (fits32_exact _) (fits32_exact _)) ?_ ?_
    · rw [(collapse_sums Rnd.exact ms).1]; omega
    · rw [(collapse_sums Rnd.exact ms).2]; omega
  · refine worthless_double _ interp trapezoid ?_ ?_ (errors_ok ms hrt) ?_ ?_
    · intro e he
      obtain ⟨m, hm, rfl⟩ := List.mem_map.1 he
      exact ⟨(h0 m hm).1, (h0 m hm).2.1, (h0 m hm).2.2.1⟩
    · intro e he
      obtain ⟨m, hm, rfl⟩ := List.mem_map.1 he
      exact hg m hm
    · rw [(errors_sums ms).1]; omega
    · rw [(errors_sums ms).2.1]; omega

end

/-- Matches with decreasing scores. -/
def rankedMatches : List Outcome → List (KwsMatch Nat Nat)
  | [] => []
  | .hit :: r =>
    ⟨some ⟨1, r.length⟩, some ⟨⟨1, r.length⟩, .fin r.length⟩, Outcome.hit.error⟩ :: rankedMatches r
  | .falsePos :: r =>
    ⟨none, some ⟨⟨1, r.length⟩, .fin r.length⟩, Outcome.falsePos.error⟩ :: rankedMatches r
  | .falseNeg :: r => ⟨some ⟨1, r.length⟩, none, Outcome.falseNeg.error⟩ :: rankedMatches r

/-- C29 is false in double precision: two hits followed by six false positives, all with different
scores, have an average precision of 1 + 2^-51 with the default options of the tool. -/
theorem C29_double_refuted : ∃ (ms : List (KwsMatch Nat Nat)) (v : ℚ),
    (∀ m ∈ ms, Rates m.error) ∧ globalAP Rnd.ieee ms true true true = .ok v ∧ 1 < v :=
  ⟨rankedMatches ([.hit, .hit] ++ List.replicate 6 .falsePos), 1 + 1 / 2 ^ 51,
    by unfold Rates; decide +kernel, by decide +kernel, by norm_num⟩

/-- C30 is false in double precision: 63 hits and nothing else, all with different scores, have an
average precision of 1 - 2^-48 with the default options of the tool. -/
theorem C30_double_refuted : ∃ (ms : List (KwsMatch Nat Nat)) (v : ℚ),
    ms ≠ [] ∧ (∀ m ∈ ms, m.error = Outcome.hit.error) ∧
    globalAP Rnd.ieee ms true true true = .ok v ∧ v < 1 :=
  ⟨rankedMatches (List.replicate 63 .hit), 1 - 1 / 2 ^ 48, by decide +kernel, by decide +kernel,
    by decide +kernel, by norm_num⟩

/-- The hypotheses of the bounds hold for these matches; here the error is not zero. -/
example : let ms := rankedMatches [.hit, .falsePos, .hit, .falseNeg]
    (∀ m ∈ ms, m.error = Outcome.hit.error ∨ m.error = Outcome.falsePos.error ∨
      m.error = Outcome.falseNeg.error) ∧ ms.length ≤ 2 ^ 24 ∧
    globalAP Rnd.exact ms true true true = .ok (5 / 9) ∧
    globalAP Rnd.ieee ms true true true = .ok (2501999792983609 / 4503599627370496) := by
  refine ⟨by decide +kernel, by decide +kernel, by decide +kernel, by decide +kernel⟩

end Kws
