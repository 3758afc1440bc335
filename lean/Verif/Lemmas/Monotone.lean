import Verif.Lemmas.SegTally

/-! Comparison of areas under curves of cumulative counts -/

set_option linter.unusedSectionVars false

namespace Kws
open Spec

/-! ## Areas as sums over the hits -/

section
variable {α : Type} [Field α]

/-- The height at the `i`-th hit: that of the first entry with more than `i` hits. -/
def atHit (l : List (α × ℕ)) (i : ℕ) : α :=
  ((l.find? (fun p => decide (i < p.2))).map Prod.fst).getD 0

/-- Heights times increases. -/
def stepArea : ℕ → List (α × ℕ) → α
  | _, [] => 0
  | h0, p :: l => p.1 * ((p.2 : α) - h0) + stepArea p.2 l

theorem stepArea_sum (l : List (α × ℕ)) : ∀ (h0 N : ℕ), h0 ≤ N → (∀ p ∈ l, h0 ≤ p.2 ∧ p.2 ≤ N) →
    l.Pairwise (fun a b => a.2 ≤ b.2) → stepArea h0 l = ∑ i ∈ Finset.Ico h0 N, atHit l i := by
  induction l with
  | nil => intro h0 N _ _ _; simp [stepArea, atHit]
  | cons p l ih =>
    intro h0 N hN hl hs
    rw [List.pairwise_cons] at hs
    obtain ⟨h1, h2⟩ := hl p (by simp)
    rw [stepArea, ih p.2 N h2 (fun q hq => ⟨hs.1 q hq, (hl q (by simp [hq])).2⟩) hs.2,
      ← Finset.sum_Ico_consecutive _ h1 h2]
    congr 1
    · rw [Finset.sum_congr rfl (g := fun _ => p.1)]
      · rw [Finset.sum_const, Nat.card_Ico, nsmul_eq_mul, Nat.cast_sub h1]
        ring
      · intro i hi
        rw [Finset.mem_Ico] at hi
        unfold atHit
        rw [List.find?_cons_of_pos (by simpa using hi.2)]
        rfl
    · refine Finset.sum_congr rfl fun i hi => ?_
      rw [Finset.mem_Ico] at hi
      unfold atHit
      rw [List.find?_cons_of_neg (by simpa using hi.1)]

theorem atHit_append (pre post : List (α × ℕ)) (p : α × ℕ) (i : ℕ) (hpre : ∀ q ∈ pre, q.2 ≤ i)
    (hp : i < p.2) : atHit (pre ++ p :: post) i = p.1 := by
  have : (pre ++ p :: post).find? (fun p => decide (i < p.2)) = some p := by
    rw [List.find?_eq_some_iff_append]
    exact ⟨by simpa using hp, pre, post, rfl, fun q hq => by simpa using hpre q hq⟩
  unfold atHit
  rw [this]
  rfl

theorem atHit_none (l : List (α × ℕ)) (i : ℕ) (h : ∀ q ∈ l, q.2 ≤ i) : atHit l i = 0 := by
  have : l.find? (fun p => decide (i < p.2)) = none := by
    rw [List.find?_eq_none]
    intro q hq
    simpa using h q hq
  unfold atHit
  rw [this]
  rfl

end

/-- Each list has a first entry with more than `i` hits, or none. -/
theorem split_hit {β : Type} (l : List β) (f : β → ℕ) (i : ℕ) : (∀ q ∈ l, f q ≤ i) ∨
    ∃ pre p post, l = pre ++ p :: post ∧ (∀ q ∈ pre, f q ≤ i) ∧ i < f p := by
  induction l with
  | nil => exact Or.inl (by simp)
  | cons a l ih =>
    by_cases ha : i < f a
    · exact Or.inr ⟨[], a, l, rfl, by simp, ha⟩
    · rcases ih with h | ⟨pre, p, post, rfl, h1, h2⟩
      · exact Or.inl (by simpa [not_lt.1 ha] using h)
      · exact Or.inr ⟨a :: pre, p, post, rfl, by simpa [not_lt.1 ha] using h1, h2⟩

/-- The heights of the steps (or of the middles of the trapezoids). -/
def hts (t : Bool) : Option ℚ → List (ℚ × ℕ) → List (ℚ × ℕ)
  | _, [] => []
  | prev, p :: l =>
    ((match prev with
      | some q => if t then (p.1 + q) / 2 else p.1
      | none => p.1), p.2) :: hts t (some p.1) l

theorem hts_snd (t : Bool) (l : List (ℚ × ℕ)) : ∀ prev, (hts t prev l).map Prod.snd = l.map Prod.snd := by
  induction l with
  | nil => intro _; rfl
  | cons p l ih => intro prev; simp [hts, ih]

theorem areaRec_steps (t : Bool) (T : ℚ) (l : List (ℚ × ℕ)) : ∀ q : ℚ × ℕ,
    areaRec t (some (q.1, (q.2 : ℚ) / T)) (l.map (fun p => (p.1, (p.2 : ℚ) / T))) =
      stepArea q.2 (hts t (some q.1) l) / T := by
  induction l with
  | nil => intro q; simp [areaRec, stepArea, hts]
  | cons p l ih =>
    intro q
    simp only [List.map_cons, areaRec, hts, stepArea, ih]
    ring

theorem areaRec_steps_none (t : Bool) (T : ℚ) (l : List (ℚ × ℕ)) :
    areaRec t none (l.map (fun p => (p.1, (p.2 : ℚ) / T))) = stepArea 0 (hts t none l) / T := by
  cases l with
  | nil => simp [areaRec, stepArea, hts]
  | cons p l =>
    simp only [List.map_cons, areaRec, hts, stepArea, areaRec_steps]
    push_cast
    ring

theorem hts_append (t : Bool) (pre post : List (ℚ × ℕ)) (p : ℚ × ℕ) : ∀ prev,
    ∃ pre' post', hts t prev (pre ++ p :: post) = pre' ++
      ((match (pre.getLast?.map Prod.fst).or prev with
        | some q => if t then (p.1 + q) / 2 else p.1
        | none => p.1), p.2) :: post' ∧ pre'.map Prod.snd = pre.map Prod.snd := by
  induction pre with
  | nil => intro prev; exact ⟨[], hts t (some p.1) post, by simp [hts], rfl⟩
  | cons a pre ih =>
    intro prev
    obtain ⟨pre', post', h1, h2⟩ := ih (some a.1)
    refine ⟨((match prev with
      | some q => if t then (a.1 + q) / 2 else a.1
      | none => a.1), a.2) :: pre', post', ?_, ?_⟩
    · show ((match prev with
        | some q => if t then (a.1 + q) / 2 else a.1
        | none => a.1), a.2) :: hts t (some a.1) (pre ++ p :: post) = _
      rw [h1, List.cons_append]
      congr 3
      cases pre with
      | nil => simp
      | cons b pre => simp [List.getLast?_cons]
    · simp [h2]

/-- The height at the `i`-th hit. -/
theorem atHit_hts (t : Bool) (pre post : List (ℚ × ℕ)) (p : ℚ × ℕ) (i : ℕ)
    (hpre : ∀ q ∈ pre, q.2 ≤ i) (hp : i < p.2) : atHit (hts t none (pre ++ p :: post)) i =
      match pre.getLast?.map Prod.fst with
      | some q => if t then (p.1 + q) / 2 else p.1
      | none => p.1 := by
  obtain ⟨pre', post', h1, h2⟩ := hts_append t pre post p none
  rw [h1, atHit_append _ _ _ _ ?_ (by exact hp)]
  · simp
  · intro q hq
    have : q.2 ∈ pre.map Prod.snd := by rw [← h2]; exact List.mem_map_of_mem hq
    obtain ⟨x, hx, e⟩ := List.mem_map.1 this
    rw [← e]
    exact hpre x hx

/-! ## Curves of cumulative counts -/

/-- Precision from the numbers of hits and false positives. -/
def precOf (c : ℕ × ℕ) : ℚ := if c.1 + c.2 = 0 then 1 else (c.1 : ℚ) / (c.1 + c.2)

theorem precOf_nonneg (c : ℕ × ℕ) : 0 ≤ precOf c := by
  unfold precOf
  split
  · norm_num
  · positivity

theorem precOf_zero {c : ℕ × ℕ} (h : c.1 = 0) (hc : 0 < c.1 + c.2) : precOf c = 0 := by
  unfold precOf
  rw [if_neg (by omega), h]
  simp

/-- More hits and fewer false positives give a higher precision. -/
theorem precOf_mono {c d : ℕ × ℕ} (hc : 0 < c.1 + c.2) (h1 : c.1 ≤ d.1) (h2 : d.2 ≤ c.2) :
    precOf c ≤ precOf d := by
  rcases Nat.eq_zero_or_pos d.1 with hd | hd
  · rw [precOf_zero (by omega) hc]
    exact precOf_nonneg d
  · unfold precOf
    rw [if_neg (by omega), if_neg (by omega), div_le_div_iff₀ (by exact_mod_cast hc) (by positivity)]
    have : c.1 * d.2 ≤ d.1 * c.2 := Nat.mul_le_mul h1 h2
    have : (c.1 * d.2 : ℚ) ≤ d.1 * c.2 := by exact_mod_cast this
    nlinarith

/-- The interpolated precision at the first of a list of counts. -/
def bestFrom (c : ℕ × ℕ) (cs : List (ℕ × ℕ)) : ℚ := maxFst (precOf c) (cs.map (fun d => (precOf d, 0)))

theorem bestFrom_le (c : ℕ × ℕ) (cs : List (ℕ × ℕ)) (b : ℚ) :
    bestFrom c cs ≤ b ↔ ∀ d ∈ c :: cs, precOf d ≤ b := by
  unfold bestFrom
  rw [maxFst_le, List.forall_mem_map, List.forall_mem_cons]

theorem le_bestFrom {c d : ℕ × ℕ} {cs : List (ℕ × ℕ)} (h : d ∈ c :: cs) : precOf d ≤ bestFrom c cs :=
  (bestFrom_le c cs _).1 le_rfl d h

/-- The heights, interpolated or not, with the numbers of hits. -/
def hitCurve (interp : Bool) : List (ℕ × ℕ) → List (ℚ × ℕ)
  | [] => []
  | c :: cs => (if interp then bestFrom c cs else precOf c, c.1) :: hitCurve interp cs

theorem hitCurve_snd (interp : Bool) (cs : List (ℕ × ℕ)) :
    (hitCurve interp cs).map Prod.snd = cs.map Prod.fst := by
  induction cs with
  | nil => rfl
  | cons c cs ih => simp [hitCurve, ih]

theorem hitCurve_append (interp : Bool) (pre post : List (ℕ × ℕ)) (c : ℕ × ℕ) :
    ∃ pre', hitCurve interp (pre ++ c :: post) = pre' ++ hitCurve interp (c :: post) ∧
      pre'.map Prod.snd = pre.map Prod.fst ∧ pre'.getLast?.map Prod.fst =
        pre.getLast?.map (fun a => if interp then bestFrom a (c :: post) else precOf a) := by
  induction pre with
  | nil => exact ⟨[], rfl, rfl, rfl⟩
  | cons a pre ih =>
    obtain ⟨pre', h1, h2, h3⟩ := ih
    refine ⟨(if interp then bestFrom a (pre ++ c :: post) else precOf a, a.1) :: pre', ?_, ?_, ?_⟩
    · rw [List.cons_append, hitCurve, h1]
      rfl
    · simp [h2]
    · rcases pre with _ | ⟨b, pre⟩
      · have : pre' = [] := by simpa using h2
        subst this
        simp
      · rcases pre' with _ | ⟨b', pre'⟩
        · simp at h2
        · rw [List.getLast?_cons_cons, List.getLast?_cons_cons]
          exact h3

/-- The height at the `i`-th hit, from the counts at and before it. -/
theorem atHit_curve (interp t : Bool) (pre post : List (ℕ × ℕ)) (c : ℕ × ℕ) (i : ℕ)
    (hpre : ∀ q ∈ pre, q.1 ≤ i) (hc : i < c.1) :
    atHit (hts t none (hitCurve interp (pre ++ c :: post))) i =
      let p := if interp then bestFrom c post else precOf c
      match pre.getLast? with
      | some a => if t then (p + if interp then bestFrom a (c :: post) else precOf a) / 2 else p
      | none => p := by
  obtain ⟨pre', h1, h2, h3⟩ := hitCurve_append interp pre post c
  rw [h1, hitCurve, atHit_hts t pre' _ _ i _ hc, h3]
  · cases pre.getLast? <;> rfl
  · intro q hq
    have : q.2 ∈ pre.map Prod.fst := by rw [← h2]; exact List.mem_map_of_mem hq
    obtain ⟨x, hx, e⟩ := List.mem_map.1 this
    rw [← e]
    exact hpre x hx

theorem atHit_nothing (interp t : Bool) (cs : List (ℕ × ℕ)) (i : ℕ) (h : ∀ q ∈ cs, q.1 ≤ i) :
    atHit (hts t none (hitCurve interp cs)) i = 0 := by
  refine atHit_none _ _ fun q hq => ?_
  have : q.2 ∈ cs.map Prod.fst := by
    rw [← hitCurve_snd interp, ← hts_snd t _ none]
    exact List.mem_map_of_mem hq
  obtain ⟨x, hx, e⟩ := List.mem_map.1 this
  rw [← e]
  exact h x hx

theorem atHit_nonneg (interp t : Bool) (cs : List (ℕ × ℕ)) (i : ℕ) :
    0 ≤ atHit (hts t none (hitCurve interp cs)) i := by
  have hb : ∀ c cs, 0 ≤ bestFrom c cs := fun c cs => (precOf_nonneg c).trans (le_bestFrom (by simp))
  rcases split_hit cs Prod.fst i with h | ⟨pre, c, post, rfl, h1, h2⟩
  · rw [atHit_nothing _ _ _ _ h]
  · rw [atHit_curve interp t pre post c i h1 h2]
    have hp : 0 ≤ if interp then bestFrom c post else precOf c := by
      split
      · exact hb _ _
      · exact precOf_nonneg _
    have hq : ∀ a, 0 ≤ if interp then bestFrom a (c :: post) else precOf a := by
      intro a
      split
      · exact hb _ _
      · exact precOf_nonneg _
    simp only
    cases pre.getLast? with
    | none => exact hp
    | some a =>
      simp only
      split
      · have := hq a
        linarith
      · exact hp

theorem topped_points (T : ℚ) (cs : List (ℕ × ℕ)) :
    topped (cs.map (fun c => (precOf c, (c.1 : ℚ) / T))) =
      (hitCurve true cs).map (fun p => (p.1, (p.2 : ℚ) / T)) := by
  induction cs with
  | nil => rfl
  | cons c cs ih =>
    rw [List.map_cons, topped_cons, ih, hitCurve, List.map_cons]
    congr 2
    simp only [if_true, bestFrom]
    refine maxFst_congr _ _ _ _ fun b => ?_
    rw [List.forall_mem_map, List.forall_mem_map]

/-- The area as a sum over the hits. -/
theorem curveArea_hits (interp t : Bool) (T N : ℕ) (cs : List (ℕ × ℕ)) (hN : ∀ c ∈ cs, c.1 ≤ N)
    (hs : cs.Pairwise (fun a b => a.1 ≤ b.1)) :
    curveArea interp t (cs.map (fun c => (precOf c, (c.1 : ℚ) / T))) =
      (∑ i ∈ Finset.range N, atHit (hts t none (hitCurve interp cs)) i) / T := by
  have e : curveArea interp t (cs.map (fun c => (precOf c, (c.1 : ℚ) / T))) =
      areaRec t none ((hitCurve interp cs).map (fun p => (p.1, (p.2 : ℚ) / T))) := by
    unfold Spec.curveArea
    simp only
    rw [areaUnder_rec]
    cases interp
    · congr 1
      simp only [Bool.false_eq_true, if_false]
      clear hN hs
      induction cs with
      | nil => rfl
      | cons c cs ih => simp [hitCurve, ih]
    · rw [if_pos rfl, topped_points]
  have hsnd := (hts_snd t (hitCurve interp cs) none).trans (hitCurve_snd interp cs)
  rw [e, areaRec_steps_none, stepArea_sum _ 0 N (Nat.zero_le _), Finset.range_eq_Ico]
  · intro p hp
    have : p.2 ∈ cs.map Prod.fst := by rw [← hsnd]; exact List.mem_map_of_mem hp
    obtain ⟨x, hx, ex⟩ := List.mem_map.1 this
    exact ⟨Nat.zero_le _, ex ▸ hN x hx⟩
  · have : ((hts t none (hitCurve interp cs)).map Prod.snd).Pairwise (· ≤ ·) := by
      rw [hsnd]
      exact List.pairwise_map.2 hs
    exact List.pairwise_map.1 this

/-! ## Comparison -/

/-- With interpolation, a curve is not below another one if it has, for each point of the other one, a
point with as many hits and no more false positives, and if its points are not late: up to any point
of the other one they have no more false positives, unless they have as many hits as the next one. -/
theorem atHit_mono (t : Bool) (cs cs' : List (ℕ × ℕ)) (hp : ∀ c ∈ cs, 0 < c.1 + c.2)
    (hsc : cs.Pairwise (fun a b => a.1 ≤ b.1)) (hs : cs'.Pairwise (fun a b => a.1 ≤ b.1))
    (h1 : ∀ c ∈ cs, c.1 = 0 ∨ ∃ d ∈ cs', c.1 ≤ d.1 ∧ d.2 ≤ c.2)
    (h2 : ∀ pre a b post, cs = pre ++ a :: b :: post → ∀ d ∈ cs', d.2 ≤ a.2 ∨ b.1 ≤ d.1) (i : ℕ) :
    atHit (hts t none (hitCurve true cs)) i ≤ atHit (hts t none (hitCurve true cs')) i := by
  rcases split_hit cs Prod.fst i with h | ⟨pre, b, post, rfl, hb1, hb2⟩
  · rw [atHit_nothing _ _ _ _ h]
    exact atHit_nonneg _ _ _ _
  rcases split_hit cs' Prod.fst i with h | ⟨pre', b', post', rfl, hb1', hb2'⟩
  · rcases h1 b (by simp) with h0 | ⟨d, hd, h3, _⟩
    · omega
    · have := h d hd
      omega
  rw [atHit_curve true t pre post b i hb1 hb2, atHit_curve true t pre' post' b' i hb1' hb2']
  simp only [if_true]
  -- the points from `b'` on are those with more than `i` hits
  have late : ∀ d ∈ pre' ++ b' :: post', i < d.1 → d ∈ b' :: post' := by
    intro d hd hi
    rcases List.mem_append.1 hd with h | h
    · have := hb1' d h
      omega
    · exact h
  have top : ∀ c ∈ pre ++ b :: post, i < c.1 → precOf c ≤ bestFrom b' post' := by
    intro c hc hi
    rcases h1 c hc with h0 | ⟨d, hd, h3, h4⟩
    · omega
    · exact (precOf_mono (hp c hc) h3 h4).trans (le_bestFrom (late d hd (by omega)))
  have hbest : bestFrom b post ≤ bestFrom b' post' := by
    rw [bestFrom_le]
    intro c hc
    refine top c (List.mem_append_right _ hc) ?_
    rcases List.mem_cons.1 hc with rfl | h
    · exact hb2
    · exact lt_of_lt_of_le hb2 ((List.pairwise_cons.1 (List.pairwise_append.1 hsc).2.1).1 c h)
  -- the point before `b`
  have before : ∀ a, pre.getLast? = some a → precOf a ≤
      (match pre'.getLast? with | some a' => bestFrom a' (b' :: post') | none => bestFrom b' post') := by
    intro a ha
    obtain ⟨pre2, rfl⟩ := List.getLast?_eq_some_iff.1 ha
    have ham : a ∈ pre2 ++ [a] ++ b :: post := by simp
    rcases h1 a ham with h0 | ⟨d, hd, h3, h4⟩
    · rw [precOf_zero h0 (hp a ham)]
      split
      · exact (precOf_nonneg _).trans (le_bestFrom (List.mem_cons_self ..))
      · exact (precOf_nonneg _).trans (le_bestFrom (List.mem_cons_self ..))
    · have hpd := precOf_mono (hp a ham) h3 h4
      cases hl : pre'.getLast? with
      | none =>
        have : pre' = [] := by simpa using hl
        subst this
        exact hpd.trans (le_bestFrom (by simpa using hd))
      | some a' =>
        obtain ⟨pre3, rfl⟩ := List.getLast?_eq_some_iff.1 hl
        simp only
        by_cases hda : d ∈ a' :: b' :: post'
        · exact hpd.trans (le_bestFrom hda)
        · have hd3 : d ∈ pre3 := by
            simp only [List.append_assoc, List.singleton_append, List.mem_append] at hd
            exact hd.resolve_right hda
          have hle : d.1 ≤ a'.1 := by
            have := hs.sublist (l₁ := pre3 ++ [a']) (List.sublist_append_left _ _)
            exact (List.pairwise_append.1 this).2.2 d hd3 a' (by simp)
          have ha'i : a'.1 ≤ i := hb1' a' (by simp)
          rcases h2 pre2 a b post (by simp) a' (by simp) with h5 | h5
          · exact (precOf_mono (hp a ham) (by omega) h5).trans (le_bestFrom (by simp))
          · omega
  have self : ∀ a', bestFrom b' post' ≤ bestFrom a' (b' :: post') := by
    intro a'
    rw [bestFrom_le]
    intro d hd
    exact le_bestFrom (by simp [List.mem_cons.1 hd])
  have whole : ∀ a, pre.getLast? = some a → bestFrom a (b :: post) ≤
      (match pre'.getLast? with | some a' => bestFrom a' (b' :: post') | none => bestFrom b' post') := by
    intro a ha
    rw [bestFrom_le]
    intro d hd
    rcases List.mem_cons.1 hd with rfl | hd
    · exact before d ha
    · have h3 := (le_bestFrom hd).trans hbest
      split
      · exact h3.trans (self _)
      · exact h3
  cases ha : pre.getLast? with
  | none =>
    cases ha' : pre'.getLast? with
    | none => exact hbest
    | some a' =>
      simp only
      split
      · have := self a'
        linarith
      · exact hbest
  | some a =>
    have h3 := whole a ha
    simp only
    split
    · cases ha' : pre'.getLast? with
      | none =>
        rw [ha'] at h3
        simp only at h3 ⊢
        linarith
      | some a' =>
        rw [ha'] at h3
        simp only at h3 ⊢
        linarith
    · cases ha' : pre'.getLast? <;> exact hbest

/-! ## Tallies -/

theorem Flt.lt_asymm' (a b : Flt) (h : Flt.lt a b = true) : Flt.lt b a = false := by
  cases a <;> cases b <;> simp_all [Flt.lt]
  exact h.le

theorem Flt.lt_irrefl' (a : Flt) : Flt.lt a a = false := by
  cases a <;> simp [Flt.lt]

/-- The counts change only at the thresholds. -/
structure CountsAt (c : Tally) (scores : List Flt) : Prop where
  sorted : scores.Pairwise (fun a b => Flt.lt b a = true)
  nan : ∀ s ∈ scores, s ≠ .nan
  mono : ∀ a b, a ≠ .nan → Flt.lt a b = false → c.hits a ≤ c.hits b ∧ c.wrong a ≤ c.wrong b
  next : ∀ s, s ≠ .nan → c.hits s = 0 ∧ c.wrong s = 0 ∨
    ∃ x ∈ scores, Flt.lt x s = false ∧ c.hits x = c.hits s ∧ c.wrong x = c.wrong s
  pos : ∀ s ∈ scores, 0 < c.hits s + c.wrong s
  refs : ∀ s, c.hits s ≤ c.refs

/-- The counts at the thresholds. -/
def Spec.Tally.counts (c : Tally) (scores : List Flt) : List (ℕ × ℕ) :=
  scores.map (fun s => (c.hits s, c.wrong s))

theorem CountsAt.counts_sorted {c : Tally} {scores : List Flt} (h : CountsAt c scores) :
    (c.counts scores).Pairwise (fun a b => a.1 ≤ b.1) := by
  unfold Tally.counts
  rw [List.pairwise_map]
  refine h.sorted.imp_of_mem fun {a b} ha _ hab => (h.mono a b (h.nan a ha) ?_).1
  exact Flt.lt_asymm' _ _ hab

/-- Average precision as a sum over the references. -/
theorem CountsAt.ap_hits {c : Tally} {scores : List Flt} (h : CountsAt c scores) (interp t : Bool) :
    c.ap interp t scores =
      (∑ i ∈ Finset.range c.refs, atHit (hts t none (hitCurve interp (c.counts scores))) i) / c.refs := by
  by_cases h0 : c.refs = 0
  · have hz : ∀ s, c.hits s = 0 := fun s => by have := h.refs s; omega
    rw [h0]
    simp only [Finset.range_zero, Finset.sum_empty, Nat.cast_zero, div_zero]
    unfold Tally.ap
    have hp : scores.map c.point = (c.counts scores).map (fun _ => ((0 : ℚ), (1 : ℚ))) := by
      unfold Tally.counts
      rw [List.map_map]
      refine List.map_congr_left fun s hs => ?_
      have := h.pos s hs
      unfold Tally.point
      simp only [hz, zero_add, h0, if_true, Function.comp_apply] at this ⊢
      rw [if_neg (by omega)]
      simp
    rw [hp]
    unfold Spec.curveArea
    simp only
    refine areaUnder_zero _ _ _ (Or.inl ?_)
    intro x hx
    have : ∀ l : List (ℕ × ℕ), ∀ x ∈ (topped (l.map (fun _ => ((0 : ℚ), (1 : ℚ))))).map Prod.fst, x = 0 := by
      intro l
      induction l with
      | nil => simp [topped]
      | cons a l ih =>
        intro x hx
        rw [List.map_cons, topped_cons, List.map_cons, List.mem_cons] at hx
        rcases hx with rfl | hx
        · have : ∀ l : List (ℕ × ℕ), maxFst 0 (l.map (fun _ => ((0 : ℚ), (1 : ℚ)))) = 0 := by
            intro l
            induction l with
            | nil => rfl
            | cons a l ih => simpa [maxFst] using ih.le
          exact this l
        · exact ih x hx
    cases interp
    · simp only [Bool.false_eq_true, if_false, List.map_map, List.mem_map] at hx
      obtain ⟨_, _, rfl⟩ := hx
      rfl
    · rw [if_pos rfl] at hx
      exact this _ x hx
  · rw [← curveArea_hits interp t c.refs c.refs _ _ h.counts_sorted]
    · unfold Tally.ap Tally.counts
      rw [List.map_map]
      congr 1
      refine List.map_congr_left fun s _ => ?_
      unfold Tally.point precOf
      simp only [Function.comp_apply, if_neg h0]
    · intro x hx
      obtain ⟨s, _, rfl⟩ := List.mem_map.1 hx
      exact h.refs s

/-- With at least as many hits and at most as many false positives above each threshold, the
interpolated average precision is not lower. -/
theorem ap_mono (c c' : Tally) (scores scores' : List Flt) (h : CountsAt c scores)
    (h' : CountsAt c' scores') (hh : ∀ s, s ≠ .nan → c.hits s ≤ c'.hits s)
    (hw : ∀ s, s ≠ .nan → c'.wrong s ≤ c.wrong s)
    (hr : c'.refs ≤ c.refs) (t : Bool) : c.ap true t scores ≤ c'.ap true t scores' := by
  rw [h.ap_hits, h'.ap_hits]
  have key := atHit_mono t (c.counts scores) (c'.counts scores') (by
    intro x hx
    obtain ⟨s, hs, rfl⟩ := List.mem_map.1 hx
    exact h.pos s hs) h.counts_sorted h'.counts_sorted (by
    intro x hx
    obtain ⟨s, hs, rfl⟩ := List.mem_map.1 hx
    have hsn := h.nan s hs
    have h1 := hh s hsn
    rcases h'.next s hsn with ⟨e, _⟩ | ⟨x, hx, _, e1, e2⟩
    · exact Or.inl (by simp only; omega)
    · refine Or.inr ⟨_, List.mem_map_of_mem hx, ?_, ?_⟩
      · simp only [e1]; exact h1
      · simp only [e2]; exact hw s hsn) (by
    intro pre x y post e d hd
    obtain ⟨s', hs', rfl⟩ := List.mem_map.1 hd
    have hsn' := h'.nan s' hs'
    unfold Tally.counts at e
    obtain ⟨spre, rest, rfl, _, e2⟩ := List.map_eq_append_iff.1 e
    obtain ⟨a, rest, rfl, rfl, e3⟩ := List.map_eq_cons_iff.1 e2
    obtain ⟨b, spost, rfl, rfl, _⟩ := List.map_eq_cons_iff.1 e3
    have hbn : b ≠ .nan := h.nan b (by simp)
    simp only
    by_cases hb : Flt.lt b s' = true
    · refine Or.inl ((hw s' hsn').trans ?_)
      rcases h.next s' hsn' with ⟨_, e⟩ | ⟨x, hx, hxs, _, e2⟩
      · omega
      · rw [← e2]
        refine (h.mono x a (h.nan x hx) ?_).2
        -- a threshold above `b` is not below `a`
        have hbx : x ≠ b := by
          rintro rfl
          rw [hb] at hxs
          cases hxs
        rw [next_threshold h.sorted hbx hx]
        exact Flt.lt_false_trans hsn' hxs (Flt.lt_asymm' _ _ hb)
    · refine Or.inr ((h.mono b s' hbn (by simpa using hb)).1.trans (hh s' hsn')))
  have hzero : ∀ i, c'.refs ≤ i → atHit (hts t none (hitCurve true (c'.counts scores'))) i = 0 := by
    intro i hi
    refine atHit_nothing _ _ _ _ fun q hq => ?_
    obtain ⟨s, _, rfl⟩ := List.mem_map.1 hq
    exact (h'.refs s).trans hi
  have hsum : ∑ i ∈ Finset.range c'.refs, atHit (hts t none (hitCurve true (c'.counts scores'))) i =
      ∑ i ∈ Finset.range c.refs, atHit (hts t none (hitCurve true (c'.counts scores'))) i := by
    refine Finset.sum_subset (Finset.range_mono hr) fun i _ hi => hzero i ?_
    simpa using hi
  have hle := Finset.sum_le_sum (fun i (_ : i ∈ Finset.range c.refs) => key i)
  rw [← hsum] at hle
  have hpos : 0 ≤ ∑ i ∈ Finset.range c'.refs, atHit (hts t none (hitCurve true (c'.counts scores'))) i :=
    Finset.sum_nonneg fun i _ => atHit_nonneg _ _ _ _
  rcases Nat.eq_zero_or_pos c'.refs with h0 | h0
  · rw [h0] at hle ⊢
    simp only [Finset.range_zero, Finset.sum_empty, Nat.cast_zero, div_zero] at hle ⊢
    exact div_nonpos_of_nonpos_of_nonneg hle (by positivity)
  · have h1 : (0 : ℚ) < c'.refs := by exact_mod_cast h0
    have h2 : (c'.refs : ℚ) ≤ c.refs := by exact_mod_cast hr
    calc _ ≤ _ := div_le_div_of_nonneg_right hle (by positivity)
      _ ≤ _ := div_le_div_of_nonneg_left hpos h1 h2

section
variable {Q L : Type}

theorem countP_antitone (ms : List (KwsMatch Q L)) (p : KwsMatch Q L → Bool) (a b : Flt) (ha : a ≠ .nan)
    (hab : Flt.lt a b = false) : ms.countP (fun m => p m && m.hyp.any (fun h => !Flt.lt h.score a)) ≤
      ms.countP (fun m => p m && m.hyp.any (fun h => !Flt.lt h.score b)) := by
  refine List.countP_mono_left fun m _ h => ?_
  cases hm : m.hyp with
  | none => rw [hm] at h; simp at h
  | some x =>
    rw [hm] at h
    simp only [Option.any_some, Bool.and_eq_true, Bool.not_eq_true'] at h ⊢
    exact ⟨h.1, Flt.lt_false_trans ha h.2 hab⟩

/-- The counts of a list of matches change only at the scores. -/
theorem tallyOf_counts (ms : List (KwsMatch Q L)) (hn : NoNaN ms) (scores : List Flt)
    (hs : Thresholds (MatchScores ms) scores) : CountsAt (tallyOf ms) scores where
  sorted := hs.sorted
  nan s hs' := by
    obtain ⟨m, hm, x, hx, rfl⟩ := (hs.mem s).1 hs'
    have := hn m hm
    rwa [rank_of_hyp hx] at this
  mono a b ha hab := ⟨countP_antitone ms _ a b ha hab, countP_antitone ms _ a b ha hab⟩
  next s hsn := by
    by_cases hex : ∃ x ∈ scores, Flt.lt x s = false
    · -- the least threshold that is not below `s`
      have hf : scores.filter (fun x => !Flt.lt x s) ≠ [] := by
        obtain ⟨x, hx, hxs⟩ := hex
        exact List.ne_nil_of_mem (List.mem_filter.2 ⟨hx, by simpa using hxs⟩)
      obtain ⟨pre, y, e⟩ : ∃ pre y, scores.filter (fun x => !Flt.lt x s) = pre ++ [y] :=
        ⟨_, _, (List.dropLast_append_getLast hf).symm⟩
      have hy : y ∈ scores.filter (fun x => !Flt.lt x s) := by rw [e]; simp
      obtain ⟨hy1, hy2⟩ := List.mem_filter.1 hy
      have hy2 : Flt.lt y s = false := by simpa using hy2
      have hyn : y ≠ .nan := by
        obtain ⟨m, hm, x, hx, rfl⟩ := (hs.mem y).1 hy1
        have := hn m hm
        rwa [rank_of_hyp hx] at this
      refine Or.inr ⟨y, hy1, hy2, ?_⟩
      refine tally_eq_of ms s y fun m hm x hx => ⟨fun h => ?_, fun h => Flt.lt_false_trans hyn h hy2⟩
      have hxm : x.score ∈ scores.filter (fun x => !Flt.lt x s) :=
        List.mem_filter.2 ⟨(hs.mem _).2 ⟨m, hm, x, hx, rfl⟩, by simpa using h⟩
      rw [e] at hxm
      rcases List.mem_append.1 hxm with h1 | h1
      · have hp := hs.sorted.sublist (List.filter_sublist (p := fun x => !Flt.lt x s))
        rw [e] at hp
        exact Flt.lt_asymm' _ _ ((List.pairwise_append.1 hp).2.2 _ h1 y (by simp))
      · rw [List.mem_singleton.1 h1]
        exact Flt.lt_irrefl' _
    · push Not at hex
      refine Or.inl ⟨?_, ?_⟩ <;>
      · refine List.countP_eq_zero.2 fun m hm => ?_
        cases hx : m.hyp with
        | none => simp
        | some x =>
          have := hex x.score ((hs.mem _).2 ⟨m, hm, x, hx, rfl⟩)
          simp [this]
  pos s hs' := by
    obtain ⟨m, hm, x, hx, rfl⟩ := (hs.mem s).1 hs'
    cases hr : m.ref with
    | none =>
      have : 0 < (tallyOf ms).wrong x.score :=
        List.countP_pos_iff.2 ⟨m, hm, by simp [hr, hx, Flt.lt_irrefl']⟩
      omega
    | some r =>
      have : 0 < (tallyOf ms).hits x.score :=
        List.countP_pos_iff.2 ⟨m, hm, by simp [hr, hx, Flt.lt_irrefl']⟩
      omega
  refs s := List.countP_mono_left fun m _ h => by
    simp only [Bool.and_eq_true] at h
    exact h.1

end

end Kws
