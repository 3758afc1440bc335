import Verif.Lemmas.Cuts
import Verif.Lemmas.Decompose
import Verif.Lemmas.Hits

/-!
# Lists of matches without false positives, and matchings restricted to some queries
-/

namespace Kws
open Spec

section
variable {Q L : Type}

/-! ## Without false positives the average precision is the recall -/

theorem cuts_last (collapse : Bool) (ms : List (KwsMatch Q L)) (h : ms ≠ []) :
    (cuts collapse ms).getLast? = some (ms.countP IsHit, ms.countP IsWrong) := by
  obtain ⟨n, hn⟩ : ∃ n, ms.length = n + 1 :=
    ⟨ms.length - 1, by have := List.length_pos_iff.2 h; omega⟩
  unfold cuts
  have h1 : ms[n]?.isSome = true := by
    simp [hn]
  have h2 : ms[n + 1]? = none := by simp [hn]
  rw [hn, List.range_succ, List.filter_append, List.map_append]
  have h3 : ([n].filter fun k => !collapse || decide (ms[k]?.map rank ≠ ms[k + 1]?.map rank)) = [n] := by
    rw [List.filter_eq_self]
    intro k hk
    rw [List.mem_singleton] at hk
    subst hk
    rw [h2]
    cases hm : ms[k]? with
    | none => rw [hm] at h1; simp at h1
    | some x => simp
  rw [h3]
  simp only [List.map_cons, List.map_nil, List.getLast?_append, List.getLast?_singleton]
  rw [List.take_of_length_le (by omega)]
  simp

theorem cuts_mono (collapse : Bool) (ms : List (KwsMatch Q L)) :
    (cuts collapse ms).Pairwise (fun a b => a.1 ≤ b.1) := by
  unfold cuts
  rw [List.pairwise_map]
  refine List.Pairwise.filter _ (List.pairwise_lt_range.imp ?_)
  intro a b hab
  exact List.Sublist.countP_le (List.take_sublist_take_left (by omega))

theorem cuts_clean (collapse : Bool) (ms : List (KwsMatch Q L)) (h : ∀ m ∈ ms, m.ref.isSome = true) :
    ∀ c ∈ cuts collapse ms, c.2 = 0 := by
  intro c hc
  unfold cuts at hc
  obtain ⟨k, _, rfl⟩ := List.mem_map.1 hc
  dsimp only
  rw [List.countP_eq_zero]
  intro m hm
  have := h m (List.mem_of_mem_take hm)
  unfold IsWrong
  cases hr : m.ref <;> simp_all

theorem topped_ones (pts : List (ℚ × ℚ)) (h : ∀ p ∈ pts, p.1 = 1) : topped pts = pts := by
  induction pts with
  | nil => rfl
  | cons p pts ih =>
    have h1 : ∀ (l : List (ℚ × ℚ)) (m : ℚ), m = 1 → (∀ q ∈ l, q.1 = 1) →
        l.foldr (fun q m => max q.1 m) m = 1 := by
      intro l m hm hl
      induction l with
      | nil => exact hm
      | cons q l ih' =>
        rw [List.foldr_cons, ih' (fun x hx => hl x (by simp [hx])), hl q (by simp), max_self]
    have hp := h p (by simp)
    rw [topped, h1 pts p.1 hp (fun q hq => h q (by simp [hq])), ih (fun q hq => h q (by simp [hq]))]
    obtain ⟨a, b⟩ := p
    simp_all

theorem areaUnder_allOne (trapezoid : Bool) (pts : List (ℚ × ℚ)) (h : ∀ p ∈ pts, p.1 = 1) :
    areaUnder trapezoid (pts.map Prod.fst) (pts.map Prod.snd) = (pts.getLast?.map Prod.snd).getD 0 := by
  have hone : ∀ i < pts.length, (pts.map Prod.fst).getD i 0 = 1 := by
    intro i hi
    rw [List.getD_eq_getElem?_getD, List.getElem?_map, List.getElem?_eq_getElem hi]
    exact h _ (List.getElem_mem hi)
  have key : ∀ n ≤ pts.length, (∑ i ∈ Finset.range n,
      (if trapezoid = true ∧ 0 < i then ((pts.map Prod.fst).getD i 0 + (pts.map Prod.fst).getD (i - 1) 0) / 2
        else (pts.map Prod.fst).getD i 0) *
      ((pts.map Prod.snd).getD i 0 - if i = 0 then 0 else (pts.map Prod.snd).getD (i - 1) 0)) =
      if n = 0 then 0 else (pts.map Prod.snd).getD (n - 1) 0 := by
    intro n
    induction n with
    | zero => intro _; simp
    | succ n ih =>
      intro hn
      rw [Finset.sum_range_succ, ih (by omega), hone n (by omega), hone (n - 1) (by omega)]
      norm_num
  unfold areaUnder
  rw [List.length_map, key _ le_rfl]
  rcases List.eq_nil_or_concat pts with rfl | ⟨l, p, rfl⟩
  · rfl
  · simp

theorem curveArea_ones (interp trapezoid : Bool) (pts : List (ℚ × ℚ)) (h : ∀ p ∈ pts, p.1 = 1) :
    curveArea interp trapezoid pts = (pts.getLast?.map Prod.snd).getD 0 := by
  unfold curveArea
  rw [topped_ones pts h]
  simp only [ite_self]
  exact areaUnder_allOne trapezoid pts h

/-- Without false positives the average precision is the share of references that are found. -/
theorem listAP_clean (collapse interp trapezoid : Bool) (ms : List (KwsMatch Q L))
    (h : ∀ m ∈ ms, m.ref.isSome = true) (h0 : ms ≠ []) :
    listAP collapse interp trapezoid ms = (ms.countP IsHit : ℚ) / ms.length := by
  have hr : references ms = ms.length := List.countP_eq_length.2 h
  have h1 : ms.length ≠ 0 := by simpa using h0
  unfold listAP
  rw [curveArea_ones, List.getLast?_map, cuts_last collapse ms h0, hr]
  · simp [cutPoint, h1]
  · intro p hp
    obtain ⟨c, hc, rfl⟩ := List.mem_map.1 hp
    have := cuts_clean collapse ms h c hc
    unfold cutPoint
    dsimp only
    rw [this]
    split
    · rfl
    · rename_i hne
      have : (c.1 : ℚ) ≠ 0 := by exact_mod_cast (by simpa using hne : c.1 ≠ 0)
      simp [this]

theorem cutGain_clean (cs : List (ℕ × ℕ)) : ∀ h : ℕ, (∀ c ∈ cs, c.2 = 0) → (∀ c ∈ cs, h ≤ c.1) →
    cs.Pairwise (fun a b => a.1 ≤ b.1) →
    cutGain h 0 cs = ∑ k ∈ Finset.Ico h ((cs.getLast?.map Prod.fst).getD h), 1 / Real.logb 2 (k + 2) := by
  induction cs with
  | nil => intro h _ _ _; simp [cutGain]
  | cons c cs ih =>
    intro h h0 hh hp
    obtain ⟨p1, p2⟩ := List.pairwise_cons.1 hp
    have hc := h0 c (by simp)
    have hle := hh c (by simp)
    rw [cutGain, hc, ih c.1 (fun x hx => h0 x (by simp [hx])) (fun x hx => p1 x hx) p2]
    have hlast : ((c :: cs).getLast?.map Prod.fst).getD h = (cs.getLast?.map Prod.fst).getD c.1 := by
      rw [List.getLast?_cons]
      cases cs.getLast? <;> rfl
    have hge : c.1 ≤ (cs.getLast?.map Prod.fst).getD c.1 := by
      cases hl : cs.getLast? with
      | none => simp
      | some x => simpa using p1 x (List.mem_of_getLast? hl)
    rw [hlast, ← Finset.sum_Ico_consecutive _ hle hge]
    congr 1
    refine Finset.sum_congr (by simp) ?_
    intro k hk
    rw [Finset.mem_Ico] at hk
    have : (c.1 : ℝ) - h ≠ 0 := by
      have : (h : ℝ) < c.1 := by exact_mod_cast (by omega : h < c.1)
      linarith
    rw [Nat.cast_zero, sub_zero, add_zero, div_self this]
    norm_num

/-- Without false positives the NDCG is the gain of the references that are found, ranked first. -/
theorem listNDCG_clean (collapse : Bool) (ms : List (KwsMatch Q L))
    (h : ∀ m ∈ ms, m.ref.isSome = true) (h0 : ms ≠ []) :
    listNDCG collapse ms = (∑ k ∈ Finset.range (ms.countP IsHit), 1 / Real.logb 2 (k + 2)) /
      ∑ k ∈ Finset.range ms.length, 1 / Real.logb 2 (k + 2) := by
  have hr : references ms = ms.length := List.countP_eq_length.2 h
  have h1 : ms.length ≠ 0 := by simpa using h0
  unfold listNDCG
  rw [hr, if_neg h1, cutGain_clean _ 0 (cuts_clean collapse ms h) (fun _ _ => Nat.zero_le _)
    (cuts_mono collapse ms), cuts_last collapse ms h0]
  simp

end

/-! ## Restriction to some queries -/

section
variable {RE HE : Type}

/-- A greedy matching consists of those of two parts that have nothing to do with each other. -/
theorem Spec.Greedy.filter (p : RE → Bool) (p' : HE → Bool) {overl : HE → List RE}
    {score : RE → HE → MatchError} {earlier entries rep : List (Match RE HE)} {hs : List HE}
    (h : Greedy overl score earlier hs entries rep)
    (hp : ∀ h ∈ hs, ∀ r ∈ overl h, p r = p' h) :
    ∀ earlier', (∀ r, p r = true → (Taken earlier' r ↔ Taken earlier r)) →
      Greedy overl score earlier' (hs.filter p') (entries.filter (keptMatch p p'))
        (rep.filter (keptMatch p p')) := by
  induction h with
  | nil earlier => intro e' _; exact .nil e'
  | cons earlier h hs entry repeats entries repeated d1 d2 _ ih =>
    intro e' he
    have ho := hp h (by simp)
    have hent : ∀ m ∈ entry, keptMatch p p' m = p' h := by
      intro m hm
      rcases d1 with ⟨_, rfl⟩ | ⟨l1, r, l2, e, _, _, _, rfl⟩ | ⟨_, _, rfl⟩
      · rw [List.mem_singleton] at hm; subst hm; rfl
      · rw [List.mem_singleton] at hm
        subst hm
        exact ho r (by simp [e])
      · simp at hm
    have hrep : ∀ m ∈ repeats, keptMatch p p' m = p' h := by
      intro m hm
      obtain ⟨l1, l2, e, _, _, rfl⟩ := d2
      obtain ⟨r, hr, rfl⟩ := List.mem_map.1 hm
      exact ho r (by simp [e, (List.mem_filter.1 hr).1])
    rw [List.filter_append, List.filter_append, List.filter_cons]
    cases hh : p' h with
    | true =>
      rw [hh] at hent hrep ho
      rw [filter_all hent, filter_all hrep, if_pos rfl]
      refine .cons _ _ _ _ _ _ _ ?_ ?_ (ih (fun x hx => hp x (by simp [hx])) _ ?_)
      · rcases d1 with d | ⟨l1, r, l2, e, a, b, c, d⟩ | ⟨a, b, c⟩
        · exact Or.inl d
        · exact Or.inr (Or.inl ⟨l1, r, l2, e, a, fun ht => b ((he r (ho r (by simp [e]))).1 ht),
            fun r' hr' hs => (he r' (ho r' (by simp [e, hr']))).2 (c r' hr' hs), d⟩)
        · exact Or.inr (Or.inr ⟨a, fun r hr hs => (he r (ho r hr)).2 (b r hr hs), c⟩)
      · obtain ⟨l1, l2, e, a, b, c⟩ := d2
        refine ⟨l1, l2, e, fun r hr hs => (he r (ho r (by simp [e, hr]))).2 (a r hr hs),
          fun r hr => ⟨(b r hr).1, fun ht => (b r hr).2 ((he r (ho r ?_)).1 ht)⟩, c⟩
        rw [e, List.mem_append]
        exact Or.inr (List.mem_of_mem_head? hr)
      · intro r hr
        have := he r hr
        unfold Taken at this ⊢
        simp only [List.mem_append, or_and_right, exists_or, this]
    | false =>
      rw [hh] at hent hrep ho
      rw [filter_none hent, filter_none hrep, List.nil_append, List.nil_append]
      refine ih (fun x hx => hp x (by simp [hx])) _ ?_
      intro r hr
      rw [he r hr]
      unfold Taken
      simp only [List.mem_append, or_and_right, exists_or]
      refine (or_iff_left ?_).symm
      rintro ⟨m, hm, hr'⟩
      have := hent m hm
      unfold keptMatch at this
      rw [hr'] at this
      simp [hr] at this

end

/-- The matching of the box tool consists of those of the queries. -/
theorem boxMatching_filter {Q D : Type} [DecidableEq D] (refs : List (Event Q (DocBox D UInt32)))
    (l : List (ScoredEvent Q (DocBox D UInt32))) (ms rep : List (KwsMatch Q (DocBox D UInt32)))
    (h : BoxMatching refs l ms rep) (P : Q → Bool) :
    BoxMatching (refs.filter (fun r => P r.query)) (l.filter (fun x => P x.base.query))
      (ms.filter (about P)) (rep.filter (about P)) := by
  obtain ⟨overl, entries, missed, h1, h2, h3, h4, rfl⟩ := h
  rw [← keptMatch_about]
  refine ⟨overl, entries.filter (keptMatch _ _), missed.filter (fun r => P r.query), ?_,
    h2.filter _ _ (fun x hx r hr => ?_) _ (fun _ _ => Iff.rfl), h3.filter _, ?_, ?_⟩
  · intro x hx
    obtain ⟨hx1, hx2⟩ := List.mem_filter.1 hx
    obtain ⟨a, b, c⟩ := h1 x hx1
    refine ⟨a, fun r => ?_, c⟩
    rw [b, List.mem_filter]
    constructor
    · rintro ⟨a, b, c⟩
      exact ⟨⟨a, by rw [b]; exact hx2⟩, b, c⟩
    · rintro ⟨⟨a, _⟩, b, c⟩
      exact ⟨a, b, c⟩
  · rw [(((h1 x hx).2.1 r).1 hr).2.1]
  · intro r
    rw [List.mem_filter, List.mem_filter, h4]
    constructor
    · rintro ⟨⟨a, b⟩, c⟩
      refine ⟨⟨a, c⟩, ?_⟩
      rintro ⟨m, hm, hr⟩
      exact b ⟨m, (List.mem_filter.1 hm).1, hr⟩
    · rintro ⟨⟨a, c⟩, b⟩
      refine ⟨⟨a, ?_⟩, c⟩
      rintro ⟨m, hm, hr⟩
      refine b ⟨m, List.mem_filter.2 ⟨hm, ?_⟩, hr⟩
      unfold keptMatch
      rw [hr]
      exact c
  · rw [List.filter_append, List.filter_map]
    rfl

end Kws
