import Verif.Lemmas.AP
import Verif.Lemmas.Ndcg
import Verif.Spec.Evaluation

/-! Facts about curves, thresholds and tallies -/

set_option linter.unusedSectionVars false

namespace Kws
open Spec

/-! ## Areas -/

/-- The area, point by point. -/
def areaRec (t : Bool) : Option (ℚ × ℚ) → List (ℚ × ℚ) → ℚ
  | _, [] => 0
  | none, p :: l => p.1 * p.2 + areaRec t (some p) l
  | some q, p :: l => (if t = true then (p.1 + q.1) / 2 else p.1) * (p.2 - q.2) + areaRec t (some p) l

theorem areaRec_some (t : Bool) (l : List (ℚ × ℚ)) : ∀ q : ℚ × ℚ, areaRec t (some q) l =
    ∑ i ∈ Finset.range l.length,
      (if t = true then ((l.map Prod.fst).getD i 0 +
        (if i = 0 then q.1 else (l.map Prod.fst).getD (i - 1) 0)) / 2 else (l.map Prod.fst).getD i 0) *
      ((l.map Prod.snd).getD i 0 - if i = 0 then q.2 else (l.map Prod.snd).getD (i - 1) 0) := by
  induction l with
  | nil => intro q; simp [areaRec]
  | cons p l ih =>
    intro q
    rw [areaRec, ih, List.length_cons, Finset.sum_range_succ', add_comm]
    congr 1
    refine Finset.sum_congr rfl fun i _ => ?_
    cases i <;> simp

theorem areaUnder_rec (t : Bool) (l : List (ℚ × ℚ)) :
    areaUnder t (l.map Prod.fst) (l.map Prod.snd) = areaRec t none l := by
  unfold areaUnder
  cases l with
  | nil => simp [areaRec]
  | cons p l =>
    rw [areaRec, areaRec_some, List.length_map, List.length_cons, Finset.sum_range_succ', add_comm]
    congr 1
    · simp
    · refine Finset.sum_congr rfl fun i _ => ?_
      cases i <;> simp

/-- The second list repeats elements of the first. -/
inductive Stutter {α : Type} : List α → List α → Prop
  | nil : Stutter [] []
  | cons (x l l') : Stutter l l' → Stutter (x :: l) (x :: l')
  | dup (x l l') : Stutter (x :: l) (x :: l') → Stutter (x :: l) (x :: x :: l')

theorem Stutter.refl {α : Type} (l : List α) : Stutter l l := by
  induction l with
  | nil => exact .nil
  | cons x l ih => exact .cons x l l ih

theorem Stutter.mem {α : Type} {l l' : List α} (h : Stutter l l') (x : α) : x ∈ l ↔ x ∈ l' := by
  induction h with
  | nil => rfl
  | cons y l l' _ ih => simp [ih]
  | dup y l l' _ ih => rw [ih]; simp

theorem Stutter.area {t : Bool} {l l' : List (ℚ × ℚ)} (h : Stutter l l') :
    ∀ q, areaRec t q l = areaRec t q l' := by
  induction h with
  | nil => intro q; rfl
  | cons x l l' _ ih => intro q; cases q <;> simp only [areaRec, ih]
  | dup x l l' _ ih =>
    intro q
    rw [ih]
    cases q <;> simp [areaRec]

/-- The largest precision of a list, at least `m`. -/
def maxFst (m : ℚ) (l : List (ℚ × ℚ)) : ℚ := l.foldr (fun q m => max q.1 m) m

theorem maxFst_le (m : ℚ) (l : List (ℚ × ℚ)) (b : ℚ) : maxFst m l ≤ b ↔ m ≤ b ∧ ∀ p ∈ l, p.1 ≤ b := by
  induction l with
  | nil => simp [maxFst]
  | cons p l ih =>
    have : maxFst m (p :: l) = max p.1 (maxFst m l) := rfl
    rw [this, max_le_iff, ih, List.forall_mem_cons]
    tauto

theorem maxFst_congr (m m' : ℚ) (l l' : List (ℚ × ℚ))
    (h : ∀ b, (m ≤ b ∧ ∀ p ∈ l, p.1 ≤ b) ↔ (m' ≤ b ∧ ∀ p ∈ l', p.1 ≤ b)) : maxFst m l = maxFst m' l' := by
  apply le_antisymm
  · rw [maxFst_le, h, ← maxFst_le]
  · rw [maxFst_le, ← h, ← maxFst_le]

theorem topped_cons (p : ℚ × ℚ) (l : List (ℚ × ℚ)) : topped (p :: l) = (maxFst p.1 l, p.2) :: topped l := rfl

theorem Stutter.topped {l l' : List (ℚ × ℚ)} (h : Stutter l l') : Stutter (topped l) (topped l') := by
  induction h with
  | nil => exact .nil
  | cons x l l' h ih =>
    rw [topped_cons, topped_cons, maxFst_congr x.1 x.1 l l' (fun b => by simp only [h.mem])]
    exact .cons _ _ _ ih
  | dup x l l' h ih =>
    rw [topped_cons, topped_cons, topped_cons] at *
    have e : maxFst x.1 (x :: l') = maxFst x.1 l' :=
      maxFst_congr _ _ _ _ (fun b => by rw [List.forall_mem_cons]; tauto)
    rw [e]
    have e' : maxFst x.1 l = maxFst x.1 l' := by
      cases h with
      | cons _ _ _ h => exact maxFst_congr _ _ _ _ (fun b => by simp only [h.mem])
      | dup _ _ l'' h =>
        refine maxFst_congr _ _ _ _ fun b => ?_
        have := h.mem
        constructor
        · rintro ⟨h1, h2⟩
          refine ⟨h1, fun p hp => ?_⟩
          rcases List.mem_cons.1 ((this p).2 hp) with rfl | h
          · exact h1
          · exact h2 p h
        · rintro ⟨h1, h2⟩
          exact ⟨h1, fun p hp => h2 p ((this p).1 (List.mem_cons_of_mem _ hp))⟩
    rw [e'] at ih ⊢
    exact .dup _ _ _ ih

theorem Stutter.curveArea {l l' : List (ℚ × ℚ)} (h : Stutter l l') (interp t : Bool) :
    curveArea interp t l = curveArea interp t l' := by
  unfold Spec.curveArea
  simp only
  rw [areaUnder_rec, areaUnder_rec]
  cases interp
  · exact h.area none
  · exact h.topped.area none

/-- Leaving out points that equal the point before them. -/
theorem stutter_filter {α β : Type} (pt : α → β) (P : α → Bool) (l : List α) : ∀ a : α,
    List.IsChain (fun a b => P b = false → pt b = pt a) (a :: l) →
    Stutter (pt a :: (l.filter P).map pt) (pt a :: l.map pt) := by
  induction l with
  | nil => intro a _; exact Stutter.refl _
  | cons b l ih =>
    intro a h
    rw [List.isChain_cons_cons] at h
    have ih := ih b h.2
    by_cases hb : P b = true
    · rw [List.filter_cons_of_pos hb]
      exact .cons _ _ _ ih
    · rw [List.filter_cons_of_neg hb, List.map_cons]
      have e := h.1 (by simpa using hb)
      rw [e] at ih ⊢
      exact .dup _ _ _ ih

theorem interpolate_topped (l : List (ℚ × ℚ)) : interpolate (l.map Prod.fst) = (topped l).map Prod.fst := by
  induction l with
  | nil => rfl
  | cons p l ih =>
    rw [List.map_cons, interpolate, ih, topped_cons]
    cases l with
    | nil => simp [topped, maxFst]
    | cons q l =>
      rw [topped_cons, List.map_cons, List.map_cons]
      simp only [List.map_cons, List.cons.injEq, and_true]
      have : maxFst p.1 (q :: l) = max p.1 (maxFst q.1 l) := by
        apply le_antisymm
        · rw [maxFst_le]
          refine ⟨le_max_left _ _, fun x hx => le_trans ?_ (le_max_right _ _)⟩
          have := (maxFst_le q.1 l _).1 le_rfl
          rcases List.mem_cons.1 hx with rfl | hx
          · exact this.1
          · exact this.2 x hx
        · have := (maxFst_le p.1 (q :: l) _).1 le_rfl
          refine max_le this.1 ((maxFst_le _ _ _).2 ⟨this.2 q (by simp), fun x hx => this.2 x (by simp [hx])⟩)
      rw [this]
      split
      · rename_i h; exact (max_eq_right h.le).symm
      · rename_i h; exact (max_eq_left (not_lt.1 h)).symm

theorem topped_snd (l : List (ℚ × ℚ)) : (topped l).map Prod.snd = l.map Prod.snd := by
  induction l with
  | nil => rfl
  | cons p l ih => rw [topped_cons, List.map_cons, List.map_cons, ih]

theorem computePR_points {ε : Type} [IsError ε] (R : Rnd) (es : List ε) (interp : Bool) :
    let pts := prLoop R (numTotalReferences es) {} es
    let c := if interp then topped pts else pts
    computePR R es interp = (c.map Prod.fst, c.map Prod.snd) := by
  intro pts c
  unfold computePR
  cases interp with
  | false => rfl
  | true =>
    simp only [Bool.true_and, decide_eq_true_iff, Prod.mk.injEq]
    constructor
    · change (if es.length > 1 then interpolate (pts.map Prod.fst) else pts.map Prod.fst) =
        (topped pts).map Prod.fst
      split
      · exact interpolate_topped pts
      · rename_i h
        have hl : pts.length = es.length := prLoop_length _ _ _ _
        rw [← interpolate_topped]
        rcases hp : pts with _ | ⟨p, _ | ⟨q, l⟩⟩
        · rfl
        · rfl
        · rw [hp] at hl; simp at hl; omega
    · exact (topped_snd pts).symm

/-! ## Counts by score -/

theorem gt_nodup {l : List Flt} (h : l.Pairwise (fun a b => Flt.lt b a = true)) : l.Nodup := by
  refine h.imp ?_
  rintro a b h rfl
  rw [Flt.lt_irrefl] at h
  exact absurd h (by decide)

theorem gt_ext {l l' : List Flt} (h : l.Pairwise (fun a b => Flt.lt b a = true))
    (h' : l'.Pairwise (fun a b => Flt.lt b a = true)) (hm : ∀ s, s ∈ l ↔ s ∈ l') : l = l' :=
  ((List.perm_ext_iff_of_nodup (gt_nodup h) (gt_nodup h')).2 hm).eq_of_pairwise (fun a b _ _ h1 h2 => by
    have := Flt.lt_trans' _ _ _ h1 h2
    rw [Flt.lt_irrefl] at this
    exact absurd this (by decide)) h h'

/-- In a decreasing list, the elements up to `s` are those that are at least `s`. -/
theorem mem_upto {pre post : List Flt} {s x : Flt}
    (h : (pre ++ s :: post).Pairwise (fun a b => Flt.lt b a = true)) (hx : x ∈ pre ++ s :: post) :
    x ∈ pre ++ [s] ↔ Flt.lt x s = false := by
  rw [List.pairwise_append, List.pairwise_cons] at h
  obtain ⟨h1, ⟨h2, h3⟩, h4⟩ := h
  constructor
  · intro hx
    rcases List.mem_append.1 hx with hx | hx
    · have a := h4 x hx s (by simp)
      by_contra hc
      rw [Bool.not_eq_false] at hc
      have := Flt.lt_trans' _ _ _ a hc
      rw [Flt.lt_irrefl] at this
      exact absurd this (by decide)
    · rw [List.mem_singleton.1 hx, Flt.lt_irrefl]
  · intro hl
    rcases List.mem_append.1 hx with hx | hx
    · simp [hx]
    · rcases List.mem_cons.1 hx with rfl | hx
      · simp
      · rw [h2 x hx] at hl; cases hl

section
variable {Q L : Type}

/-- Hits with a score in a list. -/
def hitsIn (ms : List (KwsMatch Q L)) (xs : List Flt) : ℕ :=
  ms.countP (fun m => (m.ref.isSome && m.hyp.isSome) && decide (rank m ∈ xs))

/-- False positives with a score in a list. -/
def wrongIn (ms : List (KwsMatch Q L)) (xs : List Flt) : ℕ :=
  ms.countP (fun m => (m.ref.isNone && m.hyp.isSome) && decide (rank m ∈ xs))

/-- False negatives with rank (-inf) in a list. -/
def missIn (ms : List (KwsMatch Q L)) (xs : List Flt) : ℕ :=
  ms.countP (fun m => m.hyp.isNone && decide (rank m ∈ xs))

theorem countP_disjoint {α : Type} (p : α → Bool) (f : α → Flt) (xs ys : List Flt)
    (hd : ∀ x ∈ xs, x ∉ ys) (l : List α) :
    l.countP (fun a => p a && decide (f a ∈ xs ++ ys)) =
      l.countP (fun a => p a && decide (f a ∈ xs)) + l.countP (fun a => p a && decide (f a ∈ ys)) := by
  induction l with
  | nil => rfl
  | cons a l ih =>
    rw [List.countP_cons, List.countP_cons, List.countP_cons, ih]
    have h := hd (f a)
    by_cases h1 : p a = true <;> by_cases h2 : f a ∈ xs <;> by_cases h3 : f a ∈ ys <;>
      simp [h1, h2, h3] <;> first | omega | exact absurd h3 (h h2)

theorem hitsIn_append (ms : List (KwsMatch Q L)) (xs ys : List Flt) (hd : ∀ x ∈ xs, x ∉ ys) :
    hitsIn ms (xs ++ ys) = hitsIn ms xs + hitsIn ms ys := countP_disjoint _ _ _ _ hd _

theorem wrongIn_append (ms : List (KwsMatch Q L)) (xs ys : List Flt) (hd : ∀ x ∈ xs, x ∉ ys) :
    wrongIn ms (xs ++ ys) = wrongIn ms xs + wrongIn ms ys := countP_disjoint _ _ _ _ hd _

theorem missIn_append (ms : List (KwsMatch Q L)) (xs ys : List Flt) (hd : ∀ x ∈ xs, x ∉ ys) :
    missIn ms (xs ++ ys) = missIn ms xs + missIn ms ys := countP_disjoint _ _ _ _ hd _

/-- The collapsed entry of a score. -/
def totalAt (ms : List (KwsMatch Q L)) (s : Flt) : MatchErrorCounts :=
  total ((ms.filter (fun m => rank m = s)).map (·.error))

theorem totalAt_hard (ms : List (KwsMatch Q L)) (h : ∀ m ∈ ms, HardMatch m) (s : Flt) :
    totalAt ms s = ⟨wrongIn ms [s], missIn ms [s], hitsIn ms [s] + wrongIn ms [s],
      hitsIn ms [s] + missIn ms [s]⟩ := by
  induction ms with
  | nil => simp [totalAt, total, wrongIn, missIn, hitsIn]
  | cons m ms ih =>
    have ih := ih (fun m hm => h m (List.mem_cons_of_mem _ hm))
    have hm := h m (by simp)
    unfold totalAt total hitsIn wrongIn missIn at *
    simp only [MatchErrorCounts.mk.injEq, List.mem_singleton] at ih
    obtain ⟨i1, i2, i3, i4⟩ := ih
    by_cases hr : rank m = s
    · rw [List.filter_cons_of_pos (by simpa using hr)]
      simp only [List.map_cons, List.sum_cons, i1, i2, i3, i4, List.countP_cons, List.mem_singleton, hr]
      rcases hm with ⟨a, b, c⟩ | ⟨a, b, c⟩ | ⟨a, b, c⟩
      · obtain ⟨y, hy⟩ := Option.isSome_iff_exists.1 a
        obtain ⟨x, hx⟩ := Option.isSome_iff_exists.1 b
        simp [c, hx, hy, Outcome.error, MatchError.nh, MatchError.nr]
        omega
      · obtain ⟨x, hx⟩ := Option.isSome_iff_exists.1 b
        simp [c, hx, a, Outcome.error, MatchError.nh, MatchError.nr]
        constructor
        · ring
        · omega
      · obtain ⟨y, hy⟩ := Option.isSome_iff_exists.1 a
        simp [c, b, hy, Outcome.error, MatchError.nh, MatchError.nr]
        constructor
        · ring
        · omega
    · rw [List.filter_cons_of_neg (by simpa using hr)]
      simp only [i1, i2, i3, i4, List.countP_cons, List.mem_singleton, hr]
      simp

theorem totalAt_sums (ms : List (KwsMatch Q L)) (h : ∀ m ∈ ms, HardMatch m) (xs : List Flt)
    (hn : xs.Nodup) :
    ((xs.map (totalAt ms)).map IsError.nh).sum = hitsIn ms xs + wrongIn ms xs ∧
    ((xs.map (totalAt ms)).map IsError.nr).sum = hitsIn ms xs + missIn ms xs ∧
    ((xs.map (totalAt ms)).map IsError.fp).sum = wrongIn ms xs ∧
    ((xs.map (totalAt ms)).map IsError.fn).sum = missIn ms xs := by
  induction xs with
  | nil => simp [hitsIn, wrongIn, missIn]
  | cons x xs ih =>
    rw [List.nodup_cons] at hn
    obtain ⟨i1, i2, i3, i4⟩ := ih hn.2
    have hd : ∀ y ∈ [x], y ∉ xs := by
      intro y hy
      rw [List.mem_singleton.1 hy]
      exact hn.1
    have e : x :: xs = [x] ++ xs := rfl
    simp only [List.map_cons, List.sum_cons, i1, i2, i3, i4]
    rw [e, hitsIn_append _ _ _ hd, wrongIn_append _ _ _ hd, missIn_append _ _ _ hd, totalAt_hard ms h]
    simp only [IsError.nh, IsError.nr, IsError.fp, IsError.fn]
    push_cast
    refine ⟨?_, ?_, rfl, rfl⟩ <;> omega

/-- Counts up to a score. -/
theorem counts_upto (ms : List (KwsMatch Q L)) (pre post : List Flt) (s : Flt)
    (h : (pre ++ s :: post).Pairwise (fun a b => Flt.lt b a = true))
    (hm : ∀ m ∈ ms, rank m ∈ pre ++ s :: post) :
    hitsIn ms (pre ++ [s]) = (tallyOf ms).hits s ∧ wrongIn ms (pre ++ [s]) = (tallyOf ms).wrong s := by
  have key : ∀ m ∈ ms, ∀ x, m.hyp = some x → ((rank m ∈ pre ++ [s]) ↔ Flt.lt x.score s = false) := by
    intro m hm' x hx
    have : rank m = x.score := by unfold rank; rw [hx]; rfl
    have := mem_upto h (hm m hm')
    rw [this]
    unfold rank
    rw [hx]
    rfl
  constructor
  · refine List.countP_congr fun m hm' => ?_
    cases hx : m.hyp with
    | none => simp
    | some x => simp [key m hm' x hx]
  · refine List.countP_congr fun m hm' => ?_
    cases hx : m.hyp with
    | none => simp
    | some x => simp [key m hm' x hx]

theorem refs_total (ms : List (KwsMatch Q L)) (h : ∀ m ∈ ms, HardMatch m) (scores : List Flt)
    (hm : ∀ m ∈ ms, rank m ∈ scores) : hitsIn ms scores + missIn ms scores = (tallyOf ms).refs := by
  unfold hitsIn missIn tallyOf
  simp only
  induction ms with
  | nil => rfl
  | cons m ms ih =>
    have ih := ih (fun m hm => h m (List.mem_cons_of_mem _ hm)) (fun m hm' => hm m (List.mem_cons_of_mem _ hm'))
    simp only [List.countP_cons]
    rw [← ih]
    have a := hm m (by simp)
    rcases h m (by simp) with ⟨c, b, _⟩ | ⟨c, b, _⟩ | ⟨c, b, _⟩
    · obtain ⟨y, hy⟩ := Option.isSome_iff_exists.1 c
      obtain ⟨x, hx⟩ := Option.isSome_iff_exists.1 b
      simp [a, hx, hy]
      omega
    · obtain ⟨x, hx⟩ := Option.isSome_iff_exists.1 b
      simp [c, hx]
    · obtain ⟨y, hy⟩ := Option.isSome_iff_exists.1 c
      simp [a, b, hy]
      omega

/-- The curve has one point per rank. -/
theorem points_eq (ms : List (KwsMatch Q L)) (h : ∀ m ∈ ms, HardMatch m) (scores : List Flt)
    (hs : scores.Pairwise (fun a b => Flt.lt b a = true)) (hm : ∀ m ∈ ms, rank m ∈ scores) :
    prLoop Rnd.exact (numTotalReferences (scores.map (totalAt ms))) {} (scores.map (totalAt ms)) =
      scores.map (tallyOf ms).point := by
  refine List.ext_getElem? fun k => ?_
  by_cases hk : k < scores.length
  · rw [prLoop_get _ _ _ _ _ (by simpa using hk)]
    have c := run_counts Rnd.exact ((scores.map (totalAt ms)).take (k + 1)) {}
    have d := run_exact ((scores.map (totalAt ms)).take (k + 1)) {}
    simp only [zero_add] at c d
    have hsplit : scores = scores.take k ++ scores[k] :: scores.drop (k + 1) := by
      rw [List.getElem_cons_drop, List.take_append_drop]
    have htake : scores.take (k + 1) = scores.take k ++ [scores[k]] := by simp
    obtain ⟨u1, u2⟩ := counts_upto ms (scores.take k) (scores.drop (k + 1)) scores[k]
      (by rw [← hsplit]; exact hs) (by rw [← hsplit]; exact hm)
    rw [← htake] at u1 u2
    obtain ⟨t1, t2, t3, t4⟩ := totalAt_sums ms h (scores.take (k + 1))
      ((gt_nodup hs).sublist (List.take_sublist _ _))
    obtain ⟨_, v2, _, _⟩ := totalAt_sums ms h scores (gt_nodup hs)
    rw [List.getElem?_map, List.getElem?_eq_getElem hk, Option.map_some]
    rw [← List.map_take] at c d ⊢
    simp only [PRSums.precision, PRSums.recall, c, d, t1, t2, t3, t4, u1, u2, numTotal_eq, v2,
      refs_total ms h scores hm]
    simp only [Rnd.exact, id_eq, Tally.point, gt_iff_lt]
    congr 2
    · by_cases h0 : (tallyOf ms).hits scores[k] + (tallyOf ms).wrong scores[k] = 0
      · rw [if_neg (by omega), if_pos h0]
      · rw [if_pos (by omega), if_neg h0]
        have : ((tallyOf ms).hits scores[k] : ℚ) + (tallyOf ms).wrong scores[k] ≠ 0 := by exact_mod_cast h0
        push_cast
        field_simp
        ring
    · by_cases h0 : (tallyOf ms).refs = 0
      · rw [if_neg (by omega), if_pos h0]
      · rw [if_pos (by omega), if_neg h0]
        push_cast
        congr 1
        ring
  · rw [List.getElem?_eq_none (by rw [prLoop_length]; simpa using hk),
      List.getElem?_eq_none (by simpa using hk)]

/-- Average precision from the tally, with one threshold per rank. -/
theorem globalAP_ranks (ms : List (KwsMatch Q L)) (h : ∀ m ∈ ms, HardMatch m) (hn : NoNaN ms)
    (hs : ByRank ms) (interp t : Bool) : ∃ scores, Thresholds (fun s => ∃ m ∈ ms, rank m = s) scores ∧
      collapseMatches Rnd.exact ms = scores.map (totalAt ms) ∧
      globalAP Rnd.exact ms true interp t = .ok ((tallyOf ms).ap interp t scores) := by
  obtain ⟨scores, h1, h2, h3⟩ := collapseAcc_sorted ms hn hs
  have hc : collapseMatches Rnd.exact ms = scores.map (totalAt ms) := by
    rw [collapse_eq, h3, List.reverse_reverse, List.map_map]
    rfl
  refine ⟨scores, ⟨h1, h2⟩, hc, ?_⟩
  rw [globalAP_exact]
  unfold matchesPR
  rw [if_pos rfl, hc, computePR_points]
  rw [points_eq ms h scores h1 (fun m hm => (h2 _).2 ⟨m, hm, rfl⟩)]
  rfl

/-- Discounted cumulative gain from the tally. -/
theorem dcgLoop_gain (ms : List (KwsMatch Q L)) (h : ∀ m ∈ ms, HardMatch m) (post : List Flt) :
    ∀ pre acc, (pre ++ post).Pairwise (fun a b => Flt.lt b a = true) → (∀ m ∈ ms, rank m ∈ pre ++ post) →
    dcgLoop (hitsIn ms pre + wrongIn ms pre + 1) acc (post.map (totalAt ms)) =
      acc + (tallyOf ms).gain (hitsIn ms pre) (wrongIn ms pre) post := by
  induction post with
  | nil => intro pre acc _ _; simp [dcgLoop, Tally.gain]
  | cons s post ih =>
    intro pre acc hs hm
    obtain ⟨u1, u2⟩ := counts_upto ms pre post s hs hm
    have hd : ∀ x ∈ pre, x ∉ [s] := by
      intro x hx
      rw [List.mem_singleton]
      rintro rfl
      have := (List.pairwise_append.1 hs).2.2 x hx x (by simp)
      rw [Flt.lt_irrefl] at this
      exact absurd this (by decide)
    have e : pre ++ s :: post = (pre ++ [s]) ++ post := by simp
    have ih := fun acc => ih (pre ++ [s]) acc (by rw [← e]; exact hs) (by rw [← e]; exact hm)
    rw [u1, u2] at ih
    rw [hitsIn_append _ _ _ hd] at u1
    rw [wrongIn_append _ _ _ hd] at u2
    rw [List.map_cons, dcgLoop, totalAt_hard ms h, Tally.gain, ← u1, ← u2]
    simp only [IsError.nh, IsError.fp]
    rw [← u1, ← u2] at ih
    have hidx : hitsIn ms pre + wrongIn ms pre + 1 + (hitsIn ms [s] + wrongIn ms [s]) =
      hitsIn ms pre + hitsIn ms [s] + (wrongIn ms pre + wrongIn ms [s]) + 1 := by omega
    by_cases h0 : hitsIn ms [s] + wrongIn ms [s] > 0
    · rw [if_pos h0, hidx, ih, dcgRun_eq, add_assoc]
      congr 1
      congr 1
      unfold dsum
      rw [List.length_replicate, Finset.sum_Ico_eq_sum_range,
        show hitsIn ms pre + hitsIn ms [s] + (wrongIn ms pre + wrongIn ms [s]) -
          (hitsIn ms pre + wrongIn ms pre) = hitsIn ms [s] + wrongIn ms [s] by omega]
      refine Finset.sum_congr rfl fun k hk => ?_
      rw [Finset.mem_range] at hk
      rw [List.getD_eq_getElem?_getD, List.getElem?_replicate, if_pos hk, Option.getD_some]
      unfold disc
      rw [mul_one_div]
      have hne : ((hitsIn ms [s] : ℝ) + wrongIn ms [s]) ≠ 0 := by exact_mod_cast h0.ne'
      congr 2
      · congr 1
        push_cast
        rw [add_sub_cancel_left, add_sub_cancel_left]
        field_simp
        ring
      · push_cast
        ring
    · rw [if_neg h0]
      have e1 : hitsIn ms [s] = 0 := by omega
      have e2 : wrongIn ms [s] = 0 := by omega
      rw [e1, e2] at ih ⊢
      simp only [Nat.add_zero] at ih ⊢
      rw [ih]
      simp

theorem globalNDCG_ranks (ms : List (KwsMatch Q L)) (h : ∀ m ∈ ms, HardMatch m) (scores : List Flt)
    (hs : Thresholds (fun s => ∃ m ∈ ms, rank m = s) scores)
    (hc : collapseMatches Rnd.exact ms = scores.map (totalAt ms)) :
    globalNDCG Rnd.exact ms true = (tallyOf ms).ndcg scores := by
  have hm : ∀ m ∈ ms, rank m ∈ scores := fun m hm => (hs.mem _).2 ⟨m, hm, rfl⟩
  unfold globalNDCG computeNDCG
  rw [if_pos rfl, hc, numTotal_eq, (totalAt_sums ms h scores (gt_nodup hs.sorted)).2.1,
    refs_total ms h scores hm]
  have := dcgLoop_gain ms h scores [] 0 (by simpa using hs.sorted) (by simpa using hm)
  have e1 : hitsIn ms [] = 0 := by unfold hitsIn; simp
  have e2 : wrongIn ms [] = 0 := by unfold wrongIn; simp
  rw [e1, e2] at this
  simp only [zero_add] at this
  unfold Tally.ndcg
  by_cases h0 : (tallyOf ms).refs = 0
  · simp [h0]
  · rw [if_neg h0]
    simp only
    rw [if_pos (by omega), this, idealDcg_eq, zero_add]
    congr 1
    refine Finset.sum_congr rfl fun k _ => ?_
    unfold disc
    congr 2
    push_cast
    ring

/-! ## Choice of thresholds -/

/-- Thresholds at which nothing changes can be left out. -/
theorem thresholds_skip (c : Tally) (P : Flt → Bool) (a : Flt) (l : List Flt)
    (h : List.IsChain (fun a b => P b = false → c.hits b = c.hits a ∧ c.wrong b = c.wrong a) (a :: l)) :
    (∀ interp t, c.ap interp t (a :: l) = c.ap interp t (a :: l.filter P)) ∧
    c.ndcg (a :: l) = c.ndcg (a :: l.filter P) := by
  constructor
  · intro interp t
    unfold Tally.ap
    refine (Stutter.curveArea (stutter_filter c.point P l a (h.imp fun x y hxy hP => ?_)) interp t).symm
    unfold Tally.point
    rw [(hxy hP).1, (hxy hP).2]
  · unfold Tally.ndcg
    split
    · rfl
    · congr 1
      simp only [Tally.gain]
      congr 1
      induction l generalizing a with
      | nil => rfl
      | cons b l ih =>
        rw [List.isChain_cons_cons] at h
        have ih := ih b h.2
        rw [Tally.gain, ih]
        by_cases hb : P b = true
        · rw [List.filter_cons_of_pos hb, Tally.gain]
        · obtain ⟨e1, e2⟩ := h.1 (by simpa using hb)
          rw [List.filter_cons_of_neg hb, e1, e2]
          simp

/-- The shorter of two lists of thresholds leaves out thresholds at which nothing changes, if the
longer one starts with a threshold of the shorter one. -/
theorem thresholds_split (c : Tally) (small big : List Flt)
    (hb : big.Pairwise (fun a b => Flt.lt b a = true)) (hs : small.Pairwise (fun a b => Flt.lt b a = true))
    (hsub : ∀ s ∈ small, s ∈ big) (hhead : ∀ s, big.head? = some s → s ∈ small)
    (hsame : ∀ pre a b post, big = pre ++ a :: b :: post → b ∉ small →
      c.hits b = c.hits a ∧ c.wrong b = c.wrong a) :
    big = [] ∧ small = [] ∨ ∃ a l, big = a :: l ∧ small = a :: l.filter (fun s => decide (s ∈ small)) ∧
      List.IsChain (fun a b => decide (b ∈ small) = false → c.hits b = c.hits a ∧ c.wrong b = c.wrong a)
        (a :: l) := by
  cases big with
  | nil => exact Or.inl ⟨rfl, List.eq_nil_iff_forall_not_mem.2 fun s hs => by simpa using hsub s hs⟩
  | cons a l =>
    have ha : a ∈ small := hhead a rfl
    have e : small = a :: l.filter (fun s => decide (s ∈ small)) := by
      have hf : (a :: l).filter (fun s => decide (s ∈ small)) =
          a :: l.filter (fun s => decide (s ∈ small)) := List.filter_cons_of_pos (by simpa using ha)
      rw [← hf]
      refine gt_ext hs (hb.sublist List.filter_sublist) fun s => ?_
      rw [List.mem_filter, decide_eq_true_iff]
      exact ⟨fun h => ⟨hsub s h, h⟩, fun h => h.2⟩
    have chain : ∀ (l : List Flt) (a : Flt) (pre : List Flt), (∀ p x y q, pre ++ a :: l = p ++ x :: y :: q →
        y ∉ small → c.hits y = c.hits x ∧ c.wrong y = c.wrong x) →
        List.IsChain (fun a b => decide (b ∈ small) = false → c.hits b = c.hits a ∧ c.wrong b = c.wrong a)
          (a :: l) := by
      intro l
      induction l with
      | nil => intro a pre _; exact List.isChain_singleton a
      | cons b l ih =>
        intro a pre h
        rw [List.isChain_cons_cons]
        refine ⟨fun hb => h pre a b l rfl (by simpa using hb), ih b (pre ++ [a]) fun p x y q hq => ?_⟩
        exact h p x y q (by simpa using hq)
    exact Or.inr ⟨a, l, rfl, e, chain l a [] hsame⟩

/-- Two lists of thresholds give the same measures if the longer one starts with a threshold of the
shorter one and nothing changes at its other thresholds. -/
theorem thresholds_change (c : Tally) (small big : List Flt)
    (hb : big.Pairwise (fun a b => Flt.lt b a = true)) (hs : small.Pairwise (fun a b => Flt.lt b a = true))
    (hsub : ∀ s ∈ small, s ∈ big) (hhead : ∀ s, big.head? = some s → s ∈ small)
    (hsame : ∀ pre a b post, big = pre ++ a :: b :: post → b ∉ small →
      c.hits b = c.hits a ∧ c.wrong b = c.wrong a) :
    (∀ interp t, c.ap interp t big = c.ap interp t small) ∧ c.ndcg big = c.ndcg small := by
  rcases thresholds_split c small big hb hs hsub hhead hsame with ⟨rfl, rfl⟩ | ⟨a, l, rfl, e, chain⟩
  · exact ⟨fun _ _ => rfl, rfl⟩
  · have := thresholds_skip c (fun s => decide (s ∈ small)) a l chain
    rw [← e] at this
    exact this

/-- The points of the longer list of thresholds repeat those of the shorter one. -/
theorem thresholds_stutter (c : Tally) (small big : List Flt)
    (hb : big.Pairwise (fun a b => Flt.lt b a = true)) (hs : small.Pairwise (fun a b => Flt.lt b a = true))
    (hsub : ∀ s ∈ small, s ∈ big) (hhead : ∀ s, big.head? = some s → s ∈ small)
    (hsame : ∀ pre a b post, big = pre ++ a :: b :: post → b ∉ small →
      c.hits b = c.hits a ∧ c.wrong b = c.wrong a) :
    Stutter (small.map c.point) (big.map c.point) := by
  rcases thresholds_split c small big hb hs hsub hhead hsame with ⟨rfl, rfl⟩ | ⟨a, l, rfl, e, chain⟩
  · exact .nil
  · have := stutter_filter c.point (fun s => decide (s ∈ small)) l a (chain.imp fun a b h hb => by
      unfold Tally.point
      rw [(h hb).1, (h hb).2])
    rw [e]
    exact this

theorem rank_of_hyp {m : KwsMatch Q L} {x : ScoredEvent Q L} (hx : m.hyp = some x) : rank m = x.score := by
  unfold rank
  rw [hx]
  rfl

theorem tally_eq_of (ms : List (KwsMatch Q L)) (a b : Flt)
    (h : ∀ m ∈ ms, ∀ x, m.hyp = some x → (Flt.lt x.score a = false ↔ Flt.lt x.score b = false)) :
    (tallyOf ms).hits b = (tallyOf ms).hits a ∧ (tallyOf ms).wrong b = (tallyOf ms).wrong a := by
  constructor <;>
  · refine List.countP_congr fun m hm => ?_
    cases hx : m.hyp with
    | none => simp
    | some x => simp [h m hm x hx]

/-- In a decreasing list the numbers that are at least `b` but not at least the element before it are
those equal to `b`, among the numbers in the list. -/
theorem next_threshold {pre post : List Flt} {a b x : Flt}
    (hb : (pre ++ a :: b :: post).Pairwise (fun a b => Flt.lt b a = true)) (hne : x ≠ b)
    (hx : x ∈ pre ++ a :: b :: post) : Flt.lt x a = false ↔ Flt.lt x b = false := by
  have e : pre ++ a :: b :: post = (pre ++ [a]) ++ b :: post := by simp
  have h1 := mem_upto hb hx
  have h2 := mem_upto (pre := pre ++ [a]) (by rw [← e]; exact hb) (by rw [← e]; exact hx)
  rw [← h1, ← h2]
  simp [hne]

/-- Any thresholds containing all scores, and starting with one, do. -/
theorem tally_thresholds (ms : List (KwsMatch Q L)) (small big : List Flt)
    (hb : big.Pairwise (fun a b => Flt.lt b a = true)) (hs : Thresholds (MatchScores ms) small)
    (hsub : ∀ s ∈ small, s ∈ big) (hhead : ∀ s, big.head? = some s → s ∈ small) :
    (∀ interp t, (tallyOf ms).ap interp t big = (tallyOf ms).ap interp t small) ∧
    (tallyOf ms).ndcg big = (tallyOf ms).ndcg small := by
  refine thresholds_change _ small big hb hs.sorted hsub hhead ?_
  rintro pre a b post rfl hnb
  refine tally_eq_of ms a b fun m hm x hx => ?_
  have hxs : x.score ∈ small := (hs.mem _).2 ⟨m, hm, x, hx, rfl⟩
  exact next_threshold hb (fun e => hnb (e ▸ hxs)) (hsub _ hxs)

/-- The points of thresholds that contain all scores, and start with one, repeat those of the scores. -/
theorem tally_stutter (ms : List (KwsMatch Q L)) (small big : List Flt)
    (hb : big.Pairwise (fun a b => Flt.lt b a = true)) (hs : Thresholds (MatchScores ms) small)
    (hsub : ∀ s ∈ small, s ∈ big) (hhead : ∀ s, big.head? = some s → s ∈ small) :
    Stutter (small.map (tallyOf ms).point) (big.map (tallyOf ms).point) := by
  refine thresholds_stutter _ small big hb hs.sorted hsub hhead ?_
  rintro pre a b post rfl hnb
  refine tally_eq_of ms a b fun m hm x hx => ?_
  have hxs : x.score ∈ small := (hs.mem _).2 ⟨m, hm, x, hx, rfl⟩
  exact next_threshold hb (fun e => hnb (e ▸ hxs)) (hsub _ hxs)

/-- The ranks of matches are the scores of their hypotheses, and minus infinity if there are missed
references. -/
theorem ranks_scores (ms : List (KwsMatch Q L)) (h : ∀ m ∈ ms, HardMatch m) (ranks scores : List Flt)
    (h1 : Thresholds (fun s => ∃ m ∈ ms, rank m = s) ranks) (hsc : Thresholds (MatchScores ms) scores) :
    scores = [] ∧ (∀ s, (tallyOf ms).hits s = 0) ∧ (∀ s, (tallyOf ms).wrong s = 0) ∧
      (ranks = [] ∧ (tallyOf ms).refs = 0 ∨ ranks = [.ninf] ∧ (tallyOf ms).refs ≠ 0) ∨
    scores ≠ [] ∧ (∀ s ∈ scores, s ∈ ranks) ∧ (∀ s, ranks.head? = some s → s ∈ scores) := by
  have hsub : ∀ s ∈ scores, s ∈ ranks := by
    intro s hs
    obtain ⟨m, hm, x, hx, rfl⟩ := (hsc.mem s).1 hs
    exact (h1.mem _).2 ⟨m, hm, rank_of_hyp hx⟩
  have hother : ∀ s ∈ ranks, s ∉ scores → s = .ninf := by
    intro s hs hns
    obtain ⟨m, hm, rfl⟩ := (h1.mem s).1 hs
    cases hx : m.hyp with
    | none => unfold rank; rw [hx]; rfl
    | some x => exact absurd ((hsc.mem _).2 ⟨m, hm, x, hx, (rank_of_hyp hx).symm⟩) hns
  by_cases hempty : scores = []
  · left
    subst hempty
    have hno : ∀ m ∈ ms, m.hyp = none := by
      intro m hm
      by_contra hc
      obtain ⟨x, hx⟩ := Option.ne_none_iff_exists'.1 hc
      have := (hsc.mem x.score).2 ⟨m, hm, x, hx, rfl⟩
      simp at this
    refine ⟨rfl, fun s => List.countP_eq_zero.2 fun m hm => by simp [hno m hm],
      fun s => List.countP_eq_zero.2 fun m hm => by simp [hno m hm], ?_⟩
    have all : ∀ s ∈ ranks, s = .ninf := fun s hs => hother s hs (by simp)
    rcases hr : ranks with _ | ⟨a, _ | ⟨b, l⟩⟩
    · refine Or.inl ⟨rfl, List.countP_eq_zero.2 fun m hm => ?_⟩
      have := (h1.mem (rank m)).2 ⟨m, hm, rfl⟩
      rw [hr] at this
      simp at this
    · refine Or.inr ⟨by rw [all a (by rw [hr]; simp)], ?_⟩
      obtain ⟨m, hm, _⟩ := (h1.mem a).1 (by rw [hr]; simp)
      have : 0 < (tallyOf ms).refs := by
        refine List.countP_pos_iff.2 ⟨m, hm, ?_⟩
        rcases h m hm with ⟨c, _⟩ | ⟨_, c, _⟩ | ⟨c, _⟩
        · exact c
        · rw [hno m hm] at c; cases c
        · exact c
      omega
    · have e1 := all a (by rw [hr]; simp)
      have e2 := all b (by rw [hr]; simp)
      have := h1.sorted
      rw [hr, List.pairwise_cons] at this
      have := this.1 b (by simp)
      rw [e1, e2] at this
      exact absurd this (by decide)
  · refine Or.inr ⟨hempty, hsub, ?_⟩
    intro s hs
    by_contra hns
    have hsr : s ∈ ranks := List.mem_of_mem_head? hs
    have := hother s hsr hns
    subst this
    obtain ⟨t, ht⟩ := List.exists_mem_of_ne_nil _ hempty
    have htr := hsub t ht
    cases hr : ranks with
    | nil => rw [hr] at htr; simp at htr
    | cons a l =>
      rw [hr] at hs htr
      simp only [List.head?_cons, Option.some.injEq] at hs
      subst hs
      rcases List.mem_cons.1 htr with rfl | htl
      · exact hns ht
      · have := h1.sorted
        rw [hr, List.pairwise_cons] at this
        have := this.1 t htl
        rw [Flt.ninf_le] at this
        cases this

/-- The measures of a list of hits, false positives and false negatives, from the tally. -/
theorem measures_tally (ms : List (KwsMatch Q L)) (h : ∀ m ∈ ms, HardMatch m) (hn : NoNaN ms)
    (hs : ByRank ms) (scores : List Flt) (hsc : Thresholds (MatchScores ms) scores) :
    (∀ interp t, globalAP Rnd.exact ms true interp t = .ok ((tallyOf ms).ap interp t scores)) ∧
    globalNDCG Rnd.exact ms true = (tallyOf ms).ndcg scores := by
  obtain ⟨ranks, h1, h2, _⟩ := globalAP_ranks ms h hn hs false false
  have hap : ∀ interp t, globalAP Rnd.exact ms true interp t = .ok ((tallyOf ms).ap interp t ranks) := by
    intro interp t
    obtain ⟨ranks', a1, a2, a3⟩ := globalAP_ranks ms h hn hs interp t
    rw [a3, gt_ext a1.sorted h1.sorted (fun s => by rw [a1.mem, h1.mem])]
  have hnd := globalNDCG_ranks ms h ranks h1 h2
  rcases ranks_scores ms h ranks scores h1 hsc with ⟨rfl, hh0, hw0, hr⟩ | ⟨_, hsub, hhead⟩
  · -- no hypotheses: at most the point of the false negatives
    rcases hr with ⟨hr, _⟩ | ⟨hr, hrefs⟩
    · rw [hr] at hap hnd
      exact ⟨hap, hnd⟩
    · rw [hr] at hap hnd
      refine ⟨fun interp t => ?_, ?_⟩
      · rw [hap]
        congr 1
        unfold Tally.ap Spec.curveArea
        have : (tallyOf ms).point .ninf = (1, 0) := by
          unfold Tally.point
          simp [hh0, hw0, hrefs]
        rw [List.map_cons, this]
        cases interp <;> simp [topped, areaUnder]
      · rw [hnd]
        unfold Tally.ndcg
        rw [if_neg hrefs, if_neg hrefs]
        simp [Tally.gain, hh0, hw0]
  · -- the point of the false negatives repeats the last one
    have := tally_thresholds ms scores ranks h1.sorted hsc hsub hhead
    exact ⟨fun interp t => by rw [hap, this.1], by rw [hnd, this.2]⟩

end

end Kws
