import Verif.Lemmas.Matcher
import Verif.Spec.Hits
import Verif.Spec.Matching
import Mathlib.Data.Set.Insert

/-!
# The number of hits of a greedy matching
-/

namespace Kws
open Spec Classical

variable {RE HE : Type}

/-- Whether a reference is not in the set. -/
noncomputable def freeOf (T : Set RE) (r : RE) : Bool := if r ∈ T then false else true

@[simp] theorem freeOf_iff (T : Set RE) (r : RE) : freeOf T r = true ↔ r ∉ T := by
  unfold freeOf
  split <;> simp_all

@[simp] theorem freeOf_false (T : Set RE) (r : RE) : freeOf T r = false ↔ r ∈ T := by
  unfold freeOf
  split <;> simp_all

theorem freeOf_insert (T : Set RE) (x r : RE) : freeOf (insert x T) r = (freeOf T r && !decide (r = x)) := by
  rw [Bool.eq_iff_iff]
  simp [Set.mem_insert_iff, not_or, and_comm]

/-- How many hypotheses get a reference, if each takes the first one of its list that is free. -/
noncomputable def picked (pref : HE → List RE) : Set RE → List HE → Nat
  | _, [] => 0
  | T, h :: hs =>
    match (pref h).find? (freeOf T) with
    | some r => picked pref (insert r T) hs + 1
    | none => picked pref T hs

theorem picked_congr {pref pref' : HE → List RE} (hs : List HE) (h : ∀ x ∈ hs, pref x = pref' x) :
    ∀ T : Set RE, picked pref T hs = picked pref' T hs := by
  induction hs with
  | nil => intro T; rfl
  | cons x hs ih =>
    intro T
    have ih := ih (fun y hy => h y (by simp [hy]))
    unfold picked
    rw [h x (by simp)]
    split
    · rw [ih]
    · rw [ih]

theorem picked_cons (pref : HE → List RE) (T : Set RE) (h : HE) (hs : List HE) :
    (∃ r, (pref h).find? (freeOf T) = some r ∧
      picked pref T (h :: hs) = picked pref (insert r T) hs + 1) ∨
    (pref h).find? (freeOf T) = none ∧ picked pref T (h :: hs) = picked pref T hs := by
  rw [picked.eq_2]
  cases hf : (pref h).find? (freeOf T) with
  | none => right; exact ⟨rfl, rfl⟩
  | some r => left; exact ⟨r, rfl, rfl⟩

theorem picked_some {pref : HE → List RE} {T : Set RE} {h : HE} {hs : List HE} {r : RE}
    (hf : (pref h).find? (freeOf T) = some r) :
    picked pref T (h :: hs) = picked pref (insert r T) hs + 1 := by
  rcases picked_cons pref T h hs with ⟨z, h1, e⟩ | ⟨h1, e⟩ <;> rw [hf] at h1
  · obtain rfl : r = z := by simpa using h1
    exact e
  · simp at h1

theorem picked_none {pref : HE → List RE} {T : Set RE} {h : HE} {hs : List HE}
    (hf : (pref h).find? (freeOf T) = none) : picked pref T (h :: hs) = picked pref T hs := by
  rcases picked_cons pref T h hs with ⟨z, h1, e⟩ | ⟨h1, e⟩ <;> rw [hf] at h1
  · simp at h1
  · exact e

/-- One reference less costs at most one hit and never brings one. -/
theorem picked_less (pref : HE → List RE) (hs : List HE) : ∀ (T : Set RE) (y : RE),
    picked pref (insert y T) hs ≤ picked pref T hs ∧
      picked pref T hs ≤ picked pref (insert y T) hs + 1 := by
  induction hs with
  | nil => intro T y; simp [picked]
  | cons h hs ih =>
    intro T y
    by_cases hy : y ∈ T
    · rw [Set.insert_eq_of_mem hy]; omega
    rcases picked_cons pref T h hs with ⟨r, h1, e1⟩ | ⟨h1, e1⟩ <;>
      rcases picked_cons pref (insert y T) h hs with ⟨z, h2, e2⟩ | ⟨h2, e2⟩ <;> rw [e1, e2]
    · obtain ⟨p1, as, bs, e, p2⟩ := List.find?_eq_some_iff_append.1 h1
      rw [freeOf_iff] at p1
      by_cases hr : r = y
      · subst hr
        have := ih (insert r T) z
        omega
      · have : (pref h).find? (freeOf (insert y T)) = some r := by
          rw [List.find?_eq_some_iff_append]
          refine ⟨?_, as, bs, e, ?_⟩
          · rw [freeOf_iff, Set.mem_insert_iff, not_or]
            exact ⟨hr, p1⟩
          · intro a ha
            have := p2 a ha
            rw [Bool.not_eq_true', freeOf_false] at this ⊢
            exact Set.mem_insert_of_mem _ this
        obtain rfl : z = r := by rw [this] at h2; simpa using h2.symm
        have := ih (insert z T) y
        rw [Set.insert_comm] at this
        omega
    · have hr : r = y := by
        by_contra hr
        rw [List.find?_eq_none] at h2
        have a := h2 r (List.mem_of_find?_eq_some h1)
        have b := List.find?_some h1
        rw [freeOf_iff] at a b
        exact a (by rw [Set.mem_insert_iff, not_or]; exact ⟨hr, b⟩)
      subst hr
      omega
    · rw [List.find?_eq_none] at h1
      have a := h1 z (List.mem_of_find?_eq_some h2)
      have b := List.find?_some h2
      rw [freeOf_iff] at a b
      exact absurd (fun h => b (Set.mem_insert_of_mem _ h)) a
    · exact ih T y

/-- Removing a reference from all lists is like taking it before the start. -/
theorem picked_without (pref : HE → List RE) (x : RE) (hs : List HE) : ∀ T : Set RE,
    picked (fun h => (pref h).filter (freeOf {x})) T hs = picked pref (insert x T) hs := by
  induction hs with
  | nil => intro T; rfl
  | cons h hs ih =>
    intro T
    have key : ((pref h).filter (freeOf {x})).find? (freeOf T) =
        (pref h).find? (freeOf (insert x T)) := by
      rw [List.find?_filter]
      congr 1
      funext r
      rw [freeOf_insert, Bool.and_comm]
      by_cases hx : r = x <;> by_cases hT : r ∈ T <;> simp [hx, hT, freeOf]
    rcases picked_cons (fun h => (pref h).filter (freeOf {x})) T h hs with ⟨r, h1, e1⟩ | ⟨h1, e1⟩ <;>
      rcases picked_cons pref (insert x T) h hs with ⟨z, h2, e2⟩ | ⟨h2, e2⟩ <;>
      rw [e1, e2] <;> rw [key] at h1 <;> rw [h1] at h2 <;> simp at h2
    · subst h2
      rw [ih, Set.insert_comm]
    · rw [ih]

/-- One hypothesis more brings at most one hit and never costs one. -/
theorem picked_more (pref : HE → List RE) (a : List HE) (h : HE) (b : List HE) : ∀ T : Set RE,
    picked pref T (a ++ b) ≤ picked pref T (a ++ h :: b) ∧
      picked pref T (a ++ h :: b) ≤ picked pref T (a ++ b) + 1 := by
  induction a with
  | nil =>
    intro T
    simp only [List.nil_append]
    rcases picked_cons pref T h b with ⟨r, _, e⟩ | ⟨_, e⟩
    · have := picked_less pref b T r
      omega
    · omega
  | cons x a ih =>
    intro T
    simp only [List.cons_append]
    rcases picked_cons pref T x (a ++ b) with ⟨r, h1, e1⟩ | ⟨h1, e1⟩ <;>
      rcases picked_cons pref T x (a ++ h :: b) with ⟨z, h2, e2⟩ | ⟨h2, e2⟩ <;>
      rw [e1, e2] <;> rw [h1] at h2 <;> simp at h2
    · subst h2
      have := ih (insert r T)
      omega
    · exact ih T

/-- The hits of the greedy matching. -/
theorem Spec.Greedy.hits {overl : HE → List RE} {score : RE → HE → MatchError}
    {earlier entries rep : List (Match RE HE)} {hs : List HE}
    (h : Greedy overl score earlier hs entries rep) :
    hitCount entries =
      picked (fun h => (overl h).filter (fun r => (score r h).fp < 1)) {r | Taken earlier r} hs := by
  induction h with
  | nil earlier => rfl
  | cons earlier h hs entry repeats entries repeated d1 _ _ ih =>
    have hsplit : hitCount (entry ++ entries) = hitCount entry + hitCount entries := by
      unfold hitCount
      rw [List.countP_append]
    rw [hsplit, ih]
    rcases d1 with ⟨d1, rfl⟩ | ⟨l1, r, l2, e, d1, d2, d3, rfl⟩ | ⟨_, d2, rfl⟩
    · have : ((overl h).filter (fun r => decide ((score r h).fp < 1))).find?
          (freeOf {r | Taken earlier r}) = none := by
        rw [List.find?_eq_none]
        intro r hr
        rw [List.mem_filter, decide_eq_true_eq] at hr
        exact absurd hr.2 (not_lt.2 (d1 r hr.1))
      rw [picked_none (pref := fun h => (overl h).filter (fun r => (score r h).fp < 1)) (h := h) this]
      have ht : {r | Taken (earlier ++ [(⟨none, some h, ⟨1, 0⟩⟩ : Match RE HE)]) r} =
          {r | Taken earlier r} := by
        ext r
        simp [Taken]
      rw [ht]
      simp [hitCount]
    · have : ((overl h).filter (fun r => decide ((score r h).fp < 1))).find?
          (freeOf {r | Taken earlier r}) = some r := by
        rw [List.find?_filter, List.find?_eq_some_iff_append]
        refine ⟨by simpa using ⟨d1, d2⟩, l1, l2, e, ?_⟩
        intro a ha
        by_cases hfp : (score a h).fp < 1
        · simpa [hfp] using d3 a ha hfp
        · simp [hfp]
      rw [picked_some (pref := fun h => (overl h).filter (fun r => (score r h).fp < 1)) (h := h) this]
      have ht : {x | Taken (earlier ++ [(⟨some r, some h, score r h⟩ : Match RE HE)]) x} =
          insert r {x | Taken earlier x} := by
        ext x
        simp only [Taken, Set.mem_ofPred_eq, Set.mem_insert_iff, List.mem_append, List.mem_singleton]
        constructor
        · rintro ⟨m, hm | rfl, hx⟩
          · exact Or.inr ⟨m, hm, hx⟩
          · left; simpa using hx.symm
        · rintro (rfl | ⟨m, hm, hx⟩)
          · exact ⟨_, Or.inr rfl, rfl⟩
          · exact ⟨m, Or.inl hm, hx⟩
      rw [ht]
      simp [hitCount, Nat.add_comm]
    · have : ((overl h).filter (fun r => decide ((score r h).fp < 1))).find?
          (freeOf {r | Taken earlier r}) = none := by
        rw [List.find?_eq_none]
        intro r hr
        rw [List.mem_filter, decide_eq_true_eq] at hr
        simpa using d2 r hr.1 hr.2
      rw [picked_none (pref := fun h => (overl h).filter (fun r => (score r h).fp < 1)) (h := h) this]
      simp [hitCount]

theorem nodup_filter_insert (l : List RE) (hl : l.Nodup) (T : Set RE) (r : RE) :
    (l.filter (freeOf T)).length ≤ (l.filter (freeOf (insert r T))).length + 1 := by
  induction l with
  | nil => simp
  | cons a l ih =>
    obtain ⟨h1, h2⟩ := List.nodup_cons.1 hl
    by_cases har : a = r
    · subst har
      have e : l.filter (freeOf (insert a T)) = l.filter (freeOf T) := by
        refine List.filter_congr fun x hx => ?_
        have : x ≠ a := fun h => h1 (h ▸ hx)
        simp [freeOf_insert, this]
      rw [List.filter_cons, List.filter_cons, e]
      split <;> simp
    · have := ih h2
      rw [List.filter_cons, List.filter_cons]
      by_cases ha : a ∈ T
      · simpa [ha] using this
      · have h' : a ∉ insert r T := by simp [har, ha]
        simpa [ha, har] using this

/-- No assignment has more than twice the hits of the greedy one. -/
theorem picked_half (pref : HE → List RE) (hs : List HE) : ∀ (T : Set RE) (given : List (Option RE)),
    Assignment (fun r h => r ∈ pref h) hs given →
      (given.reduceOption.filter (freeOf T)).length ≤ 2 * picked pref T hs := by
  induction hs with
  | nil =>
    rintro T given ⟨h, _⟩
    cases h
    simp
  | cons h hs ih =>
    rintro T given ⟨h1, h2⟩
    cases h1 with
    | cons hg hgs =>
      rename_i g given
      have hn : given.reduceOption.Nodup := by
        cases g with
        | none => simpa using h2
        | some r => simp at h2; exact h2.2
      have hlen : ((g :: given).reduceOption.filter (freeOf T)).length ≤
          (given.reduceOption.filter (freeOf T)).length + 1 := by
        cases g with
        | none => simp
        | some r => simp [List.filter_cons]; split <;> simp
      rcases picked_cons pref T h hs with ⟨r, hr, e0⟩ | ⟨hr, e0⟩ <;> rw [e0]
      · have a := ih (insert r T) given ⟨hgs, hn⟩
        have b := nodup_filter_insert given.reduceOption hn T r
        omega
      · have a := ih T given ⟨hgs, hn⟩
        rw [List.find?_eq_none] at hr
        cases g with
        | none => simpa using a
        | some r =>
          have : r ∈ T := by simpa using hr r (hg r rfl)
          simpa [List.filter_cons, this] using a

/-- If every hypothesis has one acceptable reference at most, no assignment has more hits. -/
theorem picked_most (pref : HE → List RE) (hs : List HE) (hp : ∀ h ∈ hs, (pref h).length ≤ 1) :
    ∀ (T : Set RE) (given : List (Option RE)), Assignment (fun r h => r ∈ pref h) hs given →
      (given.reduceOption.filter (freeOf T)).length ≤ picked pref T hs := by
  induction hs with
  | nil =>
    rintro T given ⟨h, _⟩
    cases h
    simp
  | cons h hs ih =>
    have ih := ih (fun x hx => hp x (by simp [hx]))
    rintro T given ⟨h1, h2⟩
    cases h1 with
    | cons hg hgs =>
      rename_i g given
      have hn : given.reduceOption.Nodup := by
        cases g with
        | none => simpa using h2
        | some r => simp at h2; exact h2.2
      rcases picked_cons pref T h hs with ⟨r, hr, e0⟩ | ⟨hr, e0⟩ <;> rw [e0]
      · have a := ih (insert r T) given ⟨hgs, hn⟩
        have b := nodup_filter_insert given.reduceOption hn T r
        cases g with
        | none => simp only [List.reduceOption_cons_of_none]; omega
        | some r' =>
          have hr' : r' = r := by
            have m1 : r' ∈ pref h := hg r' rfl
            have m2 := List.mem_of_find?_eq_some hr
            have hl := hp h (by simp)
            match hq : pref h, hl with
            | [], _ => rw [hq] at m1; simp at m1
            | [z], _ => rw [hq] at m1 m2; simp at m1 m2; rw [m1, m2]
          subst hr'
          have hnot : r' ∉ given.reduceOption := by simp at h2; simpa using h2.1
          have e : given.reduceOption.filter (freeOf (insert r' T)) =
              given.reduceOption.filter (freeOf T) := by
            refine List.filter_congr fun x hx => ?_
            have : x ≠ r' := fun h => hnot (h ▸ hx)
            simp [freeOf_insert, this]
          rw [e] at a
          simp only [List.reduceOption_cons_of_some, List.filter_cons]
          split <;> simp <;> omega
      · have a := ih T given ⟨hgs, hn⟩
        rw [List.find?_eq_none] at hr
        cases g with
        | none => simpa using a
        | some r =>
          have : r ∈ T := by simpa using hr r (hg r rfl)
          simpa [List.filter_cons, this] using a

end Kws
