import Verif.Spec.Mapping
import Verif.Lemmas.StdSet
import Verif.Lemmas.Tactics

/-!
Facts about `IntMapper`.
-/

namespace Kws
open Spec

section
variable {α : Type} [DecidableEq α]

theorem firsts_snoc (ss : List α) (s : α) :
    firsts (ss ++ [s]) = if s ∈ firsts ss then firsts ss else firsts ss ++ [s] := by
  unfold firsts
  rw [List.foldl_append]
  rfl

theorem firsts_append (ss ts : List α) : ∃ more, firsts (ss ++ ts) = firsts ss ++ more := by
  induction ts using List.reverseRecOn with
  | nil => exact ⟨[], by simp⟩
  | append_singleton ts t ih =>
    obtain ⟨more, h⟩ := ih
    rw [← List.append_assoc, firsts_snoc, h]
    split
    · exact ⟨more, rfl⟩
    · exact ⟨more ++ [t], by simp⟩

theorem mem_firsts (ss : List α) (s : α) : s ∈ firsts ss ↔ s ∈ ss := by
  induction ss using List.reverseRecOn with
  | nil => simp [firsts]
  | append_singleton ss t ih =>
    rw [firsts_snoc]
    split
    · rename_i h
      simp only [List.mem_append, List.mem_singleton, ← ih]
      exact ⟨Or.inl, fun h' => h'.elim id (fun e => e ▸ h)⟩
    · simp only [List.mem_append, List.mem_singleton, ← ih]

theorem firsts_nodup (ss : List α) : (firsts ss).Nodup := by
  induction ss using List.reverseRecOn with
  | nil => simp [firsts]
  | append_singleton ss t ih =>
    rw [firsts_snoc]
    split
    · exact ih
    · rename_i h
      exact List.nodup_append.2 ⟨ih, by simp, by
        intro a ha b hb
        simp only [List.mem_singleton] at hb
        subst hb
        rintro rfl
        exact h ha⟩

end

theorem idOf_append (ss ts : List Str) (s : Str) (h : s ∈ ss) : idOf (ss ++ ts) s = idOf ss s := by
  obtain ⟨more, e⟩ := firsts_append ss ts
  unfold idOf
  rw [e, List.idxOf_append_of_mem ((mem_firsts ss s).2 h)]

theorem idOf_new (ss : List Str) (s : Str) (h : s ∉ ss) : idOf (ss ++ [s]) s = (firsts ss).length := by
  have hn : s ∉ firsts ss := fun h' => h ((mem_firsts ss s).1 h')
  unfold idOf
  rw [firsts_snoc, if_neg hn, List.idxOf_append_of_notMem hn]
  simp

theorem idOf_lt (ss : List Str) (s : Str) (h : s ∈ ss) : idOf ss s < (firsts ss).length :=
  List.idxOf_lt_length_of_mem ((mem_firsts ss s).2 h)

theorem idOf_inj (ss : List Str) (s t : Str) (hs : s ∈ ss) (h : idOf ss s = idOf ss t) : s = t :=
  List.idxOf_inj ((mem_firsts ss s).2 hs) |>.1 h

namespace IntMapper

/-- The table after looking up the strings `ss`: the first `cap` distinct ones with their
positions. -/
def After (cap : Nat) (m : IntMapper) (ss : List Str) : Prop :=
  m.table = ((firsts ss).take cap).zipIdx

theorem after_new (cap : Nat) : After cap new [] := by
  simp [After, new, firsts]

theorem find?_zip (k : Str) (keys : List Str) : ∀ n, AMap.find? k (keys.zipIdx n) =
    if k ∈ keys then some (n + keys.idxOf k) else none := by
  induction keys with
  | nil => intro n; simp [AMap.find?]
  | cons x xs ih =>
    intro n
    rw [List.zipIdx_cons, AMap.find?]
    by_cases h : k = x
    · subst h; simp
    · rw [if_neg h, ih]
      have h' : (x == k) = false := by simpa using fun e : x = k => h e.symm
      by_cases hk : k ∈ xs
      · rw [if_pos hk, if_pos (List.mem_cons_of_mem _ hk), List.idxOf_cons, h']
        simp only [cond_false]
        congr 1
        omega
      · rw [if_neg hk, if_neg (by simp [h, hk])]

theorem lookup_after (maxInt : Nat) (m : IntMapper) (ss : List Str) (s : Str)
    (h : After (kMaxSize maxInt) m ss) :
    ∃ m', m.lookup maxInt s = (m', if idOf (ss ++ [s]) s < kMaxSize maxInt then
        .ok (idOf (ss ++ [s]) s) else .error .rangeError) ∧
      After (kMaxSize maxInt) m' (ss ++ [s]) := by
  set cap := kMaxSize maxInt with hcap
  have hfind : AMap.find? s m.table = if s ∈ (firsts ss).take cap then
      some (((firsts ss).take cap).idxOf s) else none := by
    rw [h, find?_zip]; simp
  have hlen : m.table.length = min cap (firsts ss).length := by rw [h]; simp
  unfold lookup
  rw [hfind, hlen, ← hcap]
  by_cases hmem : s ∈ (firsts ss).take cap
  · have hf : s ∈ firsts ss := List.mem_of_mem_take hmem
    have hidx : ((firsts ss).take cap).idxOf s = idOf (ss ++ [s]) s := by
      rw [idOf_append ss [s] s ((mem_firsts ss s).1 hf)]
      unfold idOf
      conv_rhs => rw [← List.take_append_drop cap (firsts ss)]
      rw [List.idxOf_append_of_mem hmem]
    have hlt : idOf (ss ++ [s]) s < cap := by
      rw [← hidx]
      have := List.idxOf_lt_length_of_mem hmem
      simp only [List.length_take] at this
      omega
    rw [if_pos hmem, if_pos hlt, hidx]
    refine ⟨m, rfl, ?_⟩
    unfold After
    rw [firsts_snoc, if_pos hf]
    exact h
  · rw [if_neg hmem]
    simp only
    by_cases hf : s ∈ firsts ss
    · -- looked up before, but it did not fit
      have hid : idOf (ss ++ [s]) s = (firsts ss).idxOf s :=
        idOf_append ss [s] s ((mem_firsts ss s).1 hf)
      have hge : cap ≤ (firsts ss).idxOf s := by
        by_contra hc
        apply hmem
        rw [List.mem_iff_getElem]
        have hl := List.idxOf_lt_length_of_mem hf
        exact ⟨(firsts ss).idxOf s, by simp; omega, by simp⟩
      have hl := List.idxOf_lt_length_of_mem hf
      rw [if_neg (by omega), if_neg (by omega)]
      refine ⟨m, rfl, ?_⟩
      unfold After
      rw [firsts_snoc, if_pos hf]
      exact h
    · have hid := idOf_new ss s (fun h' => hf ((mem_firsts ss s).2 h'))
      rw [hid]
      by_cases hlt : (firsts ss).length < cap
      · rw [if_pos (by omega), if_pos hlt, min_eq_right (by omega)]
        refine ⟨_, rfl, ?_⟩
        unfold After AMap.emplace
        simp only [hfind, if_neg hmem]
        rw [firsts_snoc, if_neg hf, List.take_of_length_le (by simp; omega), List.zipIdx_append, h,
          List.take_of_length_le (by omega)]
        simp
      · rw [if_neg (by omega), if_neg hlt]
        refine ⟨m, rfl, ?_⟩
        unfold After
        rw [firsts_snoc, if_neg hf, List.take_append_of_le_length (by omega)]
        exact h

theorem lookups_after (maxInt : Nat) (ss : List Str) : ∀ (m : IntMapper) (past : List Str),
    After (kMaxSize maxInt) m past →
    ∃ m', m.lookups maxInt ss = (m', ss.map (fun s => if idOf (past ++ ss) s < kMaxSize maxInt then
        .ok (idOf (past ++ ss) s) else .error .rangeError)) ∧
      After (kMaxSize maxInt) m' (past ++ ss) := by
  induction ss with
  | nil => intro m past h; exact ⟨m, rfl, by simpa using h⟩
  | cons s ss ih =>
    intro m past h
    obtain ⟨m1, e1, a1⟩ := lookup_after maxInt m past s h
    obtain ⟨m2, e2, a2⟩ := ih m1 (past ++ [s]) a1
    refine ⟨m2, ?_, by simpa using a2⟩
    have heq : past ++ s :: ss = (past ++ [s]) ++ ss := by simp
    unfold lookups
    simp only [e1, e2, heq, List.map_cons, idOf_append (past ++ [s]) ss s (by simp)]

theorem mapEvent_after (queryFirst : Bool) (maxInt : Nat) (m : IntMapper) (past : List Str)
    (e : Event Str Str) (h : After (kMaxSize maxInt) m past)
    (hroom : (firsts (past ++ strings queryFirst e)).length ≤ kMaxSize maxInt) :
    ∃ m', m.mapEvent queryFirst maxInt e = (m', .ok
        ⟨idOf (past ++ strings queryFirst e) e.query,
          idOf (past ++ strings queryFirst e) e.location⟩) ∧
      After (kMaxSize maxInt) m' (past ++ strings queryFirst e) := by
  have two : ∀ a b : Str, (firsts (past ++ [a, b])).length ≤ kMaxSize maxInt →
      ∃ m1 m2, m.lookup maxInt a = (m1, .ok (idOf (past ++ [a, b]) a)) ∧
        m1.lookup maxInt b = (m2, .ok (idOf (past ++ [a, b]) b)) ∧
        After (kMaxSize maxInt) m2 (past ++ [a, b]) := by
    intro a b hr
    obtain ⟨m1, e1, a1⟩ := lookup_after maxInt m past a h
    obtain ⟨m2, e2, a2⟩ := lookup_after maxInt m1 (past ++ [a]) b a1
    have heq : past ++ [a] ++ [b] = past ++ [a, b] := by simp
    rw [heq] at e2 a2
    have ha : idOf (past ++ [a]) a = idOf (past ++ [a, b]) a := by
      rw [← heq, idOf_append (past ++ [a]) [b] a (by simp)]
    have l1 := idOf_lt (past ++ [a, b]) a (by simp)
    have l2 := idOf_lt (past ++ [a, b]) b (by simp)
    rw [ha, if_pos (by omega)] at e1
    rw [if_pos (by omega)] at e2
    exact ⟨m1, m2, e1, e2, a2⟩
  unfold mapEvent
  cases queryFirst with
  | true =>
    obtain ⟨m1, m2, e1, e2, a2⟩ := two e.query e.location hroom
    refine ⟨m2, ?_, a2⟩
    simp only [if_true, e1, e2, strings]
  | false =>
    obtain ⟨m1, m2, e1, e2, a2⟩ := two e.location e.query hroom
    refine ⟨m2, ?_, a2⟩
    simp only [Bool.false_eq_true, if_false, e1, e2, strings]

end IntMapper

end Kws
