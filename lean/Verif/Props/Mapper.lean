import Verif.Lemmas.Mapper

/-!
# C44 - C46: string ids

`lookups maxInt m ss` looks up the strings `ss` one after the other in the mapper `m` of an integer
type with maximum `maxInt`. `firsts ss` lists the distinct strings in order of first occurrence.
-/

namespace Kws
open Spec IntMapper

/-! ## C44 -/

theorem kMaxSize_eq (maxInt : Nat) (h : maxInt < 2 ^ 64 - 1) : kMaxSize maxInt = maxInt + 1 := by
  unfold kMaxSize
  omega

/-- C44: as long as the distinct strings fit, the lookups return the positions in order of first
lookup. -/
theorem C44_ids (maxInt : Nat) (hM : maxInt < 2 ^ 64 - 1) (ss : List Str)
    (hfit : (firsts ss).length ≤ maxInt + 1) :
    (IntMapper.new.lookups maxInt ss).2 = ss.map (fun s => .ok (idOf ss s)) := by
  obtain ⟨m', h, _⟩ := lookups_after maxInt ss new [] (after_new _)
  rw [h]
  simp only [List.nil_append]
  refine List.map_congr_left fun s hs => ?_
  have := idOf_lt ss s hs
  rw [if_pos (by rw [kMaxSize_eq maxInt hM]; omega)]

/-- C44: two lookups of the history return the same id exactly if they are of the same string. -/
theorem C44_stable_injective (maxInt : Nat) (hM : maxInt < 2 ^ 64 - 1) (ss : List Str)
    (hfit : (firsts ss).length ≤ maxInt + 1) (i j : Nat) (s t : Str)
    (hi : ss[i]? = some s) (hj : ss[j]? = some t) :
    ∃ a b, (IntMapper.new.lookups maxInt ss).2[i]? = some (.ok a) ∧
      (IntMapper.new.lookups maxInt ss).2[j]? = some (.ok b) ∧ (a = b ↔ s = t) := by
  rw [C44_ids maxInt hM ss hfit]
  refine ⟨idOf ss s, idOf ss t, by simp [hi], by simp [hj], ?_, fun h => by rw [h]⟩
  exact idOf_inj ss s t (List.mem_of_getElem? hi)

/-- C44: the ids in use are `0, ..., n-1` for `n` distinct strings. -/
theorem C44_dense (maxInt : Nat) (hM : maxInt < 2 ^ 64 - 1) (ss : List Str)
    (hfit : (firsts ss).length ≤ maxInt + 1) (k : Nat) :
    .ok k ∈ (IntMapper.new.lookups maxInt ss).2 ↔ k < ss.toFinset.card := by
  have hcard : ss.toFinset.card = (firsts ss).length := by
    rw [← List.toFinset_card_of_nodup (firsts_nodup ss)]
    congr 1
    ext x
    simp [mem_firsts]
  rw [C44_ids maxInt hM ss hfit, hcard, List.mem_map]
  constructor
  · rintro ⟨s, hs, e⟩
    injection e with e
    rw [← e]
    exact idOf_lt ss s hs
  · intro h
    refine ⟨(firsts ss)[k], (mem_firsts ss _).1 (List.getElem_mem h), ?_⟩
    congr 1
    exact List.Nodup.idxOf_getElem (firsts_nodup ss) k h

/-- C44: ids are given in order of first lookup. -/
theorem C44_order (ss : List Str) (s t : Str) (hs : s ∈ ss) (ht : t ∈ ss) :
    idOf ss s < idOf ss t ↔ ss.idxOf s < ss.idxOf t := by
  induction ss using List.reverseRecOn with
  | nil => simp at hs
  | append_singleton ss x ih =>
    by_cases h1 : s ∈ ss <;> by_cases h2 : t ∈ ss
    · rw [idOf_append ss [x] s h1, idOf_append ss [x] t h2, List.idxOf_append_of_mem h1,
        List.idxOf_append_of_mem h2]
      exact ih h1 h2
    · have hx : t = x := by simpa [h2] using ht
      subst hx
      have a1 := idOf_lt ss s h1
      have a2 := List.idxOf_lt_length_of_mem h1
      rw [idOf_append ss [t] s h1, idOf_new ss t h2, List.idxOf_append_of_mem h1,
        List.idxOf_append_of_notMem h2]
      simp only [List.idxOf_cons_self]
      omega
    · have hx : s = x := by simpa [h1] using hs
      subst hx
      have a1 := idOf_lt ss t h2
      have a2 := List.idxOf_lt_length_of_mem h2
      rw [idOf_append ss [s] t h2, idOf_new ss s h1, List.idxOf_append_of_mem h2,
        List.idxOf_append_of_notMem h1]
      simp only [List.idxOf_cons_self]
      omega
    · have hx : s = x := by simpa [h1] using hs
      have hy : t = x := by simpa [h2] using ht
      subst hx
      subst hy
      omega

/-- Seven lookups of three distinct strings. -/
example : (IntMapper.new.lookups 2 ["b".toList, "a".toList, "b".toList, "c".toList, "a".toList]).2 =
    [.ok 0, .ok 1, .ok 0, .ok 2, .ok 1] := by
  decide +kernel

/-! ## C45 -/

/-- C45: for an integer type with maximum `maxInt` below `2^64 - 1`, in any history the first
`maxInt + 1` distinct strings always resolve to their ids, and the lookups of all other strings
raise `range_error`. -/
theorem C45_capacity_partial (maxInt : Nat) (hM : maxInt < 2 ^ 64 - 1) (ss : List Str) :
    (IntMapper.new.lookups maxInt ss).2 = ss.map (fun s =>
      if idOf ss s < maxInt + 1 then .ok (idOf ss s) else .error .rangeError) := by
  obtain ⟨m', h, _⟩ := lookups_after maxInt ss new [] (after_new _)
  rw [h, kMaxSize_eq maxInt hM]
  simp

/-- C45: a failing lookup leaves the mapper unchanged. -/
theorem C45_unchanged (maxInt : Nat) (m m' : IntMapper) (s : Str) (f : Fault)
    (h : m.lookup maxInt s = (m', .error f)) : m' = m ∧ f = .rangeError := by
  unfold lookup at h
  split at h
  · cases h
  · split at h
    · cases h
    · rw [Prod.mk.injEq] at h
      obtain ⟨rfl, h⟩ := h
      injection h with h
      exact ⟨rfl, h.symm⟩

/-- C45: ids never exceed the maximum of the type. -/
theorem C45_no_wrap (maxInt : Nat) (hM : maxInt < 2 ^ 64 - 1) (ss : List Str) (i : Nat)
    (h : .ok i ∈ (IntMapper.new.lookups maxInt ss).2) : i ≤ maxInt := by
  rw [C45_capacity_partial maxInt hM ss, List.mem_map] at h
  obtain ⟨s, _, h⟩ := h
  split at h
  · injection h with h
    omega
  · cases h

/-- C45 is false for `uint64_t` (`size_t`): the maximal size wraps to 0 and the very first lookup
raises `range_error`. -/
theorem C45_uint64_refuted (s : Str) :
    IntMapper.new.lookup (2 ^ 64 - 1) s = (IntMapper.new, .error .rangeError) := by
  rfl

/-- A type with values 0 and 1: the third string fails, the first two still resolve. -/
example : (IntMapper.new.lookups 1 ["b".toList, "a".toList, "c".toList, "a".toList]).2 =
    [.ok 0, .ok 1, .error .rangeError, .ok 1] := by
  decide +kernel

/-! ## C46 -/

theorem mapAll_after (queryFirst : Bool) (maxInt : Nat) (hM : maxInt < 2 ^ 64 - 1)
    (es : List (ScoredEvent Str Str)) : ∀ (m : IntMapper) (past : List Str),
    After (kMaxSize maxInt) m past →
    (firsts (past ++ (es.map (fun e => strings queryFirst e.base)).flatten)).length ≤ maxInt + 1 →
    (m.mapAll queryFirst maxInt es).2 = es.map (fun e =>
      let id := idOf (past ++ (es.map (fun e => strings queryFirst e.base)).flatten)
      .ok ⟨⟨id e.base.query, id e.base.location⟩, e.score⟩) := by
  induction es with
  | nil => intro m past _ _; rfl
  | cons e es ih =>
    intro m past h hr
    have heq : past ++ ((e :: es).map (fun e => strings queryFirst e.base)).flatten =
        (past ++ strings queryFirst e.base) ++
          (es.map (fun e => strings queryFirst e.base)).flatten := by simp
    rw [heq] at hr ⊢
    obtain ⟨more, hm⟩ := firsts_append (past ++ strings queryFirst e.base)
      (es.map (fun e => strings queryFirst e.base)).flatten
    obtain ⟨m1, e1, a1⟩ := mapEvent_after queryFirst maxInt m past e.base h (by
      rw [kMaxSize_eq maxInt hM]
      rw [hm, List.length_append] at hr
      omega)
    have hrest := ih m1 _ a1 hr
    unfold mapAll mapScoredEvent
    simp only [e1, hrest, List.map_cons]
    have hmem : e.base.query ∈ past ++ strings queryFirst e.base ∧
        e.base.location ∈ past ++ strings queryFirst e.base := by
      unfold strings
      cases queryFirst <;> simp
    rw [idOf_append _ _ _ hmem.1, idOf_append _ _ _ hmem.2]

/-- C46: mapping any sequence of events (as long as the strings fit) renames queries and locations
by a function that is injective on the strings of the sequence, and keeps the scores; whatever the
order of evaluation. -/
theorem C46_renaming (queryFirst : Bool) (maxInt : Nat) (hM : maxInt < 2 ^ 64 - 1)
    (es : List (ScoredEvent Str Str))
    (hfit : ((es.map (·.base.query)).toFinset ∪ (es.map (·.base.location)).toFinset).card ≤ maxInt + 1) :
    ∃ id : Str → Nat,
      (∀ s t, (s ∈ es.map (·.base.query) ∨ s ∈ es.map (·.base.location)) →
        (t ∈ es.map (·.base.query) ∨ t ∈ es.map (·.base.location)) → id s = id t → s = t) ∧
      (IntMapper.new.mapAll queryFirst maxInt es).2 =
        es.map (fun e => .ok ⟨⟨id e.base.query, id e.base.location⟩, e.score⟩) := by
  set ss := (es.map (fun e => strings queryFirst e.base)).flatten with hss
  have hmem : ∀ s, s ∈ ss ↔ s ∈ es.map (·.base.query) ∨ s ∈ es.map (·.base.location) := by
    intro s
    rw [hss, List.mem_flatten]
    simp only [List.mem_map]
    constructor
    · rintro ⟨l, ⟨e, he, rfl⟩, hs⟩
      unfold strings at hs
      cases queryFirst <;> simp only [Bool.false_eq_true, if_true, if_false, List.mem_cons,
        List.not_mem_nil, or_false] at hs
      · rcases hs with rfl | rfl
        · exact Or.inr ⟨e, he, rfl⟩
        · exact Or.inl ⟨e, he, rfl⟩
      · rcases hs with rfl | rfl
        · exact Or.inl ⟨e, he, rfl⟩
        · exact Or.inr ⟨e, he, rfl⟩
    · rintro (⟨e, he, rfl⟩ | ⟨e, he, rfl⟩)
      · exact ⟨_, ⟨e, he, rfl⟩, by unfold strings; cases queryFirst <;> simp⟩
      · exact ⟨_, ⟨e, he, rfl⟩, by unfold strings; cases queryFirst <;> simp⟩
  have hcard : (firsts ss).length ≤ maxInt + 1 := by
    refine le_trans (le_of_eq ?_) hfit
    rw [← List.toFinset_card_of_nodup (firsts_nodup ss)]
    congr 1
    ext x
    rw [List.mem_toFinset, mem_firsts, hmem, Finset.mem_union, List.mem_toFinset, List.mem_toFinset]
  refine ⟨idOf ss, ?_, ?_⟩
  · intro s t hs _ h
    exact idOf_inj ss s t ((hmem s).2 hs) h
  · have := mapAll_after queryFirst maxInt hM es new [] (after_new _) (by simpa using hcard)
    simpa using this

/-- C46: two mapped events are equal exactly if the original events are. -/
theorem C46_identity (queryFirst : Bool) (maxInt : Nat) (hM : maxInt < 2 ^ 64 - 1)
    (es : List (ScoredEvent Str Str))
    (hfit : ((es.map (·.base.query)).toFinset ∪ (es.map (·.base.location)).toFinset).card ≤ maxInt + 1)
    (i j : Nat) (e f : ScoredEvent Str Str) (hi : es[i]? = some e) (hj : es[j]? = some f) :
    ∃ a b, (IntMapper.new.mapAll queryFirst maxInt es).2[i]? = some (.ok a) ∧
      (IntMapper.new.mapAll queryFirst maxInt es).2[j]? = some (.ok b) ∧
      (a.base = b.base ↔ e.base = f.base) ∧ a.score = e.score ∧ b.score = f.score := by
  obtain ⟨id, hinj, h⟩ := C46_renaming queryFirst maxInt hM es hfit
  rw [h]
  have me : e ∈ es := List.mem_of_getElem? hi
  have mf : f ∈ es := List.mem_of_getElem? hj
  refine ⟨⟨⟨id e.base.query, id e.base.location⟩, e.score⟩,
    ⟨⟨id f.base.query, id f.base.location⟩, f.score⟩, by simp [hi], by simp [hj], ?_, rfl, rfl⟩
  simp only [Event.mk.injEq]
  constructor
  · rintro ⟨h1, h2⟩
    have e1 := hinj _ _ (Or.inl (List.mem_map_of_mem me)) (Or.inl (List.mem_map_of_mem mf)) h1
    have e2 := hinj _ _ (Or.inr (List.mem_map_of_mem me)) (Or.inr (List.mem_map_of_mem mf)) h2
    cases he : e.base
    cases hf : f.base
    rw [he, hf] at e1 e2
    simp_all
  · intro h
    rw [h]
    exact ⟨rfl, rfl⟩

example : (IntMapper.new.mapAll false 10 [⟨⟨"q".toList, "l".toList⟩, .fin 1⟩,
    ⟨⟨"l".toList, "q".toList⟩, .fin 2⟩]).2 = [.ok ⟨⟨1, 0⟩, .fin 1⟩, .ok ⟨⟨0, 1⟩, .fin 2⟩] := by
  decide +kernel

end Kws
