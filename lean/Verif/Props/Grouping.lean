import Verif.Lemmas.AP

/-!
# C35: grouping matches by query group
-/

set_option linter.unusedSectionVars false

namespace Kws
open Spec

section
variable {Q L : Type} [DecidableEq Q]

theorem find?_zipIdx (k : Q) (keys : List Q) : ∀ n, AMap.find? k (keys.zipIdx n) =
    if k ∈ keys then some (n + keys.idxOf k) else none := by
  induction keys with
  | nil => intro n; simp [AMap.find?]
  | cons x xs ih =>
    intro n
    rw [List.zipIdx_cons, AMap.find?]
    by_cases h : k = x
    · subst h; simp
    · rw [if_neg h, ih]
      simp only [List.mem_cons, h, false_or]
      split
      · rw [List.idxOf_cons_ne _ (Ne.symm h)]; congr 1; omega
      · rfl

theorem modify_map_idxOf {β : Type} (keys : List Q) (hn : keys.Nodup) (F F' : Q → β) (k : Q)
    (f : β → β) (hk : F' k = f (F k)) (ho : ∀ k' ∈ keys, k' ≠ k → F' k' = F k') (_hm : k ∈ keys) :
    (keys.map F).modify (keys.idxOf k) f = keys.map F' := by
  refine List.ext_getElem (by simp) fun i h1 h2 => ?_
  rw [List.getElem_modify, List.getElem_map, List.getElem_map]
  have hi : i < keys.length := by simpa using h2
  split
  · rename_i h
    subst h
    have : keys[keys.idxOf k] = k := List.getElem_idxOf _
    rw [this, hk]
  · rename_i h
    refine (ho _ (List.getElem_mem _) fun he => h ?_).symm
    rw [← he]
    exact hn.idxOf_getElem i hi

/-- One grouping step as a function of the key. -/
theorem group_fold (key : KwsMatch Q L → Q) (ms : List (KwsMatch Q L)) :
    ∃ keys : List Q, keys.Nodup ∧ (∀ k, k ∈ keys ↔ ∃ m ∈ ms, key m = k) ∧
      keys.Pairwise (fun a b => (ms.map key).idxOf a < (ms.map key).idxOf b) ∧
      ms.foldl (fun st m => groupStep (key m) m st) ([], []) =
        (keys.zipIdx, keys.map (fun k => ms.filter (fun m => key m = k))) := by
  induction ms using List.reverseRecOn with
  | nil => exact ⟨[], by simp⟩
  | append_singleton ms m ih =>
    obtain ⟨keys, h1, h2, h3, h4⟩ := ih
    have hidx : ∀ a ∈ keys, ((ms ++ [m]).map key).idxOf a = (ms.map key).idxOf a := by
      intro a ha
      rw [List.map_append, List.idxOf_append_of_mem]
      obtain ⟨x, hx, rfl⟩ := (h2 a).1 ha
      exact List.mem_map_of_mem hx
    rw [List.foldl_append, h4]
    simp only [List.foldl_cons, List.foldl_nil, groupStep, AMap.emplace, find?_zipIdx]
    by_cases hk : key m ∈ keys
    · refine ⟨keys, h1, ?_, ?_, ?_⟩
      · intro k
        rw [h2]
        simp only [List.mem_append, List.mem_singleton]
        constructor
        · rintro ⟨x, hx, hx'⟩; exact ⟨x, Or.inl hx, hx'⟩
        · rintro ⟨x, hx | rfl, hx'⟩
          · exact ⟨x, hx, hx'⟩
          · obtain ⟨y, hy, hy'⟩ := (h2 _).1 hk; exact ⟨y, hy, by rw [hy', hx']⟩
      · exact h3.imp_of_mem (fun {a b} ha hb h => by rw [hidx a ha, hidx b hb]; exact h)
      · rw [if_pos hk]
        simp only [Nat.zero_add, List.length_map]
        rw [if_pos (List.idxOf_lt_length_of_mem hk)]
        congr 1
        refine modify_map_idxOf keys h1 _ _ (key m) _ ?_ ?_ hk
        · rw [List.filter_append]; simp
        · intro k' _ hne
          rw [List.filter_append]; simp [hne.symm]
    · have hnew : ms.filter (fun x => decide (key x = key m)) = [] := by
        rw [List.filter_eq_nil_iff]
        intro x hx
        rw [decide_eq_true_iff]
        exact fun h => hk ((h2 _).2 ⟨x, hx, h⟩)
      refine ⟨keys ++ [key m], ?_, ?_, ?_, ?_⟩
      · rw [List.nodup_append]
        refine ⟨h1, by simp, ?_⟩
        intro a ha b hb
        rw [List.mem_singleton] at hb
        rintro rfl
        exact hk (hb ▸ ha)
      · intro k
        rw [List.mem_append, h2, List.mem_singleton]
        simp only [List.mem_append, List.mem_singleton]
        constructor
        · rintro (⟨x, hx, hx'⟩ | rfl)
          · exact ⟨x, Or.inl hx, hx'⟩
          · exact ⟨m, Or.inr rfl, rfl⟩
        · rintro ⟨x, hx | rfl, hx'⟩
          · exact Or.inl ⟨x, hx, hx'⟩
          · exact Or.inr hx'.symm
      · rw [List.pairwise_append]
        refine ⟨h3.imp_of_mem (fun {a b} ha hb h => by rw [hidx a ha, hidx b hb]; exact h),
          by simp, ?_⟩
        intro a ha b hb
        rw [List.mem_singleton] at hb
        subst hb
        rw [hidx a ha, List.map_append, List.idxOf_append_of_notMem]
        · obtain ⟨x, hx, rfl⟩ := (h2 a).1 ha
          have := List.idxOf_lt_length_of_mem (List.mem_map_of_mem (f := key) hx)
          omega
        · intro h
          obtain ⟨x, hx, hx'⟩ := List.mem_map.1 h
          exact hk ((h2 _).2 ⟨x, hx, hx'⟩)
      · rw [if_neg hk]
        simp only [List.length_zipIdx, List.length_map, lt_irrefl, if_false, List.zipIdx_append,
          List.map_append, List.map_cons, List.map_nil, List.zipIdx_cons, List.zipIdx_nil,
          Nat.zero_add]
        congr 2
        · refine List.map_congr_left fun k hk' => ?_
          rw [List.filter_append]
          have : key m ≠ k := fun h => hk (h ▸ hk')
          simp [this]
        · rw [List.filter_append, hnew]; simp

theorem matchQuery_ok (m : KwsMatch Q L) (q : Q)
    (h : (m.ref.map (·.query)).or (m.hyp.map (·.base.query)) = some q) : matchQuery m = .ok q := by
  unfold matchQuery Match.hasRef Match.getRef Match.getHyp
  cases hr : m.ref with
  | some r =>
    rw [hr] at h
    simp only [Option.map_some, Option.some_or, Option.some.injEq] at h
    simp [bind, Except.bind, pure, Except.pure, h]
  | none =>
    rw [hr] at h
    cases hh : m.hyp with
    | none => rw [hh] at h; simp at h
    | some x =>
      rw [hh] at h
      simp only [Option.map_none, Option.map_some, Option.none_or, Option.some.injEq] at h
      simp [bind, Except.bind, pure, Except.pure, h]

theorem groupOf_eq (query2group : List (Q × Q)) (grp : Q → Q)
    (h1 : ∀ q g, (q, g) ∈ query2group → grp q = g)
    (h2 : ∀ q, (∀ g, (q, g) ∉ query2group) → grp q = q) (q : Q) : groupOf query2group q = grp q := by
  have key : ∀ l : List (Q × Q), (∀ g, AMap.find? q l = some g → (q, g) ∈ l) ∧
      (AMap.find? q l = none → ∀ g, (q, g) ∉ l) := by
    intro l
    induction l with
    | nil => simp [AMap.find?]
    | cons p l ih =>
      obtain ⟨k, v⟩ := p
      unfold AMap.find?
      by_cases h : q = k
      · subst h
        simp
      · rw [if_neg h]
        refine ⟨fun g hg => List.mem_cons_of_mem _ (ih.1 g hg), fun hn g hg => ?_⟩
        rcases List.mem_cons.1 hg with h' | h'
        · exact h (Prod.mk.inj h').1
        · exact ih.2 hn g h'
  unfold groupOf
  cases hf : AMap.find? q query2group with
  | none => exact (h2 q ((key _).2 hf)).symm
  | some g => exact (h1 q g ((key _).1 g hf)).symm

/-- C35: let `query m` be the query of a match (of its reference if it has one, else of its
hypothesis) and `grp` the function described by the query-to-group table (the identity outside the
table). Then grouping returns, for each group in order of first appearance, the matches of that
group in their original order. -/
theorem C35_grouping (query2group : List (Q × Q)) (grp : Q → Q)
    (h1 : ∀ q g, (q, g) ∈ query2group → grp q = g)
    (h2 : ∀ q, (∀ g, (q, g) ∉ query2group) → grp q = q)
    (ms : List (KwsMatch Q L)) (query : KwsMatch Q L → Q)
    (hq : ∀ m ∈ ms, (m.ref.map (·.query)).or (m.hyp.map (·.base.query)) = some (query m)) :
    ∃ keys : List Q, keys.Nodup ∧ (∀ k, k ∈ keys ↔ ∃ m ∈ ms, grp (query m) = k) ∧
      keys.Pairwise (fun a b => (ms.map (fun m => grp (query m))).idxOf a <
        (ms.map (fun m => grp (query m))).idxOf b) ∧
      groupMatches query2group ms =
        .ok (keys.map (fun k => ms.filter (fun m => grp (query m) = k))) := by
  obtain ⟨keys, k1, k2, k3, k4⟩ := group_fold (fun m => grp (query m)) ms
  refine ⟨keys, k1, k2, k3, ?_⟩
  have key : ∀ (l : List (KwsMatch Q L)), (∀ m ∈ l, m ∈ ms) → ∀ st,
      groupLoop query2group l st = .ok (l.foldl (fun st m => groupStep (grp (query m)) m st) st) := by
    intro l
    induction l with
    | nil => intro _ st; rfl
    | cons m l ih =>
      intro hl st
      simp only [groupLoop, matchQuery_ok m (query m) (hq m (hl m (by simp))), bind, Except.bind,
        List.foldl_cons, groupOf_eq query2group grp h1 h2]
      exact ih (fun x hx => hl x (by simp [hx])) _
  unfold groupMatches
  simp only [key ms (fun _ h => h), k4, bind, Except.bind, pure, Except.pure]

theorem flatten_filter_perm {α : Type} (key : α → Q) (keys : List Q) (hn : keys.Nodup) :
    ∀ ms : List α, (∀ m ∈ ms, key m ∈ keys) →
    (keys.map (fun k => ms.filter (fun m => key m = k))).flatten.Perm ms := by
  induction keys with
  | nil =>
    intro ms h
    cases ms with
    | nil => simp
    | cons m ms => exact absurd (h m (by simp)) (by simp)
  | cons k ks ih =>
    intro ms h
    rw [List.nodup_cons] at hn
    have hrec := ih hn.2 (ms.filter (fun m => ¬ key m = k)) (by
      intro m hm
      rw [List.mem_filter, decide_eq_true_iff] at hm
      rcases List.mem_cons.1 (h m hm.1) with h' | h'
      · exact absurd h' hm.2
      · exact h')
    have heq : ks.map (fun k' => (ms.filter (fun m => ¬ key m = k)).filter (fun m => key m = k')) =
        ks.map (fun k' => ms.filter (fun m => key m = k')) := by
      refine List.map_congr_left fun k' hk' => ?_
      rw [List.filter_filter]
      refine List.filter_congr fun m _ => ?_
      by_cases hm : key m = k'
      · have : key m ≠ k := by rintro rfl; exact hn.1 (hm ▸ hk')
        simp [hm]
        exact fun h => this (hm.trans h)
      · simp [hm]
    rw [heq] at hrec
    rw [List.map_cons, List.flatten_cons]
    refine (List.Perm.append_left _ hrec).trans ?_
    have := List.filter_append_perm (fun m => decide (key m = k)) ms
    simpa using this

/-- C35: nothing is lost or invented, no group is empty, and two matches are in the same group
exactly if their queries have the same group. -/
theorem C35_partition (query2group : List (Q × Q)) (grp : Q → Q)
    (h1 : ∀ q g, (q, g) ∈ query2group → grp q = g)
    (h2 : ∀ q, (∀ g, (q, g) ∉ query2group) → grp q = q)
    (ms : List (KwsMatch Q L)) (query : KwsMatch Q L → Q)
    (hq : ∀ m ∈ ms, (m.ref.map (·.query)).or (m.hyp.map (·.base.query)) = some (query m)) :
    ∃ groups, groupMatches query2group ms = .ok groups ∧ groups.flatten.Perm ms ∧ [] ∉ groups ∧
      (∀ g ∈ groups, g.Sublist ms) ∧
      (∀ g ∈ groups, ∀ a ∈ g, ∀ b ∈ ms, b ∈ g ↔ grp (query a) = grp (query b)) := by
  obtain ⟨keys, k1, k2, k3, k4⟩ := C35_grouping query2group grp h1 h2 ms query hq
  refine ⟨_, k4, ?_, ?_, ?_, ?_⟩
  · exact flatten_filter_perm (fun m => grp (query m)) keys k1 ms
      (fun m hm => (k2 _).2 ⟨m, hm, rfl⟩)
  · intro h
    obtain ⟨k, hk, he⟩ := List.mem_map.1 h
    obtain ⟨m, hm, hm'⟩ := (k2 k).1 hk
    rw [List.filter_eq_nil_iff] at he
    exact he m hm (by simpa using hm')
  · intro g hg
    obtain ⟨k, hk, rfl⟩ := List.mem_map.1 hg
    exact List.filter_sublist
  · intro g hg a ha b hb
    obtain ⟨k, hk, rfl⟩ := List.mem_map.1 hg
    rw [List.mem_filter, decide_eq_true_iff] at ha
    rw [List.mem_filter, decide_eq_true_iff, ha.2]
    exact ⟨fun h => h.2.symm, fun h => ⟨hb, h.symm⟩⟩

/-- C35: a match without events fails an assertion, so the hypothesis on queries is needed. -/
theorem C35_empty_match (query2group : List (Q × Q)) (e : MatchError) (ms : List (KwsMatch Q L)) :
    groupMatches query2group (⟨none, none, e⟩ :: ms) = .error .assertFail := by
  rfl

end

/-- Queries 1 and 2 are grouped together under 9, query 3 stays alone. -/
example : groupMatches (Q := Nat) (L := Nat) [(1, 9), (2, 9)]
    [⟨some ⟨1, 1⟩, none, ⟨0, 1⟩⟩, ⟨none, some ⟨⟨3, 1⟩, .fin 1⟩, ⟨1, 0⟩⟩, ⟨some ⟨2, 5⟩, none, ⟨0, 1⟩⟩] =
    .ok [[⟨some ⟨1, 1⟩, none, ⟨0, 1⟩⟩, ⟨some ⟨2, 5⟩, none, ⟨0, 1⟩⟩],
      [⟨none, some ⟨⟨3, 1⟩, .fin 1⟩, ⟨1, 0⟩⟩]] := by
  decide +kernel

end Kws
