import Verif.Spec.Ownership
import Verif.Lemmas.Cmd
import Mathlib.Data.List.Nodup
import Mathlib.Data.List.Induction

/-!
# C86, C87: ownership of the tables of mappers and of the options of a parser
-/

namespace Kws
open Function (update)
open Spec (idsOf wordsOf Respects)

/-! ## C86: mappers -/

namespace MapperStore

/-- the object exists -/
def Alive (s : MapperStore) (i : Nat) : Prop := s.obj i ≠ none

/-- without copy assignments: every table has exactly one owner -/
structure WF (s : MapperStore) : Prop where
  live : ∀ i p, s.obj i = some (p, true) → s.tables.cell p ≠ none
  inj : ∀ i j p, s.obj i = some (p, true) → s.obj j = some (p, true) → i = j
  owned : ∀ p, s.tables.cell p ≠ none → ∃ i, s.obj i = some (p, true)
  fresh : ∀ p, s.tables.cell p ≠ none → p < s.tables.next

theorem wf_empty : empty.WF := by constructor <;> simp [empty, Heap.empty]

theorem wf_exec {maxInt : Nat} {s s' : MapperStore} {r} {c : MapperStmt} (h : s.WF)
    (hna : ∀ i j, c ≠ .assign i j) (he : s.exec maxInt c = .ok (s', r)) : s'.WF := by
  obtain ⟨live, inj, owned, fresh⟩ := h
  cases c with
  | construct i =>
    simp only [exec] at he
    cases hi : s.obj i with
    | some m => simp [hi] at he
    | none =>
      simp only [hi, pure, Except.pure, Except.ok.injEq, Prod.mk.injEq] at he
      obtain ⟨rfl, -⟩ := he
      have hf : s.tables.cell s.tables.next = none := by
        by_contra hc; exact absurd (fresh _ hc) (lt_irrefl _)
      refine ⟨?_, ?_, ?_, ?_⟩
      · intro j p hj
        simp only [Heap.alloc, update] at *
        have := live j p
        grind
      · intro j k p hj hk
        simp only [update] at *
        have := inj j k p
        have := live j p
        have := live k p
        grind
      · intro p hp
        simp only [Heap.alloc, update] at *
        by_cases hpn : p = s.tables.next
        · exact ⟨i, by simp [hpn]⟩
        · simp only [hpn, dite_false] at hp
          obtain ⟨j, hj⟩ := owned p hp
          refine ⟨j, ?_⟩
          have : j ≠ i := by intro h; subst h; simp [hi] at hj
          simp [this, hj]
      · intro p hp
        simp only [Heap.alloc, update] at *
        have := fresh p
        grind
  | copy i j =>
    simp only [exec] at he
    cases hi : s.obj i with
    | some m => simp [hi] at he
    | none =>
      cases hj : s.obj j with
      | none => simp [hi, hj, member, bind, Except.bind] at he
      | some m =>
        simp only [hi, hj, member, bind, Except.bind, pure, Except.pure, Except.ok.injEq,
          Prod.mk.injEq] at he
        obtain ⟨rfl, -⟩ := he
        refine ⟨?_, ?_, ?_, fresh⟩
        · intro k p hk
          simp only [update] at *
          have := live k p
          grind
        · intro k l p hk hl
          simp only [update] at *
          have := inj k l p
          grind
        · intro p hp
          obtain ⟨k, hk⟩ := owned p hp
          refine ⟨k, ?_⟩
          have : k ≠ i := by intro h; subst h; simp [hi] at hk
          simp [update, this, hk]
  | assign i j => exact absurd rfl (hna i j)
  | call i w =>
    cases hi : s.obj i with
    | none => simp [exec, hi, member, bind, Except.bind] at he
    | some m =>
      cases hc : s.tables.cell m.1 with
      | none => simp [exec, hi, hc, member, Heap.read, bind, Except.bind] at he
      | some t =>
        simp only [exec, hi, hc, member, Heap.read, Heap.write, bind, Except.bind, pure,
          Except.pure, Except.ok.injEq, Prod.mk.injEq] at he
        obtain ⟨rfl, -⟩ := he
        refine ⟨?_, inj, ?_, ?_⟩
        · intro k p hk
          have := live k p hk
          simp only [update]
          grind
        · intro p hp
          simp only [update] at hp
          apply owned
          grind
        · intro p hp
          simp only [update] at hp
          apply fresh
          grind
  | destroy i =>
    cases hi : s.obj i with
    | none => simp [exec, hi, member, bind, Except.bind] at he
    | some m =>
      obtain ⟨p, own⟩ := m
      cases own with
      | false =>
        simp only [exec, hi, member, bind, Except.bind, pure, Except.pure, Except.ok.injEq,
          Prod.mk.injEq, Bool.false_eq_true, if_false] at he
        obtain ⟨rfl, -⟩ := he
        refine ⟨?_, ?_, ?_, fresh⟩
        · intro k q hk
          simp only [update] at hk
          have := live k q
          grind
        · intro k l q hk hl
          simp only [update] at *
          have := inj k l q
          grind
        · intro q hq
          obtain ⟨k, hk⟩ := owned q hq
          refine ⟨k, ?_⟩
          have : k ≠ i := by intro h; subst h; simp [hi] at hk
          simp [update, this, hk]
      | true =>
        cases hc : s.tables.cell p with
        | none => exact absurd hc (live i p hi)
        | some t =>
          simp only [exec, hi, hc, member, Heap.delete, bind, Except.bind, pure, Except.pure,
            Except.ok.injEq, Prod.mk.injEq, if_true] at he
          obtain ⟨rfl, -⟩ := he
          refine ⟨?_, ?_, ?_, ?_⟩
          · intro k q hk
            simp only [update] at *
            have := live k q
            have := inj k i q
            grind
          · intro k l q hk hl
            simp only [update] at *
            have := inj k l q
            grind
          · intro q hq
            simp only [update] at hq
            have hqp : q ≠ p := by intro h; simp [h] at hq
            simp only [hqp, dite_false] at hq
            obtain ⟨k, hk⟩ := owned q hq
            refine ⟨k, ?_⟩
            have : k ≠ i := by intro h; subst h; rw [hi] at hk; simp at hk; exact hqp hk.symm
            simp [update, this, hk]
          · intro q hq
            simp only [update] at hq
            apply fresh
            grind

theorem wf_run {maxInt : Nat} {s s' : MapperStore} {ids} {cs : List MapperStmt} (h : s.WF)
    (hna : ∀ c ∈ cs, ∀ i j, c ≠ .assign i j) (he : s.run maxInt cs = .ok (s', ids)) : s'.WF := by
  induction cs generalizing s ids with
  | nil =>
    simp only [run, pure, Except.pure, Except.ok.injEq, Prod.mk.injEq] at he
    exact he.1 ▸ h
  | cons c cs ih =>
    simp only [run, bind, Except.bind] at he
    cases h1 : s.exec maxInt c with
    | error f => simp [h1] at he
    | ok x =>
      obtain ⟨s1, r⟩ := x
      simp only [h1] at he
      cases h2 : s1.run maxInt cs with
      | error f => simp [h2] at he
      | ok y =>
        simp only [h2, pure, Except.pure, Except.ok.injEq, Prod.mk.injEq] at he
        refine ih (wf_exec h (hna c (by simp)) h1) (fun c hc => hna c (by simp [hc])) (ids := y.2) ?_
        rw [h2, ← he.1]

end MapperStore

/-- C86. In a program without copy assignments, a statement goes wrong only if it uses an object
that does not exist (or creates one that exists), or if it calls a copy after the mapper that owns
the table is gone. In particular no table is ever deleted twice. -/
theorem C86_safe_partial (maxInt : Nat) (cs : List MapperStmt) (s : MapperStore) (ids)
    (hna : ∀ c ∈ cs, ∀ i j, c ≠ .assign i j)
    (he : MapperStore.empty.run maxInt cs = .ok (s, ids)) (c : MapperStmt)
    (hc : ∀ i j, c ≠ .assign i j) :
    (∃ x, s.exec maxInt c = .ok x) ↔
      Respects (fun i => s.obj i ≠ none) c ∧
      ∀ i w, c = .call i w → ∃ k p, s.obj k = some (p, true) ∧ (s.obj i).map (·.1) = some p := by
  have wf := MapperStore.wf_run MapperStore.wf_empty hna he
  cases c with
  | construct i => cases hi : s.obj i <;> simp [MapperStore.exec, Respects, hi, pure, Except.pure]
  | copy i j =>
    cases hi : s.obj i <;> cases hj : s.obj j <;>
      simp [MapperStore.exec, Respects, hi, hj, MapperStore.member, bind, Except.bind, pure,
        Except.pure]
  | assign i j => exact absurd rfl (hc i j)
  | call i w =>
    cases hi : s.obj i with
    | none => simp [MapperStore.exec, Respects, hi, MapperStore.member, bind, Except.bind]
    | some m =>
      cases ht : s.tables.cell m.1 with
      | none =>
        simp only [MapperStore.exec, Respects, hi, MapperStore.member, bind, Except.bind, Heap.read,
          ht]
        simp only [reduceCtorEq, exists_false, ne_eq, not_false_eq_true, true_and, false_iff]
        push Not
        refine ⟨i, w, rfl, fun k p hk hp => ?_⟩
        rw [hi] at hp
        simp only [Option.map_some, Option.some.injEq] at hp
        exact wf.live k p hk (hp ▸ ht)
      | some t =>
        simp only [MapperStore.exec, Respects, hi, MapperStore.member, bind, Except.bind, Heap.read,
          Heap.write, ht, pure, Except.pure]
        simp only [Except.ok.injEq, exists_eq', ne_eq, reduceCtorEq, not_false_eq_true, true_and,
          true_iff]
        intro i' w' hcall
        simp only [MapperStmt.call.injEq] at hcall
        obtain ⟨rfl, rfl⟩ := hcall
        obtain ⟨k, hk⟩ := wf.owned m.1 (by simp [ht])
        exact ⟨k, m.1, hk, by simp [hi]⟩
  | destroy i =>
    cases hi : s.obj i with
    | none => simp [MapperStore.exec, Respects, hi, MapperStore.member, bind, Except.bind]
    | some m =>
      obtain ⟨p, own⟩ := m
      cases own with
      | false =>
        simp [MapperStore.exec, Respects, hi, MapperStore.member, bind, Except.bind, pure,
          Except.pure]
      | true =>
        have := wf.live i p hi
        cases ht : s.tables.cell p with
        | none => exact absurd ht this
        | some t =>
          simp [MapperStore.exec, Respects, hi, ht, MapperStore.member, Heap.delete, bind,
            Except.bind, pure, Except.pure]

/-- C86. A program without copy assignments that ends the life of all its mappers returns all the
tables. -/
theorem C86_clean_partial (maxInt : Nat) (cs : List MapperStmt) (s : MapperStore) (ids)
    (hna : ∀ c ∈ cs, ∀ i j, c ≠ .assign i j)
    (he : MapperStore.empty.run maxInt cs = .ok (s, ids)) (hend : ∀ i, s.obj i = none) (p : Nat) :
    s.tables.cell p = none := by
  have wf := MapperStore.wf_run MapperStore.wf_empty hna he
  by_contra hc
  obtain ⟨i, hi⟩ := wf.owned p hc
  simp [hend i] at hi

/-- C86. A mapper and all its copies (and the copies of those) are one mapper: the ids that they
give are those that one mapper gives to the strings in the order of the calls. -/
theorem C86_copies_share (maxInt : Nat) (cs : List MapperStmt) (s : MapperStore) (ids)
    (hcs : ∀ c ∈ cs, (∃ i j, c = .copy i j) ∨ ∃ i w, c = .call i w)
    (he : MapperStore.empty.run maxInt (.construct 0 :: cs) = .ok (s, ids)) :
    ids = idsOf maxInt .new (wordsOf cs) := by
  have key : ∀ (t : MapperStore) (m : IntMapper) (s' : MapperStore) (ids' : List (Cpp Nat))
      (cs : List MapperStmt),
      (∀ c ∈ cs, (∃ i j, c = .copy i j) ∨ ∃ i w, c = .call i w) →
      t.tables.cell 0 = some m → (∀ i x, t.obj i = some x → x.1 = 0) →
      t.run maxInt cs = .ok (s', ids') → ids' = idsOf maxInt m (wordsOf cs) := by
    intro t m s' ids' cs
    induction cs generalizing t m s' ids' with
    | nil =>
      intro _ _ _ h
      simp only [MapperStore.run, pure, Except.pure, Except.ok.injEq, Prod.mk.injEq] at h
      simp [← h.2, wordsOf, idsOf]
    | cons c cs ih =>
      intro hall hcell hobj h
      have hall' := fun c hc => hall c (List.mem_cons_of_mem _ hc)
      rcases hall c (by simp) with ⟨i, j, rfl⟩ | ⟨i, w, rfl⟩
      · cases hi : t.obj i with
        | some x => simp [MapperStore.run, MapperStore.exec, hi, bind, Except.bind] at h
        | none =>
          cases hj : t.obj j with
          | none =>
            simp [MapperStore.run, MapperStore.exec, MapperStore.member, hi, hj, bind,
              Except.bind] at h
          | some x =>
            simp only [MapperStore.run, MapperStore.exec, MapperStore.member, hi, hj, bind,
              Except.bind, pure, Except.pure] at h
            set t' : MapperStore := ⟨t.tables, update t.obj i (some (x.1, false))⟩
            cases hr : t'.run maxInt cs with
            | error f => simp [hr] at h
            | ok y =>
              simp only [hr, Except.ok.injEq, Prod.mk.injEq, Option.toList_none,
                List.nil_append] at h
              have := ih t' m y.1 y.2 hall' hcell (by
                intro k z hk
                by_cases hki : k = i
                · subst hki
                  simp only [t', Function.update_self, Option.some.injEq] at hk
                  rw [← hk]; exact hobj j x hj
                · simp only [t', Function.update_of_ne hki] at hk
                  exact hobj k z hk) hr
              rw [← h.2, this]; rfl
      · cases hi : t.obj i with
        | none =>
          simp [MapperStore.run, MapperStore.exec, MapperStore.member, hi, bind, Except.bind] at h
        | some x =>
          have hx := hobj i x hi
          simp only [MapperStore.run, MapperStore.exec, MapperStore.member, hi, hx, Heap.read,
            Heap.write, hcell, bind, Except.bind, pure, Except.pure] at h
          set t' : MapperStore :=
            ⟨⟨update t.tables.cell 0 (some (m.lookup maxInt w).1), t.tables.next⟩, t.obj⟩
          cases hr : t'.run maxInt cs with
          | error f => simp [hr] at h
          | ok y =>
            simp only [hr, Except.ok.injEq, Prod.mk.injEq, Option.toList_some,
              List.cons_append, List.nil_append] at h
            have := ih t' (m.lookup maxInt w).1 y.1 y.2 hall' (by simp [t']) hobj hr
            rw [← h.2, this]; rfl
  simp only [MapperStore.run, MapperStore.exec, MapperStore.empty, bind, Except.bind, pure,
    Except.pure] at he
  set t : MapperStore := ⟨Heap.empty.alloc IntMapper.new,
    update (fun _ => none) 0 (some (Heap.empty.next (α := IntMapper), true))⟩
  cases hr : t.run maxInt cs with
  | error f => simp [t, hr] at he
  | ok y =>
    simp only [t, hr, Except.ok.injEq, Prod.mk.injEq, Option.toList_none,
      List.nil_append] at he
    rw [← he.2]
    refine key t .new y.1 y.2 cs hcs (by simp [t, Heap.alloc, Heap.empty]) ?_ hr
    intro i x hx
    by_cases hi : i = 0
    · subst hi
      simp only [t, Function.update_self, Option.some.injEq] at hx
      rw [← hx]; rfl
    · simp [t, Function.update_of_ne hi] at hx

/-- C86 is false of the code: after the copy assignment `m_0 = m_1` both mappers own the same
table, which is deleted twice (and the table of `m_0` is lost). -/
theorem C86_assign_refuted : ∃ cs : List MapperStmt,
    cs = [.construct 0, .construct 1, .assign 0 1, .destroy 1, .destroy 0] ∧
    (MapperStore.empty.run (2 ^ 31 - 1) (cs.take 4)).isOk ∧
    MapperStore.empty.run (2 ^ 31 - 1) cs = .error .ub :=
  ⟨_, rfl, rfl, rfl⟩

/-- C86 is false of the code: a copy cannot be used after the original is gone. -/
theorem C86_copy_refuted : ∃ cs : List MapperStmt,
    cs = [.construct 0, .copy 1 0, .destroy 0, .call 1 "a".toList] ∧
    (MapperStore.empty.run (2 ^ 31 - 1) (cs.take 3)).isOk ∧
    MapperStore.empty.run (2 ^ 31 - 1) cs = .error .ub :=
  ⟨_, rfl, rfl, rfl⟩

/-- A program that meets the hypotheses of `C86_copies_share`. -/
example : ∃ s, MapperStore.empty.run (2 ^ 31 - 1)
    [.construct 0, .call 0 "a".toList, .copy 1 0, .call 1 "b".toList, .call 0 "b".toList,
     .call 1 "a".toList] = .ok (s, [.ok 0, .ok 1, .ok 1, .ok 0]) := ⟨_, rfl⟩

/-- A program without copy assignments that ends the life of its mappers. -/
example : ∃ s, MapperStore.empty.run (2 ^ 31 - 1)
    [.construct 0, .copy 1 0, .call 1 "b".toList, .destroy 1, .destroy 0] = .ok (s, [.ok 0]) ∧
    s.tables.next = 1 ∧ s.tables.cell 0 = none := ⟨_, rfl, rfl, rfl⟩

/-! ## C87: parsers -/

namespace ParserObj

/-- all the pointers of the parser -/
def ptrs (p : ParserObj) : List Nat := p.opts.map (·.2) ++ (p.args ++ p.optArgs)

/-- the state after the registrations `rs` -/
structure After (rs : List Register) (h : Heap OptVal) (p : ParserObj) : Prop where
  nodup : p.ptrs.Nodup
  live : ∀ a, h.cell a ≠ none ↔ a ∈ p.ptrs
  fresh : ∀ a ∈ p.ptrs, a < h.next
  names : (p.opts.map (·.1)).Nodup
  opts : ∀ n v, (∃ a, (n, a) ∈ p.opts ∧ h.cell a = some v) ↔ Spec.FirstOption rs n v
  args : p.args.map h.cell = (Spec.argumentsOf rs).map some
  optArgs : p.optArgs.map h.cell = (Spec.optArgumentsOf rs).map some

theorem after_nil : After [] Heap.empty new := by
  constructor <;> simp [new, ptrs, Heap.empty, Spec.FirstOption, Spec.argumentsOf,
    Spec.optArgumentsOf]

theorem firstOption_append {rs : List Register} {r : Register} {n : Str} {v : OptVal} :
    Spec.FirstOption (rs ++ [r]) n v ↔ Spec.FirstOption rs n v ∨
      n ≠ "help".toList ∧ r = .option n v ∧ ∀ w, Register.option n w ∉ rs := by
  constructor
  · rintro ⟨hn, b, a, heq, hb⟩
    rcases List.eq_nil_or_concat a with rfl | ⟨a', x, rfl⟩
    · have := List.append_inj' heq rfl
      exact .inr ⟨hn, by simpa using this.2, this.1 ▸ hb⟩
    · rw [List.concat_eq_append, ← List.cons_append, ← List.append_assoc] at heq
      exact .inl ⟨hn, b, a', (List.append_inj' heq rfl).1, hb⟩
  · rintro (⟨hn, b, a, rfl, hb⟩ | ⟨hn, rfl, hb⟩)
    · exact ⟨hn, b, a ++ [r], by simp, hb⟩
    · exact ⟨hn, rs, [], rfl, hb⟩

theorem firstOption_of_mem {rs : List Register} {n : Str} (hn : n ≠ "help".toList) {w : OptVal}
    (h : Register.option n w ∈ rs) : ∃ v, Spec.FirstOption rs n v := by
  induction rs using List.reverseRecOn generalizing w with
  | nil => simp at h
  | append_singleton rs r ih =>
    by_cases hw : ∃ w', Register.option n w' ∈ rs
    · obtain ⟨w', hw'⟩ := hw
      obtain ⟨v, hv⟩ := ih hw'
      exact ⟨v, firstOption_append.2 (.inl hv)⟩
    · push Not at hw
      rcases List.mem_append.1 h with h | h
      · exact absurd h (hw w)
      · exact ⟨w, firstOption_append.2 (.inr ⟨hn, (List.mem_singleton.1 h).symm, hw⟩)⟩

theorem after_register {rs : List Register} {h : Heap OptVal} {p : ParserObj}
    (w : After rs h p) (r : Register) :
    ∃ h' p', register h p r = .ok (h', p') ∧ After (rs ++ [r]) h' p' := by
  have hnext : h.next ∉ p.ptrs := fun hm => absurd (w.fresh _ hm) (lt_irrefl _)
  have hcell : ∀ v, ∀ a ∈ p.ptrs, update h.cell h.next (some v) a = h.cell a := by
    intro v a ha
    refine Function.update_of_ne ?_ _ _
    rintro rfl
    exact hnext ha
  have hmo : ∀ {n : Str} {a : Nat}, (n, a) ∈ p.opts → a ∈ p.ptrs := by
    intro n a hm
    exact List.mem_append.2 (.inl (List.mem_map.2 ⟨_, hm, rfl⟩))
  have hma : ∀ {a : Nat}, a ∈ p.args → a ∈ p.ptrs := fun hm => by simp [ptrs, hm]
  have hmb : ∀ {a : Nat}, a ∈ p.optArgs → a ∈ p.ptrs := fun hm => by simp [ptrs, hm]
  have hnone : h.cell h.next = none := by
    by_contra hc; exact hnext ((w.live _).1 hc)
  have hargs : ∀ v, p.args.map (update h.cell h.next (some v)) = (Spec.argumentsOf rs).map some := by
    intro v; rw [← w.args]; exact List.map_congr_left fun a ha => hcell v a (hma ha)
  have hoargs : ∀ v, p.optArgs.map (update h.cell h.next (some v)) =
      (Spec.optArgumentsOf rs).map some := by
    intro v; rw [← w.optArgs]; exact List.map_congr_left fun a ha => hcell v a (hmb ha)
  have hopts : ∀ v n u, (∃ a, (n, a) ∈ p.opts ∧ update h.cell h.next (some v) a = some u) ↔
      Spec.FirstOption rs n u := by
    intro v n u
    rw [← w.opts]
    constructor
    · rintro ⟨a, ha, hu⟩; exact ⟨a, ha, by rwa [hcell v a (hmo ha)] at hu⟩
    · rintro ⟨a, ha, hu⟩; exact ⟨a, ha, by rwa [hcell v a (hmo ha)]⟩
  have hlive : ∀ v a, update h.cell h.next (some v) a ≠ none ↔ a = h.next ∨ a ∈ p.ptrs := by
    intro v a
    by_cases ha : a = h.next
    · simp [ha]
    · rw [Function.update_of_ne ha, w.live]; simp [ha]
  cases r with
  | option n v =>
    have ea : Spec.argumentsOf (rs ++ [Register.option n v]) = Spec.argumentsOf rs := by
      simp [Spec.argumentsOf]
    have eb : Spec.optArgumentsOf (rs ++ [Register.option n v]) = Spec.optArgumentsOf rs := by
      simp [Spec.optArgumentsOf]
    by_cases hn : n = "help".toList
    · refine ⟨h, p, by simp [register, hn, pure, Except.pure], w.nodup, w.live, w.fresh, w.names,
        ?_, ea ▸ w.args, eb ▸ w.optArgs⟩
      intro m u
      rw [w.opts, firstOption_append]
      constructor
      · exact .inl
      · rintro (h | ⟨hm, he, -⟩)
        · exact h
        · simp only [Register.option.injEq] at he; exact absurd (he.1 ▸ hn) hm
    · cases hf : AMap.find? n p.opts with
      | some a =>
        have hin : ∃ a, (n, a) ∈ p.opts := by
          by_contra hc
          have : AMap.find? n p.opts = none := AMap.find?_none.2 (by
            intro hm
            obtain ⟨⟨k, a⟩, hx, rfl⟩ := List.mem_map.1 hm
            exact hc ⟨a, hx⟩)
          simp [this] at hf
        have hback : update (update h.cell h.next (some v)) h.next none = h.cell := by
          rw [Function.update_idem, ← hnone, Function.update_eq_self]
        refine ⟨⟨h.cell, h.next + 1⟩, p, ?_, w.nodup, w.live,
          fun a ha => Nat.lt_succ_of_lt (w.fresh a ha), w.names, ?_, ea ▸ w.args, eb ▸ w.optArgs⟩
        · simp only [register, hn, if_false, hf, Heap.alloc, Heap.delete, Function.update_self,
            bind, Except.bind, pure, Except.pure, hback]
        · intro m u
          rw [w.opts, firstOption_append]
          constructor
          · exact .inl
          · rintro (h' | ⟨hm, he, hno⟩)
            · exact h'
            · simp only [Register.option.injEq] at he
              obtain ⟨rfl, rfl⟩ := he
              obtain ⟨a, ha⟩ := hin
              cases hc : h.cell a with
              | none => exact absurd hc ((w.live a).2 (hmo ha))
              | some x =>
                obtain ⟨-, b, c, heq, -⟩ := (w.opts n x).1 ⟨a, ha, hc⟩
                exact absurd (by rw [heq]; simp) (hno x)
      | none =>
        have hno : ∀ a, (n, a) ∉ p.opts := fun a ha =>
          AMap.find?_none.1 hf (List.mem_map.2 ⟨_, ha, rfl⟩)
        refine ⟨⟨update h.cell h.next (some v), h.next + 1⟩,
          { p with opts := p.opts ++ [(n, h.next)] },
          by simp only [register, hn, if_false, hf, Heap.alloc, pure, Except.pure], ?_, ?_, ?_, ?_, ?_, ?_, ?_⟩
        · have hp : ({ p with opts := p.opts ++ [(n, h.next)] } : ParserObj).ptrs.Perm
              (h.next :: p.ptrs) := by
            simp only [ptrs, List.map_append, List.map_cons, List.map_nil, List.append_assoc,
              List.singleton_append]
            exact List.perm_middle
          exact hp.nodup_iff.2 (List.nodup_cons.2 ⟨hnext, w.nodup⟩)
        · intro a
          rw [hlive]
          simp only [ptrs, List.map_append, List.mem_append, List.map_cons, List.map_nil,
            List.mem_singleton]
          tauto
        · intro a ha
          have : a = h.next ∨ a ∈ p.ptrs := by
            simp only [ptrs, List.map_append, List.mem_append, List.map_cons, List.map_nil,
              List.mem_singleton] at ha ⊢
            tauto
          rcases this with rfl | ha
          · exact Nat.lt_succ_self _
          · exact Nat.lt_succ_of_lt (w.fresh a ha)
        · simp only [List.map_append, List.map_cons, List.map_nil]
          rw [List.nodup_append_comm]
          simp only [List.singleton_append, List.nodup_cons]
          exact ⟨AMap.find?_none.1 hf, w.names⟩
        · intro m u
          rw [firstOption_append, ← hopts v]
          constructor
          · rintro ⟨a, ha, hu⟩
            rcases List.mem_append.1 ha with ha | ha
            · exact .inl ⟨a, ha, hu⟩
            · simp only [List.mem_singleton, Prod.mk.injEq] at ha
              obtain ⟨rfl, rfl⟩ := ha
              simp only [Function.update_self, Option.some.injEq] at hu
              refine .inr ⟨hn, by rw [hu], fun x hx => ?_⟩
              obtain ⟨y, hy⟩ := firstOption_of_mem hn hx
              obtain ⟨a, ha, -⟩ := (w.opts m y).2 hy
              exact hno a ha
          · rintro (⟨a, ha, hu⟩ | ⟨-, he, -⟩)
            · exact ⟨a, List.mem_append.2 (.inl ha), hu⟩
            · simp only [Register.option.injEq] at he
              exact ⟨h.next, by simp [he.1], by simp [he.2]⟩
        · rw [ea]; exact hargs v
        · rw [eb]; exact hoargs v
  | argument v =>
    refine ⟨⟨update h.cell h.next (some v), h.next + 1⟩, { p with args := p.args ++ [h.next] },
      by simp [register, Heap.alloc, pure, Except.pure], ?_, ?_, ?_, w.names, ?_, ?_, ?_⟩
    · have hp : ({ p with args := p.args ++ [h.next] } : ParserObj).ptrs.Perm
          (h.next :: p.ptrs) := by
        simp only [ptrs, List.append_assoc, List.singleton_append]
        rw [← List.append_assoc, ← List.append_assoc]
        exact List.perm_middle
      exact hp.nodup_iff.2 (List.nodup_cons.2 ⟨hnext, w.nodup⟩)
    · intro a
      rw [hlive]
      simp only [ptrs, List.mem_append, List.mem_singleton]
      tauto
    · intro a ha
      have : a = h.next ∨ a ∈ p.ptrs := by
        simp only [ptrs, List.mem_append, List.mem_singleton] at ha ⊢
        tauto
      rcases this with rfl | ha
      · exact Nat.lt_succ_self _
      · exact Nat.lt_succ_of_lt (w.fresh a ha)
    · intro m u
      rw [firstOption_append, ← hopts v]
      simp
    · simp only [List.map_append, List.map_cons, List.map_nil, Function.update_self, hargs]
      simp [Spec.argumentsOf]
    · rw [hoargs]
      simp [Spec.optArgumentsOf]
  | optArgument v =>
    refine ⟨⟨update h.cell h.next (some v), h.next + 1⟩,
      { p with optArgs := p.optArgs ++ [h.next] },
      by simp [register, Heap.alloc, pure, Except.pure], ?_, ?_, ?_, w.names, ?_, ?_, ?_⟩
    · have hp : ({ p with optArgs := p.optArgs ++ [h.next] } : ParserObj).ptrs.Perm
          (h.next :: p.ptrs) := by
        simp only [ptrs]
        rw [← List.append_assoc, ← List.append_assoc]
        exact List.perm_append_comm.trans (by simp)
      exact hp.nodup_iff.2 (List.nodup_cons.2 ⟨hnext, w.nodup⟩)
    · intro a
      rw [hlive]
      simp only [ptrs, List.mem_append, List.mem_singleton]
      tauto
    · intro a ha
      have : a = h.next ∨ a ∈ p.ptrs := by
        simp only [ptrs, List.mem_append, List.mem_singleton] at ha ⊢
        tauto
      rcases this with rfl | ha
      · exact Nat.lt_succ_self _
      · exact Nat.lt_succ_of_lt (w.fresh a ha)
    · intro m u
      rw [firstOption_append, ← hopts v]
      simp
    · rw [hargs]
      simp [Spec.argumentsOf]
    · simp only [List.map_append, List.map_cons, List.map_nil, Function.update_self, hoargs]
      simp [Spec.optArgumentsOf]

theorem after_registerAll {pre : List Register} {h : Heap OptVal} {p : ParserObj}
    (w : After pre h p) (rs : List Register) :
    ∃ h' p', registerAll h p rs = .ok (h', p') ∧ After (pre ++ rs) h' p' := by
  induction rs generalizing pre h p with
  | nil => exact ⟨h, p, rfl, by simpa using w⟩
  | cons r rs ih =>
    obtain ⟨h1, p1, e1, w1⟩ := after_register w r
    obtain ⟨h2, p2, e2, w2⟩ := ih w1
    refine ⟨h2, p2, ?_, by simpa using w2⟩
    simp only [registerAll, e1, bind, Except.bind]
    exact e2

theorem deleteAll_append (h : Heap OptVal) (l l' : List Nat) :
    deleteAll h (l ++ l') = (deleteAll h l).bind fun h => deleteAll h l' := by
  induction l generalizing h with
  | nil => rfl
  | cons a l ih =>
    simp only [List.cons_append, deleteAll, bind, Except.bind]
    cases h.delete a with
    | error f => rfl
    | ok h' => simp only [ih]; rfl

theorem deleteAll_spec {h : Heap OptVal} {l : List Nat} (hl : l.Nodup)
    (hlive : ∀ a ∈ l, h.cell a ≠ none) :
    ∃ h', deleteAll h l = .ok h' ∧ ∀ a, h'.cell a = if a ∈ l then none else h.cell a := by
  induction l generalizing h with
  | nil => exact ⟨h, rfl, by simp⟩
  | cons a l ih =>
    obtain ⟨hal, hl⟩ := List.nodup_cons.1 hl
    cases hc : h.cell a with
    | none => exact absurd hc (hlive a (by simp))
    | some x =>
      obtain ⟨h', e, hh⟩ := ih (h := ⟨update h.cell a none, h.next⟩) hl (by
        intro b hb
        have : b ≠ a := fun e => hal (e ▸ hb)
        simpa [Function.update_of_ne this] using hlive b (by simp [hb]))
      refine ⟨h', by simpa [deleteAll, Heap.delete, hc, bind, Except.bind] using e, fun b => ?_⟩
      rw [hh]
      by_cases hb : b = a
      · subst hb; simp
      · simp [hb]

end ParserObj

/-- C87. Whatever is registered in a parser, in whatever order and however often: registering never
goes wrong, every option name has the variable of its first registration (none for `help`), the
arguments are those registered in their order, and the destructor returns all the memory, deleting
nothing twice. -/
theorem C87_memory (rs : List Register) : ∃ h p,
    ParserObj.registerAll Heap.empty .new rs = .ok (h, p) ∧
    (p.opts.map (·.1)).Nodup ∧
    (∀ n v, (∃ a, (n, a) ∈ p.opts ∧ h.read a = .ok v) ↔ Spec.FirstOption rs n v) ∧
    p.args.map h.read = (Spec.argumentsOf rs).map .ok ∧
    p.optArgs.map h.read = (Spec.optArgumentsOf rs).map .ok ∧
    ∃ h', p.destroy h = .ok h' ∧ ∀ a, h'.cell a = none := by
  obtain ⟨h, p, e, w⟩ := ParserObj.after_registerAll ParserObj.after_nil rs
  rw [List.nil_append] at w
  have hread : ∀ a v, h.read a = .ok v ↔ h.cell a = some v := by
    intro a v; unfold Heap.read; cases h.cell a <;> simp
  have hmap : ∀ (l : List Nat) (vs : List OptVal), l.map h.cell = vs.map some →
      l.map h.read = vs.map .ok := by
    intro l
    induction l with
    | nil => intro vs hv; cases vs <;> simp_all
    | cons a l ih =>
      intro vs hv
      cases vs with
      | nil => simp at hv
      | cons v vs =>
        simp only [List.map_cons, List.cons.injEq] at hv ⊢
        exact ⟨(hread a v).2 hv.1, ih vs hv.2⟩
  obtain ⟨h', e', hh⟩ := ParserObj.deleteAll_spec w.nodup fun a ha => (w.live a).2 ha
  refine ⟨h, p, e, w.names, ?_, hmap _ _ w.args, hmap _ _ w.optArgs, h', ?_, fun a => ?_⟩
  · intro n v
    rw [← w.opts]
    simp only [hread]
  · rw [← e', ParserObj.ptrs, ParserObj.deleteAll_append, ParserObj.destroy]
    cases ParserObj.deleteAll h (p.opts.map (·.2)) with
    | error f => rfl
    | ok h1 => simp only [bind, Except.bind, ParserObj.deleteAll_append]
  · rw [hh]
    split
    · rfl
    · rename_i hn
      by_contra hc
      exact hn ((w.live a).1 hc)

/-- the value model of Cmd.lean after the same registrations -/
def Parser.registerEach (p : Parser) : List Register → Parser
  | [] => p
  | .option n v :: rs => Parser.registerEach (p.registerOption n v).2 rs
  | .argument v :: rs => Parser.registerEach (p.registerArgument v) rs
  | .optArgument v :: rs => Parser.registerEach (p.registerOptArgument v) rs

theorem Parser.registerEach_append (p : Parser) (rs rs' : List Register) :
    p.registerEach (rs ++ rs') = (p.registerEach rs).registerEach rs' := by
  induction rs generalizing p with
  | nil => rfl
  | cons r rs ih => cases r <;> exact ih _

/-- C87. The parser of the value model (Model/Cmd.lean), about which the other theorems on the
command line speak, holds the same after the same registrations. -/
theorem C87_values (rs : List Register) :
    ((Parser.new.registerEach rs).opts.map (·.1)).Nodup ∧
    (∀ n v, (n, v) ∈ (Parser.new.registerEach rs).opts ↔ Spec.FirstOption rs n v) ∧
    (Parser.new.registerEach rs).args = Spec.argumentsOf rs ∧
    (Parser.new.registerEach rs).optArgs = Spec.optArgumentsOf rs := by
  induction rs using List.reverseRecOn with
  | nil =>
    simp [Parser.registerEach, Parser.new, Spec.FirstOption, Spec.argumentsOf, Spec.optArgumentsOf]
  | append_singleton rs r ih =>
    obtain ⟨hnd, hopts, hargs, hoargs⟩ := ih
    rw [Parser.registerEach_append]
    set q := Parser.new.registerEach rs
    cases r with
    | argument v =>
      refine ⟨hnd, fun n u => ?_, ?_, ?_⟩
      · rw [ParserObj.firstOption_append, ← hopts]
        simp [Parser.registerEach, Parser.registerArgument]
      · simp only [Parser.registerEach, Parser.registerArgument, hargs]
        simp [Spec.argumentsOf]
      · simp only [Parser.registerEach, Parser.registerArgument, hoargs]
        simp [Spec.optArgumentsOf]
    | optArgument v =>
      refine ⟨hnd, fun n u => ?_, ?_, ?_⟩
      · rw [ParserObj.firstOption_append, ← hopts]
        simp [Parser.registerEach, Parser.registerOptArgument]
      · simp only [Parser.registerEach, Parser.registerOptArgument, hargs]
        simp [Spec.argumentsOf]
      · simp only [Parser.registerEach, Parser.registerOptArgument, hoargs]
        simp [Spec.optArgumentsOf]
    | option n v =>
      have ea : Spec.argumentsOf (rs ++ [Register.option n v]) = Spec.argumentsOf rs := by
        simp [Spec.argumentsOf]
      have eb : Spec.optArgumentsOf (rs ++ [Register.option n v]) = Spec.optArgumentsOf rs := by
        simp [Spec.optArgumentsOf]
      rw [ea, eb]
      by_cases hn : n = "help".toList
      · have e : q.registerEach [.option n v] = q := by
          simp only [Parser.registerEach, Parser.registerOption, hn, if_true]
        rw [e]
        refine ⟨hnd, fun m u => ?_, hargs, hoargs⟩
        rw [hopts, ParserObj.firstOption_append]
        constructor
        · exact .inl
        · rintro (h | ⟨hm, he, -⟩)
          · exact h
          · simp only [Register.option.injEq] at he; exact absurd (he.1 ▸ hn) hm
      · cases hf : AMap.find? n q.opts with
        | some x =>
          have e : q.registerEach [.option n v] = q := by
            simp only [Parser.registerEach, Parser.registerOption, hn, if_false, hf]
          rw [e]
          refine ⟨hnd, fun m u => ?_, hargs, hoargs⟩
          rw [hopts, ParserObj.firstOption_append]
          constructor
          · exact .inl
          · rintro (h | ⟨hm, he, hno⟩)
            · exact h
            · simp only [Register.option.injEq] at he
              obtain ⟨rfl, rfl⟩ := he
              have hin : n ∈ q.opts.map Prod.fst := by
                by_contra hc
                rw [AMap.find?_none.2 hc] at hf
                cases hf
              obtain ⟨⟨k, y⟩, hy, rfl⟩ := List.mem_map.1 hin
              obtain ⟨-, b, c, heq, -⟩ := (hopts _ y).1 hy
              exact absurd (by rw [heq]; simp) (hno y)
        | none =>
          have e : q.registerEach [.option n v] = { q with opts := q.opts ++ [(n, v)] } := by
            simp only [Parser.registerEach, Parser.registerOption, hn, if_false, hf, AMap.emplace]
          rw [e]
          refine ⟨?_, fun m u => ?_, hargs, hoargs⟩
          · simp only [List.map_append, List.map_cons, List.map_nil]
            rw [List.nodup_append_comm]
            simp only [List.singleton_append, List.nodup_cons]
            exact ⟨AMap.find?_none.1 hf, hnd⟩
          · rw [ParserObj.firstOption_append, ← hopts]
            simp only [List.mem_append, List.mem_singleton, Prod.mk.injEq]
            refine or_congr Iff.rfl ⟨?_, ?_⟩
            · rintro ⟨rfl, rfl⟩
              refine ⟨hn, rfl, fun x hx => ?_⟩
              obtain ⟨y, hy⟩ := ParserObj.firstOption_of_mem hn hx
              exact AMap.find?_none.1 hf (List.mem_map.2 ⟨_, (hopts m y).2 hy, rfl⟩)
            · rintro ⟨-, he, -⟩
              simp only [Register.option.injEq] at he
              exact ⟨he.1.symm, he.2.symm⟩

/-- C87 is false of the code for copies: the implicit copy constructor copies the pointers, and the
second destructor deletes them again. -/
theorem C87_copy_refuted : ∃ (rs : List Register) (h : Heap OptVal) (p : ParserObj)
    (h' : Heap OptVal), rs = [.option "a".toList (.bool true)] ∧
    ParserObj.registerAll Heap.empty .new rs = .ok (h, p) ∧
    p.copy.destroy h = .ok h' ∧ p.destroy h' = .error .ub :=
  ⟨_, _, _, _, rfl, rfl, rfl, rfl⟩

/-- Registrations with a repeated and a reserved name: three cells remain, one is already returned. -/
example : ∃ h p, ParserObj.registerAll Heap.empty .new
    [.option "a".toList (.bool true), .argument (.str []), .option "help".toList (.bool true),
     .option "a".toList (.size 3), .optArgument (.size 4)] = .ok (h, p) ∧
    p.opts = [("a".toList, 0)] ∧ p.args = [1] ∧ p.optArgs = [3] ∧
    (h.cell 0 = some (.bool true)) ∧ h.cell 2 = none ∧ h.cell 3 = some (.size 4) :=
  ⟨_, _, rfl, rfl, rfl, rfl, rfl, rfl, rfl⟩

end Kws
