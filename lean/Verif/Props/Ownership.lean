import Verif.Lemmas.Ownership

/-!
# C84–C87: ownership of memory
-/

namespace Kws
open Function (update)
open Spec (Step Steps Leaks Lost)

variable {RE HE : Type}

/-! ## C84: Match objects are values -/

theorem MatchStore.run_spec {s : MatchStore RE HE} (h : s.WF) (cs : List (MatchStmt RE HE)) {v'}
    (hs : Steps s.values cs v') : ∃ s', s.run cs = .ok s' ∧ s'.WF ∧ s'.values = v' := by
  induction cs generalizing s with
  | nil => cases hs; exact ⟨s, rfl, h, rfl⟩
  | cons c cs ih =>
    cases hs with
    | cons h1 h2 =>
      obtain ⟨s1, e1, w1, r1, -⟩ := MatchStore.exec_spec h c h1
      rw [← r1] at h2
      obtain ⟨s', e2, w2, r2⟩ := ih w1 h2
      exact ⟨s', by simp [MatchStore.run, e1, e2, bind, Except.bind], w2, r2⟩

theorem MatchStore.steps_of_run {s s' : MatchStore RE HE} (h : s.WF) (cs : List (MatchStmt RE HE))
    (he : s.run cs = .ok s') : s'.WF ∧ Steps s.values cs s'.values := by
  induction cs generalizing s with
  | nil =>
    simp only [MatchStore.run, pure, Except.pure, Except.ok.injEq] at he
    subst he; exact ⟨h, .nil⟩
  | cons c cs ih =>
    simp only [MatchStore.run, bind, Except.bind] at he
    cases h1 : s.exec c with
    | error f => simp [h1] at he
    | ok s1 =>
      simp only [h1] at he
      obtain ⟨v1, st⟩ := MatchStore.step_of_exec h h1
      obtain ⟨s2, e2, w2, r2, -⟩ := MatchStore.exec_spec h c st
      rw [h1] at e2; cases e2
      obtain ⟨w, st'⟩ := ih w2 he
      exact ⟨w, .cons (r2 ▸ st) st'⟩

/-- C84. A program that handles `Match` objects runs without undefined behaviour and without a
failed assertion exactly if it uses only objects that exist and events that are there, and then
all that it can observe is what it would observe if every object were a plain value (except that
assigning an object to itself loses its events). -/
theorem C84_values (cs : List (MatchStmt RE HE)) (v : Nat → Option (Match RE HE)) :
    Steps (fun _ => none) cs v ↔
    ∃ s, MatchStore.empty.run cs = .ok s ∧
      ∀ i, s.observe i = match v i with
        | some m => .ok m
        | none => .error .ub := by
  constructor
  · intro hs
    rw [← MatchStore.values_empty] at hs
    obtain ⟨s, e, w, r⟩ := MatchStore.run_spec MatchStore.wf_empty cs hs
    exact ⟨s, e, fun i => by rw [MatchStore.observe_eq w, r]; cases v i <;> rfl⟩
  · rintro ⟨s, e, ho⟩
    obtain ⟨w, st⟩ := MatchStore.steps_of_run MatchStore.wf_empty cs e
    rw [MatchStore.values_empty] at st
    have : s.values = v := by
      funext i
      have := ho i
      rw [MatchStore.observe_eq w] at this
      cases h1 : s.values i <;> cases h2 : v i <;> simp_all
    rwa [this] at st

/-- The value model of assignments and copies (`Verif/Model/Match.lean`) is the pointer model seen
through the values. -/
theorem C84_assign {n : Nat} (s : MatchStore RE HE) (cs : List (MatchStmt RE HE))
    (hs : MatchStore.empty.run cs = .ok s) (w : Fin n → Match RE HE)
    (hw : ∀ k : Fin n, s.observe k = .ok (w k)) (i j : Fin n) :
    (∃ s', MatchStore.empty.run (cs ++ [.assign i j]) = .ok s' ∧
      ∀ k : Fin n, s'.observe k = .ok (Match.assign w i j k)) ∧
    (∃ s', MatchStore.empty.run (cs ++ [.moveAssign i j]) = .ok s' ∧
      ∀ k : Fin n, s'.observe k = .ok (Match.moveAssign w i j k)) := by
  obtain ⟨wf, st⟩ := MatchStore.steps_of_run MatchStore.wf_empty cs hs
  have hv : ∀ k : Fin n, s.values k = some (w k) := by
    intro k
    have := hw k
    rw [MatchStore.observe_eq wf] at this
    cases h : s.values k <;> simp_all
  have run_append : ∀ c s', s.exec c = .ok s' → MatchStore.empty.run (cs ++ [c]) = .ok s' := by
    intro c s' hc
    have : ∀ (t : MatchStore RE HE) (l : List (MatchStmt RE HE)), t.run l = .ok s →
        t.run (l ++ [c]) = .ok s' := by
      intro t l
      induction l generalizing t with
      | nil =>
        intro h
        simp only [MatchStore.run, pure, Except.pure, Except.ok.injEq] at h
        subst h
        simp [MatchStore.run, hc, bind, Except.bind, pure, Except.pure]
      | cons d l ih =>
        intro h
        simp only [MatchStore.run, bind, Except.bind, List.cons_append] at h ⊢
        cases hd : t.exec d with
        | error f => simp [hd] at h
        | ok t' => simp only [hd] at h ⊢; exact ih t' h
    exact this _ _ hs
  have hne : ∀ {k l : Fin n}, k ≠ l → (k : Nat) ≠ l := fun h h' => h (Fin.ext h')
  constructor
  · by_cases hij : i = j
    · subst hij
      obtain ⟨s', e, w', r, -⟩ := MatchStore.exec_spec wf (.assign i i) (.assignSelf (hv i))
      refine ⟨s', run_append _ _ e, fun k => ?_⟩
      rw [MatchStore.observe_eq w', r]
      by_cases hk : k = i
      · subst hk; simp [Match.assign, Match.hasRef, Match.hasHyp]
      · simp [update, hne hk, hv k, Match.assign, Match.hasRef, Match.hasHyp, hk]
    · obtain ⟨s', e, w', r, -⟩ := MatchStore.exec_spec wf (.assign i j)
        (.assign (hne hij) (hv i) (hv j))
      refine ⟨s', run_append _ _ e, fun k => ?_⟩
      rw [MatchStore.observe_eq w', r]
      have hji : j ≠ i := fun h => hij h.symm
      rcases hwj : w j with ⟨_ | r, _ | h, er⟩ <;>
        by_cases hk : k = i <;>
        [subst hk; skip; subst hk; skip; subst hk; skip; subst hk; skip] <;>
        simp [update, Match.assign, Match.hasRef, Match.hasHyp, *]
  · by_cases hij : i = j
    · subst hij
      obtain ⟨s', e, w', r, -⟩ := MatchStore.exec_spec wf (.moveAssign i i) (.moveSelf (hv i))
      refine ⟨s', run_append _ _ e, fun k => ?_⟩
      rw [MatchStore.observe_eq w', r]
      simp [hv k, Match.moveAssign]
    · obtain ⟨s', e, w', r, -⟩ := MatchStore.exec_spec wf (.moveAssign i j)
        (.move (hne hij) (hv i) (hv j))
      refine ⟨s', run_append _ _ e, fun k => ?_⟩
      rw [MatchStore.observe_eq w', r]
      have hji : j ≠ i := fun h => hij h.symm
      by_cases hk : k = i
      · subst hk; simp [update, hne hij, Match.moveAssign, hij]
      · by_cases hk2 : k = j
        · subst hk2; simp [update, Match.moveAssign, hij]
        · simp [update, hne hk, hne hk2, hv k, Match.moveAssign, hij, hk, hk2]

/-- A program that meets the hypotheses of `C84_values`: two matches, an assignment, a move, and
the end of one of them. -/
def C84_program : List (MatchStmt Nat Nat) :=
  [.make 0 10 20 ⟨0, 0⟩, .construct 1, .setRef 1 11, .assign 1 0, .moveAssign 0 1, .copy 2 0,
   .setRefFrom 1 2, .destroy 0]

example : ∃ s, MatchStore.empty.run C84_program = .ok s ∧ s.observe 0 = .error .ub ∧
    s.observe 1 = .ok ⟨some 10, none, ⟨0, 0⟩⟩ ∧ s.observe 2 = .ok ⟨some 10, some 20, ⟨0, 0⟩⟩ :=
  ⟨_, rfl, by decide +kernel, by decide +kernel, by decide +kernel⟩

/-! ## C85: lost memory -/

theorem MatchStore.leaks_run {s s' : MatchStore RE HE} (h : s.WF) (cs : List (MatchStmt RE HE))
    (he : s.run cs = .ok s') :
    Leaks s' ↔ Leaks s ∨ ∃ cs₁ i j cs₂ v m, cs = cs₁ ++ .assign i j :: cs₂ ∧
      Steps s.values cs₁ v ∧ v i = some m ∧ (m.hasRef = true ∨ m.hasHyp = true) := by
  induction cs generalizing s with
  | nil =>
    simp only [MatchStore.run, pure, Except.pure, Except.ok.injEq] at he
    subst he; simp
  | cons c cs ih =>
    simp only [MatchStore.run, bind, Except.bind] at he
    cases h1 : s.exec c with
    | error f => simp [h1] at he
    | ok s1 =>
      simp only [h1] at he
      obtain ⟨v1, st⟩ := MatchStore.step_of_exec h h1
      obtain ⟨s2, e2, w2, r2, l2⟩ := MatchStore.exec_spec h c st
      rw [h1] at e2; cases e2
      rw [ih w2 he, l2, or_assoc]
      refine or_congr Iff.rfl ?_
      constructor
      · rintro (hl | ⟨cs₁, i, j, cs₂, v, m, rfl, hst, hv, hm⟩)
        · cases c <;> simp only [MatchStore.lossOf] at hl
          rename_i i j
          have hal : s.alive i = true := by
            cases st with
            | assign _ hi _ => exact (MatchStore.values_some.1 hi).1
            | assignSelf hi => exact (MatchStore.values_some.1 hi).1
          exact ⟨[], i, j, cs, s.values, _, rfl, .nil, MatchStore.values_some.2 ⟨hal, rfl⟩, hl⟩
        · exact ⟨c :: cs₁, i, j, cs₂, v, m, rfl, .cons (r2 ▸ st) hst, hv, hm⟩
      · rintro ⟨cs₁, i, j, cs₂, v, m, hcs, hst, hv, hm⟩
        cases cs₁ with
        | nil =>
          simp only [List.nil_append, List.cons.injEq] at hcs
          obtain ⟨rfl, rfl⟩ := hcs
          cases hst
          obtain ⟨-, rfl⟩ := MatchStore.values_some.1 hv
          exact .inl hm
        | cons c' cs₁ =>
          simp only [List.cons_append, List.cons.injEq] at hcs
          obtain ⟨rfl, rfl⟩ := hcs
          cases hst with
          | cons hst1 hst2 =>
            obtain ⟨s3, e3, w3, r3, -⟩ := MatchStore.exec_spec h _ hst1
            rw [h1] at e3; cases e3
            exact .inr ⟨cs₁, i, j, cs₂, v, m, rfl, r3 ▸ hst2, hv, hm⟩

/-- C85. A program loses memory exactly if somewhere it copies a match onto an object that holds an
event. -/
theorem C85_leak_partial (cs : List (MatchStmt RE HE)) (s : MatchStore RE HE)
    (he : MatchStore.empty.run cs = .ok s) :
    Leaks s ↔ ∃ cs₁ i j cs₂ v m, cs = cs₁ ++ .assign i j :: cs₂ ∧
      Steps (fun _ => none) cs₁ v ∧ v i = some m ∧ (m.hasRef = true ∨ m.hasHyp = true) := by
  rw [MatchStore.leaks_run MatchStore.wf_empty cs he, MatchStore.values_empty]
  have : ¬ Leaks (MatchStore.empty : MatchStore RE HE) := by
    simp [Leaks, Lost, MatchStore.empty, Owners.empty, Heap.empty]
  simp [this]

/-- C85. A program without copy assignments that ends the life of all its objects returns all the
memory. -/
theorem C85_clean_partial (cs : List (MatchStmt RE HE)) (s : MatchStore RE HE)
    (he : MatchStore.empty.run cs = .ok s) (hna : ∀ c ∈ cs, ∀ i j, c ≠ .assign i j)
    (hend : ∀ i, s.observe i = .error .ub) (p : Nat) :
    s.refs.heap.cell p = none ∧ s.hyps.heap.cell p = none := by
  have hl : ¬ Leaks s := by
    rw [C85_leak_partial cs s he]
    rintro ⟨cs₁, i, j, cs₂, v, m, rfl, -⟩
    exact hna (.assign i j) (by simp) i j rfl
  obtain ⟨w, -⟩ := MatchStore.steps_of_run MatchStore.wf_empty cs he
  have hdead : ∀ i, s.alive i = false := by
    intro i
    have := hend i
    rw [MatchStore.observe_eq w] at this
    cases h1 : s.values i with
    | none => exact MatchStore.values_none.1 h1
    | some m => simp [h1] at this
  constructor
  · by_contra hc
    exact hl (.inl ⟨p, hc, fun i => by simp [w.deadRef i (hdead i)]⟩)
  · by_contra hc
    exact hl (.inr ⟨p, hc, fun i => by simp [w.deadHyp i (hdead i)]⟩)

/-- C85 is false of the code: `m_0 = m_1` loses the events of `m_0`, and they stay allocated when
both objects are gone. -/
theorem C85_leak_refuted : ∃ (cs : List (MatchStmt Nat Nat)) (s : MatchStore Nat Nat),
    MatchStore.empty.run cs = .ok s ∧ (∀ i, s.observe i = .error .ub) ∧
    s.refs.heap.cell 0 = some 10 := by
  refine ⟨[.make 0 10 20 ⟨0, 0⟩, .make 1 11 21 ⟨0, 0⟩, .assign 0 1, .destroy 0, .destroy 1], _, rfl,
    fun i => ?_, by decide +kernel⟩
  rcases i with _ | _ | i
  · rfl
  · rfl
  · rfl

/-- A program without copy assignments that ends the life of its objects (`C85_clean_partial`). -/
example : ∃ s, (MatchStore.empty : MatchStore Nat Nat).run
    [.make 0 10 20 ⟨0, 0⟩, .copy 1 0, .setHyp 0 21, .moveAssign 1 0, .destroy 0, .destroy 1] =
      .ok s ∧ s.refs.heap.next = 2 ∧ s.hyps.heap.next = 3 ∧ s.hyps.heap.cell 2 = none :=
  ⟨_, rfl, by decide +kernel, by decide +kernel, by decide +kernel⟩

end Kws
