import Verif.Spec.EventMappers

/-!
# C117: mappers over mappers
-/

namespace Kws
open Spec
open Function (update)

namespace MapperHeap

/-- The heap shows what the views say, as far as objects are alive. -/
structure Sim (s : MapperHeap) (v : Views) : Prop where
  nT : v.tables.length = s.tables.next
  nS : v.strs.length = s.strs.next
  nE : v.events.length = s.events.next
  nX : v.scored.length = s.scored.next
  tables : ∀ t m, s.tables.cell t = some m → v.tables[t]? = some m
  strs : ∀ p t o, s.strs.cell p = some (t, o) → v.strs[p]? = some t
  events : ∀ q p o, s.events.cell q = some (p, o) → ∃ t, v.strs[p]? = some t ∧ v.events[q]? = some t
  scored : ∀ x q, s.scored.cell x = some q → v.scored[x]? = some q

theorem sim_empty : Sim empty ⟨[], [], [], []⟩ := by
  constructor <;> simp [empty, Heap.empty]

theorem Heap.read_ok {α : Type} {h : Heap α} {p : Nat} {a : α} : h.read p = .ok a ↔ h.cell p = some a := by
  unfold Heap.read
  cases h.cell p <;> simp

theorem Heap.write_ok {α : Type} {h h' : Heap α} {p : Nat} {a : α} :
    h.write p a = .ok h' ↔ (∃ b, h.cell p = some b) ∧ h' = ⟨update h.cell p (some a), h.next⟩ := by
  unfold Heap.write
  cases h.cell p <;> simp [eq_comm]

theorem Heap.delete_ok {α : Type} {h h' : Heap α} {p : Nat} :
    h.delete p = .ok h' ↔ (∃ b, h.cell p = some b) ∧ h' = ⟨update h.cell p none, h.next⟩ := by
  unfold Heap.delete
  cases h.cell p <;> simp [eq_comm]

theorem useStr_ok {α : Type} {s s' : MapperHeap} {p : Nat} {f : IntMapper → IntMapper × α} {a : α} :
    s.useStr p f = .ok (s', a) ↔ ∃ t o m, s.strs.cell p = some (t, o) ∧ s.tables.cell t = some m ∧
      a = (f m).2 ∧ s' = { s with tables := ⟨update s.tables.cell t (some (f m).1), s.tables.next⟩ } := by
  unfold useStr
  constructor
  · intro h
    simp only [bind, Except.bind] at h
    cases h1 : s.strs.read p with
    | error e => simp [h1] at h
    | ok m =>
      simp only [h1] at h
      cases h2 : s.tables.read m.1 with
      | error e => simp [h2] at h
      | ok t =>
        simp only [h2] at h
        cases h3 : s.tables.write m.1 (f t).1 with
        | error e => simp [h3] at h
        | ok h' =>
          simp only [h3, pure, Except.pure, Except.ok.injEq, Prod.mk.injEq] at h
          obtain ⟨rfl, rfl⟩ := h
          obtain ⟨-, rfl⟩ := Heap.write_ok.1 h3
          exact ⟨m.1, m.2, t, Heap.read_ok.1 h1, Heap.read_ok.1 h2, rfl, rfl⟩
  · rintro ⟨t, o, m, h1, h2, rfl, rfl⟩
    simp only [bind, Except.bind, Heap.read_ok.2 h1, Heap.read_ok.2 h2,
      Heap.write_ok.2 ⟨⟨m, h2⟩, rfl⟩, pure, Except.pure]

theorem useEvent_ok {α : Type} {s s' : MapperHeap} {q : Nat} {f : IntMapper → IntMapper × α} {a : α} :
    s.useEvent q f = .ok (s', a) ↔ ∃ p o, s.events.cell q = some (p, o) ∧ s.useStr p f = .ok (s', a) := by
  unfold useEvent
  constructor
  · intro h
    simp only [bind, Except.bind] at h
    cases h1 : s.events.read q with
    | error e => simp [h1] at h
    | ok m =>
      simp only [h1] at h
      exact ⟨m.1, m.2, Heap.read_ok.1 h1, h⟩
  · rintro ⟨p, o, h1, h2⟩
    simp only [bind, Except.bind, Heap.read_ok.2 h1]
    exact h2

theorem known_ok {α : Type} {h : Heap α} {p : Nat} {u : Unit} : known h p = .ok u ↔ p < h.next := by
  unfold known
  split <;> simp_all

/-- Inversion of `exec`. -/
theorem exec_ok {qf : Bool} {M : Nat} {s s' : MapperHeap} {c : ChainStmt} {r : Option ChainAnswer}
    (h : s.exec qf M c = .ok (s', r)) :
    match (generalizing := false) c with
    | .table => r = none ∧ s' = { s with tables := s.tables.alloc .new }
    | .tableEnd t => r = none ∧ (∃ m, s.tables.cell t = some m) ∧
        s' = { s with tables := ⟨update s.tables.cell t none, s.tables.next⟩ }
    | .str => r = none ∧
        s' = { s with tables := s.tables.alloc .new, strs := s.strs.alloc (s.tables.next, true) }
    | .strOver t own => r = none ∧ t < s.tables.next ∧ s' = { s with strs := s.strs.alloc (t, own) }
    | .strCopy p => r = none ∧ ∃ t o, s.strs.cell p = some (t, o) ∧ s' = { s with strs := s.strs.alloc (t, false) }
    | .strCall p w => ∃ a, s.useStr p (fun t => t.lookup M w) = .ok (s', a) ∧ r = some (.id a)
    | .strEnd p => r = none ∧ ∃ t o, s.strs.cell p = some (t, o) ∧ (o = true → ∃ m, s.tables.cell t = some m) ∧
        s' = { s with
          tables := if o then ⟨update s.tables.cell t none, s.tables.next⟩ else s.tables
          strs := ⟨update s.strs.cell p none, s.strs.next⟩ }
    | .event => r = none ∧ s' = { s with
        tables := s.tables.alloc .new
        strs := s.strs.alloc (s.tables.next, true)
        events := s.events.alloc (s.strs.next, true) }
    | .eventOver p own => r = none ∧ p < s.strs.next ∧ s' = { s with events := s.events.alloc (p, own) }
    | .eventCopy q => r = none ∧ ∃ p o, s.events.cell q = some (p, o) ∧
        s' = { s with events := s.events.alloc (p, false) }
    | .eventAssign q x => r = none ∧ ∃ m, s.events.cell x = some m ∧ (∃ b, s.events.cell q = some b) ∧
        s' = { s with events := ⟨update s.events.cell q (some m), s.events.next⟩ }
    | .eventCall q e => ∃ a, s.useEvent q (fun t => t.mapEvent qf M e) = .ok (s', a) ∧ r = some (.event a)
    | .eventEnd q => r = none ∧ (∃ m, s.events.cell q = some m) ∧
        s' = { s with events := ⟨update s.events.cell q none, s.events.next⟩ }
    | .scoredOver q => r = none ∧ q < s.events.next ∧ s' = { s with scored := s.scored.alloc q }
    | .scoredCall x e => ∃ q a, s.scored.cell x = some q ∧
        s.useEvent q (fun t => t.mapScoredEvent qf M e) = .ok (s', a) ∧ r = some (.scored a)
    | .scoredEnd x => r = none ∧ (∃ m, s.scored.cell x = some m) ∧
        s' = { s with scored := ⟨update s.scored.cell x none, s.scored.next⟩ } := by
  have inv : ∀ {α β : Type} {x : Cpp α} {f : α → Cpp β} {b : β}, (x >>= f) = .ok b → ∃ a, x = .ok a ∧ f a = .ok b := by
    intro α β x f b h
    cases x with
    | error e => cases h
    | ok a => exact ⟨a, rfl, h⟩
  have ret : ∀ {s₁ : MapperHeap} {r₁ : Option ChainAnswer},
      (pure (s₁, r₁) : Cpp _) = .ok (s', r) → r = r₁ ∧ s' = s₁ := by
    intro s₁ r₁ h
    simp only [pure, Except.pure, Except.ok.injEq, Prod.mk.injEq] at h
    exact ⟨h.2.symm, h.1.symm⟩
  cases c with
  | table => exact ret h
  | tableEnd t =>
    obtain ⟨h₁, e, h⟩ := inv h
    obtain ⟨a, rfl⟩ := Heap.delete_ok.1 e
    obtain ⟨b, d⟩ := ret h
    exact ⟨b, a, d⟩
  | str => exact ret h
  | strOver t own =>
    obtain ⟨_, e, h⟩ := inv h
    obtain ⟨b, d⟩ := ret h
    exact ⟨b, known_ok.1 e, d⟩
  | strCopy p =>
    obtain ⟨m, e, h⟩ := inv h
    obtain ⟨b, d⟩ := ret h
    exact ⟨b, m.1, m.2, Heap.read_ok.1 e, d⟩
  | strCall p w =>
    obtain ⟨⟨s₁, a⟩, e, h⟩ := inv h
    obtain ⟨b, rfl⟩ := ret h
    exact ⟨a, e, b⟩
  | strEnd p =>
    obtain ⟨m, e, h⟩ := inv h
    have e := Heap.read_ok.1 e
    obtain ⟨t, o⟩ := m
    cases o with
    | true =>
      obtain ⟨h₁, e₁, h⟩ := inv h
      obtain ⟨a₁, rfl⟩ := Heap.delete_ok.1 e₁
      obtain ⟨h₂, e₂, h⟩ := inv h
      obtain ⟨a₂, rfl⟩ := Heap.delete_ok.1 e₂
      obtain ⟨b, d⟩ := ret h
      exact ⟨b, t, true, e, fun _ => a₁, d⟩
    | false =>
      obtain ⟨h₁, e₁, h⟩ := inv h
      obtain rfl : s.tables = h₁ := Except.ok.inj e₁
      obtain ⟨h₂, e₂, h⟩ := inv h
      obtain ⟨a₂, rfl⟩ := Heap.delete_ok.1 e₂
      obtain ⟨b, d⟩ := ret h
      exact ⟨b, t, false, e, by simp, d⟩
  | event => exact ret h
  | eventOver p own =>
    obtain ⟨_, e, h⟩ := inv h
    obtain ⟨b, d⟩ := ret h
    exact ⟨b, known_ok.1 e, d⟩
  | eventCopy q =>
    obtain ⟨m, e, h⟩ := inv h
    obtain ⟨b, d⟩ := ret h
    exact ⟨b, m.1, m.2, Heap.read_ok.1 e, d⟩
  | eventAssign q x =>
    obtain ⟨m, e, h⟩ := inv h
    obtain ⟨h₁, e₁, h⟩ := inv h
    obtain ⟨a, rfl⟩ := Heap.write_ok.1 e₁
    obtain ⟨b, d⟩ := ret h
    exact ⟨b, m, Heap.read_ok.1 e, a, d⟩
  | eventCall q e =>
    obtain ⟨⟨s₁, a⟩, e, h⟩ := inv h
    obtain ⟨b, rfl⟩ := ret h
    exact ⟨a, e, b⟩
  | eventEnd q =>
    obtain ⟨h₁, e, h⟩ := inv h
    obtain ⟨a, rfl⟩ := Heap.delete_ok.1 e
    obtain ⟨b, d⟩ := ret h
    exact ⟨b, a, d⟩
  | scoredOver q =>
    obtain ⟨_, e, h⟩ := inv h
    obtain ⟨b, d⟩ := ret h
    exact ⟨b, known_ok.1 e, d⟩
  | scoredCall x e =>
    obtain ⟨q, e₁, h⟩ := inv h
    obtain ⟨⟨s₁, a⟩, e, h⟩ := inv h
    obtain ⟨b, rfl⟩ := ret h
    exact ⟨q, a, Heap.read_ok.1 e₁, e, b⟩
  | scoredEnd x =>
    obtain ⟨h₁, e, h⟩ := inv h
    obtain ⟨a, rfl⟩ := Heap.delete_ok.1 e
    obtain ⟨b, d⟩ := ret h
    exact ⟨b, a, d⟩

/-- A call through a string mapper that looks at the table `t`. -/
theorem sim_useStr {α : Type} {s s' : MapperHeap} {v : Views} (h : Sim s v) {p : Nat}
    {f : IntMapper → IntMapper × α} {a : α} (hc : s.useStr p f = .ok (s', a)) :
    ∃ t m, v.strs[p]? = some t ∧ v.tables[t]? = some m ∧ a = (f m).2 ∧
      Sim s' { v with tables := v.tables.set t (f m).1 } := by
  obtain ⟨t, o, m, h1, h2, rfl, rfl⟩ := useStr_ok.1 hc
  refine ⟨t, m, h.strs _ _ _ h1, h.tables _ _ h2, rfl, ?_⟩
  refine ⟨by simpa using h.nT, h.nS, h.nE, h.nX, ?_, h.strs, h.events, h.scored⟩
  intro t' m' ht'
  have hl : t < v.tables.length := (List.getElem?_eq_some_iff.1 (h.tables _ _ h2)).1
  simp only [Function.update_apply] at ht'
  split at ht'
  · next e =>
    subst e
    cases ht'
    simp [hl]
  · next e => rw [List.getElem?_set_ne (Ne.symm e)]; exact h.tables _ _ ht'

theorem sim_useEvent {α : Type} {s s' : MapperHeap} {v : Views} (h : Sim s v) {q : Nat}
    {f : IntMapper → IntMapper × α} {a : α} (hc : s.useEvent q f = .ok (s', a)) :
    ∃ t m, v.events[q]? = some t ∧ v.tables[t]? = some m ∧ a = (f m).2 ∧
      Sim s' { v with tables := v.tables.set t (f m).1 } := by
  obtain ⟨p, o, h1, h2⟩ := useEvent_ok.1 hc
  obtain ⟨t, ht, ht'⟩ := h.events _ _ _ h1
  obtain ⟨t', m, e, e1, e2, e3⟩ := sim_useStr h h2
  obtain rfl : t = t' := by rw [ht] at e; exact Option.some.inj e
  exact ⟨t, m, ht', e1, e2, e3⟩

theorem get_snoc {α : Type} {l : List α} {n : Nat} {a b : α} (cell : Nat → Option α) (hl : l.length = n)
    (h : ∀ t m, cell t = some m → l[t]? = some m) (t : Nat) (ht : update cell n (some a) t = some b) :
    (l ++ [a])[t]? = some b := by
  simp only [Function.update_apply] at ht
  split at ht
  · next e =>
    subst e
    subst hl
    cases ht
    simp
  · have := h _ _ ht
    rw [List.getElem?_append_left (List.getElem?_eq_some_iff.1 this).1]
    exact this

theorem get_left {α : Type} {l : List α} (x : List α) {t : Nat} {b : α} (h : l[t]? = some b) :
    (l ++ x)[t]? = some b := by
  rw [List.getElem?_append_left (List.getElem?_eq_some_iff.1 h).1]
  exact h

/-- The simulation is kept, and the answers agree. -/
theorem sim_exec {qf : Bool} {M : Nat} {s s' : MapperHeap} {v : Views} {c : ChainStmt} {r : Option ChainAnswer}
    (h : Sim s v) (hc : s.exec qf M c = .ok (s', r)) : (v.step qf M c).2 = r ∧ Sim s' (v.step qf M c).1 := by
  have e := exec_ok hc
  have hT : ∀ m t b, update s.tables.cell s.tables.next (some m) t = some b → (v.tables ++ [m])[t]? = some b :=
    fun m t b => get_snoc _ h.nT h.tables t
  have hS : ∀ t₀ o₀ p t o, update s.strs.cell s.strs.next (some (t₀, o₀)) p = some (t, o) →
      (v.strs ++ [t₀])[p]? = some t := by
    intro t₀ o₀ p t o hp
    simp only [Function.update_apply] at hp
    split at hp
    · next e => cases hp; subst e; rw [← h.nS]; simp
    · exact get_left _ (h.strs _ _ _ hp)
  have hE : ∀ q p o x, s.events.cell q = some (p, o) →
      ∃ t, (v.strs ++ x)[p]? = some t ∧ v.events[q]? = some t := by
    intro q p o x hq
    obtain ⟨t, a, b⟩ := h.events _ _ _ hq
    exact ⟨t, get_left _ a, b⟩
  cases c with
  | table =>
    obtain ⟨rfl, rfl⟩ := e
    exact ⟨rfl, by simp [Views.step, Heap.alloc, h.nT], h.nS, h.nE, h.nX, fun t m => hT _ t m, h.strs, h.events, h.scored⟩
  | tableEnd t =>
    obtain ⟨rfl, -, rfl⟩ := e
    refine ⟨rfl, h.nT, h.nS, h.nE, h.nX, fun t' m ht => ?_, h.strs, h.events, h.scored⟩
    simp only [Function.update_apply] at ht
    split at ht
    · cases ht
    · exact h.tables _ _ ht
  | str =>
    obtain ⟨rfl, rfl⟩ := e
    refine ⟨rfl, by simp [Views.step, Heap.alloc, h.nT], by simp [Views.step, Heap.alloc, h.nS], h.nE, h.nX,
      fun t m => hT _ t m, ?_, fun q p o hq => hE _ _ _ _ hq, h.scored⟩
    simp only [Views.step, Heap.alloc, h.nT]
    exact hS _ _
  | strOver t own =>
    obtain ⟨rfl, -, rfl⟩ := e
    exact ⟨rfl, h.nT, by simp [Views.step, Heap.alloc, h.nS], h.nE, h.nX, h.tables, hS _ _,
      fun q p o hq => hE _ _ _ _ hq, h.scored⟩
  | strCopy p =>
    obtain ⟨rfl, t, o, hp, rfl⟩ := e
    have ht := h.strs _ _ _ hp
    simp only [Views.step, ht, Option.toList_some]
    exact ⟨trivial, h.nT, by simp [Heap.alloc, h.nS], h.nE, h.nX, h.tables, hS _ _,
      fun q p o hq => hE _ _ _ _ hq, h.scored⟩
  | strCall p w =>
    obtain ⟨a, ha, rfl⟩ := e
    obtain ⟨t, m, e1, e2, rfl, e3⟩ := sim_useStr h ha
    simp only [Views.step, Views.target, e1, e2, answer]
    exact ⟨trivial, e3⟩
  | strEnd p =>
    obtain ⟨rfl, t, o, hp, -, rfl⟩ := e
    refine ⟨rfl, ?_, h.nS, h.nE, h.nX, fun t' m ht => ?_, fun p' t' o' ht => ?_, h.events, h.scored⟩
    · cases o <;> exact h.nT
    · cases o with
      | false => exact h.tables _ _ ht
      | true =>
        simp only [if_true, Function.update_apply] at ht
        split at ht
        · cases ht
        · exact h.tables _ _ ht
    · simp only [Function.update_apply] at ht
      split at ht
      · cases ht
      · exact h.strs _ _ _ ht
  | event =>
    obtain ⟨rfl, rfl⟩ := e
    refine ⟨rfl, by simp [Views.step, Heap.alloc, h.nT], by simp [Views.step, Heap.alloc, h.nS],
      by simp [Views.step, Heap.alloc, h.nE], h.nX, fun t m => hT _ t m, ?_, fun q p o hq => ?_, h.scored⟩
    · simp only [Views.step, Heap.alloc, h.nT]
      exact hS _ _
    · simp only [Heap.alloc, Function.update_apply] at hq
      simp only [Views.step]
      split at hq
      · next e =>
        cases hq
        subst e
        exact ⟨v.tables.length, by rw [← h.nS]; simp, by rw [← h.nE]; simp⟩
      · obtain ⟨t, a, b⟩ := h.events _ _ _ hq
        exact ⟨t, get_left _ a, get_left _ b⟩
  | eventOver p own =>
    obtain ⟨rfl, hp, rfl⟩ := e
    obtain ⟨t, ht⟩ : ∃ t, v.strs[p]? = some t := ⟨_, List.getElem?_eq_getElem (h.nS ▸ hp)⟩
    simp only [Views.step, ht, Option.toList_some]
    refine ⟨trivial, h.nT, h.nS, by simp [Heap.alloc, h.nE], h.nX, h.tables, h.strs, fun q p' o hq => ?_, h.scored⟩
    simp only [Heap.alloc, Function.update_apply] at hq
    split at hq
    · next e =>
      cases hq
      subst e
      exact ⟨t, ht, by rw [← h.nE]; simp⟩
    · obtain ⟨t, a, b⟩ := h.events _ _ _ hq
      exact ⟨t, a, get_left _ b⟩
  | eventCopy q =>
    obtain ⟨rfl, p, o, hq, rfl⟩ := e
    obtain ⟨t, ht, ht'⟩ := h.events _ _ _ hq
    simp only [Views.step, ht', Option.toList_some]
    refine ⟨trivial, h.nT, h.nS, by simp [Heap.alloc, h.nE], h.nX, h.tables, h.strs, fun q p' o hq => ?_, h.scored⟩
    simp only [Heap.alloc, Function.update_apply] at hq
    split at hq
    · next e =>
      cases hq
      subst e
      exact ⟨t, ht, by rw [← h.nE]; simp⟩
    · obtain ⟨t, a, b⟩ := h.events _ _ _ hq
      exact ⟨t, a, get_left _ b⟩
  | eventAssign q x =>
    obtain ⟨rfl, ⟨p, o⟩, hx, ⟨⟨p₀, o₀⟩, hq⟩, rfl⟩ := e
    obtain ⟨t, ht, ht'⟩ := h.events _ _ _ hx
    obtain ⟨t₀, -, ht₀⟩ := h.events _ _ _ hq
    simp only [Views.step, ht']
    refine ⟨trivial, h.nT, h.nS, by simpa using h.nE, h.nX, h.tables, h.strs, fun q' p' o' hq' => ?_, h.scored⟩
    have hl : q < v.events.length := (List.getElem?_eq_some_iff.1 ht₀).1
    simp only [Function.update_apply] at hq'
    split at hq'
    · next e =>
      cases hq'
      subst e
      exact ⟨t, ht, by simp [hl]⟩
    · next e =>
      obtain ⟨t, a, b⟩ := h.events _ _ _ hq'
      exact ⟨t, a, by rw [List.getElem?_set_ne (Ne.symm e)]; exact b⟩
  | eventCall q ev =>
    obtain ⟨a, ha, rfl⟩ := e
    obtain ⟨t, m, e1, e2, rfl, e3⟩ := sim_useEvent h ha
    simp only [Views.step, Views.target, e1, e2, answer]
    exact ⟨trivial, e3⟩
  | eventEnd q =>
    obtain ⟨rfl, -, rfl⟩ := e
    refine ⟨rfl, h.nT, h.nS, h.nE, h.nX, h.tables, h.strs, fun q' p' o' hq' => ?_, h.scored⟩
    simp only [Function.update_apply] at hq'
    split at hq'
    · cases hq'
    · exact h.events _ _ _ hq'
  | scoredOver q =>
    obtain ⟨rfl, -, rfl⟩ := e
    exact ⟨rfl, h.nT, h.nS, h.nE, by simp [Views.step, Heap.alloc, h.nX], h.tables, h.strs, h.events,
      fun x y => get_snoc _ h.nX h.scored x⟩
  | scoredCall x ev =>
    obtain ⟨q, a, hx, ha, rfl⟩ := e
    obtain ⟨t, m, e1, e2, rfl, e3⟩ := sim_useEvent h ha
    simp only [Views.step, Views.target, h.scored _ _ hx, Option.bind_some, e1, e2, answer]
    exact ⟨trivial, e3⟩
  | scoredEnd x =>
    obtain ⟨rfl, -, rfl⟩ := e
    refine ⟨rfl, h.nT, h.nS, h.nE, h.nX, h.tables, h.strs, h.events, fun x' q' hx' => ?_⟩
    simp only [Function.update_apply] at hx'
    split at hx'
    · cases hx'
    · exact h.scored _ _ hx'

theorem run_cons {qf : Bool} {M : Nat} {s s' : MapperHeap} {c : ChainStmt} {cs : List ChainStmt}
    {as : List ChainAnswer} (h : s.run qf M (c :: cs) = .ok (s', as)) :
    ∃ s₁ r bs, s.exec qf M c = .ok (s₁, r) ∧ s₁.run qf M cs = .ok (s', bs) ∧ as = r.toList ++ bs := by
  simp only [run, bind, Except.bind] at h
  cases h1 : s.exec qf M c with
  | error f => simp [h1] at h
  | ok x =>
    obtain ⟨s₁, r⟩ := x
    simp only [h1] at h
    cases h2 : s₁.run qf M cs with
    | error f => simp [h2] at h
    | ok y =>
      obtain ⟨s₂, bs⟩ := y
      simp only [h2, pure, Except.pure, Except.ok.injEq, Prod.mk.injEq] at h
      exact ⟨s₁, r, bs, rfl, h.1 ▸ h2, h.2.symm⟩

theorem sim_run {qf : Bool} {M : Nat} {s s' : MapperHeap} {v : Views} {cs : List ChainStmt} {as : List ChainAnswer}
    (h : Sim s v) (hr : s.run qf M cs = .ok (s', as)) : as = v.answers qf M cs := by
  induction cs generalizing s v as with
  | nil =>
    simp only [run, pure, Except.pure, Except.ok.injEq, Prod.mk.injEq] at hr
    exact hr.2.symm
  | cons c cs ih =>
    obtain ⟨s₁, r, bs, h1, h2, rfl⟩ := run_cons hr
    obtain ⟨e1, e2⟩ := sim_exec h h1
    rw [ih e2 h2, Views.answers, e1]

end MapperHeap

/-- C117. If a program that handles tables, string mappers, event mappers and scored event mappers does not go wrong,
its calls return what they return if every mapper is a view of its table: who owns what, and when objects end, does
not matter. -/
theorem C117_views (qf : Bool) (M : Nat) (cs : List ChainStmt) (s : MapperHeap) (as : List ChainAnswer)
    (h : MapperHeap.empty.run qf M cs = .ok (s, as)) : as = Views.answers qf M ⟨[], [], [], []⟩ cs :=
  MapperHeap.sim_run MapperHeap.sim_empty h

/-! ## One table -/

namespace MapperHeap

/-- All string mappers look at the table 0, the only one. -/
structure Single (s : MapperHeap) (m : IntMapper) : Prop where
  one : s.tables.next = 1
  strs : ∀ p t o, s.strs.cell p = some (t, o) → t = 0
  table : ∀ m', s.tables.cell 0 = some m' → m' = m

theorem single_useStr {α : Type} {s s' : MapperHeap} {m : IntMapper} (h : Single s m) {p : Nat}
    {f : IntMapper → IntMapper × α} {a : α} (hc : s.useStr p f = .ok (s', a)) : a = (f m).2 ∧ Single s' (f m).1 := by
  obtain ⟨t, o, m', h1, h2, rfl, rfl⟩ := useStr_ok.1 hc
  obtain rfl := h.strs _ _ _ h1
  obtain rfl := h.table _ h2
  exact ⟨rfl, h.one, h.strs, fun m'' e => by simpa using e.symm⟩

theorem single_exec {qf : Bool} {M : Nat} {s s' : MapperHeap} {m : IntMapper} {c : ChainStmt}
    {r : Option ChainAnswer} (h : Single s m) (hm : makesTable c = false) (hc : s.exec qf M c = .ok (s', r)) :
    match answer qf M m c with
    | none => r = none ∧ Single s' m
    | some (m', a) => r = some a ∧ Single s' m' := by
  have e := exec_ok hc
  have hS : ∀ o₀ p t o, update s.strs.cell s.strs.next (some (0, o₀)) p = some (t, o) → t = 0 := by
    intro o₀ p t o hp
    simp only [Function.update_apply] at hp
    split at hp
    · cases hp; rfl
    · exact h.strs _ _ _ hp
  cases c with
  | table => cases hm
  | str => cases hm
  | event => cases hm
  | tableEnd t =>
    obtain ⟨rfl, -, rfl⟩ := e
    refine ⟨rfl, h.one, h.strs, fun m' e => ?_⟩
    simp only [Function.update_apply] at e
    split at e
    · cases e
    · exact h.table _ e
  | strOver t own =>
    obtain ⟨rfl, ht, rfl⟩ := e
    obtain rfl : t = 0 := by have := h.one; omega
    exact ⟨rfl, h.one, hS _, h.table⟩
  | strCopy p =>
    obtain ⟨rfl, t, o, hp, rfl⟩ := e
    obtain rfl := h.strs _ _ _ hp
    exact ⟨rfl, h.one, hS _, h.table⟩
  | strCall p w =>
    obtain ⟨a, ha, rfl⟩ := e
    obtain ⟨rfl, e⟩ := single_useStr h ha
    exact ⟨rfl, e⟩
  | strEnd p =>
    obtain ⟨rfl, t, o, hp, -, rfl⟩ := e
    refine ⟨rfl, by cases o <;> exact h.one, fun p' t' o' e => ?_, fun m' e => ?_⟩
    · simp only [Function.update_apply] at e
      split at e
      · cases e
      · exact h.strs _ _ _ e
    · cases o with
      | false => exact h.table _ e
      | true =>
        simp only [if_true, Function.update_apply] at e
        split at e
        · cases e
        · exact h.table _ e
  | eventOver p own =>
    obtain ⟨rfl, -, rfl⟩ := e
    exact ⟨rfl, h.one, h.strs, h.table⟩
  | eventCopy q =>
    obtain ⟨rfl, p, o, -, rfl⟩ := e
    exact ⟨rfl, h.one, h.strs, h.table⟩
  | eventAssign q x =>
    obtain ⟨rfl, b, -, -, rfl⟩ := e
    exact ⟨rfl, h.one, h.strs, h.table⟩
  | eventCall q ev =>
    obtain ⟨a, ha, rfl⟩ := e
    obtain ⟨p, o, -, ha⟩ := useEvent_ok.1 ha
    obtain ⟨rfl, e⟩ := single_useStr h ha
    exact ⟨rfl, e⟩
  | eventEnd q =>
    obtain ⟨rfl, -, rfl⟩ := e
    exact ⟨rfl, h.one, h.strs, h.table⟩
  | scoredOver q =>
    obtain ⟨rfl, -, rfl⟩ := e
    exact ⟨rfl, h.one, h.strs, h.table⟩
  | scoredCall x ev =>
    obtain ⟨q, a, -, ha, rfl⟩ := e
    obtain ⟨p, o, -, ha⟩ := useEvent_ok.1 ha
    obtain ⟨rfl, e⟩ := single_useStr h ha
    exact ⟨rfl, e⟩
  | scoredEnd x =>
    obtain ⟨rfl, -, rfl⟩ := e
    exact ⟨rfl, h.one, h.strs, h.table⟩

theorem single_run {qf : Bool} {M : Nat} {s s' : MapperHeap} {m : IntMapper} {cs : List ChainStmt}
    {as : List ChainAnswer} (h : Single s m) (hm : ∀ c ∈ cs, makesTable c = false)
    (hr : s.run qf M cs = .ok (s', as)) : as = oneTable qf M m cs := by
  induction cs generalizing s m as with
  | nil =>
    simp only [run, pure, Except.pure, Except.ok.injEq, Prod.mk.injEq] at hr
    exact hr.2.symm
  | cons c cs ih =>
    obtain ⟨s₁, r, bs, h1, h2, rfl⟩ := run_cons hr
    have e := single_exec h (hm c (.head _)) h1
    have hm := fun c hc => hm c (.tail _ hc)
    unfold oneTable
    cases ha : answer qf M m c with
    | none =>
      rw [ha] at e
      obtain ⟨rfl, e⟩ := e
      exact ih e hm h2
    | some x =>
      rw [ha] at e
      obtain ⟨rfl, e⟩ := e
      simp only [Option.toList_some, List.singleton_append, List.cons.injEq, true_and]
      exact ih e hm h2

end MapperHeap

/-- C117. A program that makes one table (on its own, with a string mapper or with an event mapper), and any number of
mappers over it: all the calls return what one mapper returns if it is called in the same order. -/
theorem C117_one (qf : Bool) (M : Nat) (c : ChainStmt) (cs : List ChainStmt) (s : MapperHeap) (as : List ChainAnswer)
    (hc : makesTable c = true) (hcs : ∀ c ∈ cs, makesTable c = false)
    (h : MapperHeap.empty.run qf M (c :: cs) = .ok (s, as)) : as = oneTable qf M .new cs := by
  obtain ⟨s₁, r, bs, h1, h2, rfl⟩ := MapperHeap.run_cons h
  have e := MapperHeap.exec_ok h1
  have key : r = none ∧ MapperHeap.Single s₁ .new := by
    cases c <;> simp only [makesTable, reduceCtorEq] at hc <;> obtain ⟨rfl, rfl⟩ := e <;>
      refine ⟨rfl, rfl, ?_, ?_⟩ <;>
      simp +contextual [MapperHeap.empty, Heap.empty, Heap.alloc, Function.update_apply]
  obtain ⟨rfl, key⟩ := key
  exact MapperHeap.single_run key hcs h2

/-! ## Memory -/

namespace MapperHeap

theorem ownTables_cons {qf : Bool} {M : Nat} {s s' : MapperHeap} {c : ChainStmt} {r : Option ChainAnswer}
    (hc : s.exec qf M c = .ok (s', r)) (cs : List ChainStmt) :
    ownTables s.tables.next (c :: cs) = ownTables s.tables.next [c] ++ ownTables s'.tables.next cs ∧
    hiddenStrs s.strs.next (c :: cs) = hiddenStrs s.strs.next [c] ++ hiddenStrs s'.strs.next cs := by
  have e := exec_ok hc
  have hu : ∀ {α : Type} {p : Nat} {f : IntMapper → IntMapper × α} {a : α}, s.useStr p f = .ok (s', a) →
      s'.tables.next = s.tables.next ∧ s'.strs.next = s.strs.next := by
    intro α p f a h
    obtain ⟨t, o, m, -, -, -, rfl⟩ := useStr_ok.1 h
    exact ⟨rfl, rfl⟩
  cases c with
  | strCall p w =>
    obtain ⟨a, ha, -⟩ := e
    obtain ⟨e1, e2⟩ := hu ha
    rw [e1, e2]
    exact ⟨rfl, rfl⟩
  | eventCall p w =>
    obtain ⟨a, ha, -⟩ := e
    obtain ⟨p, o, -, ha⟩ := useEvent_ok.1 ha
    obtain ⟨e1, e2⟩ := hu ha
    rw [e1, e2]
    exact ⟨rfl, rfl⟩
  | scoredCall p w =>
    obtain ⟨q, a, -, ha, -⟩ := e
    obtain ⟨p, o, -, ha⟩ := useEvent_ok.1 ha
    obtain ⟨e1, e2⟩ := hu ha
    rw [e1, e2]
    exact ⟨rfl, rfl⟩
  | strEnd p =>
    obtain ⟨-, t, o, -, -, rfl⟩ := e
    cases o <;> exact ⟨rfl, rfl⟩
  | table => obtain ⟨-, rfl⟩ := e; exact ⟨rfl, rfl⟩
  | str => obtain ⟨-, rfl⟩ := e; exact ⟨rfl, rfl⟩
  | event => obtain ⟨-, rfl⟩ := e; exact ⟨rfl, rfl⟩
  | tableEnd => obtain ⟨-, -, rfl⟩ := e; exact ⟨rfl, rfl⟩
  | strOver => obtain ⟨-, -, rfl⟩ := e; exact ⟨rfl, rfl⟩
  | eventOver => obtain ⟨-, -, rfl⟩ := e; exact ⟨rfl, rfl⟩
  | scoredOver => obtain ⟨-, -, rfl⟩ := e; exact ⟨rfl, rfl⟩
  | eventEnd => obtain ⟨-, -, rfl⟩ := e; exact ⟨rfl, rfl⟩
  | scoredEnd => obtain ⟨-, -, rfl⟩ := e; exact ⟨rfl, rfl⟩
  | strCopy => obtain ⟨-, t, o, -, rfl⟩ := e; exact ⟨rfl, rfl⟩
  | eventCopy => obtain ⟨-, t, o, -, rfl⟩ := e; exact ⟨rfl, rfl⟩
  | eventAssign => obtain ⟨-, b, -, -, rfl⟩ := e; exact ⟨rfl, rfl⟩

/-- Every table is one of `O` or has an owner. -/
def Owned (s : MapperHeap) (O : Nat → Prop) : Prop :=
  ∀ t m, s.tables.cell t = some m → O t ∨ ∃ p, s.strs.cell p = some (t, true)

/-- No object has an address that was not given yet. -/
structure Fresh (s : MapperHeap) : Prop where
  tables : ∀ t m, s.tables.cell t = some m → t < s.tables.next
  strs : ∀ p m, s.strs.cell p = some m → p < s.strs.next
  looked : ∀ p t o, s.strs.cell p = some (t, o) → t < s.tables.next

theorem fresh_useStr {α : Type} {s s' : MapperHeap} (h : Fresh s) {p : Nat}
    {f : IntMapper → IntMapper × α} {a : α} (hc : s.useStr p f = .ok (s', a)) : Fresh s' := by
  obtain ⟨t, o, m, h1, h2, rfl, rfl⟩ := useStr_ok.1 hc
  refine ⟨fun t' m' e => ?_, h.strs, h.looked⟩
  simp only [Function.update_apply] at e
  split at e
  · next e' => subst e'; exact h.tables _ _ h2
  · exact h.tables _ _ e

theorem fresh_exec {qf : Bool} {M : Nat} {s s' : MapperHeap} {c : ChainStmt} {r : Option ChainAnswer} (h : Fresh s)
    (hc : s.exec qf M c = .ok (s', r)) : Fresh s' := by
  have e := exec_ok hc
  obtain ⟨f1, f2, f3⟩ := h
  cases c with
  | strCall p w =>
    obtain ⟨a, ha, -⟩ := e
    exact fresh_useStr ⟨f1, f2, f3⟩ ha
  | eventCall p w =>
    obtain ⟨a, ha, -⟩ := e
    obtain ⟨p, o, -, ha⟩ := useEvent_ok.1 ha
    exact fresh_useStr ⟨f1, f2, f3⟩ ha
  | scoredCall p w =>
    obtain ⟨q, a, -, ha, -⟩ := e
    obtain ⟨p, o, -, ha⟩ := useEvent_ok.1 ha
    exact fresh_useStr ⟨f1, f2, f3⟩ ha
  | strEnd p =>
    obtain ⟨-, t, o, -, -, rfl⟩ := e
    cases o <;> constructor <;> simp only [Function.update_apply, if_true, Bool.false_eq_true, if_false] <;> grind
  | table =>
    obtain ⟨-, rfl⟩ := e
    constructor <;> simp only [Heap.alloc, Function.update_apply] <;> grind
  | str =>
    obtain ⟨-, rfl⟩ := e
    constructor <;> simp only [Heap.alloc, Function.update_apply] <;> grind
  | event =>
    obtain ⟨-, rfl⟩ := e
    constructor <;> simp only [Heap.alloc, Function.update_apply] <;> grind
  | tableEnd =>
    obtain ⟨-, -, rfl⟩ := e
    constructor <;> simp only [Function.update_apply] <;> grind
  | strOver =>
    obtain ⟨-, ht, rfl⟩ := e
    constructor <;> simp only [Heap.alloc, Function.update_apply] <;> grind
  | strCopy =>
    obtain ⟨-, t, o, ht, rfl⟩ := e
    have := f3 _ _ _ ht
    constructor <;> simp only [Heap.alloc, Function.update_apply] <;> grind
  | eventOver => obtain ⟨-, -, rfl⟩ := e; exact ⟨f1, f2, f3⟩
  | scoredOver => obtain ⟨-, -, rfl⟩ := e; exact ⟨f1, f2, f3⟩
  | eventEnd => obtain ⟨-, -, rfl⟩ := e; exact ⟨f1, f2, f3⟩
  | scoredEnd => obtain ⟨-, -, rfl⟩ := e; exact ⟨f1, f2, f3⟩
  | eventCopy => obtain ⟨-, t, o, -, rfl⟩ := e; exact ⟨f1, f2, f3⟩
  | eventAssign => obtain ⟨-, b, -, -, rfl⟩ := e; exact ⟨f1, f2, f3⟩

theorem owned_useStr {α : Type} {s s' : MapperHeap} {O : Nat → Prop} (h : Owned s O) {p : Nat}
    {f : IntMapper → IntMapper × α} {a : α} (hc : s.useStr p f = .ok (s', a)) : Owned s' O := by
  obtain ⟨t, o, m, h1, h2, rfl, rfl⟩ := useStr_ok.1 hc
  intro t' m' e
  simp only [Function.update_apply] at e
  split at e
  · next e' => subst e'; exact h _ _ h2
  · exact h _ _ e

theorem owned_exec {qf : Bool} {M : Nat} {s s' : MapperHeap} {c : ChainStmt} {r : Option ChainAnswer}
    {O : Nat → Prop} (f : Fresh s) (h : Owned s O) (hc : s.exec qf M c = .ok (s', r)) :
    Owned s' (fun t => O t ∨ t ∈ ownTables s.tables.next [c]) := by
  have e := exec_ok hc
  obtain ⟨f1, f2, f3⟩ := f
  have hO : ∀ {s' : MapperHeap}, Owned s' O → Owned s' (fun t => O t ∨ t ∈ ownTables s.tables.next [c]) :=
    fun h t m e => (h t m e).imp .inl id
  cases c with
  | strCall p w =>
    obtain ⟨a, ha, -⟩ := e
    exact hO (owned_useStr h ha)
  | eventCall p w =>
    obtain ⟨a, ha, -⟩ := e
    obtain ⟨p, o, -, ha⟩ := useEvent_ok.1 ha
    exact hO (owned_useStr h ha)
  | scoredCall p w =>
    obtain ⟨q, a, -, ha, -⟩ := e
    obtain ⟨p, o, -, ha⟩ := useEvent_ok.1 ha
    exact hO (owned_useStr h ha)
  | strEnd p =>
    obtain ⟨-, t, o, hp, -, rfl⟩ := e
    intro t' m' ht
    cases o with
    | false =>
      rcases h _ _ ht with h | ⟨p', h⟩
      · exact .inl (.inl h)
      · refine .inr ⟨p', ?_⟩
        simp only [Function.update_apply]
        rw [if_neg]
        · exact h
        · rintro rfl
          rw [hp] at h
          cases h
    | true =>
      simp only [if_true, Function.update_apply] at ht
      split at ht
      · cases ht
      · next hne =>
        rcases h _ _ ht with h | ⟨p', h⟩
        · exact .inl (.inl h)
        · refine .inr ⟨p', ?_⟩
          simp only [Function.update_apply]
          rw [if_neg]
          · exact h
          · rintro rfl
            rw [hp] at h
            cases h
            exact hne rfl
  | table =>
    obtain ⟨-, rfl⟩ := e
    intro t m ht
    simp only [Heap.alloc, Function.update_apply] at ht
    split at ht
    · next e => exact .inl (.inr (by simp [ownTables, e]))
    · exact (h _ _ ht).imp .inl id
  | str =>
    obtain ⟨-, rfl⟩ := e
    intro t m ht
    simp only [Heap.alloc, Function.update_apply] at ht
    split at ht
    · next e => exact .inr ⟨s.strs.next, by simp [Heap.alloc, e]⟩
    · rcases h _ _ ht with h | ⟨p', h⟩
      · exact .inl (.inl h)
      · refine .inr ⟨p', ?_⟩
        simp only [Heap.alloc, Function.update_apply]
        rw [if_neg (f2 _ _ h).ne]
        exact h
  | event =>
    obtain ⟨-, rfl⟩ := e
    intro t m ht
    simp only [Heap.alloc, Function.update_apply] at ht
    split at ht
    · next e => exact .inr ⟨s.strs.next, by simp [Heap.alloc, e]⟩
    · rcases h _ _ ht with h | ⟨p', h⟩
      · exact .inl (.inl h)
      · refine .inr ⟨p', ?_⟩
        simp only [Heap.alloc, Function.update_apply]
        rw [if_neg (f2 _ _ h).ne]
        exact h
  | tableEnd =>
    obtain ⟨-, -, rfl⟩ := e
    intro t m ht
    simp only [Function.update_apply] at ht
    split at ht
    · cases ht
    · exact (h _ _ ht).imp .inl id
  | strOver t own =>
    obtain ⟨-, -, rfl⟩ := e
    intro t m ht
    rcases h _ _ ht with h | ⟨p', h⟩
    · exact .inl (.inl h)
    · refine .inr ⟨p', ?_⟩
      simp only [Heap.alloc, Function.update_apply]
      rw [if_neg (f2 _ _ h).ne]
      exact h
  | strCopy =>
    obtain ⟨-, t, o, -, rfl⟩ := e
    intro t m ht
    rcases h _ _ ht with h | ⟨p', h⟩
    · exact .inl (.inl h)
    · refine .inr ⟨p', ?_⟩
      simp only [Heap.alloc, Function.update_apply]
      rw [if_neg (f2 _ _ h).ne]
      exact h
  | eventOver => obtain ⟨-, -, rfl⟩ := e; exact hO h
  | scoredOver => obtain ⟨-, -, rfl⟩ := e; exact hO h
  | eventEnd => obtain ⟨-, -, rfl⟩ := e; exact hO h
  | scoredEnd => obtain ⟨-, -, rfl⟩ := e; exact hO h
  | eventCopy => obtain ⟨-, t, o, -, rfl⟩ := e; exact hO h
  | eventAssign => obtain ⟨-, b, -, -, rfl⟩ := e; exact hO h

theorem fresh_empty : Fresh empty := by constructor <;> simp [empty, Heap.empty]

theorem owned_run {qf : Bool} {M : Nat} {s s' : MapperHeap} {cs : List ChainStmt} {as : List ChainAnswer}
    {O : Nat → Prop} (f : Fresh s) (h : Owned s O) (hr : s.run qf M cs = .ok (s', as)) :
    Fresh s' ∧ Owned s' (fun t => O t ∨ t ∈ ownTables s.tables.next cs) := by
  induction cs generalizing s O as with
  | nil =>
    simp only [run, pure, Except.pure, Except.ok.injEq, Prod.mk.injEq] at hr
    obtain ⟨rfl, -⟩ := hr
    exact ⟨f, fun t m e => (h t m e).imp .inl id⟩
  | cons c cs ih =>
    obtain ⟨s₁, r, bs, h1, h2, rfl⟩ := run_cons hr
    obtain ⟨g1, g2⟩ := ih (fresh_exec f h1) (owned_exec f h h1) h2
    refine ⟨g1, fun t m e => (g2 t m e).imp_left fun k => ?_⟩
    simp only [(ownTables_cons h1 cs).1, List.mem_append]
    tauto

theorem ownTables_le {n : Nat} {cs : List ChainStmt} : ∀ t ∈ ownTables n cs, n ≤ t := by
  induction cs generalizing n with
  | nil => simp [ownTables]
  | cons c cs ih =>
    intro t ht
    cases c <;> simp only [ownTables, List.mem_cons] at ht
    case table => rcases ht with rfl | ht; exact le_rfl; exact (Nat.le_succ _).trans (ih _ ht)
    case str => exact (Nat.le_succ _).trans (ih _ ht)
    case event => exact (Nat.le_succ _).trans (ih _ ht)
    all_goals exact ih _ ht

/-- The string mappers `H` own tables that nobody else can delete; `O` are the tables that the program may delete. -/
structure Hides (s : MapperHeap) (O H : Nat → Prop) : Prop where
  past : ∀ t, O t → t < s.tables.next
  only : ∀ p p' t, ¬ O t → s.strs.cell p = some (t, true) → s.strs.cell p' = some (t, true) → p = p'
  hidden : ∀ p, H p → ∃ t m, ¬ O t ∧ s.strs.cell p = some (t, true) ∧ s.tables.cell t = some m

theorem hides_useStr {α : Type} {s s' : MapperHeap} {O H : Nat → Prop} (h : Hides s O H) {p : Nat}
    {f : IntMapper → IntMapper × α} {a : α} (hc : s.useStr p f = .ok (s', a)) : Hides s' O H := by
  obtain ⟨t, o, m, h1, h2, rfl, rfl⟩ := useStr_ok.1 hc
  refine ⟨h.past, h.only, fun p' hp' => ?_⟩
  obtain ⟨t', m', a, b, d⟩ := h.hidden p' hp'
  by_cases e : t' = t
  · exact ⟨t', (f m).1, a, b, by simp [e]⟩
  · exact ⟨t', m', a, b, by simpa [Function.update_apply, e] using d⟩

theorem hides_exec {qf : Bool} {M : Nat} {s s' : MapperHeap} {c : ChainStmt} {r : Option ChainAnswer}
    {O H : Nat → Prop} (f : Fresh s) (h : Hides s O H) (hc : s.exec qf M c = .ok (s', r))
    (hT : ∀ t, namesTable c = some t → O t) (hE : ∀ p, c = .strEnd p → ¬ H p) :
    Hides s' (fun t => O t ∨ t ∈ ownTables s.tables.next [c]) (fun p => H p ∨ p ∈ hiddenStrs s.strs.next [c]) := by
  have e := exec_ok hc
  obtain ⟨f1, f2, f3⟩ := f
  have h0 := h
  obtain ⟨i1, i2, i3⟩ := h
  have hO : ∀ {s' : MapperHeap}, Hides s' O H → ownTables s.tables.next [c] = [] → hiddenStrs s.strs.next [c] = [] →
      Hides s' (fun t => O t ∨ t ∈ ownTables s.tables.next [c]) (fun p => H p ∨ p ∈ hiddenStrs s.strs.next [c]) := by
    intro s' h e1 e2
    simpa [e1, e2] using h
  cases c with
  | strCall p w =>
    obtain ⟨a, ha, -⟩ := e
    exact hO (hides_useStr h0 ha) rfl rfl
  | eventCall p w =>
    obtain ⟨a, ha, -⟩ := e
    obtain ⟨p, o, -, ha⟩ := useEvent_ok.1 ha
    exact hO (hides_useStr h0 ha) rfl rfl
  | scoredCall p w =>
    obtain ⟨q, a, -, ha, -⟩ := e
    obtain ⟨p, o, -, ha⟩ := useEvent_ok.1 ha
    exact hO (hides_useStr h0 ha) rfl rfl
  | strEnd p =>
    obtain ⟨-, t, o, hp, -, rfl⟩ := e
    have hp' := hE p rfl
    refine hO ⟨?_, ?_, fun q hq => ?_⟩ rfl rfl
    · cases o <;> exact i1
    · intro q q' t' ht' h1 h2
      simp only [Function.update_apply] at h1 h2
      split at h1
      · cases h1
      split at h2
      · cases h2
      exact i2 _ _ _ ht' h1 h2
    · obtain ⟨t', m', a, b, d⟩ := i3 q hq
      have hqp : q ≠ p := fun e => hp' (e ▸ hq)
      refine ⟨t', m', a, by simpa [Function.update_apply, hqp] using b, ?_⟩
      cases o with
      | false => exact d
      | true =>
        have : t' ≠ t := by
          rintro rfl
          exact hqp (i2 _ _ _ a b hp)
        simpa [Function.update_apply, this] using d
  | table =>
    obtain ⟨-, rfl⟩ := e
    refine ⟨?_, ?_, ?_⟩
    · intro t ht
      simp only [ownTables, List.mem_singleton] at ht
      simp only [Heap.alloc]
      rcases ht with ht | ht
      · exact (i1 _ ht).trans (Nat.lt_succ_self _)
      · omega
    · intro p p' t ht
      exact i2 p p' t (fun h => ht (.inl h))
    · intro p hp
      simp only [hiddenStrs, List.not_mem_nil, or_false] at hp
      obtain ⟨t, m, a, b, d⟩ := i3 p hp
      have := f1 _ _ d
      refine ⟨t, m, ?_, b, ?_⟩
      · simp only [ownTables, List.mem_singleton]
        rintro (h | h)
        · exact a h
        · omega
      · simpa [Heap.alloc, Function.update_apply, this.ne] using d
  | str =>
    obtain ⟨-, rfl⟩ := e
    refine hO ⟨fun t ht => (i1 t ht).trans (Nat.lt_succ_self _), ?_, fun q hq => ?_⟩ rfl rfl
    · intro q q' t' ht' h1 h2
      simp only [Heap.alloc, Function.update_apply] at h1 h2
      split at h1 <;> split at h2
      · next e1 e2 => rw [e1, e2]
      · cases h1
        exact absurd (f3 _ _ _ h2) (lt_irrefl _)
      · cases h2
        exact absurd (f3 _ _ _ h1) (lt_irrefl _)
      · exact i2 _ _ _ ht' h1 h2
    · obtain ⟨t', m', a, b, d⟩ := i3 q hq
      exact ⟨t', m', a, by simpa [Heap.alloc, Function.update_apply, (f2 _ _ b).ne] using b,
        by simpa [Heap.alloc, Function.update_apply, (f1 _ _ d).ne] using d⟩
  | event =>
    obtain ⟨-, rfl⟩ := e
    refine ⟨?_, ?_, ?_⟩
    · intro t ht
      simp only [ownTables, List.not_mem_nil, or_false] at ht
      exact (i1 t ht).trans (Nat.lt_succ_self _)
    · intro q q' t' ht' h1 h2
      simp only [Heap.alloc, Function.update_apply] at h1 h2
      split at h1 <;> split at h2
      · next e1 e2 => rw [e1, e2]
      · cases h1
        exact absurd (f3 _ _ _ h2) (lt_irrefl _)
      · cases h2
        exact absurd (f3 _ _ _ h1) (lt_irrefl _)
      · exact i2 _ _ _ (fun h => ht' (.inl h)) h1 h2
    · intro q hq
      simp only [hiddenStrs, ownTables, List.mem_singleton, List.not_mem_nil, or_false] at hq ⊢
      rcases hq with hq | rfl
      · obtain ⟨t', m', a, b, d⟩ := i3 q hq
        exact ⟨t', m', a, by simpa [Heap.alloc, Function.update_apply, (f2 _ _ b).ne] using b,
          by simpa [Heap.alloc, Function.update_apply, (f1 _ _ d).ne] using d⟩
      · exact ⟨s.tables.next, .new, fun h => absurd (i1 _ h) (lt_irrefl _), by simp [Heap.alloc], by simp [Heap.alloc]⟩
  | tableEnd t =>
    obtain ⟨-, -, rfl⟩ := e
    have ht := hT t rfl
    refine hO ⟨i1, i2, fun q hq => ?_⟩ rfl rfl
    obtain ⟨t', m', a, b, d⟩ := i3 q hq
    have : t' ≠ t := fun e => a (e ▸ ht)
    exact ⟨t', m', a, b, by simpa [Function.update_apply, this] using d⟩
  | strOver t own =>
    obtain ⟨-, -, rfl⟩ := e
    have ht := hT t rfl
    refine hO ⟨i1, ?_, fun q hq => ?_⟩ rfl rfl
    · intro q q' t' ht' h1 h2
      simp only [Heap.alloc, Function.update_apply] at h1 h2
      split at h1
      · cases h1
        exact absurd ht ht'
      split at h2
      · cases h2
        exact absurd ht ht'
      exact i2 _ _ _ ht' h1 h2
    · obtain ⟨t', m', a, b, d⟩ := i3 q hq
      exact ⟨t', m', a, by simpa [Heap.alloc, Function.update_apply, (f2 _ _ b).ne] using b, d⟩
  | strCopy =>
    obtain ⟨-, t, o, -, rfl⟩ := e
    refine hO ⟨i1, ?_, fun q hq => ?_⟩ rfl rfl
    · intro q q' t' ht' h1 h2
      simp only [Heap.alloc, Function.update_apply] at h1 h2
      split at h1
      · cases h1
      split at h2
      · cases h2
      exact i2 _ _ _ ht' h1 h2
    · obtain ⟨t', m', a, b, d⟩ := i3 q hq
      exact ⟨t', m', a, by simpa [Heap.alloc, Function.update_apply, (f2 _ _ b).ne] using b, d⟩
  | eventOver => obtain ⟨-, -, rfl⟩ := e; exact hO ⟨i1, i2, i3⟩ rfl rfl
  | scoredOver => obtain ⟨-, -, rfl⟩ := e; exact hO ⟨i1, i2, i3⟩ rfl rfl
  | eventEnd => obtain ⟨-, -, rfl⟩ := e; exact hO ⟨i1, i2, i3⟩ rfl rfl
  | scoredEnd => obtain ⟨-, -, rfl⟩ := e; exact hO ⟨i1, i2, i3⟩ rfl rfl
  | eventCopy => obtain ⟨-, t, o, -, rfl⟩ := e; exact hO ⟨i1, i2, i3⟩ rfl rfl
  | eventAssign => obtain ⟨-, b, -, -, rfl⟩ := e; exact hO ⟨i1, i2, i3⟩ rfl rfl

/-- A table that a statement names exists or existed. -/
theorem names_lt {qf : Bool} {M : Nat} {s s' : MapperHeap} {c : ChainStmt} {r : Option ChainAnswer} (f : Fresh s)
    (hc : s.exec qf M c = .ok (s', r)) {t : Nat} (h : namesTable c = some t) : t < s.tables.next := by
  have e := exec_ok hc
  cases c with
  | tableEnd t' =>
    obtain ⟨-, ⟨m, hm⟩, -⟩ := e
    cases h
    exact f.tables _ _ hm
  | strOver t' own =>
    obtain ⟨-, ht, -⟩ := e
    cases h
    exact ht
  | _ => cases h

theorem hides_run {qf : Bool} {M : Nat} {s s' : MapperHeap} {cs : List ChainStmt} {as : List ChainAnswer}
    {O H : Nat → Prop} (f : Fresh s) (h : Hides s O H) (hr : s.run qf M cs = .ok (s', as))
    (hT : ∀ c ∈ cs, ∀ t, namesTable c = some t → O t ∨ t ∈ ownTables s.tables.next cs)
    (hE : ∀ p, .strEnd p ∈ cs → ¬ H p ∧ p ∉ hiddenStrs s.strs.next cs) :
    Hides s' (fun t => O t ∨ t ∈ ownTables s.tables.next cs) (fun p => H p ∨ p ∈ hiddenStrs s.strs.next cs) := by
  induction cs generalizing s O H as with
  | nil =>
    simp only [run, pure, Except.pure, Except.ok.injEq, Prod.mk.injEq] at hr
    obtain ⟨rfl, -⟩ := hr
    simpa [ownTables, hiddenStrs] using h
  | cons c cs ih =>
    obtain ⟨s₁, r, bs, h1, h2, rfl⟩ := run_cons hr
    obtain ⟨c1, c2⟩ := ownTables_cons h1 cs
    have g := hides_exec f h h1
      (fun t ht => (hT c (.head _) t ht).resolve_right fun hm => absurd (names_lt f h1 ht) (not_lt.2 (ownTables_le _ hm)))
      (fun p hp => (hE p (hp ▸ .head _)).1)
    have := ih (fresh_exec f h1) g h2
      (fun c' hc' t ht => by
        have := hT c' (.tail _ hc') t ht
        rw [c1, List.mem_append] at this
        tauto)
      (fun p hp => by
        have := hE p (.tail _ hp)
        rw [c2, List.mem_append] at this
        tauto)
    rw [c1, c2]
    simpa only [List.mem_append, or_assoc] using this

end MapperHeap

/-- C117. A table that is left when a program has run without going wrong is one that the program made by itself, or
there still is a string mapper that owns it. In particular, if the program has ended all string mappers (also those that
default-constructed event mappers have made, which `GetMapper` gives access to) and its own tables, no table is left. -/
theorem C117_tables (qf : Bool) (M : Nat) (cs : List ChainStmt) (s : MapperHeap) (as : List ChainAnswer)
    (h : MapperHeap.empty.run qf M cs = .ok (s, as)) (t : Nat) (ht : s.tables.cell t ≠ none) :
    t ∈ ownTables 0 cs ∨ ∃ p, s.strs.cell p = some (t, true) := by
  obtain ⟨m, hm⟩ := Option.ne_none_iff_exists'.1 ht
  have := (MapperHeap.owned_run (O := fun _ => False) MapperHeap.fresh_empty
    (fun t m e => by simp [MapperHeap.empty, Heap.empty] at e) h).2 t m hm
  simpa [MapperHeap.empty, Heap.empty] using this

/-- C117. A default-constructed event mapper makes a string mapper and a table that are never returned, whatever
happens to it and its copies: only the program itself can do that, through `GetMapper`. (That is, if the program ends
none of them, and if it names only those tables that it made by itself.) -/
theorem C117_lost (qf : Bool) (M : Nat) (cs : List ChainStmt) (s : MapperHeap) (as : List ChainAnswer)
    (h : MapperHeap.empty.run qf M cs = .ok (s, as))
    (hT : ∀ c ∈ cs, ∀ t, namesTable c = some t → t ∈ ownTables 0 cs)
    (hE : ∀ p, .strEnd p ∈ cs → p ∉ hiddenStrs 0 cs) (p : Nat) (hp : p ∈ hiddenStrs 0 cs) :
    ∃ t, t ∉ ownTables 0 cs ∧ s.strs.cell p = some (t, true) ∧ s.tables.cell t ≠ none := by
  have h0 : MapperHeap.Hides .empty (fun _ => False) (fun _ => False) :=
    ⟨by simp, by simp [MapperHeap.empty, Heap.empty], by simp⟩
  have := (MapperHeap.hides_run MapperHeap.fresh_empty h0 h (fun c hc t ht => .inr (hT c hc t ht))
    (fun p hp => ⟨id, hE p hp⟩)).hidden p (.inr hp)
  obtain ⟨t, m, a, b, d⟩ := this
  refine ⟨t, fun h => a (.inr h), b, by simp [d]⟩

/-! ## The segmentation-based tool -/

/-- The mappers of tools/SimpleKwsEval.cc:31-33 -/
def toolMappers : List ChainStmt := [.str, .eventOver 0 false, .scoredOver 0]

/-- Their ends, in reverse order -/
def toolEnds : List ChainStmt := [.scoredEnd 0, .eventEnd 0, .strEnd 0]

/-- A call by the readers (tools/SimpleKwsEval.cc:35-36) or for the query files
(tools/GenericKwsEvalTool.h:302-348) -/
def ToolCall (c : ChainStmt) : Prop :=
  (∃ w, c = .strCall 0 w) ∨ (∃ e, c = .eventCall 0 e) ∨ ∃ e, c = .scoredCall 0 e

/-- the mappers of the tool, with the table `m` -/
def toolHeap (m : IntMapper) : MapperHeap where
  tables := ⟨update (fun _ => none) 0 (some m), 1⟩
  strs := ⟨update (fun _ => none) 0 (some (0, true)), 1⟩
  events := ⟨update (fun _ => none) 0 (some (0, false)), 1⟩
  scored := ⟨update (fun _ => none) 0 (some 0), 1⟩

theorem toolHeap_useStr {α : Type} (m : IntMapper) (f : IntMapper → IntMapper × α) :
    (toolHeap m).useStr 0 f = .ok (toolHeap (f m).1, (f m).2) :=
  MapperHeap.useStr_ok.2 ⟨0, true, m, rfl, rfl, rfl, by simp [toolHeap]⟩

theorem toolHeap_useEvent {α : Type} (m : IntMapper) (f : IntMapper → IntMapper × α) :
    (toolHeap m).useEvent 0 f = .ok (toolHeap (f m).1, (f m).2) :=
  MapperHeap.useEvent_ok.2 ⟨0, false, rfl, toolHeap_useStr m f⟩

/-- C117 for the tool: whatever the readers and the query files ask, in whatever order, its three mappers answer as one,
and at the end everything is returned. -/
theorem C117_tool (qf : Bool) (M : Nat) (cs : List ChainStmt) (hcs : ∀ c ∈ cs, ToolCall c) : ∃ s,
    MapperHeap.empty.run qf M (toolMappers ++ (cs ++ toolEnds)) = .ok (s, oneTable qf M .new cs) ∧
    (∀ t, s.tables.cell t = none) ∧ ∀ p, s.strs.cell p = none := by
  have step : ∀ {s s₁ : MapperHeap} {c r} (ds), s.exec qf M c = .ok (s₁, r) →
      s.run qf M (c :: ds) = (s₁.run qf M ds).map fun x => (x.1, r.toList ++ x.2) := by
    intro s s₁ c r ds h
    simp only [MapperHeap.run, bind, Except.bind, h]
    cases s₁.run qf M ds <;> rfl
  have step0 : ∀ {s s₁ : MapperHeap} {c} (ds), s.exec qf M c = .ok (s₁, none) →
      s.run qf M (c :: ds) = s₁.run qf M ds := by
    intro s s₁ c ds h
    rw [step ds h]
    cases s₁.run qf M ds <;> rfl
  have e0 : ∀ ds, MapperHeap.empty.run qf M (toolMappers ++ ds) = (toolHeap .new).run qf M ds := by
    intro ds
    exact (step0 _ rfl).trans ((step0 (s₁ := ⟨MapperHeap.empty.tables.alloc .new,
      MapperHeap.empty.strs.alloc (0, true), MapperHeap.empty.events.alloc (0, false), .empty⟩) _ rfl).trans
      (step0 _ rfl))
  rw [e0]
  have key : ∀ m, ∃ s, (toolHeap m).run qf M (cs ++ toolEnds) = .ok (s, oneTable qf M m cs) ∧
      (∀ t, s.tables.cell t = none) ∧ ∀ p, s.strs.cell p = none := by
    induction cs with
    | nil =>
      intro m
      refine ⟨⟨⟨update (toolHeap m).tables.cell 0 none, 1⟩, ⟨update (toolHeap m).strs.cell 0 none, 1⟩,
        ⟨update (toolHeap m).events.cell 0 none, 1⟩, ⟨update (toolHeap m).scored.cell 0 none, 1⟩⟩,
        (step0 _ rfl).trans ((step0 _ rfl).trans ((step0 _ rfl).trans rfl)), ?_, ?_⟩ <;>
      simp [toolHeap, Function.update_apply]
    | cons c cs ih =>
      intro m
      have ih := ih (fun c hc => hcs c (.tail _ hc))
      rcases hcs c (.head _) with ⟨w, rfl⟩ | ⟨e, rfl⟩ | ⟨e, rfl⟩
      · obtain ⟨s, a, b⟩ := ih (m.lookup M w).1
        refine ⟨s, ?_, b⟩
        rw [List.cons_append, step (s₁ := toolHeap (m.lookup M w).1) (r := some (.id (m.lookup M w).2)), a]
        · rfl
        · simp only [MapperHeap.exec, toolHeap_useStr, bind, Except.bind, pure, Except.pure]
      · obtain ⟨s, a, b⟩ := ih (m.mapEvent qf M e).1
        refine ⟨s, ?_, b⟩
        rw [List.cons_append, step (s₁ := toolHeap (m.mapEvent qf M e).1) (r := some (.event (m.mapEvent qf M e).2)), a]
        · rfl
        · simp only [MapperHeap.exec, toolHeap_useEvent, bind, Except.bind, pure, Except.pure]
      · obtain ⟨s, a, b⟩ := ih (m.mapScoredEvent qf M e).1
        refine ⟨s, ?_, b⟩
        rw [List.cons_append, step (s₁ := toolHeap (m.mapScoredEvent qf M e).1)
          (r := some (.scored (m.mapScoredEvent qf M e).2)), a]
        · rfl
        · have : (toolHeap m).scored.read 0 = .ok 0 := rfl
          simp only [MapperHeap.exec, this, toolHeap_useEvent, bind, Except.bind, pure, Except.pure]
  exact key _

/-- A case of `C117_one`, with a mapper of each kind: an event mapper and a scored event mapper over a string mapper that
borrows the table from the one that owns it. -/
example : ∃ s, MapperHeap.empty.run true (2 ^ 31 - 1)
    [.str, .strCopy 0, .eventOver 1 false, .eventCopy 0, .scoredOver 1, .strCall 0 "a".toList,
      .eventCall 0 ⟨"b".toList, "a".toList⟩, .eventEnd 0, .scoredCall 0 ⟨⟨"c".toList, "b".toList⟩, .fin 1⟩,
      .strCall 1 "c".toList] =
    .ok (s, [.id (.ok 0), .event (.ok ⟨1, 0⟩), .scored (.ok ⟨⟨2, 1⟩, .fin 1⟩), .id (.ok 2)]) := ⟨_, rfl⟩

/-- A case of `C117_lost`: an event mapper is gone, but not what it has made. -/
example : ∃ s, MapperHeap.empty.run true (2 ^ 31 - 1) [.event, .eventCall 0 ⟨"b".toList, "a".toList⟩, .eventEnd 0] =
    .ok (s, [.event (.ok ⟨0, 1⟩)]) ∧ s.events.cell 0 = none ∧ s.strs.cell 0 = some (0, true) ∧
    hiddenStrs 0 [.event, .eventCall 0 ⟨"b".toList, "a".toList⟩, .eventEnd 0] = [0] := ⟨_, rfl, rfl, rfl, rfl⟩

/-- What `C117_lost` excludes: the program deletes what `GetMapper` returns. -/
example : ∃ s, MapperHeap.empty.run true (2 ^ 31 - 1) [.event, .strEnd 0, .eventEnd 0] = .ok (s, []) ∧
    s.strs.cell 0 = none ∧ s.tables.cell 0 = none := ⟨_, rfl, rfl, rfl⟩

end Kws
