import Verif.Spec.Ownership
import Mathlib.Tactic.Tauto

/-! Lemmas about `Owners` and `MatchStore`. -/

namespace Kws
open Function (update)
open Spec (Lost)

namespace Owners
variable {α : Type}

/-- every pointer is valid, no two objects share a cell, addresses are below `next` -/
structure WF (o : Owners α) : Prop where
  live : ∀ i p, o.ptr i = some p → o.heap.cell p ≠ none
  inj : ∀ i j p, o.ptr i = some p → o.ptr j = some p → i = j
  fresh : ∀ p, o.heap.cell p ≠ none → p < o.heap.next

/-- the value an object owns -/
def view (o : Owners α) (i : Nat) : Option α := (o.ptr i).bind o.heap.cell

theorem wf_empty : (empty : Owners α).WF := by
  constructor <;> simp [empty, Heap.empty]

theorem view_none {o : Owners α} (h : o.WF) (i : Nat) : o.view i = none ↔ o.ptr i = none := by
  unfold view
  cases hp : o.ptr i with
  | none => simp
  | some p => simpa using h.live i p hp

theorem has_eq {o : Owners α} (h : o.WF) (i : Nat) : o.has i = (o.view i).isSome := by
  have := view_none h i
  unfold has
  cases hv : o.view i <;> cases hp : o.ptr i <;> simp_all

theorem get_eq {o : Owners α} (_ : o.WF) (i : Nat) :
    o.get i = match o.view i with
      | some a => .ok a
      | none => if o.ptr i = none then .error .assertFail else .error .ub := by
  unfold get view Heap.read
  cases hp : o.ptr i with
  | none => simp
  | some p => cases hc : o.heap.cell p <;> simp [hc]

theorem get_some {o : Owners α} {i : Nat} {a : α} (hv : o.view i = some a) : o.get i = .ok a := by
  unfold view at hv
  unfold get Heap.read
  cases hp : o.ptr i with
  | none => simp [hp] at hv
  | some p => simp [hp] at hv; simp [hv]

theorem get_none {o : Owners α} (h : o.WF) {i : Nat} (hv : o.view i = none) :
    o.get i = .error .assertFail := by
  have hp := (view_none h i).1 hv
  simp [get, hp]

theorem construct_eq {o : Owners α} {i : Nat} (hp : o.ptr i = none) : o.construct i = o := by
  cases o
  simp only [construct, mk.injEq, true_and]
  funext j
  by_cases hj : j = i <;> simp_all [update]

/-- The cell of the old object, if any, is deleted: the result of `deleteOpt`. -/
theorem deleteOpt_ok {h : Heap α} {q : Option Nat} (hq : ∀ p, q = some p → h.cell p ≠ none) :
    ∃ h', deleteOpt h q = .ok h' ∧ h'.next = h.next ∧
      ∀ p, h'.cell p = if q = some p then none else h.cell p := by
  cases q with
  | none => exact ⟨h, rfl, rfl, by simp⟩
  | some p =>
    have := hq p rfl
    cases hc : h.cell p with
    | none => exact absurd hc this
    | some a =>
      refine ⟨⟨update h.cell p none, h.next⟩, by simp [deleteOpt, Heap.delete, hc], rfl, ?_⟩
      intro p'
      by_cases hpp : p' = p
      · subst hpp; simp
      · have : ¬ (p = p') := fun h => hpp h.symm
        simp [update_of_ne hpp, this]
where
  update_of_ne {β : Type} {f : Nat → β} {p p' : Nat} {b : β} (h : p' ≠ p) :
      update f p b p' = f p' := by simp [update, h]

theorem resetNew_spec {o : Owners α} (h : o.WF) (i : Nat) (a : α) :
    ∃ o', o.resetNew i a = .ok o' ∧ o'.WF ∧ o'.view = update o.view i (some a) ∧
      (∀ j, j ≠ i → o'.ptr j = o.ptr j) ∧ ∀ p, Lost o' p ↔ Lost o p := by
  have hfresh : o.heap.cell o.heap.next = none := by
    by_contra hc; exact absurd (h.fresh _ hc) (lt_irrefl _)
  have hptr : ∀ j p, o.ptr j = some p → p ≠ o.heap.next := by
    intro j p hj hp; subst hp; exact h.live j _ hj hfresh
  obtain ⟨h', hok, hnext, hcell⟩ := deleteOpt_ok (h := o.heap.alloc a) (q := o.ptr i) (by
    intro p hp
    have := hptr i p hp
    simp [Heap.alloc, update, this, h.live i p hp])
  refine ⟨⟨h', update o.ptr i (some o.heap.next)⟩, by simp [resetNew, hok, bind, Except.bind, pure,
    Except.pure], ⟨?_, ?_, ?_⟩, ?_, ?_, ?_⟩
  · intro j p hj
    simp only [hcell, Heap.alloc, update] at *
    grind [h.live j p, h.inj i j p]
  · intro j k p hj hk
    simp only [update] at *
    grind [h.inj j k p]
  · intro p hp
    simp only [hcell, hnext, Heap.alloc, update] at *
    have := h.fresh p
    grind
  · funext j
    simp only [view, update] at *
    by_cases hj : j = i
    · subst hj
      have : o.ptr j ≠ some o.heap.next := fun hp => hptr j _ hp rfl
      simp [hcell, this, Heap.alloc, update]
    · simp only [hj]
      cases hp : o.ptr j with
      | none => simp
      | some p =>
        have h1 : o.ptr i ≠ some p := fun hi => hj (h.inj j i p hp hi)
        have h2 := hptr j p hp
        simp [hcell, h1, Heap.alloc, update, h2]
  · intro j hj; simp [update, hj]
  · intro p
    simp only [Lost, hcell, Heap.alloc, update]
    constructor
    · rintro ⟨h1, h2⟩
      have hne : p ≠ o.heap.next := by
        intro hp; have := h2 i; simp [hp] at this
      refine ⟨by grind, fun j => ?_⟩
      have := h2 j
      grind
    · rintro ⟨h1, h2⟩
      have hne : p ≠ o.heap.next := by
        intro hp; subst hp; exact h1 hfresh
      refine ⟨by grind, fun j => ?_⟩
      have := h2 j
      grind

theorem release_spec {o : Owners α} (h : o.WF) (i : Nat) :
    (o.release i).WF ∧ (o.release i).view = update o.view i none ∧
      (o.release i).ptr i = none ∧ (∀ j, j ≠ i → (o.release i).ptr j = o.ptr j) ∧
      ∀ p, Lost (o.release i) p ↔ Lost o p ∨ o.ptr i = some p := by
  refine ⟨⟨?_, ?_, ?_⟩, ?_, ?_, ?_, ?_⟩
  · intro j p hj
    simp only [release, update] at *
    grind [h.live j p]
  · intro j k p hj hk
    simp only [release, update] at *
    grind [h.inj j k p]
  · intro p hp; exact h.fresh p hp
  · funext j
    by_cases hj : j = i <;> simp [view, release, update, hj]
  · simp [release]
  · intro j hj; simp [release, update, hj]
  · intro p
    simp only [Lost, release, update]
    constructor
    · rintro ⟨h1, h2⟩
      by_cases hp : o.ptr i = some p
      · exact .inr hp
      · refine .inl ⟨h1, fun j => ?_⟩
        have := h2 j
        by_cases hj : j = i
        · subst hj; exact hp
        · simpa [hj] using this
    · rintro (⟨h1, h2⟩ | hp)
      · exact ⟨h1, fun j => by have := h2 j; grind⟩
      · refine ⟨h.live i p hp, fun j => ?_⟩
        by_cases hj : j = i
        · simp [hj]
        · have : o.ptr j ≠ some p := fun hj' => hj (h.inj j i p hj' hp)
          simpa [hj] using this

theorem destroy_spec {o : Owners α} (h : o.WF) (i : Nat) :
    ∃ o', o.destroy i = .ok o' ∧ o'.WF ∧ o'.view = update o.view i none ∧ o'.ptr i = none ∧
      (∀ j, j ≠ i → o'.ptr j = o.ptr j) ∧ ∀ p, Lost o' p ↔ Lost o p := by
  obtain ⟨h', hok, hnext, hcell⟩ := deleteOpt_ok (h := o.heap) (q := o.ptr i) (h.live i)
  refine ⟨⟨h', update o.ptr i none⟩, by simp [destroy, hok, bind, Except.bind, pure,
    Except.pure], ⟨?_, ?_, ?_⟩, ?_, by simp, ?_, ?_⟩
  · intro j p hj
    simp only [hcell, update] at *
    grind [h.live j p, h.inj i j p]
  · intro j k p hj hk
    simp only [update] at *
    grind [h.inj j k p]
  · intro p hp
    simp only [hcell, hnext] at *
    have := h.fresh p
    grind
  · funext j
    simp only [view, update] at *
    by_cases hj : j = i
    · simp [hj]
    · simp only [hj]
      cases hp : o.ptr j with
      | none => simp
      | some p =>
        have h1 : o.ptr i ≠ some p := fun hi => hj (h.inj j i p hp hi)
        simp [hcell, h1]
  · intro j hj; simp [update, hj]
  · intro p
    simp only [Lost, hcell, update]
    constructor
    · rintro ⟨h1, h2⟩
      refine ⟨by grind, fun j => ?_⟩
      have := h2 j
      grind
    · rintro ⟨h1, h2⟩
      refine ⟨by have := h2 i; grind, fun j => ?_⟩
      have := h2 j
      grind

theorem moveAssign_self {o : Owners α} (i : Nat) : o.moveAssign i i = .ok o := by
  have : update (update o.ptr i none) i (o.ptr i) = o.ptr := by
    funext j; by_cases hj : j = i <;> simp [update, hj]
  simp [moveAssign, deleteOpt, this, bind, Except.bind, pure, Except.pure]

theorem moveAssign_spec {o : Owners α} (h : o.WF) {i j : Nat} (hij : i ≠ j) :
    ∃ o', o.moveAssign i j = .ok o' ∧ o'.WF ∧
      o'.view = update (update o.view i (o.view j)) j none ∧
      o'.ptr j = none ∧ (∀ k, k ≠ i → k ≠ j → o'.ptr k = o.ptr k) ∧
      ∀ p, Lost o' p ↔ Lost o p := by
  have hpi : update o.ptr j none i = o.ptr i := by simp [update, hij]
  obtain ⟨h', hok, hnext, hcell⟩ := deleteOpt_ok (h := o.heap) (q := o.ptr i) (h.live i)
  refine ⟨⟨h', update (update o.ptr j none) i (o.ptr j)⟩, by simp [moveAssign, hpi, hok, bind,
    Except.bind, pure, Except.pure], ⟨?_, ?_, ?_⟩, ?_, by simp [update, hij.symm], ?_, ?_⟩
  · intro k p hk
    simp only [hcell, update] at *
    grind [h.live k p, h.live j p, h.inj i j p, h.inj i k p]
  · intro k l p hk hl
    simp only [update] at *
    grind [h.inj k l p, h.inj j l p, h.inj k j p]
  · intro p hp
    simp only [hcell, hnext] at *
    have := h.fresh p
    grind
  · funext k
    simp only [view, update] at *
    by_cases hkj : k = j
    · have : ¬ j = i := fun h => hij h.symm
      subst hkj; simp [this]
    · by_cases hki : k = i
      · subst hki
        simp only [hkj]
        cases hp : o.ptr j with
        | none => simp
        | some p =>
          have h1 : o.ptr k ≠ some p := fun hi => hij (h.inj k j p hi hp)
          simp [hcell, h1]
      · simp only [hki, hkj]
        cases hp : o.ptr k with
        | none => simp
        | some p =>
          have h1 : o.ptr i ≠ some p := fun hi => hki (h.inj k i p hp hi)
          simp [hcell, h1]
  · intro k hki hkj; simp [update, hki, hkj]
  · intro p
    simp only [Lost, hcell, update]
    constructor
    · rintro ⟨h1, h2⟩
      refine ⟨by grind, fun k => ?_⟩
      have hk := h2 k
      have hi := h2 i
      grind
    · rintro ⟨h1, h2⟩
      refine ⟨by have := h2 i; grind, fun k => ?_⟩
      have hk := h2 k
      have hj := h2 j
      grind

theorem copyIfAny_spec {o : Owners α} (h : o.WF) {i j : Nat} (hi : o.ptr i = none) :
    ∃ o', o.copyIfAny i j = .ok o' ∧ o'.WF ∧ o'.view = update o.view i (o.view j) ∧
      (∀ k, k ≠ i → o'.ptr k = o.ptr k) ∧ ∀ p, Lost o' p ↔ Lost o p := by
  unfold copyIfAny
  rw [has_eq h]
  cases hv : o.view j with
  | none =>
    refine ⟨o, rfl, h, ?_, fun _ _ => rfl, fun _ => Iff.rfl⟩
    have := (view_none h i).2 hi
    funext k; by_cases hk : k = i <;> simp [update, hk, this]
  | some a =>
    obtain ⟨o', h1, h2, h3, h4, h5⟩ := resetNew_spec h i a
    refine ⟨o', ?_, h2, h3, h4, h5⟩
    simp [get_some hv, bind, Except.bind, h1]

end Owners

namespace MatchStore
variable {RE HE : Type}
open Spec (Step Steps Leaks)

/-- both members well-formed; objects that do not exist own nothing -/
structure WF (s : MatchStore RE HE) : Prop where
  refs : s.refs.WF
  hyps : s.hyps.WF
  deadRef : ∀ i, s.alive i = false → s.refs.ptr i = none
  deadHyp : ∀ i, s.alive i = false → s.hyps.ptr i = none

/-- the values of the objects -/
def values (s : MatchStore RE HE) (i : Nat) : Option (Match RE HE) :=
  if s.alive i then some ⟨s.refs.view i, s.hyps.view i, s.error i⟩ else none

theorem wf_empty : (empty : MatchStore RE HE).WF :=
  ⟨Owners.wf_empty, Owners.wf_empty, fun _ _ => rfl, fun _ _ => rfl⟩

theorem values_empty : (empty : MatchStore RE HE).values = fun _ => none := by
  funext i; simp [values, empty]

theorem values_none {s : MatchStore RE HE} {i : Nat} : s.values i = none ↔ s.alive i = false := by
  unfold values; cases s.alive i <;> simp

theorem values_some {s : MatchStore RE HE} {i : Nat} {m : Match RE HE} :
    s.values i = some m ↔ s.alive i = true ∧ m = ⟨s.refs.view i, s.hyps.view i, s.error i⟩ := by
  unfold values; cases s.alive i <;> simp [eq_comm]

theorem observe_eq {s : MatchStore RE HE} (h : s.WF) (i : Nat) :
    s.observe i = match s.values i with
      | some m => .ok m
      | none => .error .ub := by
  unfold observe require values
  cases ha : s.alive i with
  | false => simp [bind, Except.bind]
  | true =>
    simp only [if_true, bind, Except.bind, Owners.has_eq h.refs, Owners.has_eq h.hyps]
    cases hr : s.refs.view i with
    | none =>
      cases hh : s.hyps.view i with
      | none => simp [pure, Except.pure]
      | some b => simp [Owners.get_some hh, pure, Except.pure, Functor.map, Except.map]
    | some a =>
      cases hh : s.hyps.view i with
      | none => simp [Owners.get_some hr, pure, Except.pure, Functor.map, Except.map]
      | some b =>
        simp [Owners.get_some hr, Owners.get_some hh, pure, Except.pure, Functor.map, Except.map]

/-- what a statement does to lost memory: only a copy assignment loses anything -/
def lossOf (s : MatchStore RE HE) : MatchStmt RE HE → Prop
  | .assign i _ => (s.refs.view i).isSome ∨ (s.hyps.view i).isSome
  | _ => False

theorem leaks_release {s : MatchStore RE HE} (hr : s.refs.WF) (hh : s.hyps.WF) {i j : Nat}
    {o1 : Owners RE} {o2 : Owners HE} {e : Nat → MatchError} {al : Nat → Bool}
    (a5 : ∀ p, Lost o1 p ↔ Lost (s.refs.release i) p)
    (b5 : ∀ p, Lost o2 p ↔ Lost (s.hyps.release i) p)
    (r5 : ∀ p, Lost (s.refs.release i) p ↔ Lost s.refs p ∨ s.refs.ptr i = some p)
    (t5 : ∀ p, Lost (s.hyps.release i) p ↔ Lost s.hyps p ∨ s.hyps.ptr i = some p) :
    Leaks (⟨o1, o2, e, al⟩ : MatchStore RE HE) ↔ Leaks s ∨ s.lossOf (.assign i j) := by
  have h1 : (s.refs.view i).isSome ↔ ∃ p, s.refs.ptr i = some p := by
    rw [← Owners.has_eq hr, Owners.has, Option.isSome_iff_exists]
  have h2 : (s.hyps.view i).isSome ↔ ∃ p, s.hyps.ptr i = some p := by
    rw [← Owners.has_eq hh, Owners.has, Option.isSome_iff_exists]
  simp only [Leaks, lossOf, h1, h2, a5, b5, r5, t5, exists_or]
  tauto

theorem exec_spec {s : MatchStore RE HE} (h : s.WF) (c : MatchStmt RE HE) {v'}
    (hs : Step s.values c v') :
    ∃ s', s.exec c = .ok s' ∧ s'.WF ∧ s'.values = v' ∧ (Leaks s' ↔ Leaks s ∨ s.lossOf c) := by
  obtain ⟨hr, hh, dr, dh⟩ := h
  cases hs with
  | @construct i hi =>
    have ha := values_none.1 hi
    refine ⟨{ s with error := update s.error i .default, alive := update s.alive i true },
      ?_, ⟨hr, hh, ?_, ?_⟩, ?_, ?_⟩
    · simp [exec, begin, ha, Owners.construct_eq (dr i ha), Owners.construct_eq (dh i ha)]
    · intro j; simp only [update]; grind
    · intro j; simp only [update]; grind
    · have h1 := (Owners.view_none hr i).2 (dr i ha)
      have h2 := (Owners.view_none hh i).2 (dh i ha)
      funext j
      by_cases hj : j = i <;> simp [values, update, hj, h1, h2, MatchError.default]
    · simp [Leaks, lossOf]
  | @make i r e he hi =>
    have ha := values_none.1 hi
    obtain ⟨o1, a1, a2, a3, a4, a5⟩ := Owners.resetNew_spec hr i r
    obtain ⟨o2, b1, b2, b3, b4, b5⟩ := Owners.resetNew_spec hh i e
    refine ⟨⟨o1, o2, update s.error i he, update s.alive i true⟩, ?_, ⟨a2, b2, ?_, ?_⟩, ?_, ?_⟩
    · simp [exec, begin, ha, Owners.construct_eq (dr i ha), Owners.construct_eq (dh i ha), a1, b1,
        bind, Except.bind, pure, Except.pure]
    · intro j; simp only [update]; grind
    · intro j; simp only [update]; grind
    · funext j
      by_cases hj : j = i <;> simp [values, update, hj, a3, b3]
    · simp [Leaks, lossOf, a5, b5]
  | @copy i j m hi hj =>
    have ha := values_none.1 hi
    obtain ⟨hja, hm⟩ := values_some.1 hj
    have hij : j ≠ i := by intro h; subst h; simp [ha] at hja
    obtain ⟨o1, a1, a2, a3, a4, a5⟩ := Owners.copyIfAny_spec hr (i := i) (j := j) (dr i ha)
    obtain ⟨o2, b1, b2, b3, b4, b5⟩ := Owners.copyIfAny_spec hh (i := i) (j := j) (dh i ha)
    refine ⟨⟨o1, o2, update s.error i (s.error j), update s.alive i true⟩, ?_, ⟨a2, b2, ?_, ?_⟩,
      ?_, ?_⟩
    · simp [exec, begin, require, ha, hja, Owners.construct_eq (dr i ha),
        Owners.construct_eq (dh i ha), a1, b1, bind, Except.bind, pure, Except.pure]
    · intro j; simp only [update]; grind
    · intro j; simp only [update]; grind
    · funext k
      by_cases hk : k = i <;> simp [values, update, hk, a3, b3, hm]
    · simp [Leaks, lossOf, a5, b5]
  | @assign i j m₀ m hij hi hj =>
    obtain ⟨hia, hm0⟩ := values_some.1 hi
    obtain ⟨hja, hm⟩ := values_some.1 hj
    obtain ⟨r1, r2, r3, r4, r5⟩ := Owners.release_spec hr i
    obtain ⟨t1, t2, t3, t4, t5⟩ := Owners.release_spec hh i
    obtain ⟨o1, a1, a2, a3, a4, a5⟩ := Owners.copyIfAny_spec r1 (i := i) (j := j) r3
    obtain ⟨o2, b1, b2, b3, b4, b5⟩ := Owners.copyIfAny_spec t1 (i := i) (j := j) t3
    refine ⟨⟨o1, o2, update s.error i (s.error j), s.alive⟩, ?_, ⟨a2, b2, ?_, ?_⟩, ?_, ?_⟩
    · simp [exec, require, hia, hja, a1, b1, bind, Except.bind, pure, Except.pure]
    · intro k hk
      have : k ≠ i := by intro h; subst h; simp [hia] at hk
      simp [a4 k this, r4 k this, dr k hk]
    · intro k hk
      have : k ≠ i := by intro h; subst h; simp [hia] at hk
      simp [b4 k this, t4 k this, dh k hk]
    · funext k
      have hji : ¬ j = i := fun h => hij h.symm
      by_cases hk : k = i <;> simp [values, update, hk, a3, b3, hm, r2, t2, hia, hji]
    · exact leaks_release hr hh a5 b5 r5 t5
  | @assignSelf i m hi =>
    obtain ⟨hia, hm⟩ := values_some.1 hi
    obtain ⟨r1, r2, r3, r4, r5⟩ := Owners.release_spec hr i
    obtain ⟨t1, t2, t3, t4, t5⟩ := Owners.release_spec hh i
    obtain ⟨o1, a1, a2, a3, a4, a5⟩ := Owners.copyIfAny_spec r1 (i := i) (j := i) r3
    obtain ⟨o2, b1, b2, b3, b4, b5⟩ := Owners.copyIfAny_spec t1 (i := i) (j := i) t3
    refine ⟨⟨o1, o2, update s.error i (s.error i), s.alive⟩, ?_, ⟨a2, b2, ?_, ?_⟩, ?_, ?_⟩
    · simp [exec, require, hia, a1, b1, bind, Except.bind, pure, Except.pure]
    · intro k hk
      have : k ≠ i := by intro h; subst h; simp [hia] at hk
      simp [a4 k this, r4 k this, dr k hk]
    · intro k hk
      have : k ≠ i := by intro h; subst h; simp [hia] at hk
      simp [b4 k this, t4 k this, dh k hk]
    · funext k
      by_cases hk : k = i <;> simp [values, update, hk, a3, b3, hm, r2, t2, hia]
    · exact leaks_release hr hh a5 b5 r5 t5
  | @move i j m₀ m hij hi hj =>
    obtain ⟨hia, hm0⟩ := values_some.1 hi
    obtain ⟨hja, hm⟩ := values_some.1 hj
    obtain ⟨o1, a1, a2, a3, a4, a5, a6⟩ := Owners.moveAssign_spec hr hij
    obtain ⟨o2, b1, b2, b3, b4, b5, b6⟩ := Owners.moveAssign_spec hh hij
    refine ⟨⟨o1, o2, update s.error i (s.error j), s.alive⟩, ?_, ⟨a2, b2, ?_, ?_⟩, ?_, ?_⟩
    · simp [exec, require, hia, hja, a1, b1, bind, Except.bind, pure, Except.pure]
    · intro k hk
      have h1 : k ≠ i := by intro h; subst h; simp [hia] at hk
      have h2 : k ≠ j := by intro h; subst h; simp [hja] at hk
      simp [a5 k h1 h2, dr k hk]
    · intro k hk
      have h1 : k ≠ i := by intro h; subst h; simp [hia] at hk
      have h2 : k ≠ j := by intro h; subst h; simp [hja] at hk
      simp [b5 k h1 h2, dh k hk]
    · funext k
      have hji : ¬ j = i := fun h => hij h.symm
      by_cases hk : k = i
      · subst hk
        simp [values, update, a3, b3, hm, hia, hij]
      · by_cases hk2 : k = j
        · subst hk2
          simp [values, update, a3, b3, hm, hja, hji]
        · simp [values, update, a3, b3, hk, hk2]
    · simp [Leaks, lossOf, a6, b6]
  | @moveSelf i m hi =>
    obtain ⟨hia, hm⟩ := values_some.1 hi
    refine ⟨{ s with error := update s.error i (s.error i) }, ?_, ⟨hr, hh, dr, dh⟩, ?_, ?_⟩
    · simp [exec, require, hia, Owners.moveAssign_self, bind, Except.bind, pure, Except.pure]
    · funext k
      by_cases hk : k = i <;> simp [values, update, hk]
    · simp [Leaks, lossOf]
  | @setError i e m hi =>
    obtain ⟨hia, hm⟩ := values_some.1 hi
    refine ⟨{ s with error := update s.error i e }, ?_, ⟨hr, hh, dr, dh⟩, ?_, ?_⟩
    · simp [exec, require, hia, bind, Except.bind, pure, Except.pure]
    · funext k
      by_cases hk : k = i <;> simp [values, update, hk, hia, hm]
    · simp [Leaks, lossOf]
  | @setRef i r m hi =>
    obtain ⟨hia, hm⟩ := values_some.1 hi
    obtain ⟨o1, a1, a2, a3, a4, a5⟩ := Owners.resetNew_spec hr i r
    refine ⟨{ s with refs := o1 }, ?_, ⟨a2, hh, ?_, dh⟩, ?_, ?_⟩
    · simp [exec, require, hia, a1, bind, Except.bind, pure, Except.pure]
    · intro k hk
      have : k ≠ i := by intro h; subst h; simp [hia] at hk
      simp [a4 k this, dr k hk]
    · funext k
      by_cases hk : k = i <;> simp [values, update, hk, hia, hm, a3]
    · simp [Leaks, lossOf, a5]
  | @setHyp i r m hi =>
    obtain ⟨hia, hm⟩ := values_some.1 hi
    obtain ⟨o1, a1, a2, a3, a4, a5⟩ := Owners.resetNew_spec hh i r
    refine ⟨{ s with hyps := o1 }, ?_, ⟨hr, a2, dr, ?_⟩, ?_, ?_⟩
    · simp [exec, require, hia, a1, bind, Except.bind, pure, Except.pure]
    · intro k hk
      have : k ≠ i := by intro h; subst h; simp [hia] at hk
      simp [a4 k this, dh k hk]
    · funext k
      by_cases hk : k = i <;> simp [values, update, hk, hia, hm, a3]
    · simp [Leaks, lossOf, a5]
  | @setRefFrom i j r m m' hi hj hmr =>
    obtain ⟨hia, hm⟩ := values_some.1 hi
    obtain ⟨hja, hm'⟩ := values_some.1 hj
    have hv : s.refs.view j = some r := by rw [hm'] at hmr; exact hmr
    obtain ⟨o1, a1, a2, a3, a4, a5⟩ := Owners.resetNew_spec hr i r
    refine ⟨{ s with refs := o1 }, ?_, ⟨a2, hh, ?_, dh⟩, ?_, ?_⟩
    · simp [exec, require, hia, hja, Owners.get_some hv, a1, bind, Except.bind, pure, Except.pure]
    · intro k hk
      have : k ≠ i := by intro h; subst h; simp [hia] at hk
      simp [a4 k this, dr k hk]
    · funext k
      by_cases hk : k = i <;> simp [values, update, hk, hia, hm, a3]
    · simp [Leaks, lossOf, a5]
  | @setHypFrom i j r m m' hi hj hmr =>
    obtain ⟨hia, hm⟩ := values_some.1 hi
    obtain ⟨hja, hm'⟩ := values_some.1 hj
    have hv : s.hyps.view j = some r := by rw [hm'] at hmr; exact hmr
    obtain ⟨o1, a1, a2, a3, a4, a5⟩ := Owners.resetNew_spec hh i r
    refine ⟨{ s with hyps := o1 }, ?_, ⟨hr, a2, dr, ?_⟩, ?_, ?_⟩
    · simp [exec, require, hia, hja, Owners.get_some hv, a1, bind, Except.bind, pure, Except.pure]
    · intro k hk
      have : k ≠ i := by intro h; subst h; simp [hia] at hk
      simp [a4 k this, dh k hk]
    · funext k
      by_cases hk : k = i <;> simp [values, update, hk, hia, hm, a3]
    · simp [Leaks, lossOf, a5]
  | @destroy i m hi =>
    obtain ⟨hia, hm⟩ := values_some.1 hi
    obtain ⟨o1, a1, a2, a3, a4, a5, a6⟩ := Owners.destroy_spec hr i
    obtain ⟨o2, b1, b2, b3, b4, b5, b6⟩ := Owners.destroy_spec hh i
    refine ⟨⟨o1, o2, s.error, update s.alive i false⟩, ?_, ⟨a2, b2, ?_, ?_⟩, ?_, ?_⟩
    · simp [exec, require, hia, a1, b1, bind, Except.bind, pure, Except.pure]
    · intro k hk
      by_cases hki : k = i
      · subst hki; exact a4
      · simp only [update, hki, dite_false] at hk
        simp [a5 k hki, dr k hk]
    · intro k hk
      by_cases hki : k = i
      · subst hki; exact b4
      · simp only [update, hki, dite_false] at hk
        simp [b5 k hki, dh k hk]
    · funext k
      by_cases hk : k = i <;> simp [values, update, hk, a3, b3]
    · simp [Leaks, lossOf, a6, b6]

/-- A statement that does not fail is a step: the only failures are those of the program. -/
theorem step_of_exec {s s' : MatchStore RE HE} (h : s.WF) {c : MatchStmt RE HE}
    (he : s.exec c = .ok s') : ∃ v', Step s.values c v' := by
  have some_of : ∀ i, s.alive i = true →
      s.values i = some ⟨s.refs.view i, s.hyps.view i, s.error i⟩ := fun i hi =>
    values_some.2 ⟨hi, rfl⟩
  cases c with
  | construct i =>
    cases ha : s.alive i
    · exact ⟨_, .construct (values_none.2 ha)⟩
    · simp [exec, begin, ha] at he
  | make i r hy e =>
    cases ha : s.alive i
    · exact ⟨_, .make (values_none.2 ha)⟩
    · simp [exec, begin, ha, bind, Except.bind] at he
  | copy i j =>
    cases hj : s.alive j
    · simp [exec, require, hj, bind, Except.bind] at he
    · cases ha : s.alive i
      · exact ⟨_, .copy (values_none.2 ha) (some_of j hj)⟩
      · simp [exec, begin, require, hj, ha, bind, Except.bind] at he
  | assign i j =>
    cases hi : s.alive i
    · simp [exec, require, hi, bind, Except.bind] at he
    · cases hj : s.alive j
      · simp [exec, require, hi, hj, bind, Except.bind] at he
      · by_cases hij : i = j
        · subst hij; exact ⟨_, .assignSelf (some_of i hi)⟩
        · exact ⟨_, .assign hij (some_of i hi) (some_of j hj)⟩
  | moveAssign i j =>
    cases hi : s.alive i
    · simp [exec, require, hi, bind, Except.bind] at he
    · cases hj : s.alive j
      · simp [exec, require, hi, hj, bind, Except.bind] at he
      · by_cases hij : i = j
        · subst hij; exact ⟨_, .moveSelf (some_of i hi)⟩
        · exact ⟨_, .move hij (some_of i hi) (some_of j hj)⟩
  | setError i e =>
    cases hi : s.alive i
    · simp [exec, require, hi, bind, Except.bind] at he
    · exact ⟨_, .setError (some_of i hi)⟩
  | setRef i r =>
    cases hi : s.alive i
    · simp [exec, require, hi, bind, Except.bind] at he
    · exact ⟨_, .setRef (some_of i hi)⟩
  | setHyp i r =>
    cases hi : s.alive i
    · simp [exec, require, hi, bind, Except.bind] at he
    · exact ⟨_, .setHyp (some_of i hi)⟩
  | setRefFrom i j =>
    cases hi : s.alive i
    · simp [exec, require, hi, bind, Except.bind] at he
    · cases hj : s.alive j
      · simp [exec, require, hi, hj, bind, Except.bind] at he
      · cases hv : s.refs.view j with
        | none => simp [exec, require, hi, hj, Owners.get_none h.refs hv, bind, Except.bind] at he
        | some r => exact ⟨_, .setRefFrom (some_of i hi) (some_of j hj) hv⟩
  | setHypFrom i j =>
    cases hi : s.alive i
    · simp [exec, require, hi, bind, Except.bind] at he
    · cases hj : s.alive j
      · simp [exec, require, hi, hj, bind, Except.bind] at he
      · cases hv : s.hyps.view j with
        | none => simp [exec, require, hi, hj, Owners.get_none h.hyps hv, bind, Except.bind] at he
        | some r => exact ⟨_, .setHypFrom (some_of i hi) (some_of j hj) hv⟩
  | destroy i =>
    cases hi : s.alive i
    · simp [exec, require, hi, bind, Except.bind] at he
    · exact ⟨_, .destroy (some_of i hi)⟩

end MatchStore
end Kws
