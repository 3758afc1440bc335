import Verif.Lemmas.Order

/-!
# C06, C07: comparison operators
-/

namespace Kws
open Spec

/-! ## C06

The operators are shown to agree with the lexicographic order built from the order of the
components. The component types are any types with lawful comparison operators; instances are
proved for `uint32_t`, `int` and strings. -/

/-- C06 for plain boxes. -/
theorem C06_box_order (T : Type) [Cmp T] [LawfulCmp T] :
    SixOps (fun _ : BBox T => True) (BoxLt (fun a b => Cmp.lt a b = true))
      BBox.eq BBox.ne BBox.lt BBox.gt BBox.le BBox.ge :=
  sixOps_of_lawful _ (fun a b => box_lt_iff a b)

/-- C06 for document boxes. -/
theorem C06_docbox_order (D T : Type) [Cmp D] [LawfulCmp D] [Cmp T] [LawfulCmp T] :
    SixOps (fun _ : DocBox D T => True)
      (DocBoxLt (fun a b => Cmp.lt a b = true) (fun a b => Cmp.lt a b = true))
      DocBox.eq DocBox.ne DocBox.lt DocBox.gt DocBox.le DocBox.ge :=
  sixOps_of_lawful _ (fun a b => docbox_lt_iff a b)

/-- C06 for events. -/
theorem C06_event_order (Q L : Type) [Cmp Q] [LawfulCmp Q] [Cmp L] [LawfulCmp L] :
    SixOps (fun _ : Event Q L => True)
      (EventLt (fun a b => Cmp.lt a b = true) (fun a b => Cmp.lt a b = true))
      Event.eq Event.ne Event.lt Event.gt Event.le Event.ge :=
  sixOps_of_lawful _ (fun a b => event_lt_iff a b)

/-- C06 for the events of the ICDAR tool, with all component orders spelled out. -/
theorem C06_icdar_event_order :
    SixOps (fun _ : Event Str (DocBox Str UInt32) => True)
      (EventLt (· < ·) (DocBoxLt (· < ·) (· < ·)))
      Event.eq Event.ne Event.lt Event.gt Event.le Event.ge := by
  have hs : (fun a b : Str => Cmp.lt a b = true) = (· < ·) := by
    funext a b; simp [Cmp.lt]
  have hu : (fun a b : UInt32 => Cmp.lt a b = true) = (· < ·) := by
    funext a b; simp [Cmp.lt]
  have hd : (fun a b : DocBox Str UInt32 => Cmp.lt a b = true) =
      DocBoxLt (· < ·) (· < ·) := by
    funext a b
    rw [← hs, ← hu]
    exact propext (docbox_lt_iff a b)
  have h := C06_event_order Str (DocBox Str UInt32)
  rwa [hs, hd] at h

/-- Two different events: the order decides by query, then document, then box. -/
example : Event.lt (⟨"a".toList, ⟨⟨1, 2, 3, 4⟩, "d1".toList⟩⟩ : Event Str (DocBox Str UInt32))
    ⟨"a".toList, ⟨⟨1, 2, 3, 4⟩, "d2".toList⟩⟩ = true := by decide

/-! ## C07

Full statement (false because of `operator<=`):
`SixOps (fun e => e.score ≠ .nan) (ScoredLt ..) eq ne lt gt le ge`. -/

/-- C07, five of the six operators and the order itself. Missing: `operator<=` (see
`C07_le_refuted`). -/
theorem C07_scored_order_partial (Q L : Type) [Cmp Q] [LawfulCmp Q] [Cmp L] [LawfulCmp L] :
    SixOps (fun e : ScoredEvent Q L => e.score ≠ .nan)
      (ScoredLt (fun a b => Cmp.lt a b = true) (fun a b => Cmp.lt a b = true))
      ScoredEvent.eq ScoredEvent.ne ScoredEvent.lt ScoredEvent.gt
      (fun a b => !ScoredEvent.gt a b) ScoredEvent.ge := by
  have hev := C06_event_order Q L
  have tri : ∀ a b : ScoredEvent Q L, a.score ≠ .nan → b.score ≠ .nan →
      ScoredLt LtP LtP a b ∨ a = b ∨ ScoredLt LtP LtP b a := by
    intro a b ha hb
    obtain ⟨a, sa⟩ := a; obtain ⟨b, sb⟩ := b
    have h1 := flt_tri sa sb ha hb
    have h2 := hev.tri a b trivial trivial
    simp only [ScoredLt, ScoredEvent.mk.injEq]
    change EventLt LtP LtP a b ∨ a = b ∨ EventLt LtP LtP b a at h2
    grind
  have irr : ∀ a : ScoredEvent Q L, ¬ ScoredLt LtP LtP a a := by
    intro a h
    rcases h with h | ⟨_, h⟩
    · exact flt_lt_irrefl _ h
    · exact hev.irrefl a.base trivial h
  have tr : ∀ a b c : ScoredEvent Q L, ScoredLt LtP LtP a b → ScoredLt LtP LtP b c →
      ScoredLt LtP LtP a c := by
    intro a b c h1 h2
    have t1 := flt_lt_trans a.score b.score c.score
    have t2 := hev.trans a.base b.base c.base trivial trivial trivial
    change EventLt LtP LtP _ _ → EventLt LtP LtP _ _ → EventLt LtP LtP _ _ at t2
    simp only [ScoredLt] at *
    grind
  refine ⟨fun a _ => irr a, fun a b c _ _ _ => tr a b c, tri, ?_, ?_, ?_, ?_, ?_, ?_⟩
  · intro a b ha hb
    obtain ⟨a, sa⟩ := a; obtain ⟨b, sb⟩ := b
    have := hev.eq_iff a b trivial trivial
    simp only [ScoredEvent.eq, Bool.and_eq_true, ScoredEvent.mk.injEq, this,
      flt_eq_iff sa sb ha, and_comm]
  · intro a b ha hb
    obtain ⟨a, sa⟩ := a; obtain ⟨b, sb⟩ := b
    have := hev.ne_iff a b trivial trivial
    simp only [ScoredEvent.ne, Bool.or_eq_true, ScoredEvent.mk.injEq, this,
      flt_ne_iff sa sb ha, ne_eq]
    tauto
  · intro a b ha hb; exact scored_lt_iff a b ha
  · intro a b ha hb; exact scored_lt_iff b a hb
  · intro a b ha hb
    have h1 := scored_lt_iff b a hb
    have h2 := tri a b ha hb
    have h3 := tr a b a
    have h4 := irr a
    have h5 : (!ScoredEvent.gt a b) = true ↔ ¬ ScoredLt LtP LtP b a := by
      rw [← h1]; simp [ScoredEvent.gt]
    rw [h5]
    change _ ↔ ScoredLt LtP LtP a b ∨ a = b
    grind
  · intro a b ha hb
    have h1 := scored_lt_iff a b ha
    have h2 := tri a b ha hb
    have h3 := tr a b a
    have h4 := irr a
    have h5 : (ScoredEvent.ge a b) = true ↔ ¬ ScoredLt LtP LtP a b := by
      rw [← h1]; simp [ScoredEvent.ge]
    rw [h5]
    change _ ↔ ScoredLt LtP LtP b a ∨ a = b
    grind

/-- C07 is false: the code's `operator<=` is `>=`. -/
theorem C07_le_is_ge (Q L : Type) [Cmp Q] [Cmp L] (a b : ScoredEvent Q L) :
    ScoredEvent.le a b = ScoredEvent.ge a b := rfl

/-- C07 is false: a concrete pair `a < b` for which `a <= b` is false and `b <= a` is true. -/
theorem C07_le_refuted :
    ∃ a b : ScoredEvent Nat Nat, a.score ≠ .nan ∧ b.score ≠ .nan ∧
      ScoredEvent.lt a b = true ∧ ScoredEvent.le a b = false ∧ ScoredEvent.le b a = true :=
  ⟨⟨⟨1, 1⟩, .fin 0⟩, ⟨⟨1, 1⟩, .fin 1⟩, by simp, by simp, by decide +kernel, by decide +kernel,
    by decide +kernel⟩

/-- The hypothesis of C07 is needed: a NaN score makes `!=` true for an event and itself. -/
theorem C07_nan_needed : ∃ a : ScoredEvent Nat Nat, ScoredEvent.ne a a = true :=
  ⟨⟨⟨1, 1⟩, .nan⟩, by decide⟩

end Kws
