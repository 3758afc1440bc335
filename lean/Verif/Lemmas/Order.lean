import Verif.Spec.Order
import Verif.Lemmas.Tactics

namespace Kws

instance lawfulOfLinearOrder (α : Type) [LinearOrder α] :
    @LawfulCmp α (Cmp.ofLinearOrder α) :=
  letI := Cmp.ofLinearOrder α
  { eq_iff := fun a b => by simp [Cmp.eq]
    ne_iff := fun a b => by simp [Cmp.ne]
    irrefl := fun a => by simp [Cmp.lt]
    trans := fun a b c => by simpa [Cmp.lt] using lt_trans
    tri := fun a b => by simpa [Cmp.lt] using lt_trichotomy a b }

instance : LawfulCmp Nat := lawfulOfLinearOrder Nat
instance : LawfulCmp Int := lawfulOfLinearOrder Int
instance : LawfulCmp Str := lawfulOfLinearOrder Str

instance : LawfulCmp UInt32 where
  eq_iff := fun a b => by simp [Cmp.eq]
  ne_iff := fun a b => by simp [Cmp.ne]
  irrefl := fun a => by simp [Cmp.lt]
  trans := fun a b c => by
    simp only [Cmp.lt, decide_eq_true_eq, UInt32.lt_iff_toNat_lt]; omega
  tri := fun a b => by
    simp only [Cmp.lt, decide_eq_true_eq, UInt32.lt_iff_toNat_lt, ← UInt32.toNat_inj]; omega

instance : LawfulCmp Int32 where
  eq_iff := fun a b => by simp [Cmp.eq]
  ne_iff := fun a b => by simp [Cmp.ne]
  irrefl := fun a => by simp [Cmp.lt]
  trans := fun a b c => by
    simp only [Cmp.lt, decide_eq_true_eq, Int32.lt_iff_toInt_lt]; omega
  tri := fun a b => by
    simp only [Cmp.lt, decide_eq_true_eq, Int32.lt_iff_toInt_lt, ← Int32.toInt_inj]; omega

/-- Lexicographic combination of a lawful order with the rest. -/
theorem LawfulCmp.asymm {α : Type} [Cmp α] [LawfulCmp α] {a b : α} (h : Cmp.lt a b = true) :
    Cmp.lt b a = false := by
  by_contra h'
  rw [Bool.not_eq_false] at h'
  have := LawfulCmp.trans a b a h h'
  rw [LawfulCmp.irrefl] at this
  exact absurd this (by decide)

theorem LawfulCmp.ne_of_lt {α : Type} [Cmp α] [LawfulCmp α] {a b : α} (h : Cmp.lt a b = true) :
    a ≠ b := fun e => by rw [e, LawfulCmp.irrefl] at h; exact absurd h (by decide)

theorem LawfulCmp.eq_of_not_lt {α : Type} [Cmp α] [LawfulCmp α] {a b : α}
    (h : Cmp.lt a b = false) (h' : Cmp.lt b a = false) : a = b := by
  rcases LawfulCmp.tri a b with h1 | h1 | h1
  · rw [h] at h1; exact absurd h1 (by decide)
  · exact h1
  · rw [h'] at h1; exact absurd h1 (by decide)

/-- The strict order of a lawful comparison as a proposition. -/
def LtP {α : Type} [Cmp α] (a b : α) : Prop := Cmp.lt a b = true

theorem box_lt_iff {T : Type} [Cmp T] [LawfulCmp T] (a b : BBox T) :
    BBox.lt a b = true ↔ Spec.BoxLt LtP a b := by
  unfold BBox.lt Spec.BoxLt LtP
  have key : ∀ u v : T, Cmp.ne u v = true ↔ u ≠ v := LawfulCmp.ne_iff
  have irr : ∀ u : T, Cmp.lt u u = false := LawfulCmp.irrefl
  grind

theorem LawfulCmp.ne_eq_not {α : Type} [Cmp α] [LawfulCmp α] (a b : α) :
    Cmp.ne a b = true ↔ ¬ Cmp.eq a b = true := by
  rw [LawfulCmp.ne_iff, LawfulCmp.eq_iff]

instance {T : Type} [Cmp T] [LawfulCmp T] : LawfulCmp (BBox T) where
  eq_iff := fun a b => by
    change BBox.eq a b = true ↔ _
    cases a; cases b
    simp only [BBox.eq, Bool.and_eq_true, LawfulCmp.eq_iff, BBox.mk.injEq, and_assoc]
  ne_iff := fun a b => by
    change BBox.ne a b = true ↔ _
    cases a; cases b
    simp only [BBox.ne, Bool.or_eq_true, LawfulCmp.ne_iff, ne_eq, BBox.mk.injEq]
    tauto
  irrefl := fun a => by
    rw [← Bool.not_eq_true]
    change ¬ BBox.lt a a = true
    rw [box_lt_iff]
    simp [Spec.BoxLt, LtP, LawfulCmp.irrefl]
  trans := fun a b c => by
    change BBox.lt a b = true → BBox.lt b c = true → BBox.lt a c = true
    rw [box_lt_iff, box_lt_iff, box_lt_iff]
    have tr : ∀ u v w : T, LtP u v → LtP v w → LtP u w := LawfulCmp.trans
    unfold Spec.BoxLt
    grind
  tri := fun a b => by
    change BBox.lt a b = true ∨ _ ∨ BBox.lt b a = true
    rw [box_lt_iff, box_lt_iff]
    have tr : ∀ u v : T, LtP u v ∨ u = v ∨ LtP v u := LawfulCmp.tri
    unfold Spec.BoxLt
    cases a with | mk a1 a2 a3 a4 => cases b with | mk b1 b2 b3 b4 =>
    simp only [BBox.mk.injEq]
    have h1 := tr a1 b1
    have h2 := tr a2 b2
    have h3 := tr a3 b3
    have h4 := tr a4 b4
    grind

theorem docbox_lt_iff {D T : Type} [Cmp D] [LawfulCmp D] [Cmp T] [LawfulCmp T]
    (a b : DocBox D T) : DocBox.lt a b = true ↔ Spec.DocBoxLt LtP LtP a b := by
  unfold DocBox.lt Spec.DocBoxLt
  have irr : ∀ u : D, Cmp.lt u u = false := LawfulCmp.irrefl
  by_cases hx : a.document = b.document
  · have : ¬ Cmp.ne a.document b.document = true := by rw [LawfulCmp.ne_iff]; simpa using hx
    rw [if_neg this, box_lt_iff]
    simp [LtP, hx, irr]
  · rw [if_pos ((LawfulCmp.ne_iff _ _).2 hx)]
    simp [LtP, hx]

theorem event_lt_iff {Q L : Type} [Cmp Q] [LawfulCmp Q] [Cmp L]
    (a b : Event Q L) : Event.lt a b = true ↔ Spec.EventLt LtP LtP a b := by
  unfold Event.lt Spec.EventLt
  have irr : ∀ u : Q, Cmp.lt u u = false := LawfulCmp.irrefl
  by_cases hx : a.query = b.query
  · have : ¬ Cmp.ne a.query b.query = true := by rw [LawfulCmp.ne_iff]; simpa using hx
    rw [if_neg this]
    simp [LtP, hx, irr]
  · rw [if_pos ((LawfulCmp.ne_iff _ _).2 hx)]
    simp [LtP, hx]

instance {D T : Type} [Cmp D] [LawfulCmp D] [Cmp T] [LawfulCmp T] : LawfulCmp (DocBox D T) where
  eq_iff := fun a b => by
    change DocBox.eq a b = true ↔ _
    obtain ⟨a, da⟩ := a; obtain ⟨b, db⟩ := b
    have := LawfulCmp.eq_iff a b
    change BBox.eq a b = true ↔ _ at this
    simp only [DocBox.eq, Bool.and_eq_true, LawfulCmp.eq_iff, DocBox.mk.injEq, this]
    tauto
  ne_iff := fun a b => by
    change DocBox.ne a b = true ↔ _
    obtain ⟨a, da⟩ := a; obtain ⟨b, db⟩ := b
    have := LawfulCmp.ne_iff a b
    change BBox.ne a b = true ↔ _ at this
    simp only [DocBox.ne, Bool.or_eq_true, LawfulCmp.ne_iff, DocBox.mk.injEq, this, ne_eq]
    tauto
  irrefl := fun a => by
    rw [← Bool.not_eq_true]
    change ¬ DocBox.lt a a = true
    rw [docbox_lt_iff]
    simp [Spec.DocBoxLt, Spec.BoxLt, LtP, LawfulCmp.irrefl]
  trans := fun a b c => by
    change DocBox.lt a b = true → DocBox.lt b c = true → DocBox.lt a c = true
    simp only [docbox_lt_iff, Spec.DocBoxLt, ← box_lt_iff]
    have tr : ∀ u v w : D, LtP u v → LtP v w → LtP u w := LawfulCmp.trans
    have tr2 : ∀ u v w : BBox T, BBox.lt u v = true → BBox.lt v w = true → BBox.lt u w = true :=
      LawfulCmp.trans
    grind
  tri := fun a b => by
    change DocBox.lt a b = true ∨ _ ∨ DocBox.lt b a = true
    simp only [docbox_lt_iff, Spec.DocBoxLt, ← box_lt_iff]
    obtain ⟨a, da⟩ := a; obtain ⟨b, db⟩ := b
    have h1 : LtP da db ∨ da = db ∨ LtP db da := LawfulCmp.tri da db
    have h2 : BBox.lt a b = true ∨ a = b ∨ BBox.lt b a = true := LawfulCmp.tri a b
    simp only [DocBox.mk.injEq]
    grind

instance {Q L : Type} [Cmp Q] [LawfulCmp Q] [Cmp L] [LawfulCmp L] : LawfulCmp (Event Q L) where
  eq_iff := fun a b => by
    change Event.eq a b = true ↔ _
    cases a; cases b
    simp only [Event.eq, Bool.and_eq_true, LawfulCmp.eq_iff, Event.mk.injEq]
  ne_iff := fun a b => by
    change Event.ne a b = true ↔ _
    cases a; cases b
    simp only [Event.ne, Bool.or_eq_true, LawfulCmp.ne_iff, Event.mk.injEq, ne_eq]
    tauto
  irrefl := fun a => by
    rw [← Bool.not_eq_true]
    change ¬ Event.lt a a = true
    rw [event_lt_iff]
    simp [Spec.EventLt, LtP, LawfulCmp.irrefl]
  trans := fun a b c => by
    change Event.lt a b = true → Event.lt b c = true → Event.lt a c = true
    simp only [event_lt_iff, Spec.EventLt]
    have tr : ∀ u v w : Q, LtP u v → LtP v w → LtP u w := LawfulCmp.trans
    have tr2 : ∀ u v w : L, LtP u v → LtP v w → LtP u w := LawfulCmp.trans
    grind
  tri := fun a b => by
    change Event.lt a b = true ∨ _ ∨ Event.lt b a = true
    simp only [event_lt_iff, Spec.EventLt]
    cases a with | mk a1 a2 => cases b with | mk b1 b2 =>
    have h1 : LtP a1 b1 ∨ a1 = b1 ∨ LtP b1 a1 := LawfulCmp.tri a1 b1
    have h2 : LtP a2 b2 ∨ a2 = b2 ∨ LtP b2 a2 := LawfulCmp.tri a2 b2
    simp only [Event.mk.injEq]
    grind

/-- Six operators derived from a lawful comparison in the usual way agree with its order. -/
theorem sixOps_of_lawful {α : Type} [Cmp α] [LawfulCmp α] (r : α → α → Prop)
    (hr : ∀ a b : α, Cmp.lt a b = true ↔ r a b) :
    Spec.SixOps (fun _ : α => True) r Cmp.eq Cmp.ne Cmp.lt (fun a b => Cmp.lt b a)
      (fun a b => !Cmp.lt b a) (fun a b => !Cmp.lt a b) where
  irrefl := fun a _ => by rw [← hr, LawfulCmp.irrefl]; decide
  trans := fun a b c _ _ _ => by simp only [← hr]; exact LawfulCmp.trans a b c
  tri := fun a b _ _ => by simp only [← hr]; exact LawfulCmp.tri a b
  eq_iff := fun a b _ _ => LawfulCmp.eq_iff a b
  ne_iff := fun a b _ _ => LawfulCmp.ne_iff a b
  lt_iff := fun a b _ _ => hr a b
  gt_iff := fun a b _ _ => hr b a
  le_iff := fun a b _ _ => by
    rw [← hr]
    rcases LawfulCmp.tri a b with h | rfl | h
    · simp [h, LawfulCmp.asymm h]
    · simp [LawfulCmp.irrefl]
    · simp [h, LawfulCmp.asymm h, (LawfulCmp.ne_of_lt h).symm]
  ge_iff := fun a b _ _ => by
    rw [← hr]
    rcases LawfulCmp.tri a b with h | rfl | h
    · simp [h, LawfulCmp.asymm h, LawfulCmp.ne_of_lt h]
    · simp [LawfulCmp.irrefl]
    · simp [h, LawfulCmp.asymm h]

/-! ## Scores -/

theorem flt_lt_iff (a b : Flt) : Flt.lt a b = true ↔ Spec.ScoreLt a b := by
  cases a <;> cases b <;> simp [Flt.lt, Spec.ScoreLt]

theorem flt_eq_iff (a b : Flt) (ha : a ≠ .nan) : Flt.eq a b = true ↔ a = b := by
  cases a <;> cases b <;> simp_all [Flt.eq]

theorem flt_ne_iff (a b : Flt) (ha : a ≠ .nan) : Flt.ne a b = true ↔ a ≠ b := by
  unfold Flt.ne
  rw [Bool.not_eq_true', ← Bool.not_eq_true, flt_eq_iff a b ha]

theorem flt_lt_trans (a b c : Flt) (h1 : Spec.ScoreLt a b) (h2 : Spec.ScoreLt b c) :
    Spec.ScoreLt a c := by
  cases a <;> cases b <;> cases c <;> simp_all [Spec.ScoreLt]
  exact lt_trans h1 h2

theorem flt_lt_irrefl (a : Flt) : ¬ Spec.ScoreLt a a := by
  cases a <;> simp [Spec.ScoreLt]

theorem flt_tri (a b : Flt) (ha : a ≠ .nan) (hb : b ≠ .nan) :
    Spec.ScoreLt a b ∨ a = b ∨ Spec.ScoreLt b a := by
  cases a <;> cases b <;> simp_all [Spec.ScoreLt]
  exact lt_trichotomy _ _

theorem scored_lt_iff {Q L : Type} [Cmp Q] [LawfulCmp Q] [Cmp L]
    (a b : ScoredEvent Q L) (ha : a.score ≠ .nan) :
    ScoredEvent.lt a b = true ↔ Spec.ScoredLt LtP LtP a b := by
  unfold ScoredEvent.lt Spec.ScoredLt
  by_cases hx : a.score = b.score
  · have : ¬ Flt.ne a.score b.score = true := by rw [flt_ne_iff _ _ ha]; simpa using hx
    rw [if_neg this, event_lt_iff]
    simp [hx, flt_lt_irrefl]
  · rw [if_pos ((flt_ne_iff _ _ ha).2 hx), flt_lt_iff]
    simp [hx]

end Kws
