import Verif.Lemmas.StdSet
import Verif.Lemmas.Sort
import Verif.Spec.Sets
import Verif.Model.EventSets
import Mathlib.Data.Finset.Card

set_option linter.unusedSectionVars false

namespace Kws
open Spec

/-! ## Histories -/

theorem present_nil {E : Type} (e : E) : ¬ Present ([] : List (SetOp E)) e := by
  rintro ⟨b, a, h, _⟩
  simp at h

theorem present_insert {E : Type} (ops : List (SetOp E)) (x e : E) :
    Present (ops ++ [SetOp.insert x]) e ↔ e = x ∨ Present ops e := by
  constructor
  · rintro ⟨b, a, h, h1, h2⟩
    rcases List.eq_nil_or_concat a with rfl | ⟨a', z, rfl⟩
    · have h' := List.append_inj_right' h rfl
      simp at h'
      exact Or.inl h'.symm
    · rw [List.concat_eq_append] at h
      have h' : ops ++ [SetOp.insert x] = (b ++ SetOp.insert e :: a') ++ [z] := by simpa using h
      have hz := List.append_inj_left' h' rfl
      refine Or.inr ⟨b, a', hz, ?_, ?_⟩
      · intro hm; exact h1 (by simp [hm])
      · intro hm; exact h2 (by simp [hm])
  · rintro (rfl | ⟨b, a, rfl, h1, h2⟩)
    · exact ⟨ops, [], rfl, by simp, by simp⟩
    · exact ⟨b, a ++ [SetOp.insert x], by simp, by simp [h1], by simp [h2]⟩

theorem present_remove {E : Type} (ops : List (SetOp E)) (x e : E) :
    Present (ops ++ [SetOp.remove x]) e ↔ e ≠ x ∧ Present ops e := by
  constructor
  · rintro ⟨b, a, h, h1, h2⟩
    rcases List.eq_nil_or_concat a with rfl | ⟨a', z, rfl⟩
    · have h' := List.append_inj_right' h rfl
      simp at h'
    · rw [List.concat_eq_append] at h
      have h' : ops ++ [SetOp.remove x] = (b ++ SetOp.insert e :: a') ++ [z] := by simpa using h
      have hz := List.append_inj_left' h' rfl
      have hz' := List.append_inj_right' h' rfl
      simp only [List.cons.injEq, and_true] at hz'
      subst hz'
      refine ⟨?_, b, a', hz, ?_, ?_⟩
      · rintro rfl; exact h1 (by simp)
      · intro hm; exact h1 (by simp [hm])
      · intro hm; exact h2 (by simp [hm])
  · rintro ⟨hne, b, a, rfl, h1, h2⟩
    exact ⟨b, a ++ [SetOp.remove x], by simp, by simp [h1, hne], by simp [h2]⟩

theorem present_clear {E : Type} (ops : List (SetOp E)) (e : E) :
    ¬ Present (ops ++ [SetOp.clear]) e := by
  rintro ⟨b, a, h, h1, h2⟩
  rcases List.eq_nil_or_concat a with rfl | ⟨a', z, rfl⟩
  · have h' := List.append_inj_right' h rfl
    simp at h'
  · rw [List.concat_eq_append] at h
    have h' : ops ++ [SetOp.clear] = (b ++ SetOp.insert e :: a') ++ [z] := by simpa using h
    have hz' := List.append_inj_right' h' rfl
    simp only [List.cons.injEq, and_true] at hz'
    subst hz'
    exact h2 (by simp)

/-! ## The plain set -/

theorem EventSet.run_inv {E : Type} [Cmp E] [LawfulCmp E] (ops : List (SetOp E)) :
    Sorted (ops.foldl EventSet.step EventSet.new).events ∧
    ∀ e, e ∈ (ops.foldl EventSet.step EventSet.new).events ↔ Present ops e := by
  induction ops using List.reverseRecOn with
  | nil => exact ⟨by simp [EventSet.new, Sorted], fun e => by simp [EventSet.new, present_nil]⟩
  | append_singleton ops op ih =>
    rw [List.foldl_append, List.foldl_cons, List.foldl_nil]
    obtain ⟨ih1, ih2⟩ := ih
    cases op with
    | insert x =>
      refine ⟨StdSet.sorted_insert x _ ih1, fun e => ?_⟩
      rw [present_insert, ← ih2]
      exact StdSet.mem_insert x e _
    | remove x =>
      refine ⟨StdSet.sorted_erase x _ ih1, fun e => ?_⟩
      rw [present_remove, ← ih2]
      exact StdSet.mem_erase x e _ ih1
    | clear =>
      refine ⟨by simp [EventSet.step, EventSet.clear, Sorted], fun e => ?_⟩
      simp [EventSet.step, EventSet.clear, present_clear]

theorem hasCount_of_nodup {E : Type} {P : E → Prop} (l : List E) (h : l.Nodup)
    (hm : ∀ e, e ∈ l ↔ P e) : HasCount P l.length :=
  ⟨⟨(l : Multiset E), Multiset.coe_nodup.2 h⟩, fun e => hm e, rfl⟩

/-! ## The document set -/

namespace DocEventSet
variable {Q D T : Type} [DecidableEq Q] [DecidableEq D] [Cmp Q] [Cmp D] [Coord T]

/-- The stored events of a query and document. -/
def bucket (s : DocEventSet Q D T) (q : Q) (d : D) : List (Event Q (DocBox D T)) :=
  ((AMap.find? q s.byQuery).bind (AMap.find? d)).getD []

theorem bucket_set (m : List (Q × List (D × List (Event Q (DocBox D T))))) (sz : Option Nat)
    (q q' : Q) (d d' : D) (l : List (Event Q (DocBox D T))) :
    (DocEventSet.mk (AMap.set q (AMap.set d l ((AMap.find? q m).getD [])) m) sz).bucket q' d' =
      if q' = q ∧ d' = d then l else (DocEventSet.mk m sz).bucket q' d' := by
  unfold bucket
  simp only [AMap.find?_set]
  by_cases hq : q' = q
  · subst hq
    simp only [if_true, Option.bind_some, AMap.find?_set, true_and]
    by_cases hd : d' = d
    · simp [hd]
    · simp only [hd, if_false]
      cases AMap.find? q' m <;> simp [AMap.find?]
  · simp [hq]

theorem insert_bucket (s : DocEventSet Q D T) (e : Event Q (DocBox D T)) (q : Q) (d : D) :
    (s.insert e).bucket q d = if q = e.query ∧ d = e.location.document then
      (StdSet.insert Cmp.lt e (s.bucket q d)).1 else s.bucket q d := by
  unfold insert
  simp only [AMap.emplace_snd]
  rw [bucket_set]
  by_cases h : q = e.query ∧ d = e.location.document
  · rw [if_pos h, if_pos h]
    obtain ⟨rfl, rfl⟩ := h
    congr 2
    unfold bucket
    cases AMap.find? e.query s.byQuery <;> simp [AMap.find?]
  · rw [if_neg h, if_neg h]; rfl

theorem insert_size (s : DocEventSet Q D T) (e : Event Q (DocBox D T)) :
    (s.insert e).size? =
      if (StdSet.insert Cmp.lt e (s.bucket e.query e.location.document)).2 then s.size?.map (· + 1)
      else s.size? := by
  unfold insert
  simp only [AMap.emplace_snd]
  have : ((AMap.find? e.location.document ((AMap.find? e.query s.byQuery).getD [])).getD []) =
      s.bucket e.query e.location.document := by
    unfold bucket
    cases AMap.find? e.query s.byQuery <;> simp [AMap.find?]
  rw [this]

theorem remove_bucket (s : DocEventSet Q D T) (e : Event Q (DocBox D T)) (q : Q) (d : D) :
    (s.remove e).bucket q d = if q = e.query ∧ d = e.location.document then
      (StdSet.erase Cmp.lt e (s.bucket q d)).1 else s.bucket q d := by
  unfold remove
  cases hp : AMap.find? e.query s.byQuery with
  | none =>
    simp only
    split
    · rename_i h
      obtain ⟨rfl, rfl⟩ := h
      simp [bucket, hp, StdSet.erase]
    · rfl
  | some p =>
    simp only
    cases hl : AMap.find? e.location.document p with
    | none =>
      simp only
      split
      · rename_i h
        obtain ⟨rfl, rfl⟩ := h
        simp [bucket, hp, hl, StdSet.erase]
      · rfl
    | some l =>
      simp only
      have hpe : p = (AMap.find? e.query s.byQuery).getD [] := by rw [hp]; rfl
      conv_lhs => rw [hpe]
      rw [bucket_set]
      by_cases h : q = e.query ∧ d = e.location.document
      · rw [if_pos h, if_pos h]
        obtain ⟨rfl, rfl⟩ := h
        simp [bucket, hp, hl]
      · rw [if_neg h, if_neg h]; rfl

theorem remove_size (s : DocEventSet Q D T) (e : Event Q (DocBox D T)) :
    (s.remove e).size? =
      s.size?.map (· - (StdSet.erase Cmp.lt e (s.bucket e.query e.location.document)).2) := by
  unfold remove bucket
  cases hp : AMap.find? e.query s.byQuery with
  | none => cases s.size? <;> simp [StdSet.erase]
  | some p =>
    simp only
    cases hl : AMap.find? e.location.document p with
    | none => cases s.size? <;> simp [StdSet.erase, hl]
    | some l => simp [hl]

end DocEventSet

section
variable {Q D T : Type} [DecidableEq Q] [DecidableEq D] [Cmp Q] [LawfulCmp Q]
  [Cmp D] [LawfulCmp D] [Coord T] [LawfulCmp T]

/-- Every bucket is sorted and holds the events of `P` with that query and document. -/
def DocEventSet.Holds (s : DocEventSet Q D T) (P : Event Q (DocBox D T) → Prop) : Prop :=
  ∀ q d, Sorted (s.bucket q d) ∧
    ∀ e, e ∈ s.bucket q d ↔ P e ∧ e.query = q ∧ e.location.document = d

theorem DocEventSet.holds_insert {s : DocEventSet Q D T} {P : Event Q (DocBox D T) → Prop}
    (h : s.Holds P) (x : Event Q (DocBox D T)) : (s.insert x).Holds (fun e => e = x ∨ P e) := by
  intro q d
  rw [DocEventSet.insert_bucket]
  obtain ⟨h1, h2⟩ := h q d
  by_cases hc : q = x.query ∧ d = x.location.document
  · rw [if_pos hc]
    refine ⟨StdSet.sorted_insert x _ h1, fun e => ?_⟩
    rw [StdSet.mem_insert, h2]
    obtain ⟨rfl, rfl⟩ := hc
    constructor
    · rintro (rfl | h)
      · simp
      · exact ⟨Or.inr h.1, h.2⟩
    · rintro ⟨rfl | h, h'⟩
      · exact Or.inl rfl
      · exact Or.inr ⟨h, h'⟩
  · rw [if_neg hc]
    refine ⟨h1, fun e => ?_⟩
    rw [h2]
    constructor
    · rintro ⟨h, h'⟩; exact ⟨Or.inr h, h'⟩
    · rintro ⟨rfl | h, h'⟩
      · exact absurd ⟨h'.1.symm, h'.2.symm⟩ hc
      · exact ⟨h, h'⟩

theorem DocEventSet.holds_remove {s : DocEventSet Q D T} {P : Event Q (DocBox D T) → Prop}
    (h : s.Holds P) (x : Event Q (DocBox D T)) : (s.remove x).Holds (fun e => e ≠ x ∧ P e) := by
  intro q d
  rw [DocEventSet.remove_bucket]
  obtain ⟨h1, h2⟩ := h q d
  by_cases hc : q = x.query ∧ d = x.location.document
  · rw [if_pos hc]
    refine ⟨StdSet.sorted_erase x _ h1, fun e => ?_⟩
    rw [StdSet.mem_erase _ _ _ h1, h2, and_assoc]
  · rw [if_neg hc]
    refine ⟨h1, fun e => ?_⟩
    rw [h2, and_assoc]
    constructor
    · rintro ⟨h, h'⟩
      refine ⟨?_, h, h'⟩
      rintro rfl
      exact hc ⟨h'.1.symm, h'.2.symm⟩
    · rintro ⟨_, h⟩; exact h

theorem DocEventSet.holds_congr {s : DocEventSet Q D T} {P P' : Event Q (DocBox D T) → Prop}
    (h : s.Holds P) (hp : ∀ e, P e ↔ P' e) : s.Holds P' := by
  intro q d
  obtain ⟨h1, h2⟩ := h q d
  exact ⟨h1, fun e => by rw [h2, hp]⟩

theorem DocEventSet.holds_empty (sz : Option Nat) :
    (DocEventSet.mk (Q := Q) (D := D) (T := T) [] sz).Holds (fun _ => False) := by
  intro q d
  simp [DocEventSet.bucket, AMap.find?, Sorted]

theorem DocEventSet.run_holds (ops : List (SetOp (Event Q (DocBox D T)))) :
    (ops.foldl DocEventSet.step DocEventSet.new).Holds (Present ops) := by
  induction ops using List.reverseRecOn with
  | nil => exact holds_congr (holds_empty _) (fun e => by simp [present_nil])
  | append_singleton ops op ih =>
    rw [List.foldl_append, List.foldl_cons, List.foldl_nil]
    cases op with
    | insert x => exact holds_congr (holds_insert ih x) (fun e => (present_insert ops x e).symm)
    | remove x => exact holds_congr (holds_remove ih x) (fun e => (present_remove ops x e).symm)
    | clear => exact holds_congr (holds_empty _) (fun e => by simp [present_clear])

theorem DocEventSet.holds_mem {s : DocEventSet Q D T} {P : Event Q (DocBox D T) → Prop}
    (h : s.Holds P) (x : Event Q (DocBox D T)) :
    x ∈ s.bucket x.query x.location.document ↔ P x := by
  rw [(h _ _).2]; simp

theorem DocEventSet.run_size (ops : List (SetOp (Event Q (DocBox D T)))) :
    ∃ n, (ops.foldl DocEventSet.step DocEventSet.new).size? = some n ∧
      HasCount (Present ops) n := by
  classical
  induction ops using List.reverseRecOn with
  | nil => exact ⟨0, rfl, ∅, fun e => by simp [present_nil], rfl⟩
  | append_singleton ops op ih =>
    rw [List.foldl_append, List.foldl_cons, List.foldl_nil]
    have hh := run_holds ops
    obtain ⟨n, hn, F, hF, hc⟩ := ih
    cases op with
    | insert x =>
      have hm := holds_mem hh x
      have hflag := (StdSet.insert_flag x _ (hh x.query x.location.document).1).1
      simp only [DocEventSet.step, DocEventSet.insert_size]
      by_cases hx : Present ops x
      · have : ¬ ((StdSet.insert Cmp.lt x _).2 = true) := fun h' => hflag.1 h' (hm.2 hx)
        refine ⟨n, by rw [if_neg this, hn], F, fun e => ?_, hc⟩
        rw [present_insert, hF]
        constructor
        · exact Or.inr
        · rintro (rfl | h)
          · exact hx
          · exact h
      · have : (StdSet.insert Cmp.lt x _).2 = true := hflag.2 (fun h' => hx (hm.1 h'))
        refine ⟨n + 1, by rw [if_pos this, hn]; rfl, Insert.insert x F, fun e => ?_, ?_⟩
        · rw [present_insert, Finset.mem_insert, hF]
        · rw [Finset.card_insert_of_notMem (fun h => hx ((hF x).1 h)), hc]
    | remove x =>
      have hm := holds_mem hh x
      simp only [DocEventSet.step, DocEventSet.remove_size, StdSet.erase_eq, hm, hn]
      refine ⟨_, rfl, F.erase x, fun e => ?_, ?_⟩
      · rw [present_remove, Finset.mem_erase, hF]
      · rw [Finset.card_erase_eq_ite, hc]
        simp only [hF]
        split <;> rfl
    | clear => exact ⟨0, rfl, ∅, fun e => by simp [present_clear], rfl⟩

theorem DocEventSet.foldl_insert_holds (l : List (Event Q (DocBox D T))) (s : DocEventSet Q D T)
    (P : Event Q (DocBox D T) → Prop) (h : s.Holds P) :
    (l.foldl DocEventSet.insert s).Holds (fun e => e ∈ l ∨ P e) := by
  induction l generalizing s P with
  | nil => exact holds_congr h (fun e => by simp)
  | cons x l ih =>
    exact holds_congr (ih _ _ (holds_insert h x)) (fun e => by
      rw [List.mem_cons]; tauto)

/-! ## Overlap search -/

omit [LawfulCmp Q] [LawfulCmp D] [LawfulCmp T] in
theorem DocEventSet.collect_ok (e : Event Q (DocBox D T)) (area : Event Q (DocBox D T) → T)
    (l : List (Event Q (DocBox D T)))
    (h : ∀ x ∈ l, x.location.intersectionArea e.location = .ok (area x)) :
    DocEventSet.collect e l =
      .ok ((l.filter (fun x => Cmp.lt Coord.zero (area x))).map (fun x => (area x, x))) := by
  induction l with
  | nil => rfl
  | cons x l ih =>
    unfold DocEventSet.collect
    rw [h x List.mem_cons_self, ih (fun y hy => h y (List.mem_cons_of_mem _ hy))]
    simp only [bind, Except.bind, pure, Except.pure, List.filter_cons]
    split <;> simp

theorem DocEventSet.find_spec (S : StdSort) (s : DocEventSet Q D T)
    (P : Event Q (DocBox D T) → Prop) (hs : s.Holds P) (e : Event Q (DocBox D T))
    (area : Event Q (DocBox D T) → T)
    (h : ∀ x, P x → x.query = e.query → x.location.document = e.location.document →
      x.location.intersectionArea e.location = .ok (area x)) :
    ∃ l, s.findOverlapping S e = .ok l ∧ l.Nodup ∧
      (∀ x, x ∈ l ↔ P x ∧ x.query = e.query ∧ x.location.document = e.location.document ∧
        Cmp.lt Coord.zero (area x) = true) ∧
      l.Pairwise (OverlapBefore (fun a b => Cmp.lt a b = true) (fun a b => Cmp.lt a b = true)
        area) := by
  obtain ⟨h1, h2⟩ := hs e.query e.location.document
  have hstored : s.findOverlapping S e = (do
      let aux ← DocEventSet.collect e (s.bucket e.query e.location.document)
      let sorted ← S.sort (fun a b => DocEventSet.pairLt b a) aux
      return sorted.map (·.2)) := by
    unfold DocEventSet.findOverlapping DocEventSet.bucket
    cases AMap.find? e.query s.byQuery with
    | none => rfl
    | some p =>
      simp only [Option.bind_some]
      cases AMap.find? e.location.document p <;> rfl
  have hcol := collect_ok e area (s.bucket e.query e.location.document) (fun x hx => by
    have := (h2 x).1 hx
    exact h x this.1 this.2.1 this.2.2)
  have hT := pairLt_strictTotal T (Event Q (DocBox D T))
    (DocEventSet.pairLt) (fun a b => rfl)
  set aux := (((s.bucket e.query e.location.document).filter
    (fun x => Cmp.lt Coord.zero (area x))).map (fun x => (area x, x))) with haux
  obtain ⟨sorted, hsort, hperm, hsorted⟩ := S.ok (fun a b => DocEventSet.pairLt b a) aux
    (hT.flip.strictWeak aux)
  refine ⟨sorted.map (·.2), ?_, ?_, ?_, ?_⟩
  · simp only [hstored, hcol, hsort, bind, Except.bind, pure, Except.pure]
  · have : ((aux.map (·.2))).Nodup := by
      rw [haux, List.map_map]
      have : ((fun x : T × Event Q (DocBox D T) => x.2) ∘ fun x => (area x, x)) = id := rfl
      rw [this, List.map_id]
      exact (StdSet.sorted_nodup h1).filter _
    exact (hperm.map _).nodup_iff.2 this
  · intro x
    rw [(hperm.map _).mem_iff, haux, List.map_map, List.mem_map]
    simp only [List.mem_filter, h2, Function.comp]
    constructor
    · rintro ⟨y, hy, rfl⟩
      exact ⟨hy.1.1, hy.1.2.1, hy.1.2.2, hy.2⟩
    · rintro ⟨a, b, c, d⟩
      exact ⟨x, ⟨⟨a, b, c⟩, d⟩, rfl⟩
  · rw [List.pairwise_map]
    have hnd : sorted.Nodup := by
      refine hperm.nodup_iff.2 ?_
      rw [haux]
      refine ((StdSet.sorted_nodup h1).filter _).map ?_
      intro x y hxy
      exact (Prod.mk.inj hxy).2
    have hfst : ∀ p ∈ sorted, p.1 = area p.2 := by
      intro p hp
      have := hperm.mem_iff.1 hp
      rw [haux, List.mem_map] at this
      obtain ⟨y, _, rfl⟩ := this
      rfl
    refine (hsorted.and hnd).imp_of_mem ?_
    intro p q hp hq ⟨hlt, hne⟩
    have hlt' : DocEventSet.pairLt q p = true := by
      rcases hT.tri q p with h' | h' | h'
      · exact h'
      · exact absurd h'.symm hne
      · rw [h'] at hlt; exact absurd hlt (by decide)
    unfold DocEventSet.pairLt at hlt'
    rw [hfst p hp, hfst q hq] at hlt'
    unfold OverlapBefore
    simp only [Bool.or_eq_true, Bool.and_eq_true, Bool.not_eq_true'] at hlt'
    rcases hlt' with h' | ⟨h', h''⟩
    · exact Or.inl h'
    · by_cases hq' : Cmp.lt (area q.2) (area p.2) = true
      · exact Or.inl hq'
      · exact Or.inr ⟨LawfulCmp.eq_of_not_lt h' (by simpa using hq'), h''⟩

end

end Kws
