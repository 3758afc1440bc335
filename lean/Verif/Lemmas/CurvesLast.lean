import Verif.Lemmas.Writing
import Verif.Model.ToolDouble

/-!
# Lemmas about runs that write the files with the curves at the very end
-/

namespace Kws
open Spec Traced

@[simp] theorem plainOf_append (a b) : plainOf (a ++ b) = plainOf a ++ plainOf b := List.filterMap_append
@[simp] theorem plainOf_out (s es) : plainOf (.out s :: es) = plainOf es := rfl
@[simp] theorem plainOf_err (s es) : plainOf (.err s :: es) = plainOf es := rfl
@[simp] theorem plainOf_file (n t es) : plainOf (.file n t :: es) = (n, t) :: plainOf es := rfl

/-- There are files with curves and nothing else. -/
def OnlyCurves (es : List Effect) : Prop := ∀ e ∈ es, ∃ n s, e = .curve n s

/-- There are no files with curves. -/
def NoCurves (es : List Effect) : Prop := ∀ e ∈ es, ∀ n s, e ≠ .curve n s

/-- The files with curves come last. -/
def CurvesLast (es : List Effect) : Prop := ∃ a b, es = a ++ b ∧ NoCurves a ∧ OnlyCurves b

theorem OnlyCurves.outs {es : List Effect} (h : OnlyCurves es) :
    outsOf es = [] ∧ errsOf es = [] ∧ plainOf es = [] := by
  refine ⟨?_, ?_, ?_⟩ <;>
  · refine List.filterMap_eq_nil_iff.2 fun e he => ?_
    obtain ⟨n, s, rfl⟩ := h e he
    rfl

/-- Files with curves do not change what has been written to the other streams. -/
theorem perform_onlyCurves (d : Devices) (r : Cpp Nat) (es : List Effect) (h : OnlyCurves es) (st : Streams) :
    (Streams.perform d r st es).out = st.out.written ∧ (Streams.perform d r st es).err = st.err.written ∧
      st.files <+: (Streams.perform d r st es).files := by
  induction es generalizing st with
  | nil => exact ⟨rfl, rfl, List.prefix_rfl⟩
  | cons e es ih =>
    obtain ⟨n, s, rfl⟩ := h e (List.mem_cons_self ..)
    rw [Streams.perform]
    cases hi : (OStream.new (d.file n) true).insert s with
    | mk f x =>
      cases x with
      | error x => exact ⟨rfl, rfl, List.prefix_append _ _⟩
      | ok _ =>
        obtain ⟨a, b, c⟩ := ih (fun e he => h e (List.mem_cons_of_mem _ he))
          { st with files := st.files ++ [(n, f.written)] }
        exact ⟨a, b, (List.prefix_append _ _).trans c⟩

/-- If the files with curves come last, everything else arrives as far as there is room. -/
theorem perform_curvesLast (d : Devices) (r : Cpp Nat) (a b : List Effect) (ha : NoCurves a) (hb : OnlyCurves b)
    (st : Streams) (ho : st.out.Spent) (he : st.err.Spent) :
    (Streams.perform d r st (a ++ b)).out = st.out.written ++ (outsOf a).flatten.take st.out.room ∧
    (Streams.perform d r st (a ++ b)).err = st.err.written ++ (errsOf a).flatten.take st.err.room ∧
    st.files ++ cutFiles d (plainOf a) <+: (Streams.perform d r st (a ++ b)).files := by
  induction a generalizing st with
  | nil => simpa [cutFiles, plainOf] using perform_onlyCurves d r b hb st
  | cons e a ih =>
    have ha' : NoCurves a := fun e he => ha e (List.mem_cons_of_mem _ he)
    cases e with
    | out s =>
      have := ih ha' { st with out := (st.out.insert s).1 } (OStream.insert_spent ho s) he
      rw [List.cons_append, Streams.perform]
      simpa only [OStream.insert_written ho, OStream.insert_room ho, outsOf_out, errsOf_out, plainOf_out,
        List.append_assoc, take_pieces] using this
    | err s =>
      have := ih ha' { st with err := (st.err.insert s).1 } ho (OStream.insert_spent he s)
      rw [List.cons_append, Streams.perform]
      simpa only [OStream.insert_written he, OStream.insert_room he, outsOf_err, errsOf_err, plainOf_err,
        List.append_assoc, take_pieces] using this
    | file n s =>
      have := ih ha' { st with files := st.files ++ [(n, ((OStream.new (d.file n) false).insert s).1.written)] }
        ho he
      rw [List.cons_append, Streams.perform]
      simpa [OStream.insert_new, cutFiles, cut] using this
    | curve n s => exact absurd rfl (ha _ (List.mem_cons_self ..) n s)

theorem perform_last (d : Devices) (t : Traced Nat) (h : CurvesLast t.effects) :
    (t.perform d).out = cut d.out (outsOf t.effects).flatten ∧
    (t.perform d).err = cut d.err (errsOf t.effects).flatten ∧
    cutFiles d (plainOf t.effects) <+: (t.perform d).files := by
  obtain ⟨a, b, e, ha, hb⟩ := h
  obtain ⟨h1, h2, h3⟩ := hb.outs
  have := perform_curvesLast d t.result a b ha hb ⟨OStream.new d.out false, OStream.new d.err false, []⟩
    (OStream.new_spent _ _) (OStream.new_spent _ _)
  unfold Traced.perform
  rw [e, outsOf_append, errsOf_append, plainOf_append, h1, h2, h3]
  simpa [OStream.new, cut] using this

/-! ## The runs of the program -/

theorem NoCurves.nil : NoCurves [] := fun _ h => absurd h List.not_mem_nil

theorem OnlyCurves.nil : OnlyCurves [] := fun _ h => absurd h List.not_mem_nil

theorem OnlyCurves.last {es : List Effect} (h : OnlyCurves es) : CurvesLast es := ⟨[], es, rfl, .nil, h⟩

theorem NoCurves.last {es : List Effect} (h : NoCurves es) : CurvesLast es :=
  ⟨es, [], (List.append_nil _).symm, h, .nil⟩

section
variable {α β : Type}

theorem NoCurves.bind {x : Traced α} {f : α → Traced β} (hx : NoCurves x.effects)
    (hf : ∀ a, NoCurves (f a).effects) : NoCurves (x >>= f).effects := by
  rw [bind_effects]
  intro e he
  rcases List.mem_append.1 he with he | he
  · exact hx e he
  · cases h : x.result with
    | ok a => rw [h] at he; exact hf a e he
    | error _ => rw [h] at he; cases he

theorem OnlyCurves.bind {x : Traced α} {f : α → Traced β} (hx : OnlyCurves x.effects)
    (hf : ∀ a, OnlyCurves (f a).effects) : OnlyCurves (x >>= f).effects := by
  rw [bind_effects]
  intro e he
  rcases List.mem_append.1 he with he | he
  · exact hx e he
  · cases h : x.result with
    | ok a => rw [h] at he; exact hf a e he
    | error _ => rw [h] at he; cases he

theorem CurvesLast.bind {x : Traced α} {f : α → Traced β} (hx : NoCurves x.effects)
    (hf : ∀ a, CurvesLast (f a).effects) : CurvesLast (x >>= f).effects := by
  rw [bind_effects]
  cases h : x.result with
  | error _ => exact ⟨_, [], rfl, hx, .nil⟩
  | ok a =>
    obtain ⟨p, q, e, hp, hq⟩ := hf a
    refine ⟨x.effects ++ p, q, by rw [List.append_assoc]; exact congrArg _ e, fun e he => ?_, hq⟩
    rcases List.mem_append.1 he with he | he
    · exact hx e he
    · exact hp e he

theorem noCurves_lift (x : Cpp α) : NoCurves (lift x).effects := .nil
theorem noCurves_pure (x : α) : NoCurves (pure x : Traced α).effects := .nil
theorem noCurves_out (s : Str) : NoCurves (emit (.out s)).effects := fun e he n t => by
  rw [List.mem_singleton.1 he]; exact fun h => by cases h
theorem noCurves_err (s : Str) : NoCurves (emit (.err s)).effects := fun e he n t => by
  rw [List.mem_singleton.1 he]; exact fun h => by cases h
theorem noCurves_say (s : Str) : NoCurves (say s).effects := noCurves_err _
theorem noCurves_sayIf (c : Prop) [Decidable c] (s : Str) : NoCurves (sayIf c s).effects := by
  unfold sayIf emitIf
  split
  · exact noCurves_err _
  · exact .nil
theorem noCurves_fileIf (c : Prop) [Decidable c] (n s : Str) : NoCurves (emitIf c (.file n s)).effects := by
  unfold emitIf
  split
  · intro e he n t
    rw [List.mem_singleton.1 he]
    exact fun h => by cases h
  · exact .nil
theorem onlyCurves_curve (n s : Str) : OnlyCurves (emit (.curve n s)).effects := fun _ he =>
  ⟨n, s, List.mem_singleton.1 he⟩
theorem onlyCurves_lift (x : Cpp α) : OnlyCurves (lift x).effects := .nil
theorem onlyCurves_pure (x : α) : OnlyCurves (pure x : Traced α).effects := .nil

end

section
variable {μ σ Q L G : Type}

theorem traceAssess_last (R : Rnd) (S : StdSort) (rng : Rng G) (w : World) (o : ToolOptions)
    (ms : List (KwsMatch Q L)) (groups : List (List (KwsMatch Q L))) :
    CurvesLast (traceAssess R S rng w o ms groups).effects := by
  unfold traceAssess
  refine .bind (noCurves_lift _) fun _ => .bind (noCurves_out _) fun _ => .bind (noCurves_lift _) fun _ =>
    .bind (noCurves_out _) fun _ => .bind (noCurves_lift _) fun _ => .bind (noCurves_out _) fun _ =>
    .bind (noCurves_lift _) fun _ => .bind (noCurves_out _) fun _ => OnlyCurves.last ?_
  have mrp : ∀ c : Prop, ∀ [Decidable c], ∀ x : Cpp (List (ℚ × Flt)), OnlyCurves
      (if c then do
        let c ← lift x
        emit (.curve o.outputMrp (showCurve showScientific (showFlt showScientific) c))
        return 0
      else (pure 0 : Traced Nat)).effects := by
    intro c _ x
    split
    · exact .bind (onlyCurves_lift _) fun _ => .bind (onlyCurves_curve _ _) fun _ => onlyCurves_pure _
    · exact onlyCurves_pure _
  dsimp only
  split
  · exact .bind (onlyCurves_lift _) fun _ => .bind (onlyCurves_curve _ _) fun _ => mrp _ _
  · exact mrp _ _

theorem traceAssessD_last (R : Rnd) (lm : Libm) (S : StdSort) (rng : Rng G) (w : World) (o : ToolOptions)
    (ms : List (KwsMatch Q L)) (groups : List (List (KwsMatch Q L))) :
    CurvesLast (traceAssessD R lm S rng w o ms groups).effects := by
  unfold traceAssessD
  refine .bind (noCurves_lift _) fun _ => .bind (noCurves_out _) fun _ => .bind (noCurves_lift _) fun _ =>
    .bind (noCurves_out _) fun _ => .bind (noCurves_lift _) fun _ => .bind (noCurves_out _) fun _ =>
    .bind (noCurves_lift _) fun _ => .bind (noCurves_out _) fun _ => OnlyCurves.last ?_
  have mrp : ∀ c : Prop, ∀ [Decidable c], ∀ x : Cpp (List (ℚ × Flt)), OnlyCurves
      (if c then do
        let c ← lift x
        emit (.curve o.outputMrp (showCurve showScientific (showFlt showScientific) c))
        return 0
      else (pure 0 : Traced Nat)).effects := by
    intro c _ x
    split
    · exact .bind (onlyCurves_lift _) fun _ => .bind (onlyCurves_curve _ _) fun _ => onlyCurves_pure _
    · exact onlyCurves_pure _
  dsimp only
  split
  · exact .bind (onlyCurves_lift _) fun _ => .bind (onlyCurves_curve _ _) fun _ => mrp _ _
  · exact mrp _ _

theorem noCurves_traceRead {E : Type} (read : Str → μ × List E × ReadStatus) (text : Option Str) :
    NoCurves (traceRead read text).effects := by
  unfold traceRead
  cases text with
  | none => exact noCurves_pure _
  | some text =>
    dsimp only
    split
    · exact noCurves_lift _
    · exact .bind (noCurves_say _) fun _ => noCurves_pure _
    · exact noCurves_pure _
    · exact noCurves_pure _

variable [DecidableEq Q]

theorem noCurves_traceQueryMap (mapQuery : μ → Str → μ × Cpp Q) (w : World) (o : ToolOptions) (m : μ) :
    NoCurves (traceQueryMap mapQuery w o m).effects := by
  unfold traceQueryMap
  split
  · split
    · exact .bind (noCurves_say _) fun _ => noCurves_pure _
    · exact .bind (noCurves_lift _) fun _ => .bind (noCurves_say _) fun _ => noCurves_pure _
  · split
    · split
      · exact .bind (noCurves_say _) fun _ => noCurves_pure _
      · refine .bind (noCurves_lift _) fun x => ?_
        cases x with
        | none => exact .bind (noCurves_say _) fun _ => noCurves_pure _
        | some q => exact .bind (noCurves_say _) fun _ => noCurves_pure _
    · exact noCurves_pure _

variable [Cmp Q] [Cmp L]

theorem traceMatchAndAssess_last (R : Rnd) (S : StdSort) (rng : Rng G) (kit : ToolKit μ σ Q L)
    (texts : ToolTexts Q L) (w : World) (o : ToolOptions) (q2g : List (Q × Q)) (refs : List (Event Q L))
    (hyps : List (ScoredEvent Q L)) :
    CurvesLast (traceMatchAndAssess R S rng kit texts w o q2g refs hyps).effects := by
  unfold traceMatchAndAssess
  refine .bind (noCurves_lift _) fun _ => .bind (noCurves_sayIf _ _) fun _ => .bind (noCurves_say _) fun _ =>
    .bind (noCurves_lift _) fun x => ?_
  obtain ⟨_, ms, repeated⟩ := x
  dsimp only
  split
  · exact .bind (noCurves_say _) fun _ => (noCurves_pure _).last
  · refine .bind (noCurves_fileIf _ _ _) fun _ => ?_
    split
    · exact .bind (noCurves_say _) fun _ => (noCurves_pure _).last
    · exact .bind (noCurves_sayIf _ _) fun _ => .bind (noCurves_lift _) fun _ => traceAssess_last ..

theorem traceMatchAndAssessD_last (R : Rnd) (lm : Libm) (S : StdSort) (rng : Rng G) (kit : ToolKit μ σ Q L)
    (texts : ToolTexts Q L) (w : World) (o : ToolOptions) (q2g : List (Q × Q)) (refs : List (Event Q L))
    (hyps : List (ScoredEvent Q L)) :
    CurvesLast (traceMatchAndAssessD R lm S rng kit texts w o q2g refs hyps).effects := by
  unfold traceMatchAndAssessD
  refine .bind (noCurves_lift _) fun _ => .bind (noCurves_sayIf _ _) fun _ => .bind (noCurves_say _) fun _ =>
    .bind (noCurves_lift _) fun x => ?_
  obtain ⟨_, ms, repeated⟩ := x
  dsimp only
  split
  · exact .bind (noCurves_say _) fun _ => (noCurves_pure _).last
  · refine .bind (noCurves_fileIf _ _ _) fun _ => ?_
    split
    · exact .bind (noCurves_say _) fun _ => (noCurves_pure _).last
    · exact .bind (noCurves_sayIf _ _) fun _ => .bind (noCurves_lift _) fun _ => traceAssessD_last ..

theorem traceEvaluate_last (R : Rnd) (S : StdSort) (rng : Rng G) (kit : ToolKit μ σ Q L)
    (texts : ToolTexts Q L) (w : World) (o : ToolOptions) (q2g : List (Q × Q)) (refs : List (Event Q L))
    (hyps : List (ScoredEvent Q L)) :
    CurvesLast (traceEvaluate R S rng kit texts w o q2g refs hyps).effects := by
  unfold traceEvaluate
  split
  · exact traceMatchAndAssess_last ..
  · exact .bind (noCurves_sayIf _ _) fun _ => .bind (noCurves_sayIf _ _) fun _ =>
      .bind (noCurves_sayIf _ _) fun _ => traceMatchAndAssess_last ..

theorem traceEvaluateD_last (R : Rnd) (lm : Libm) (S : StdSort) (rng : Rng G) (kit : ToolKit μ σ Q L)
    (texts : ToolTexts Q L) (w : World) (o : ToolOptions) (q2g : List (Q × Q)) (refs : List (Event Q L))
    (hyps : List (ScoredEvent Q L)) :
    CurvesLast (traceEvaluateD R lm S rng kit texts w o q2g refs hyps).effects := by
  unfold traceEvaluateD
  split
  · exact traceMatchAndAssessD_last ..
  · exact .bind (noCurves_sayIf _ _) fun _ => .bind (noCurves_sayIf _ _) fun _ =>
      .bind (noCurves_sayIf _ _) fun _ => traceMatchAndAssessD_last ..

theorem traceMain_last (R : Rnd) (S : StdSort) (rng : Rng G) (kit : ToolKit μ σ Q L) (texts : ToolTexts Q L)
    (w : World) (prog : Str) (argv : List Str) :
    CurvesLast (traceMain R S rng kit texts w prog argv).effects := by
  unfold traceMain
  dsimp only
  split
  · exact .bind (noCurves_err _) fun _ => (noCurves_pure _).last
  · exact .bind (noCurves_err _) fun _ => .bind (noCurves_err _) fun _ => (noCurves_pure _).last
  · unfold traceMainWith
    split
    · exact .bind (noCurves_say _) fun _ => (noCurves_pure _).last
    · refine .bind (noCurves_traceRead _ _) fun x => ?_
      cases x with
      | none => exact .bind (noCurves_say _) fun _ => (noCurves_pure _).last
      | some x =>
        refine .bind (noCurves_say _) fun _ => .bind (noCurves_traceRead _ _) fun y => ?_
        cases y with
        | none => exact .bind (noCurves_say _) fun _ => (noCurves_pure _).last
        | some y =>
          refine .bind (noCurves_say _) fun _ => .bind (noCurves_traceQueryMap _ _ _ _) fun z => ?_
          cases z with
          | none => exact (noCurves_pure _).last
          | some z => exact traceEvaluate_last ..

theorem traceMainD_last (R : Rnd) (lm : Libm) (S : StdSort) (rng : Rng G) (kit : ToolKit μ σ Q L)
    (texts : ToolTexts Q L) (w : World) (prog : Str) (argv : List Str) :
    CurvesLast (traceMainD R lm S rng kit texts w prog argv).effects := by
  unfold traceMainD
  dsimp only
  split
  · exact .bind (noCurves_err _) fun _ => (noCurves_pure _).last
  · exact .bind (noCurves_err _) fun _ => .bind (noCurves_err _) fun _ => (noCurves_pure _).last
  · unfold traceMainWithD
    split
    · exact .bind (noCurves_say _) fun _ => (noCurves_pure _).last
    · refine .bind (noCurves_traceRead _ _) fun x => ?_
      cases x with
      | none => exact .bind (noCurves_say _) fun _ => (noCurves_pure _).last
      | some x =>
        refine .bind (noCurves_say _) fun _ => .bind (noCurves_traceRead _ _) fun y => ?_
        cases y with
        | none => exact .bind (noCurves_say _) fun _ => (noCurves_pure _).last
        | some y =>
          refine .bind (noCurves_say _) fun _ => .bind (noCurves_traceQueryMap _ _ _ _) fun z => ?_
          cases z with
          | none => exact (noCurves_pure _).last
          | some z => exact traceEvaluateD_last ..

end

end Kws
