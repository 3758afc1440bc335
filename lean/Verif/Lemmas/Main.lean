import Verif.Spec.Tool
import Verif.Lemmas.Tool
import Verif.Lemmas.Grammar
import Verif.Props.Reader
import Verif.Props.Query

/-!
# Lemmas about whole runs
-/

namespace Kws
open Spec

/-! ## Reading a file as a list of lines -/

section
variable {R : Rnd} {E : Type} {ex : Extractor E} {G : Str → E → Str → Prop}

/-- the event of a line, if it has one -/
def lineEvent (ex : Extractor E) (l : Str) : Option E :=
  match readLine ex l with
  | .event e => some e
  | _ => none

theorem Spec.Format.valid_iff (h : Format R ex G) (t : Str) :
    ValidFile G t ↔ ∀ l ∈ lines t, readLine ex l ≠ .bad := by
  unfold ValidFile
  refine forall_congr' fun l => imp_congr_right fun _ => ?_
  rw [ne_eq, h.readLine_bad, not_and, not_not]
  exact or_iff_not_imp_left

theorem Spec.Format.readPlain_ok (h : Format R ex G) (t : Str) (hv : ValidFile G t) :
    readPlain ex t = ((lines t).filterMap (lineEvent ex), .ok) := by
  rw [h.valid_iff] at hv
  unfold readPlain
  rw [readEvents_lines]
  suffices ∀ (ls : List Str) (n : Nat), (∀ l ∈ ls, readLine ex l ≠ .bad) →
      (readLines ex identityMap n () ls).2 = (ls.filterMap (lineEvent ex), .ok) from this _ 1 hv
  intro ls
  induction ls with
  | nil => intro _ _; rfl
  | cons l ls ih =>
    intro n hl
    have ih := ih (n + 1) (fun x hx => hl x (by simp [hx]))
    rcases readLine_trichotomy h.wb l with hr | hr | ⟨e, hr⟩
    · have : lineEvent ex l = none := by unfold lineEvent; rw [hr]
      rw [List.filterMap_cons_none this, ← ih]
      simp only [readLines, hr]
    · exact absurd hr (hl l (by simp))
    · have : lineEvent ex l = some e := by unfold lineEvent; rw [hr]
      rw [List.filterMap_cons_some this]
      simp only [readLines, hr, identityMap]
      have h1 : (readLines ex identityMap (n + 1) () ls).2.1 = ls.filterMap (lineEvent ex) := by
        rw [ih]
      have h2 : (readLines ex identityMap (n + 1) () ls).2.2 = .ok := by
        rw [ih]
      exact Prod.ext (congrArg (e :: ·) h1) h2

theorem Spec.Format.readPlain_bad (h : Format R ex G) (t : Str) (hv : ¬ ValidFile G t) :
    ∃ k, (readPlain ex t).2 = .badLine k := by
  rcases C48_outcomes h t with h1 | h1
  · exfalso
    apply hv
    obtain ⟨es, he⟩ : ∃ es, readPlain ex t = (es, .ok) := ⟨_, Prod.ext rfl h1⟩
    rw [C48_accepts h] at he
    intro l hl
    revert hl
    generalize lines t = ls at he
    induction he with
    | nil => intro hl; simp at hl
    | skip hi _ ih =>
      intro hl
      rcases List.mem_cons.1 hl with rfl | hl
      · exact Or.inl hi
      · exact ih hl
    | event _ he _ ih =>
      intro hl
      rcases List.mem_cons.1 hl with rfl | hl
      · exact Or.inr ⟨_, he⟩
      · exact ih hl
  · exact h1

theorem Spec.Format.valid_of_ok (h : Format R ex G) (t : Str) (hv : (readPlain ex t).2 = .ok) :
    ValidFile G t := by
  by_contra hc
  obtain ⟨k, hk⟩ := h.readPlain_bad t hc
  rw [hv] at hk
  cases hk

end

/-! ## Tools with the identity mapper -/

/-- A tool that reads strings as they are. -/
structure PlainKit {σ L : Type} (R : Rnd) (kit : ToolKit Unit σ Str L)
    (ex : Extractor (Event Str L)) (G : Str → Event Str L → Str → Prop) : Prop where
  refFormat : Format R ex G
  hypFormat : Format R (extractScored R ex) (ScoredText R G)
  readRef : kit.readRef = fun m text => readEvents ex identityMap m text
  readHyp : kit.readHyp = fun m text => readEvents (extractScored R ex) identityMap m text
  mapQuery : kit.mapQuery = fun m q => (m, .ok q)

theorem icdar_plain (R : Rnd) (S : StdSort) : PlainKit R (icdarKit R S) extractBoxEvent BoxEventText :=
  ⟨.boxRefs, .boxHyps, rfl, rfl, rfl⟩

section
variable {σ L G' : Type} [Cmp L] {R : Rnd} {kit : ToolKit Unit σ Str L}
  {ex : Extractor (Event Str L)} {G : Str → Event Str L → Str → Prop}

/-- the events of a text -/
def eventsIn {E : Type} (ex : Extractor E) (t : Str) : List E := (lines t).filterMap (lineEvent ex)

omit [Cmp L] in
theorem PlainKit.readRef_ok (h : PlainKit R kit ex G) (t : Str) (hv : ValidFile G t) :
    kit.readRef kit.mapper t = ((), eventsIn ex t, .ok) := by
  rw [h.readRef]
  exact Prod.ext rfl (h.refFormat.readPlain_ok t hv)

omit [Cmp L] in
theorem PlainKit.readHyp_ok (h : PlainKit R kit ex G) (m : Unit) (t : Str)
    (hv : ValidFile (ScoredText R G) t) :
    kit.readHyp m t = ((), eventsIn (extractScored R ex) t, .ok) := by
  rw [h.readHyp]
  exact Prod.ext rfl (h.hypFormat.readPlain_ok t hv)

omit [Cmp L] in
theorem PlainKit.finite (h : PlainKit R kit ex G) (t : Str)
    (hv : ValidFile (ScoredText R G) t) :
    ∀ e ∈ eventsIn (extractScored R ex) t, e.score ≠ .nan := by
  intro e he
  have := C51_finite R h.hypFormat t e (by rw [h.hypFormat.readPlain_ok t hv]; exact he)
  obtain ⟨q, hq, _⟩ := this
  rw [hq]
  simp

/-- A run with bad references. -/
theorem PlainKit.main_badRef (h : PlainKit R kit ex G) (S : StdSort) (rng : Rng G') (w : World)
    (o : ToolOptions) (hbad : o.refFilename = [] ∨ w.file o.refFilename = none ∨
      ∃ t, w.file o.refFilename = some t ∧ ¬ ValidFile G t) :
    mainWith R S rng kit w o = .ok .failed := by
  unfold mainWith
  by_cases hr : o.refFilename = []
  · rw [if_pos hr]
  · rw [if_neg hr]
    rcases hbad with hbad | hbad | ⟨t, ht, hbad⟩
    · exact absurd hbad hr
    · rw [hbad]
    · rw [ht]
      obtain ⟨k, hk⟩ := h.refFormat.readPlain_bad t hbad
      have e : kit.readRef kit.mapper t = ((), (readPlain ex t).1, .badLine k) := by
        rw [h.readRef, ← hk]
        rfl
      simp only [e]

/-- A run with bad hypotheses. -/
theorem PlainKit.main_badHyp (h : PlainKit R kit ex G) (S : StdSort) (rng : Rng G') (w : World)
    (o : ToolOptions) (hbad : hypText w o = none ∨
      ∃ t, hypText w o = some t ∧ ¬ ValidFile (ScoredText R G) t) :
    mainWith R S rng kit w o = .ok .failed := by
  by_cases hb : o.refFilename = [] ∨ w.file o.refFilename = none ∨
      ∃ t, w.file o.refFilename = some t ∧ ¬ ValidFile G t
  · exact h.main_badRef S rng w o hb
  · push Not at hb
    obtain ⟨b1, b2, b3⟩ := hb
    obtain ⟨t, ht⟩ := Option.ne_none_iff_exists'.1 b2
    have hv := b3 t ht
    unfold hypText at hbad
    unfold mainWith
    rw [if_neg b1, ht]
    simp only [h.readRef_ok t hv]
    rcases hbad with hbad | ⟨t', ht', hbad⟩
    · rw [hbad]
    · rw [ht']
      obtain ⟨k, hk⟩ := h.hypFormat.readPlain_bad t' hbad
      have e : kit.readHyp () t' = ((), (readPlain (extractScored R ex) t').1, .badLine k) := by
        rw [h.readHyp, ← hk]
        rfl
      simp only [e]

/-- A run with good event files. -/
theorem PlainKit.main_good (h : PlainKit R kit ex G) (S : StdSort) (rng : Rng G') (w : World)
    (o : ToolOptions) (hr : o.refFilename ≠ []) (t t' : Str) (ht : w.file o.refFilename = some t)
    (ht' : hypText w o = some t') (hv : ValidFile G t) (hv' : ValidFile (ScoredText R G) t') :
    mainWith R S rng kit w o = (readQueryMap kit.mapQuery w o ()).bind fun
      | none => .ok .failed
      | some q2g => evaluate R S rng kit w o q2g (eventsIn ex t) (eventsIn (extractScored R ex) t') := by
  have e := mainWith_inputs R S rng kit w o t t' () () _ _ hr ht ht' (h.readRef_ok t hv)
    (h.readHyp_ok () t' hv')
  rw [e]
  congr 1
  funext x
  cases x <;> rfl

end

/-! ## Independence of the order of lines -/

section
variable {μ σ Q L G' : Type} [DecidableEq Q] [Cmp Q] [Cmp L]

/-- What follows matching. -/
noncomputable def afterMatching (R : Rnd) (S : StdSort) (rng : Rng G') (w : World) (o : ToolOptions)
    (q2g : List (Q × Q)) (n : Nat) (t : List (KwsMatch Q L) × List (KwsMatch Q L)) :
    Cpp (RunResult Q L) :=
  if o.dumpMatches ≠ [] ∧ w.writable o.dumpMatches = false then .ok .failed
  else if t.1.foldl (fun n m => n + m.error.nh) 0 > n then .ok .failed
  else (groupMatches q2g t.1).bind fun groups =>
    (assess R S rng w o t.1 groups
      (if o.dumpMatches = [] then none else some (t.1, t.2))).bind fun r => .ok (.done r)

theorem matchAndAssess_eq (R : Rnd) (S : StdSort) (rng : Rng G') (kit : ToolKit μ σ Q L) (w : World)
    (o : ToolOptions) (q2g : List (Q × Q)) (refs : List (Event Q L)) (hyps : List (ScoredEvent Q L)) :
    matchAndAssess R S rng kit w o q2g refs hyps =
      (sortHyps S o.sort hyps).bind fun l =>
      ((SimpleMatcher.run kit.index kit.scorer kit.refsSet refs l).map (·.2)).bind fun t =>
      afterMatching R S rng w o q2g l.length t := by
  have heq : matchAndAssess R S rng kit w o q2g refs hyps =
      (sortHyps S o.sort hyps).bind fun l =>
      (SimpleMatcher.run kit.index kit.scorer kit.refsSet refs l).bind fun t =>
      afterMatching R S rng w o q2g l.length t.2 := rfl
  rw [heq]
  cases sortHyps S o.sort hyps with
  | error e => rfl
  | ok l =>
    simp only [Except.bind]
    cases SimpleMatcher.run kit.index kit.scorer kit.refsSet refs l <;> rfl

omit [Cmp Q] [Cmp L] in
theorem afterMatching_world (R : Rnd) (S : StdSort) (rng : Rng G') (w w' : World) (o : ToolOptions)
    (q2g : List (Q × Q)) (n : Nat) (t : List (KwsMatch Q L) × List (KwsMatch Q L))
    (h : w.writable = w'.writable) :
    afterMatching R S rng w o q2g n t = afterMatching R S rng w' o q2g n t := by
  obtain ⟨f, i, wr⟩ := w
  obtain ⟨f', i', wr'⟩ := w'
  simp only at h
  subst h
  rfl

/-- Evaluation ignores the order of both lists (and repeated references), if matching ignores the
order of references. -/
theorem evaluate_reordered [LawfulCmp Q] [LawfulCmp L] (R : Rnd) (S : StdSort) (rng : Rng G')
    (kit : ToolKit μ σ Q L) (w w' : World) (o : ToolOptions) (q2g : List (Q × Q))
    (refs refs' : List (Event Q L)) (hyps hyps' : List (ScoredEvent Q L))
    (hrun : ∀ refs refs' l, (∀ r, r ∈ refs ↔ r ∈ refs') →
      (SimpleMatcher.run kit.index kit.scorer kit.refsSet refs l).map (·.2) =
      (SimpleMatcher.run kit.index kit.scorer kit.refsSet refs' l).map (·.2))
    (hw : w.writable = w'.writable) (hr : ∀ r, r ∈ refs ↔ r ∈ refs') (hp : hyps.Perm hyps')
    (hn : ∀ h ∈ hyps, h.score ≠ .nan)
    (hs : o.sort = "desc".toList ∨ o.sort = "asc".toList ∨ hyps = hyps') :
    evaluate R S rng kit w o q2g refs hyps = evaluate R S rng kit w' o q2g refs' hyps' := by
  have hr' : ∀ r, r ∈ (if q2g = [] then refs else filterEvents q2g (·.query) refs) ↔
      r ∈ (if q2g = [] then refs' else filterEvents q2g (·.query) refs') := by
    intro r
    split
    · exact hr r
    · simp only [filterEvents, List.mem_filter, hr]
  have hp' : (if q2g = [] then hyps else filterEvents q2g (·.base.query) hyps).Perm
      (if q2g = [] then hyps' else filterEvents q2g (·.base.query) hyps') := by
    split
    · exact hp
    · exact hp.filter _
  have hn' : ∀ h ∈ (if q2g = [] then hyps else filterEvents q2g (·.base.query) hyps),
      h.score ≠ .nan := by
    intro h hh
    split at hh
    · exact hn h hh
    · exact hn h (List.mem_filter.1 hh).1
  have hsort : sortHyps S o.sort (if q2g = [] then hyps else filterEvents q2g (·.base.query) hyps) =
      sortHyps S o.sort (if q2g = [] then hyps' else filterEvents q2g (·.base.query) hyps') := by
    rcases hs with hs | hs | hs
    · obtain ⟨l, h1, h2, _⟩ := sortHyps_unique S S o.sort _ _ hn' hp' (Or.inl hs)
      rw [h1, h2]
    · obtain ⟨l, h1, h2, _⟩ := sortHyps_unique S S o.sort _ _ hn' hp' (Or.inr hs)
      rw [h1, h2]
    · rw [hs]
  unfold evaluate
  simp only [matchAndAssess_eq, hsort]
  congr 1
  funext l
  rw [hrun _ _ l hr']
  congr 1
  funext t
  exact afterMatching_world R S rng w w' o q2g _ t hw

end

theorem readQueryMap_world {μ Q : Type} [DecidableEq Q] (mapQuery : μ → Str → μ × Cpp Q) (w w' : World)
    (o : ToolOptions) (m : μ) (h1 : w.file o.querySet = w'.file o.querySet)
    (h2 : w.file o.queryGroups = w'.file o.queryGroups) :
    readQueryMap mapQuery w o m = readQueryMap mapQuery w' o m := by
  unfold readQueryMap
  rw [h1, h2]

theorem PlainKit.main_reordered {σ L G' : Type} [Cmp L] [LawfulCmp L] {R : Rnd}
    {kit : ToolKit Unit σ Str L} {ex : Extractor (Event Str L)} {G : Str → Event Str L → Str → Prop}
    (h : PlainKit R kit ex G) (S : StdSort) (rng : Rng G')
    (hrun : ∀ refs refs' l, (∀ r, r ∈ refs ↔ r ∈ refs') →
      (SimpleMatcher.run kit.index kit.scorer kit.refsSet refs l).map (·.2) =
      (SimpleMatcher.run kit.index kit.scorer kit.refsSet refs' l).map (·.2))
    (w w' : World) (o : ToolOptions) (hw : Reordered o w w')
    (hs : o.sort = "desc".toList ∨ o.sort = "asc".toList ∨ hypText w o = hypText w' o) :
    mainWith R S rng kit w o = mainWith R S rng kit w' o := by
  by_cases hr : o.refFilename = []
  · rw [h.main_badRef S rng w o (Or.inl hr), h.main_badRef S rng w' o (Or.inl hr)]
  rcases hw.refs with ⟨a, b⟩ | ⟨t, t', a, b, hl⟩
  · rw [h.main_badRef S rng w o (Or.inr (Or.inl a)), h.main_badRef S rng w' o (Or.inr (Or.inl b))]
  have hvt : ValidFile G t ↔ ValidFile G t' := by
    unfold ValidFile
    simp only [hl]
  by_cases hv : ValidFile G t
  swap
  · rw [h.main_badRef S rng w o (Or.inr (Or.inr ⟨t, a, hv⟩)),
      h.main_badRef S rng w' o (Or.inr (Or.inr ⟨t', b, fun h => hv (hvt.2 h)⟩))]
  rcases hw.hyps with ⟨a2, b2⟩ | ⟨u, u', a2, b2, hp⟩
  · rw [h.main_badHyp S rng w o (Or.inl a2), h.main_badHyp S rng w' o (Or.inl b2)]
  have hvu : ValidFile (ScoredText R G) u ↔ ValidFile (ScoredText R G) u' := by
    unfold ValidFile
    simp only [hp.mem_iff]
  by_cases hv2 : ValidFile (ScoredText R G) u
  swap
  · rw [h.main_badHyp S rng w o (Or.inr ⟨u, a2, hv2⟩),
      h.main_badHyp S rng w' o (Or.inr ⟨u', b2, fun h => hv2 (hvu.2 h)⟩)]
  rw [h.main_good S rng w o hr t u a a2 hv hv2,
    h.main_good S rng w' o hr t' u' b b2 (hvt.1 hv) (hvu.1 hv2),
    readQueryMap_world _ w w' o () hw.querySet hw.queryGroups]
  congr 1
  funext x
  cases x with
  | none => rfl
  | some q2g =>
    refine evaluate_reordered R S rng kit w w' o q2g _ _ _ _ hrun hw.writable ?_ ?_
      (h.finite u hv2) ?_
    · intro r
      simp only [eventsIn, List.mem_filterMap, hl]
    · exact hp.filterMap _
    · rcases hs with hs | hs | hs
      · exact Or.inl hs
      · exact Or.inr (Or.inl hs)
      · rw [a2, b2, Option.some.injEq] at hs
        rw [hs]
        exact Or.inr (Or.inr rfl)

end Kws
