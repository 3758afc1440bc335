import Verif.Spec.Messages
import Verif.Lemmas.OutputMain
import Verif.Lemmas.Ids
import Verif.Lemmas.Numbers
import Verif.Lemmas.Relabel

/-!
# Lemmas about the messages of the tools
-/

namespace Kws

open Spec Traced

theorem showNat_decimal (n : ℕ) : showNat n = decimal n := by
  unfold showNat decimal
  simp [toString, Nat.repr]

theorem quoted_eq (s : Str) : quoted s = inQuotes s := rfl

/-- the effects of lines on `std::cerr` -/
def lineEffects (ds : List Str) : List Effect := ds.map fun s => .err (endl s)

@[simp] theorem lineEffects_append (a b : List Str) :
    lineEffects (a ++ b) = lineEffects a ++ lineEffects b := List.map_append

@[simp] theorem errsOf_lineEffects (ds : List Str) : errsOf (lineEffects ds) = ds.map endl := by
  induction ds with
  | nil => rfl
  | cons d ds ih =>
    rw [List.map_cons, ← ih]
    rfl

theorem sayIf_bind {α : Type} (c : Prop) [Decidable c] (s : Str) (f : Unit → Traced α) :
    sayIf c s >>= f = ⟨lineEffects (onlyIf c s) ++ (f ()).effects, (f ()).result⟩ := by
  unfold sayIf emitIf onlyIf
  split
  · rfl
  · rw [pure_bind']
    rfl

section
variable {μ σ Q L L' G : Type}

/-! ## Stages of a run -/

theorem traceAssess_errs (R : Rnd) (S : StdSort) (rng : Rng G) (w : World) (o : ToolOptions)
    (ms : List (KwsMatch Q L)) (groups : List (List (KwsMatch Q L))) :
    errsOf (traceAssess R S rng w o ms groups).effects = [] := by
  cases h : assess R S rng w o ms groups none with
  | error f => exact (traceAssess_error h).2.2.1
  | ok r =>
    rw [(traceAssess_ok h).1]
    unfold assessEffects
    have h1 : ∀ l : List Str, errsOf (l.map .out) = [] := by
      intro l
      induction l with
      | nil => rfl
      | cons a l ih => exact ih
    have h2 : ∀ l : List (Str × Str), errsOf (l.map fun f => .curve f.1 f.2) = [] := by
      intro l
      induction l with
      | nil => rfl
      | cons a l ih => exact ih
    rw [errsOf_append, h1, h2]
    rfl

/-- the number of effective hypotheses as `Main` counts them -/
def effective (ms : List (KwsMatch Q L)) : ℕ := ms.foldl (fun n m => n + m.error.nh) 0

theorem traceMatchAndAssess_errs [DecidableEq Q] [Cmp Q] [Cmp L] [LawfulCmp Q] [LawfulCmp L]
    (R : Rnd) (S : StdSort) (rng : Rng G) (kit : ToolKit μ σ Q L) (texts : ToolTexts Q L) (w : World)
    (o : ToolOptions) (q2g : List (Q × Q)) (refs : List (Event Q L)) (hyps l : List (ScoredEvent Q L))
    (s' : σ) (ms rep : List (KwsMatch Q L)) (h1 : sortHyps S o.sort hyps = .ok l)
    (h2 : SimpleMatcher.run kit.index kit.scorer kit.refsSet refs l = .ok (s', ms, rep)) :
    errsOf (traceMatchAndAssess R S rng kit texts w o q2g refs hyps).effects =
      (onlyIf (o.sort ∉ ["desc".toList, "asc".toList, "none".toList])
        ("WARN: Ignoring sorting criterion ".toList ++ inQuotes o.sort ++
          ". Hypotheses won't be sorted.".toList) ++ ["INFO: Computing matches...".toList] ++
        saysAfter w o (effective ms) hyps.length).map endl := by
  have hnh : effective ms ≤ l.length := run_nh h2
  have hl := (sortHyps_mem S o.sort hyps l h1).length_eq
  unfold traceMatchAndAssess
  rw [h1, lift_ok_bind, sayIf_bind, say_bind, h2, lift_ok_bind]
  have hc : onlyIf (o.sort ≠ "desc".toList ∧ o.sort ≠ "asc".toList ∧ o.sort ≠ "none".toList)
      ("WARN: Ignoring sorting criterion ".toList ++ quoted o.sort ++
      ". Hypotheses won't be sorted.".toList) =
      onlyIf (o.sort ∉ ["desc".toList, "asc".toList, "none".toList])
        ("WARN: Ignoring sorting criterion ".toList ++ inQuotes o.sort ++
          ". Hypotheses won't be sorted.".toList) := by
    unfold onlyIf
    rw [quoted_eq]
    by_cases hs : o.sort ∈ ["desc".toList, "asc".toList, "none".toList]
    · rw [if_neg (by simp at hs ⊢; tauto), if_neg (not_not.2 hs)]
    · rw [if_pos (by simp at hs ⊢; tauto), if_pos hs]
  rw [hc]
  generalize onlyIf (o.sort ∉ ["desc".toList, "asc".toList, "none".toList])
    ("WARN: Ignoring sorting criterion ".toList ++ inQuotes o.sort ++
      ". Hypotheses won't be sorted.".toList) = warning
  rw [errsOf_append, errsOf_lineEffects, errsOf_err, List.map_append, List.map_append]
  refine (congrArg (List.map endl warning ++ ·) ?_).trans (List.append_assoc ..).symm
  refine congrArg (endl "INFO: Computing matches...".toList :: ·)
    (a₂ := (saysAfter w o (effective ms) hyps.length).map endl) ?_
  dsimp only
  unfold saysAfter
  by_cases hw : o.dumpMatches ≠ [] ∧ w.writable o.dumpMatches = false
  · rw [if_pos hw, if_pos hw]
    rfl
  rw [if_neg hw, if_neg hw, bind_effects]
  have he : errsOf (emitIf (o.dumpMatches ≠ [])
      (.file o.dumpMatches (showDump texts.showEvent (ms, rep)))).effects = [] ∧
      (emitIf (o.dumpMatches ≠ []) (.file o.dumpMatches (showDump texts.showEvent (ms, rep)))).result =
        .ok () := by
    unfold emitIf
    split <;> exact ⟨rfl, rfl⟩
  rw [errsOf_append, he.1, he.2, List.nil_append]
  dsimp only
  change errsOf (if effective ms > l.length then _ else _ : Traced Nat).effects = _
  rw [if_neg (Nat.not_lt.2 hnh), sayIf_bind, errsOf_append, errsOf_lineEffects]
  have hg : errsOf (lift (groupMatches q2g ms) >>= fun groups =>
      traceAssess R S rng w o ms groups).effects = [] := by
    cases groupMatches q2g ms with
    | error f => rfl
    | ok gs => rw [lift_ok_bind]; exact traceAssess_errs ..
  rw [hg, List.append_nil, hl, showNat_decimal]
  rfl

/-! ## Counting queries and groups -/

/-- The keys of a map made by writing entries are different. -/
theorem keys_set [DecidableEq Q] {β : Type} (k : Q) (v : β) (m : List (Q × β)) (h : (m.map (·.1)).Nodup) :
    ((AMap.set k v m).map (·.1)).Nodup ∧ ∀ x, x ∈ (AMap.set k v m).map (·.1) ↔ x = k ∨ x ∈ m.map (·.1) := by
  induction m with
  | nil => simp [AMap.set]
  | cons p m ih =>
    obtain ⟨k', v'⟩ := p
    rw [List.map_cons, List.nodup_cons] at h
    obtain ⟨i1, i2⟩ := ih h.2
    unfold AMap.set
    split
    · rename_i e
      subst e
      refine ⟨by simpa using h, fun x => by simp⟩
    · rename_i e
      refine ⟨?_, fun x => ?_⟩
      · rw [List.map_cons, List.nodup_cons]
        refine ⟨fun hc => ?_, i1⟩
        rcases (i2 k').1 hc with hc | hc
        · exact e hc.symm
        · exact h.1 hc
      · rw [List.map_cons, List.mem_cons, i2, List.map_cons, List.mem_cons]
        tauto

theorem keys_setAll [DecidableEq Q] {β : Type} (qs : List Q) (g : Q → β) (m : List (Q × β))
    (h : (m.map (·.1)).Nodup) : ((qs.foldl (fun m q => AMap.set q (g q) m) m).map (·.1)).Nodup := by
  induction qs generalizing m with
  | nil => exact h
  | cons q qs ih => exact ih _ (keys_set q (g q) m h).1

theorem keys_groupLine [DecidableEq Q] (m : List (Q × Q)) (l : List Q) (h : (m.map (·.1)).Nodup) :
    ((groupLine m l).map (·.1)).Nodup := by
  cases l with
  | nil => exact h
  | cons g qs => exact keys_setAll qs (fun _ => g) m h

theorem keys_groups [DecidableEq Q] (ls : List (List Q)) (m : List (Q × Q)) (h : (m.map (·.1)).Nodup) :
    ((ls.foldl groupLine m).map (·.1)).Nodup := by
  induction ls generalizing m with
  | nil => exact h
  | cons l ls ih => exact ih _ (keys_groupLine m l h)

theorem find?_some_iff [DecidableEq Q] {β : Type} (m : List (Q × β)) (k : Q) :
    (AMap.find? k m).isSome = true ↔ k ∈ m.map (·.1) := by
  induction m with
  | nil => simp [AMap.find?]
  | cons p m ih =>
    obtain ⟨k', v'⟩ := p
    unfold AMap.find?
    split
    · rename_i e
      simp [e]
    · rename_i e
      rw [ih, List.map_cons, List.mem_cons]
      exact ⟨Or.inr, fun h => h.resolve_left e⟩

theorem find?_of_mem [DecidableEq Q] {β : Type} (m : List (Q × β)) (h : (m.map (·.1)).Nodup)
    (p : Q × β) (hp : p ∈ m) : AMap.find? p.1 m = some p.2 := by
  induction m with
  | nil => cases hp
  | cons a m ih =>
    obtain ⟨k', v'⟩ := a
    rw [List.map_cons, List.nodup_cons] at h
    unfold AMap.find?
    rcases List.mem_cons.1 hp with rfl | hp'
    · simp
    · rw [if_neg, ih h.2 hp']
      intro e
      exact h.1 (List.mem_map.2 ⟨p, hp', e⟩)

/-- The map of the queries has each key once. -/
theorem readQueryMap_keys (w : World) (o : ToolOptions) (q2g : List (Str × Str))
    (h : readQueryMap (fun (m : Unit) q => (m, .ok q)) w o () = .ok (some q2g)) :
    (q2g.map (·.1)).Nodup := by
  have hid : ∀ (m : Unit) (q : Str), (fun (m : Unit) q => (m, (.ok q : Cpp Str))) m q = (m, .ok q) :=
    fun _ _ => rfl
  unfold readQueryMap at h
  split at h
  · cases hf : w.file o.querySet with
    | none => rw [hf] at h; cases h
    | some t =>
      rw [hf] at h
      obtain ⟨m', e⟩ := readQuerySet_names (names_identity hid _) () t rfl trivial
      simp only [e, Except.map, Except.ok.injEq, Option.some.injEq] at h
      rw [← h]
      exact keys_setAll _ (fun q => q) [] (by simp)
  · split at h
    · cases hf : w.file o.queryGroups with
      | none => rw [hf] at h; cases h
      | some t =>
        rw [hf] at h
        have := readQueryGroups_names (names_identity hid _) () t rfl trivial
        by_cases hg : WellFormedGroups ((lines t).map words)
        · obtain ⟨m', e⟩ := this.1 hg
          simp only [e, Except.ok.injEq, Option.some.injEq] at h
          rw [← h]
          exact keys_groups _ [] (by simp)
        · obtain ⟨m', e⟩ := this.2 hg
          simp only [e, Except.ok.injEq] at h
          cases h
    · cases h
      simp

/-- The number of queries. -/
theorem readQueryMap_length (w : World) (o : ToolOptions) (q2g : List (Str × Str))
    (h : readQueryMap (fun (m : Unit) q => (m, .ok q)) w o () = .ok (some q2g)) :
    q2g.length = (listedQueries w o).toFinset.card := by
  have h1 := readQueryMap_keys w o q2g h
  have h2 := (readQueryMap_spec w o q2g h).1
  rw [← List.length_map (f := (·.1)) (as := q2g), ← List.toFinset_card_of_nodup h1]
  congr 1
  ext q
  rw [List.mem_toFinset, List.mem_toFinset, ← h2, find?_some_iff]

/-- The number of groups. -/
theorem readQueryMap_groups (w : World) (o : ToolOptions) (q2g : List (Str × Str))
    (h : readQueryMap (fun (m : Unit) q => (m, .ok q)) w o () = .ok (some q2g)) :
    (q2g.map (·.2)).dedup.length = ((listedQueries w o).toFinset.image (groupFor w o)).card := by
  have h1 := readQueryMap_keys w o q2g h
  obtain ⟨h2, h3⟩ := readQueryMap_spec w o q2g h
  rw [← List.card_toFinset]
  congr 1
  have hg : ∀ p ∈ q2g, groupFor w o p.1 = p.2 := by
    intro p hp
    rw [← h3]
    unfold groupOf
    rw [find?_of_mem q2g h1 p hp]
  ext g
  simp only [List.mem_toFinset, List.mem_map, Finset.mem_image]
  constructor
  · rintro ⟨p, hp, rfl⟩
    exact ⟨p.1, (h2 p.1).1 ((find?_some_iff q2g p.1).2 (List.mem_map_of_mem hp)), hg p hp⟩
  · rintro ⟨q, hq, rfl⟩
    obtain ⟨p, hp, rfl⟩ := List.mem_map.1 ((find?_some_iff q2g q).1 ((h2 q).2 hq))
    exact ⟨p, hp, (hg p hp).symm⟩

/-! ## Filtering -/

/-- what is said about filtering -/
def saysKept (w : World) (o : ToolOptions) (refs : List (Event Str L))
    (hyps : List (ScoredEvent Str L)) : List Str :=
  onlyIf ((keep (·.query) (listedQueries w o) refs).length < refs.length)
    ("INFO: Number of kept reference events = ".toList ++
      decimal (keep (·.query) (listedQueries w o) refs).length) ++
  onlyIf ((keep (·.base.query) (listedQueries w o) hyps).length < hyps.length)
    ("INFO: Number of kept hypothesis events = ".toList ++
      decimal (keep (·.base.query) (listedQueries w o) hyps).length) ++
  onlyIf (o.queryGroups ≠ [] ∧ listedQueries w o ≠ []) ("INFO: ".toList ++
    decimal ((listedQueries w o).toFinset.image (groupFor w o)).card ++
    " groups were read from ".toList ++ inQuotes o.queryGroups)

theorem keep_length {E : Type} (query : E → Str) (listed : List Str) (es : List E) :
    (keep query listed es).length ≤ es.length := by
  unfold keep
  split
  · exact le_rfl
  · exact List.length_filter_le _ _

theorem onlyIf_congr {c d : Prop} [Decidable c] [Decidable d] (h : c ↔ d) (s : Str) :
    onlyIf c s = onlyIf d s := by
  unfold onlyIf
  by_cases hc : c
  · rw [if_pos hc, if_pos (h.1 hc)]
  · rw [if_neg hc, if_neg (fun hd => hc (h.2 hd))]

/-- What the evaluation says, for events whose queries are renamed by `f`. -/
theorem traceEvaluate_errs [DecidableEq Q] [Cmp Q] [Cmp L'] [LawfulCmp Q] [LawfulCmp L']
    (R : Rnd) (S : StdSort) (rng : Rng G) (kit : ToolKit μ σ Q L') (texts : ToolTexts Q L') (w : World)
    (o : ToolOptions) (f : Str → Q) (g : L → L') (hf : Function.Injective f) (q2g : List (Str × Str))
    (hq : readQueryMap (fun (m : Unit) q => (m, .ok q)) w o () = .ok (some q2g))
    (refs : List (Event Str L)) (hyps : List (ScoredEvent Str L)) (l : List (ScoredEvent Q L')) (s' : σ)
    (ms rep : List (KwsMatch Q L'))
    (h1 : sortHyps S o.sort ((keep (·.base.query) (listedQueries w o) hyps).map
      (ScoredEvent.rename f g)) = .ok l)
    (h2 : SimpleMatcher.run kit.index kit.scorer kit.refsSet
      ((keep (·.query) (listedQueries w o) refs).map (Event.rename f g)) l = .ok (s', ms, rep)) :
    errsOf (traceEvaluate R S rng kit texts w o (q2g.map (Prod.map f f)) (refs.map (Event.rename f g))
        (hyps.map (ScoredEvent.rename f g))).effects = (saysKept w o refs hyps ++
      (onlyIf (o.sort ∉ ["desc".toList, "asc".toList, "none".toList])
        ("WARN: Ignoring sorting criterion ".toList ++ inQuotes o.sort ++
          ". Hypotheses won't be sorted.".toList) ++ ["INFO: Computing matches...".toList] ++
        saysAfter w o (effective ms)
          (keep (·.base.query) (listedQueries w o) hyps).length)).map endl := by
  obtain ⟨k1, _⟩ := readQueryMap_spec w o q2g hq
  have e1 : usedRefs (q2g.map (Prod.map f f)) (refs.map (Event.rename f g)) =
      (keep (·.query) (listedQueries w o) refs).map (Event.rename f g) := by
    rw [usedRefs_rename g hf, ← filter_keep q2g (listedQueries w o) k1]
    rfl
  have e2 : usedHyps (q2g.map (Prod.map f f)) (hyps.map (ScoredEvent.rename f g)) =
      (keep (·.base.query) (listedQueries w o) hyps).map (ScoredEvent.rename f g) := by
    rw [usedHyps_rename g hf, ← filter_keep q2g (listedQueries w o) k1]
    rfl
  have hnil : q2g = [] ↔ listedQueries w o = [] := by
    rw [amap_nil_iff, List.eq_nil_iff_forall_not_mem]
    refine forall_congr' fun q => ?_
    rw [← k1 q]
    cases AMap.find? q q2g <;> simp
  have key := traceMatchAndAssess_errs R S rng kit texts w o (q2g.map (Prod.map f f)) _ _ l s' ms rep h1 h2
  rw [List.length_map] at key
  rw [List.map_append, ← key]
  unfold traceEvaluate
  by_cases hn : q2g = []
  · have hl := hnil.1 hn
    unfold usedRefs at e1
    unfold usedHyps at e2
    rw [if_pos (by rw [hn]; rfl)] at e1 e2
    rw [if_pos (by rw [hn]; rfl), e1, e2]
    have : saysKept w o refs hyps = [] := by
      simp [saysKept, onlyIf, hl, keep]
    rw [this]
    rfl
  · have hl : listedQueries w o ≠ [] := fun h => hn (hnil.2 h)
    have hn' : q2g.map (Prod.map f f) ≠ [] := by simpa using hn
    unfold usedRefs at e1
    unfold usedHyps at e2
    rw [if_neg hn'] at e1 e2
    rw [if_neg hn']
    dsimp only
    rw [e1, e2, sayIf_bind, sayIf_bind, sayIf_bind, errsOf_append, errsOf_append, errsOf_append,
      errsOf_lineEffects, errsOf_lineEffects, errsOf_lineEffects]
    unfold saysKept
    rw [List.map_append, List.map_append]
    simp only [List.length_map, showNat_decimal, quoted_eq]
    have hg : ((q2g.map (Prod.map f f)).map (·.2)).dedup.length =
        ((listedQueries w o).toFinset.image (groupFor w o)).card := by
      rw [← readQueryMap_groups w o q2g hq, List.map_map,
        show ((fun p : Q × Q => p.2) ∘ Prod.map f f) = f ∘ (fun p : Str × Str => p.2) from rfl,
        ← List.map_map, List.dedup_map_of_injective hf, List.length_map]
    rw [hg]
    refine Eq.trans ?_ (List.append_assoc ..).symm
    refine Eq.trans ?_ (List.append_assoc ..).symm
    refine congrArg₂ (· ++ ·) ?_ (congrArg₂ (· ++ ·) ?_ (congrArg₂ (· ++ ·) ?_ rfl))
    · refine congrArg (List.map endl) (onlyIf_congr ?_ _)
      have := keep_length (·.query) (listedQueries w o) refs
      omega
    · refine congrArg (List.map endl) (onlyIf_congr ?_ _)
      have := keep_length (·.base.query) (listedQueries w o) hyps
      omega
    · exact congrArg (List.map endl) (onlyIf_congr (by simp [hl]) _)

/-! ## Reading -/

/-- What is said about the queries. -/
theorem traceQueryMap_some [DecidableEq Q] (mapQuery : μ → Str → μ × Cpp Q) (w : World)
    (o : ToolOptions) (m : μ) (q2g : List (Q × Q)) (h : readQueryMap mapQuery w o m = .ok (some q2g)) :
    traceQueryMap mapQuery w o m = ⟨lineEffects (onlyIf (queryFile o ≠ []) ("INFO: ".toList ++
      decimal q2g.length ++ " queries were read from ".toList ++ inQuotes (queryFile o))),
      .ok (some q2g)⟩ := by
  unfold readQueryMap at h
  unfold traceQueryMap queryFile
  by_cases h1 : o.querySet ≠ [] ∧ o.queryGroups = []
  · rw [if_pos h1] at h
    rw [if_pos h1, if_neg (not_not.2 h1.2), onlyIf, if_pos h1.1]
    cases hf : w.file o.querySet with
    | none => rw [hf] at h; cases h
    | some t =>
      rw [hf] at h
      dsimp only at h ⊢
      cases hr : (readQuerySet mapQuery m t).2 with
      | error f => rw [hr] at h; cases h
      | ok q =>
        rw [hr] at h
        cases h
        rw [lift_ok_bind, say_bind, showNat_decimal]
        rfl
  · rw [if_neg h1] at h
    rw [if_neg h1]
    by_cases h2 : o.queryGroups ≠ []
    · rw [if_pos h2] at h
      rw [if_pos h2, if_pos h2, onlyIf, if_pos h2]
      cases hf : w.file o.queryGroups with
      | none => rw [hf] at h; cases h
      | some t =>
        rw [hf] at h
        dsimp only at h ⊢
        rw [h, lift_ok_bind]
        dsimp only
        rw [say_bind, showNat_decimal]
        rfl
    · rw [if_neg h2] at h
      cases h
      rw [if_neg h2, if_neg h2, onlyIf, if_neg (by tauto)]
      rfl

/-- What a tool reads, in terms of the texts. The names may be replaced as `P` allows. -/
structure KitReads (kit : ToolKit μ σ Q L') [DecidableEq Q] (GR : Str → Event Str L → Str → Prop)
    (GH : Str → ScoredEvent Str L → Str → Prop) (w : World) (o : ToolOptions)
    (P : (Str → Q) → (L → L') → Prop) : Prop where
  badRef : ∀ t k, w.file o.refFilename = some t → FirstBadLine GR t k →
    ∃ m es, kit.readRef kit.mapper t = (m, es, .badLine k)
  ref : ∀ t refs, w.file o.refFilename = some t → Yields GR (lines t) refs →
    ∃ m refs', kit.readRef kit.mapper t = (m, refs', .ok) ∧ refs'.length = refs.length ∧
      ∀ u k, hypText w o = some u → FirstBadLine GH u k → ∃ m' es, kit.readHyp m u = (m', es, .badLine k)
  good : ∀ t u refs hyps, w.file o.refFilename = some t → Yields GR (lines t) refs →
    hypText w o = some u → Yields GH (lines u) hyps →
    ∃ (f : Str → Q) (g : L → L') (m m' : μ), P f g ∧ Function.Injective f ∧ Function.Injective g ∧
      kit.readRef kit.mapper t = (m, refs.map (Event.rename f g), .ok) ∧
      kit.readHyp m u = (m', hyps.map (ScoredEvent.rename f g), .ok) ∧
      ((∃ q2g, readQueryMap (fun (m : Unit) q => (m, .ok q)) w o () = .ok (some q2g) ∧
        readQueryMap kit.mapQuery w o m' = .ok (some (q2g.map (Prod.map f f)))) ∨
      (readQueryMap (fun (m : Unit) q => (m, .ok q)) w o () = .ok none ∧
        readQueryMap kit.mapQuery w o m' = .ok none))

theorem yields_exists {E : Type} {G : Str → E → Str → Prop} (ls : List Str)
    (h : ∀ l ∈ ls, Ignored l ∨ ∃ e, IsEvent G l e) : ∃ es, Yields G ls es := by
  induction ls with
  | nil => exact ⟨[], .nil⟩
  | cons l ls ih =>
    obtain ⟨es, hes⟩ := ih (fun l' hl' => h l' (List.mem_cons_of_mem _ hl'))
    by_cases hi : Ignored l
    · exact ⟨es, .skip hi hes⟩
    · obtain ⟨e, he⟩ := (h l List.mem_cons_self).resolve_left hi
      exact ⟨e :: es, .event hi he hes⟩

/-- A text consists of events, or it has a first bad line. -/
theorem text_cases {E : Type} (G : Str → E → Str → Prop) (t : Str) :
    (∃ es, Yields G (lines t) es) ∨ ∃ k, FirstBadLine G t k := by
  classical
  unfold FirstBadLine
  generalize lines t = ls
  by_cases h : ∀ l ∈ ls, Ignored l ∨ ∃ e, IsEvent G l e
  · exact Or.inl (yields_exists ls h)
  · right
    induction ls with
    | nil => exact absurd (by simp) h
    | cons l ls ih =>
      by_cases hl : Ignored l ∨ ∃ e, IsEvent G l e
      · obtain ⟨k, pre, x, post, e, _, hp, hx⟩ := ih (fun hc => h (by
          intro l' hl'
          rcases List.mem_cons.1 hl' with rfl | hl'
          · exact hl
          · exact hc l' hl'))
        refine ⟨_, l :: pre, x, post, by rw [e]; rfl, rfl, ?_, hx⟩
        intro l' hl'
        rcases List.mem_cons.1 hl' with rfl | hl'
        · exact hl
        · exact hp l' hl'
      · push Not at hl
        exact ⟨1, [], l, ls, rfl, rfl, by simp, hl.1, fun ⟨e, he⟩ => hl.2 e he⟩

theorem Spec.Format.firstBad {E : Type} {R : Rnd} {ex : Extractor E} {G : Str → E → Str → Prop}
    (h : Format R ex G) {t : Str} {k : ℕ} (hb : FirstBadLine G t k) : (readPlain ex t).2 = .badLine k := by
  obtain ⟨pre, l, post, e, hk, hp, hl⟩ := hb
  obtain ⟨es, hes⟩ := yields_exists pre hp
  rw [(C48_rejects h t es k).2 ⟨pre, l, post, e, hk, hes, hl⟩]

/-- A tool that reads strings as they are. -/
theorem PlainKit.reads {R : Rnd} {kit : ToolKit Unit σ Str L} {ex : Extractor (Event Str L)}
    {GR : Str → Event Str L → Str → Prop} (h : PlainKit R kit ex GR) (w : World) (o : ToolOptions) :
    KitReads kit GR (ScoredText R GR) w o (fun f g => f = id ∧ g = id) where
  badRef t k _ hb := by
    refine ⟨(), (readPlain ex t).1, ?_⟩
    rw [h.readRef, ← h.refFormat.firstBad hb]
    rfl
  ref t refs _ hy := by
    refine ⟨(), refs, ?_, rfl, fun u k _ hb => ⟨(), (readPlain (extractScored R ex) u).1, ?_⟩⟩
    · rw [h.readRef_ok t (yields_valid hy), yields_events h.refFormat hy]
    · rw [h.readHyp, ← h.hypFormat.firstBad hb]
      rfl
  good t u refs hyps _ hy _ hy' := by
    refine ⟨id, id, (), (), ⟨rfl, rfl⟩, fun a b e => e, fun a b e => e, ?_, ?_, ?_⟩
    · rw [h.readRef_ok t (yields_valid hy), yields_events h.refFormat hy]
      exact congrArg (fun l => ((), l, ReadStatus.ok)) (List.map_id refs).symm
    · rw [h.readHyp_ok () u (yields_valid hy'), yields_events h.hypFormat hy']
      exact congrArg (fun l => ((), l, ReadStatus.ok)) (List.map_id hyps).symm
    · rw [h.mapQuery]
      cases hq : readQueryMap (fun (m : Unit) q => (m, (.ok q : Cpp Str))) w o () with
      | error f =>
        have := readQueryMap_plain (mapQuery := fun (m : Unit) q => (m, (.ok q : Cpp Str)))
          (fun _ _ => rfl) w o ()
        exfalso
        rcases em ((o.querySet ≠ [] → o.queryGroups = [] → ∃ t, w.file o.querySet = some t) ∧
          (o.queryGroups ≠ [] → ∃ t, w.file o.queryGroups = some t ∧
            WellFormedGroups ((lines t).map words))) with hc | hc
        · obtain ⟨q, e⟩ := this.1 hc
          rw [hq] at e
          cases e
        · have e := this.2 hc
          rw [hq] at e
          cases e
      | ok x =>
        cases x with
        | none => exact Or.inr ⟨rfl, rfl⟩
        | some q2g => exact Or.inl ⟨q2g, rfl, by
          rw [Prod.map_id, List.map_id]⟩

/-- The tool that replaces strings by ids. -/
theorem simple_kitReads (R : Rnd) (qf : Bool) (w : World) (o : ToolOptions)
    (hV : (vocabulary w o).dedup.length ≤ 2 ^ 31) :
    KitReads (simpleKit R qf) StrEventText (ScoredText R StrEventText) w o (fun _ _ => True) where
  badRef t k ht hb := by
    obtain ⟨es, hes⟩ : ∃ es, (readPlain extractStrEvent t).1 = es := ⟨_, rfl⟩
    obtain ⟨m', e1, _⟩ := IntMapper.mapEach_ids qf (2 ^ 31 - 1) (es.flatMap (strings qf)) (by
        rw [kMax31]
        refine (firsts_length_subset _ _ ?_).trans hV
        intro s hs
        obtain ⟨e, he, hs⟩ := List.mem_flatMap.1 hs
        have := ref_strings t e (by rw [hes]; exact he)
        rcases (strings_mem qf e s).1 hs with rfl | rfl
        · exact vocabulary_ref ht this.1
        · exact vocabulary_ref ht this.2) es IntMapper.new [] [] (by simp) (IntMapper.after_new _)
    have := C48_mapped extractStrEvent (IntMapper.mapEvent qf (2 ^ 31 - 1)) IntMapper.new t
    simp only [hes, e1, (Format.strRefs (R := R)).firstBad hb] at this
    exact ⟨_, _, this⟩
  ref t refs ht hy := by
    have hv := yields_valid hy
    have hrefs : (eventsIn extractStrEvent t).flatMap (strings qf) ⊆ vocabulary w o := by
      intro s hs
      obtain ⟨e, he, hs⟩ := List.mem_flatMap.1 hs
      have := ref_strings t e (by rw [(Format.strRefs (R := R)).readPlain_ok t hv]; exact he)
      rcases (strings_mem qf e s).1 hs with rfl | rfl
      · exact vocabulary_ref ht this.1
      · exact vocabulary_ref ht this.2
    obtain ⟨m0, e0, _⟩ := simple_readRef R qf _ [] t hv (by rw [List.append_nil])
      ((firsts_length_subset _ _ hrefs).trans hV)
    refine ⟨m0, _, e0, by rw [List.length_map, yields_events (Format.strRefs (R := R)) hy], ?_⟩
    intro u k hu hb
    obtain ⟨es, hes⟩ : ∃ es, (readPlain (extractScored R extractStrEvent) u).1 = es := ⟨_, rfl⟩
    have hall : (eventsIn extractStrEvent t).flatMap (strings qf) ++
        es.flatMap (fun e => strings qf e.base) ⊆ vocabulary w o := by
      intro s hs
      rcases List.mem_append.1 hs with hs | hs
      · exact hrefs hs
      · obtain ⟨e, he, hs⟩ := List.mem_flatMap.1 hs
        have := hyp_strings R u e (by rw [hes]; exact he)
        rcases (strings_mem qf e.base s).1 hs with rfl | rfl
        · exact vocabulary_hyp hu this.1
        · exact vocabulary_hyp hu this.2
    have hcap := (firsts_length_subset _ _ hall).trans hV
    obtain ⟨m, e1, a1⟩ := simple_readRef R qf _ (es.flatMap (fun e => strings qf e.base)) t hv rfl hcap
    obtain rfl : m0 = m := by
      rw [e0] at e1
      injection e1
    obtain ⟨m', e2, _⟩ := IntMapper.mapEachScored_ids qf (2 ^ 31 - 1) _ (by rw [kMax31]; exact hcap) es
      m0 _ [] (by rw [List.append_nil]) a1
    have := C48_mapped (extractScored R extractStrEvent)
      (IntMapper.mapScoredEvent qf (2 ^ 31 - 1)) m0 u
    simp only [hes, e2, (Format.strHyps (R := R)).firstBad hb] at this
    exact ⟨_, _, this⟩
  good t u refs hyps ht hy hu hy' := by
    obtain ⟨f, N, m, m', hf, _, e1, e2, e3⟩ := simple_ids R qf w o hV t u ht hu (yields_valid hy)
      (yields_valid hy')
    rw [yields_events (Format.strRefs (R := R)) hy] at e1
    rw [yields_events (Format.strHyps (R := R)) hy'] at e2
    exact ⟨f, f, m, m', trivial, hf, hf, e1, e2, e3⟩

/-! ## Whole runs -/

section
variable [DecidableEq Q] [Cmp Q] [Cmp L'] {R : Rnd} {S : StdSort} {rng : Rng G}
  {kit : ToolKit μ σ Q L'} {texts : ToolTexts Q L'} {GR : Str → Event Str L → Str → Prop}
  {GH : Str → ScoredEvent Str L → Str → Prop} {w : World} {o : ToolOptions}
  {P : (Str → Q) → (L → L') → Prop}

omit [DecidableEq Q] [Cmp Q] [Cmp L'] in
theorem traceRead_bad {E : Type} {read : Str → μ × List E × ReadStatus} {t : Str} {m : μ} {es : List E}
    {k : ℕ} (h : read t = (m, es, .badLine k)) : traceRead read (some t) =
      ⟨lineEffects ["ERROR: Failed to read event from line ".toList ++ decimal k], .ok none⟩ := by
  unfold traceRead
  simp only [h]
  rw [say_bind, showNat_decimal]
  rfl

omit [DecidableEq Q] [Cmp Q] [Cmp L'] in
theorem traceRead_ok {E : Type} {read : Str → μ × List E × ReadStatus} {t : Str} {m : μ} {es : List E}
    (h : read t = (m, es, .ok)) : traceRead read (some t) = pure (some (m, es)) := by
  unfold traceRead
  simp only [h]

omit [DecidableEq Q] [Cmp Q] [Cmp L'] in
theorem traceRead_unreadable {E F : Type} {G : Str → E → Str → Prop} {read : Str → μ × List F × ReadStatus}
    {text : Option Str} {ds : List Str} (h : Unreadable G text ds)
    (hr : ∀ t k, text = some t → FirstBadLine G t k → ∃ m es, read t = (m, es, .badLine k)) :
    traceRead read text = ⟨lineEffects ds, .ok none⟩ := by
  cases h with
  | missing => rfl
  | badLine hb =>
    obtain ⟨m, es, e⟩ := hr _ _ rfl hb
    exact traceRead_bad e

/-- The part after the references. -/
theorem main_refs {argc : ℕ} {t : Str} {m : μ} {refs : List (Event Q L')}
    (h0 : o.refFilename ≠ []) (h1 : w.file o.refFilename = some t)
    (h2 : kit.readRef kit.mapper t = (m, refs, .ok)) (x : Traced Nat)
    (hx : (traceRead (kit.readHyp m) (hypText w o) >>= fun
      | none => do
        say (sayHypsFailed o argc)
        return 1
      | some (m, hyps) => do
        say (sayHyps hyps.length)
        match ← traceQueryMap kit.mapQuery w o m with
        | none => return 1
        | some q2g => traceEvaluate R S rng kit texts w o q2g refs hyps) = x) :
    traceMainWith R S rng kit texts w argc o =
      ⟨lineEffects [sayRefs refs.length] ++ x.effects, x.result⟩ := by
  subst hx
  unfold traceMainWith
  rw [if_neg h0, h1, traceRead_ok h2, pure_bind']
  dsimp only
  rw [say_bind, showNat_decimal]
  refine congrArg (fun x : Traced Nat =>
    (⟨.err (endl (sayRefs refs.length)) :: x.effects, x.result⟩ : Traced Nat)) ?_
  refine congrArg (traceRead (kit.readHyp m) (hypText w o) >>= ·) (funext fun y => ?_)
  cases y with
  | none =>
    dsimp only
    refine congrArg (fun s => (say s >>= fun _ => (pure 1 : Traced Nat))) ?_
    unfold sayHypsFailed sayFailed
    rw [quoted_eq]
  | some y =>
    obtain ⟨m', hyps⟩ := y
    dsimp only
    rw [say_bind, say_bind, showNat_decimal]
    rfl

/-- The part after the hypotheses. -/
theorem main_hyps {argc : ℕ} {t u : Str} {m m' : μ} {refs : List (Event Q L')}
    {hyps : List (ScoredEvent Q L')} (h0 : o.refFilename ≠ []) (h1 : w.file o.refFilename = some t)
    (h2 : kit.readRef kit.mapper t = (m, refs, .ok)) (h3 : hypText w o = some u)
    (h4 : kit.readHyp m u = (m', hyps, .ok)) (x : Traced Nat)
    (hx : (traceQueryMap kit.mapQuery w o m' >>= fun
        | none => return 1
        | some q2g => traceEvaluate R S rng kit texts w o q2g refs hyps) = x) :
    traceMainWith R S rng kit texts w argc o =
      ⟨lineEffects [sayRefs refs.length, sayHyps hyps.length] ++ x.effects, x.result⟩ := by
  subst hx
  rw [main_refs h0 h1 h2 _ rfl, h3, traceRead_ok h4, pure_bind']
  dsimp only
  rw [say_bind]
  rfl

/-- A run that stops early. -/
theorem KitReads.stops (hk : KitReads kit GR GH w o P) {argc : ℕ} {ds : List Str}
    (h : Stops GR GH w o argc ds) :
    traceMainWith R S rng kit texts w argc o = ⟨lineEffects ds, .ok 1⟩ := by
  have hplain := readQueryMap_plain (mapQuery := fun (m : Unit) q => (m, (.ok q : Cpp Str)))
          (fun _ _ => rfl) w o ()
  cases h with
  | noName h0 =>
    unfold traceMainWith
    rw [if_pos h0]
    rfl
  | refs h0 hu =>
    unfold traceMainWith
    rw [if_neg h0, traceRead_unreadable hu hk.badRef, lineEffects_append]
    rfl
  | @hyps t refs ds h0 h1 hy hu =>
    obtain ⟨m, refs', e1, e2, e3⟩ := hk.ref t refs h1 hy
    rw [main_refs h0 h1 e1 _ rfl, traceRead_unreadable hu e3, e2, lineEffects_append]
    rfl
  | @querySet refs hyps hi h1 h2 h3 =>
    obtain ⟨h0, ⟨t, ht, hy⟩, ⟨u, hu, hy'⟩⟩ := hi
    obtain ⟨f, g, m, m', _, _, _, e1, e2, _⟩ := hk.good t u refs hyps ht hy hu hy'
    rw [main_hyps h0 ht e1 hu e2 _ rfl]
    unfold traceQueryMap
    rw [if_pos ⟨h1, h2⟩, h3, List.length_map, List.length_map]
    rfl
  | @groups refs hyps hi h1 h2 =>
    obtain ⟨h0, ⟨t, ht, hy⟩, ⟨u, hu, hy'⟩⟩ := hi
    obtain ⟨f, g, m, m', _, _, _, e1, e2, _⟩ := hk.good t u refs hyps ht hy hu hy'
    rw [main_hyps h0 ht e1 hu e2 _ rfl]
    unfold traceQueryMap
    rw [if_neg (by tauto), if_pos h1, h2, List.length_map, List.length_map]
    rfl
  | @format refs hyps x hi h1 h2 h3 =>
    obtain ⟨h0, ⟨t, ht, hy⟩, ⟨u, hu, hy'⟩⟩ := hi
    obtain ⟨f, g, m, m', _, _, _, e1, e2, e3⟩ := hk.good t u refs hyps ht hy hu hy'
    have hnone := hplain.2 (fun hc => by
      obtain ⟨y, hy, hw⟩ := hc.2 h1
      rw [h2] at hy
      cases hy
      exact h3 hw)
    rw [hnone] at e3
    have e4 : readQueryMap kit.mapQuery w o m' = .ok none := by
      rcases e3 with ⟨_, h, _⟩ | ⟨_, h⟩
      · cases h
      · exact h
    rw [main_hyps h0 ht e1 hu e2 _ rfl]
    unfold readQueryMap at e4
    unfold traceQueryMap
    rw [if_neg (by tauto), if_pos h1, h2] at e4
    dsimp only at e4
    rw [if_neg (by tauto), if_pos h1, h2, List.length_map, List.length_map]
    dsimp only
    rw [e4]
    rfl

/-- A run that gets to the evaluation. -/
theorem KitReads.inputs (hk : KitReads kit GR GH w o P) (argc : ℕ) {refs : List (Event Str L)}
    {hyps : List (ScoredEvent Str L)} (hi : Inputs GR GH w o refs hyps) (hq : QueriesReadable w o) :
    ∃ (f : Str → Q) (g : L → L') (q2g : List (Str × Str)), P f g ∧ Function.Injective f ∧ Function.Injective g ∧
      readQueryMap (fun (m : Unit) q => (m, .ok q)) w o () = .ok (some q2g) ∧
      let t := traceEvaluate R S rng kit texts w o (q2g.map (Prod.map f f))
        (refs.map (Event.rename f g)) (hyps.map (ScoredEvent.rename f g))
      traceMainWith R S rng kit texts w argc o = ⟨lineEffects ([sayRefs refs.length, sayHyps hyps.length] ++
        onlyIf (queryFile o ≠ []) ("INFO: ".toList ++ decimal (listedQueries w o).toFinset.card ++
          " queries were read from ".toList ++ inQuotes (queryFile o))) ++ t.effects, t.result⟩ := by
  have hplain := readQueryMap_plain (mapQuery := fun (m : Unit) q => (m, (.ok q : Cpp Str)))
          (fun _ _ => rfl) w o ()
  obtain ⟨h0, ⟨t, ht, hy⟩, ⟨u, hu, hy'⟩⟩ := hi
  obtain ⟨f, g, m, m', hP, hf, hg, e1, e2, e3⟩ := hk.good t u refs hyps ht hy hu hy'
  obtain ⟨q2g, hq2⟩ := hplain.1 ⟨hq.querySet, hq.queryGroups⟩
  have e4 : readQueryMap kit.mapQuery w o m' = .ok (some (q2g.map (Prod.map f f))) := by
    rcases e3 with ⟨q, h, h'⟩ | ⟨h, _⟩
    · rw [hq2] at h
      cases h
      exact h'
    · rw [hq2] at h
      cases h
  refine ⟨f, g, q2g, hP, hf, hg, hq2, ?_⟩
  intro x
  rw [main_hyps h0 ht e1 hu e2 _ rfl, traceQueryMap_some _ _ _ _ _ e4, List.length_map, List.length_map,
    List.length_map, readQueryMap_length w o q2g hq2, lineEffects_append, List.append_assoc]
  rfl

/-- A run stops early, or it gets to the evaluation. -/
theorem stops_or_inputs (GR : Str → Event Str L → Str → Prop)
    (GH : Str → ScoredEvent Str L → Str → Prop) (w : World) (o : ToolOptions) (argc : ℕ) :
    (∃ ds, Stops GR GH w o argc ds) ∨
      ((∃ refs hyps, Inputs GR GH w o refs hyps) ∧ QueriesReadable w o) := by
  by_cases h0 : o.refFilename = []
  · exact Or.inl ⟨_, .noName h0⟩
  cases ht : w.file o.refFilename with
  | none => exact Or.inl ⟨_, .refs h0 (by rw [ht]; exact .missing)⟩
  | some t =>
  rcases text_cases GR t with ⟨refs, hy⟩ | ⟨k, hb⟩
  swap
  · exact Or.inl ⟨_, .refs h0 (by rw [ht]; exact .badLine hb)⟩
  cases hu : hypText w o with
  | none => exact Or.inl ⟨_, .hyps h0 ht hy (by rw [hu]; exact .missing)⟩
  | some u =>
  rcases text_cases GH u with ⟨hyps, hy'⟩ | ⟨k, hb⟩
  swap
  · exact Or.inl ⟨_, .hyps h0 ht hy (by rw [hu]; exact .badLine hb)⟩
  have hi : Inputs GR GH w o refs hyps := ⟨h0, ⟨t, ht, hy⟩, ⟨u, hu, hy'⟩⟩
  by_cases hg : o.queryGroups = []
  · by_cases hs : o.querySet = []
    · exact Or.inr ⟨⟨refs, hyps, hi⟩, fun h => absurd hs h, fun h => absurd hg h⟩
    · cases hf : w.file o.querySet with
      | none => exact Or.inl ⟨_, .querySet hi hs hg hf⟩
      | some q => exact Or.inr ⟨⟨refs, hyps, hi⟩, fun _ _ => ⟨q, hf⟩, fun h => absurd hg h⟩
  · cases hf : w.file o.queryGroups with
    | none => exact Or.inl ⟨_, .groups hi hg hf⟩
    | some q =>
      by_cases hw : WellFormedGroups ((lines q).map words)
      · exact Or.inr ⟨⟨refs, hyps, hi⟩, fun _ h => absurd h hg, fun _ => ⟨q, hf, hw⟩⟩
      · exact Or.inl ⟨_, .format hi hg hf hw⟩

end

end

end Kws
