import Verif.Lemmas.Decompose
import Verif.Lemmas.Ids
import Verif.Props.Query
import Verif.Spec.QueryFiles

/-!
# Lemmas on what the query options select
-/

namespace Kws
open Spec

section
variable {μ σ Q L G : Type} [DecidableEq Q] [Cmp Q] [LawfulCmp Q] [Cmp L] [LawfulCmp L]

omit [DecidableEq Q] [Cmp Q] [LawfulCmp Q] [Cmp L] [LawfulCmp L] in
theorem matchQuery_of (m : KwsMatch Q L) (q : Q) (h : queryOf m = some q) : matchQuery m = .ok q := by
  unfold queryOf at h
  unfold matchQuery Match.hasRef Match.getRef Match.getHyp
  cases hr : m.ref with
  | some r => simp_all [bind, Except.bind, pure, Except.pure]
  | none =>
    cases hh : m.hyp with
    | none => simp_all
    | some x => simp_all [bind, Except.bind, pure, Except.pure]

omit [Cmp Q] [LawfulCmp Q] [Cmp L] [LawfulCmp L] in
/-- Grouping depends only on which queries share a group. -/
theorem groupLoop_same (a b : List (Q × Q)) (P : Q → Prop)
    (hab : ∀ q q', P q → P q' → (groupOf a q = groupOf a q' ↔ groupOf b q = groupOf b q')) :
    ∀ (ms : List (KwsMatch Q L)) (pa pb : List (Q × Nat)) (gs : List (List (KwsMatch Q L))),
      (∀ m ∈ ms, ∃ q, queryOf m = some q ∧ P q) → pa.length = pb.length →
      (∀ q, P q → AMap.find? (groupOf a q) pa = AMap.find? (groupOf b q) pb) →
      (groupLoop a ms (pa, gs)).map (·.2) = (groupLoop b ms (pb, gs)).map (·.2) := by
  intro ms
  induction ms with
  | nil => intro pa pb gs _ _ _; rfl
  | cons m ms ih =>
    intro pa pb gs hm hl hf
    obtain ⟨q, hq, hP⟩ := hm m (by simp)
    have e := matchQuery_of m q hq
    have hm' : ∀ m ∈ ms, ∃ q, queryOf m = some q ∧ P q := fun x hx => hm x (by simp [hx])
    unfold groupLoop
    rw [e]
    simp only [bind, Except.bind]
    have h2 : (AMap.emplace (groupOf a q) pa.length pa).2 = (AMap.emplace (groupOf b q) pb.length pb).2 := by
      rw [AMap.emplace_snd, AMap.emplace_snd, hf q hP, hl]
    have h1 : (AMap.emplace (groupOf a q) pa.length pa).1.length =
        (AMap.emplace (groupOf b q) pb.length pb).1.length := by
      have := hf q hP
      unfold AMap.emplace
      rw [this]
      cases AMap.find? (groupOf b q) pb <;> simp [hl]
    have h3 : ∀ q', P q' → AMap.find? (groupOf a q') (AMap.emplace (groupOf a q) pa.length pa).1 =
        AMap.find? (groupOf b q') (AMap.emplace (groupOf b q) pb.length pb).1 := by
      intro q' hP'
      rw [AMap.find?_emplace, AMap.find?_emplace, hf q hP, hf q' hP', hl]
      simp only [hab q' q hP' hP]
    unfold groupStep
    simp only []
    rw [h2]
    split
    · exact ih _ _ _ hm' h1 h3
    · exact ih _ _ _ hm' h1 h3

omit [Cmp Q] [LawfulCmp Q] [Cmp L] [LawfulCmp L] in
theorem groupMatches_same (a b : List (Q × Q)) (P : Q → Prop)
    (hab : ∀ q q', P q → P q' → (groupOf a q = groupOf a q' ↔ groupOf b q = groupOf b q'))
    (ms : List (KwsMatch Q L)) (hm : ∀ m ∈ ms, ∃ q, queryOf m = some q ∧ P q) :
    groupMatches a ms = groupMatches b ms := by
  have := groupLoop_same a b P hab ms [] [] [] hm rfl (fun _ _ => rfl)
  unfold groupMatches
  revert this
  cases groupLoop a ms ([], []) <;> cases groupLoop b ms ([], []) <;>
    simp [Except.map, bind, Except.bind, pure, Except.pure]

/-- The kept queries, and which of them share a group, decide the evaluation. -/
theorem evaluate_same (R : Rnd) (S : StdSort) (rng : Rng G) (kit : ToolKit μ σ Q L)
    (hk : QueryWise kit) (w : World) (o : ToolOptions) (a b : List (Q × Q)) (refs : List (Event Q L))
    (hyps : List (ScoredEvent Q L)) (P : Q → Prop) (hr : ∀ e ∈ refs, P e.query)
    (hh : ∀ x ∈ hyps, P x.base.query)
    (hl : ∀ q, P q → ((a = [] ∨ (AMap.find? q a).isSome = true) ↔
      (b = [] ∨ (AMap.find? q b).isSome = true)))
    (hab : ∀ q q', P q → P q' → (a = [] ∨ (AMap.find? q a).isSome = true) →
      (a = [] ∨ (AMap.find? q' a).isSome = true) →
      (groupOf a q = groupOf a q' ↔ groupOf b q = groupOf b q')) :
    evaluate R S rng kit w o a refs hyps = evaluate R S rng kit w o b refs hyps := by
  have key : ∀ {E : Type} (query : E → Q) (es : List E), (∀ e ∈ es, P (query e)) →
      (if a = [] then es else filterEvents a query es) =
        (if b = [] then es else filterEvents b query es) := by
    intro E query es he
    have f : ∀ c : List (Q × Q), (if c = [] then es else filterEvents c query es) =
        es.filter (fun e => c = [] ∨ (AMap.find? (query e) c).isSome = true) := by
      intro c
      unfold filterEvents
      split
      · rename_i h; simp [h]
      · rename_i h; simp [h]
    rw [f, f]
    refine List.filter_congr fun e h => ?_
    simp only [hl _ (he e h)]
  unfold evaluate
  dsimp only
  rw [← key (·.query) refs hr, ← key (·.base.query) hyps hh]
  have hr' : ∀ e ∈ (if a = [] then refs else filterEvents a (·.query) refs),
      P e.query ∧ (a = [] ∨ (AMap.find? e.query a).isSome = true) := by
    intro e he
    split at he
    · rename_i h; exact ⟨hr e he, Or.inl h⟩
    · unfold filterEvents at he
      rw [List.mem_filter] at he
      exact ⟨hr e he.1, Or.inr he.2⟩
  have hh' : ∀ e ∈ (if a = [] then hyps else filterEvents a (·.base.query) hyps),
      P e.base.query ∧ (a = [] ∨ (AMap.find? e.base.query a).isSome = true) := by
    intro e he
    split at he
    · rename_i h; exact ⟨hh e he, Or.inl h⟩
    · unfold filterEvents at he
      rw [List.mem_filter] at he
      exact ⟨hh e he.1, Or.inr he.2⟩
  generalize (if a = [] then refs else filterEvents a (·.query) refs) = rs at hr' ⊢
  generalize (if a = [] then hyps else filterEvents a (·.base.query) hyps) = hs at hh' ⊢
  unfold matchAndAssess
  simp only [bind, Except.bind]
  cases h1 : sortHyps S o.sort hs with
  | error f => rfl
  | ok l =>
    have hmem : ∀ x ∈ l, x ∈ hs := fun x hx => (sortHyps_mem S o.sort hs l h1).mem_iff.1 hx
    dsimp only
    cases h2 : SimpleMatcher.run kit.index kit.scorer kit.refsSet rs l with
    | error f => rfl
    | ok v =>
      obtain ⟨s', ms, rep⟩ := v
      obtain ⟨q1, q2⟩ := run_queries kit hk rs l s' ms rep h2
      have hq : ∀ m ∈ ms, ∃ q, queryOf m = some q ∧
          (P q ∧ (a = [] ∨ (AMap.find? q a).isSome = true)) := by
        intro m hm
        obtain ⟨q, hq⟩ := q1 m hm
        refine ⟨q, hq, ?_⟩
        rcases (q2 q).1 ⟨m, hm, hq⟩ with ⟨e, he, rfl⟩ | ⟨x, hx, rfl⟩
        · exact hr' e he
        · exact hh' x (hmem x hx)
      dsimp only
      rw [groupMatches_same a b _ (fun q q' h h' => hab q q' h.1 h'.1 h.2 h'.2) ms hq]

end

/-- The selection is what the tool reads. -/
theorem readQueryMap_selection {μ : Type} {mapQuery : μ → Str → μ × Cpp Str}
    (hid : ∀ m q, mapQuery m q = (m, .ok q)) (w : World) (o : ToolOptions) (m : μ) :
    (∀ f, selection w o = some f → ∃ q2g, readQueryMap mapQuery w o m = .ok (some q2g) ∧
      ∀ q, f q = if q2g = [] ∨ (AMap.find? q q2g).isSome = true then some (groupOf q2g q) else none) ∧
    (selection w o = none → readQueryMap mapQuery w o m = .ok none) := by
  unfold selection readQueryMap
  by_cases hg : o.queryGroups = []
  · rw [if_neg (by simpa using hg)]
    by_cases hs : o.querySet = []
    · rw [if_neg (by simpa using hs), if_neg (fun h => h.1 hs), if_neg (by simpa using hg)]
      refine ⟨?_, by simp⟩
      rintro f ⟨⟩
      exact ⟨[], rfl, fun q => by simp [groupOf, AMap.find?]⟩
    · rw [if_pos hs, if_pos ⟨hs, hg⟩]
      cases w.file o.querySet with
      | none => simp
      | some text =>
        refine ⟨?_, by simp⟩
        intro f hf
        obtain ⟨m', e⟩ := readQuerySet_names (names_identity hid _) m text rfl trivial
        have hfind : ∀ q, AMap.find? q (((words text).map id).foldl
            (fun q2g q => AMap.set q q q2g) []) = if q ∈ words text then some q else none := by
          intro q
          have := find?_setAll ((words text).map id) (fun q => q) ([] : List (Str × Str)) q
          simpa [AMap.find?] using this
        refine ⟨_, by dsimp only; rw [e]; rfl, fun q => ?_⟩
        have hnil : ((words text).map id).foldl (fun q2g q => AMap.set q q q2g)
            ([] : List (Str × Str)) = [] ↔ words text = [] := by
          rw [amap_nil_iff, List.eq_nil_iff_forall_not_mem]
          refine forall_congr' fun q => ?_
          rw [hfind]
          simp
        unfold groupOf
        simp only [hnil, hfind]
        simp only [Option.map_some, Option.some.injEq] at hf
        subst hf
        unfold setSelection
        by_cases h1 : words text = []
        · simp [h1]
        · rw [if_neg h1]
          by_cases h2 : q ∈ words text <;> simp [h1, h2]
  · rw [if_pos hg, if_neg (fun h => hg h.2), if_pos hg]
    cases w.file o.queryGroups with
    | none => simp
    | some text =>
      obtain ⟨g1, g2⟩ := C59_groups hid m text
      set ls := (lines text).map words with hls
      simp only [Option.bind_some]
      by_cases hw : ∀ l ∈ ls, 2 ≤ l.length
      · rw [if_pos hw]
        refine ⟨?_, by simp⟩
        rintro f ⟨⟩
        obtain ⟨m', q2g, e, hq⟩ := g1 hw
        refine ⟨q2g, by rw [e], fun q => ?_⟩
        have hnil : q2g = [] ↔ ls = [] := by
          rw [amap_nil_iff]
          constructor
          · intro h
            cases hc : ls with
            | nil => rfl
            | cons l ls' =>
              have h2 := hw l (by rw [hc]; simp)
              obtain ⟨a, b, t, rfl⟩ : ∃ a b t, l = a :: b :: t := by
                match l, h2 with
                | a :: b :: t, _ => exact ⟨a, b, t, rfl⟩
              have := (groupIn_isSome ls b).2 (by
                unfold listedIn
                rw [hc]
                simp)
              rw [← hq, h b] at this
              simp at this
          · intro h q
            rw [hq, h]
            rfl
        unfold groupOf groupSelection
        simp only [hnil, hq, ← hls]
        by_cases h1 : ls = []
        · simp [h1, groupIn]
        · rw [if_neg h1]
          cases groupIn ls q <;> simp [h1]
      · rw [if_neg hw]
        refine ⟨by simp, fun _ => ?_⟩
        obtain ⟨m', e⟩ := g2 hw
        rw [e]

end Kws
