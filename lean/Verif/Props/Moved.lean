import Verif.Lemmas.Moved

/-!
# C89, C102: names, positions and resolution do not matter to the box tool
-/

namespace Kws
open Spec

theorem keep_map {E E' : Type} {query : E → Str} {query' : E' → Str} {f : E → E'} {ρ : Str → Str}
    (hρ : Function.Injective ρ) (hq : ∀ e, query' (f e) = ρ (query e)) (listed : List Str)
    (es : List E) : keep query' (listed.map ρ) (es.map f) = (keep query listed es).map f := by
  unfold keep
  by_cases hl : listed = []
  · rw [if_pos hl, if_pos (by rw [hl]; rfl)]
  · rw [if_neg hl, if_neg (by simpa using hl), List.filter_map]
    congr 1
    refine List.filter_congr fun e _ => ?_
    simp only [Function.comp, hq, decide_eq_decide]
    exact List.mem_map_of_injective hρ

theorem keep_mem {E : Type} {query : E → Str} {listed : List Str} {es : List E} {e : E}
    (h : e ∈ keep query listed es) : e ∈ es := by
  unfold keep at h
  split at h
  · exact h
  · exact (List.mem_filter.1 h).1

theorem mapMatch_placed {ρ δ : Str → Str} {κ : Str → ℕ × ℕ} {τ : Str → ℤ × ℤ}
    {m : Match (Event Str (DocBox Str UInt32)) (ScoredEvent Str (DocBox Str UInt32))}
    (h1 : ∀ r, m.ref = some r → Placed ρ δ κ τ r (placeE ρ δ κ τ r))
    (h2 : ∀ h, m.hyp = some h → PlacedScored ρ δ κ τ h (placeS ρ δ κ τ h)) :
    PlacedMatch ρ δ κ τ m (mapMatch (placeE ρ δ κ τ) (placeS ρ δ κ τ) m) := by
  obtain ⟨r, h, e⟩ := m
  refine ⟨?_, ?_, rfl⟩
  · cases r with
    | none => exact .none
    | some r => exact .some (h1 r rfl)
  · cases h with
    | none => exact .none
    | some h => exact .some (h2 h rfl)

/-- Where the events of a matching come from. -/
theorem exactBoxMatching_mem {refs : List (Event Str (DocBox Str UInt32))}
    {hyps : List (ScoredEvent Str (DocBox Str UInt32))}
    {ms rep : List (Match (Event Str (DocBox Str UInt32)) (ScoredEvent Str (DocBox Str UInt32)))}
    (h : ExactBoxMatching refs hyps ms rep) : ∀ m, m ∈ ms ∨ m ∈ rep →
      (∀ r, m.ref = some r → r ∈ refs) ∧ (∀ x, m.hyp = some x → x ∈ hyps) := by
  obtain ⟨l, ov, en, mi, a1, a2, a3, a4, a5, a6, rfl⟩ := h
  have hr : ∀ m, m ∈ en ∨ m ∈ rep → ∀ r, m.ref = some r → r ∈ refs := by
    intro m hm r e
    obtain ⟨x, hx, hy⟩ := a4.ref_mem m hm r e
    exact (((a3 x hx).1 r).1 hy).1
  have hl : ∀ {m : Match (Event Str (DocBox Str UInt32)) (ScoredEvent Str (DocBox Str UInt32))},
      (∃ x ∈ l, m.hyp = some x) → ∀ x, m.hyp = some x → x ∈ hyps := by
    rintro m ⟨x, hx, e⟩ y hy
    rw [e, Option.some.injEq] at hy
    subst hy
    exact a1.mem_iff.1 hx
  rintro m (hm | hm)
  · rcases List.mem_append.1 hm with hm | hm
    · exact ⟨hr m (.inl hm), hl (a4.hyp_mem m hm)⟩
    · obtain ⟨r, hmi, rfl⟩ := List.mem_map.1 hm
      refine ⟨fun r' hr' => ?_, by simp⟩
      simp only [Option.some.injEq] at hr'
      rw [← hr']
      exact ((a6 r).1 hmi).1
  · exact ⟨hr m (.inr hm), hl (a4.rep_hyp m hm)⟩

theorem forall₂_map_self {α β : Type} {R : α → β → Prop} {f : α → β} {l : List α}
    (h : ∀ a ∈ l, R a (f a)) : List.Forall₂ R l (l.map f) := by
  induction l with
  | nil => exact .nil
  | cons a l ih => exact .cons (h a (by simp)) (ih fun x hx => h x (by simp [hx]))

/-- C102: the matching of renamed, scaled and moved events consists of the renamed, scaled and moved
matches. -/
theorem C102_matching {ρ δ : Str → Str} {κ : Str → ℕ × ℕ} {τ : Str → ℤ × ℤ} (hρ : Function.Injective ρ)
    (hδ : Function.Injective δ) (hκ : ∀ d, 0 < (κ d).1 ∧ 0 < (κ d).2)
    {refs refs' : List (Event Str (DocBox Str UInt32))}
    {hyps hyps' : List (ScoredEvent Str (DocBox Str UInt32))}
    {ms rep ms' rep' : List (Match (Event Str (DocBox Str UInt32)) (ScoredEvent Str (DocBox Str UInt32)))}
    (hr : List.Forall₂ (Placed ρ δ κ τ) refs refs') (hh : List.Forall₂ (PlacedScored ρ δ κ τ) hyps hyps')
    (hn : ∀ h ∈ hyps, h.score ≠ .nan)
    (h : ExactBoxMatching refs hyps ms rep) (h' : ExactBoxMatching refs' hyps' ms' rep') :
    (∃ k, List.Forall₂ (PlacedMatch ρ δ κ τ) ms k ∧ ms'.Perm k) ∧
      (∃ k, List.Forall₂ (PlacedMatch ρ δ κ τ) rep k ∧ rep'.Perm k) := by
  obtain ⟨er, hr2⟩ := map_of_forall₂ (f := placeE ρ δ κ τ) (fun _ _ h => Placed.eq h) hr
  obtain ⟨eh, hh2⟩ := map_of_forall₂ (f := placeS ρ δ κ τ) (fun _ _ h => PlacedScored.eq h) hh
  subst er eh
  obtain ⟨p1, p2⟩ := matching_placed hρ hδ hκ hr2 hh2 hn h h'
  have hm := exactBoxMatching_mem h
  refine ⟨⟨_, forall₂_map_self fun m hm' => ?_, p1⟩, ⟨_, forall₂_map_self fun m hm' => ?_, p2⟩⟩
  · exact mapMatch_placed (fun r e => hr2 r ((hm m (.inl hm')).1 r e))
      (fun x e => hh2 x ((hm m (.inl hm')).2 x e))
  · exact mapMatch_placed (fun r e => hr2 r ((hm m (.inr hm')).1 r e))
      (fun x e => hh2 x ((hm m (.inr hm')).2 x e))

/-- The numbers of the two matchings. -/
theorem numbers_placed {ρ δ γ : Str → Str} {κ : Str → ℕ × ℕ}
    {τ : Str → ℤ × ℤ} (hρ : Function.Injective ρ)
    (hδ : Function.Injective δ)
    (hκ : ∀ d, 0 < (κ d).1 ∧ 0 < (κ d).2) (hγ : Function.Injective γ)
    {refs refs' : List (Event Str (DocBox Str UInt32))}
    {hyps hyps' : List (ScoredEvent Str (DocBox Str UInt32))}
    {ms rep ms' rep' : List (Match (Event Str (DocBox Str UInt32)) (ScoredEvent Str (DocBox Str UInt32)))}
    (hr : List.Forall₂ (Placed ρ δ κ τ) refs refs') (hh : List.Forall₂ (PlacedScored ρ δ κ τ) hyps hyps')
    (hn : ∀ h ∈ hyps, h.score ≠ .nan) {grp grp' : Str → Str}
    (hg1 : ∀ r ∈ refs, grp' (ρ r.query) = γ (grp r.query))
    (hg2 : ∀ x ∈ hyps, grp' (ρ x.base.query) = γ (grp x.base.query))
    (h : ExactBoxMatching refs hyps ms rep) (h' : ExactBoxMatching refs' hyps' ms' rep')
    (interp trapezoid : Bool) :
    matchNumbers grp' interp trapezoid ms' = matchNumbers grp interp trapezoid ms := by
  obtain ⟨er, hr2⟩ := map_of_forall₂ (f := placeE ρ δ κ τ) (fun _ _ h => Placed.eq h) hr
  obtain ⟨eh, hh2⟩ := map_of_forall₂ (f := placeS ρ δ κ τ) (fun _ _ h => PlacedScored.eq h) hh
  subst er eh
  obtain ⟨p1, -⟩ := matching_placed hρ hδ hκ hr2 hh2 hn h h'
  have hm := exactBoxMatching_mem h
  have hm' := exactBoxMatching_mem h'
  rw [matchNumbers_perm grp' interp trapezoid p1 ?_]
  · refine matchNumbers_map (placeE ρ δ κ τ) (placeS ρ δ κ τ) (fun _ => rfl) (fun _ => rfl) grp grp' γ hγ
      interp trapezoid ms ?_
    intro m hmm e he
    unfold eventOf at he
    cases hre : m.ref with
    | some r =>
      rw [hre] at he
      simp only [Option.some_or, Option.some.injEq] at he
      subst he
      exact hg1 r ((hm m (.inl hmm)).1 r hre)
    | none =>
      rw [hre, Option.none_or, Option.map_eq_some_iff] at he
      obtain ⟨x, hx, rfl⟩ := he
      exact hg2 x ((hm m (.inl hmm)).2 x hx)
  · intro s hs
    obtain ⟨m, hmm, e⟩ := List.mem_filterMap.1 hs
    obtain ⟨x, hx, rfl⟩ := Option.map_eq_some_iff.1 e
    obtain ⟨y, hy, rfl⟩ := List.mem_map.1 ((hm' m (.inl hmm)).2 x hx)
    exact hn y hy

/-! ## The files with queries and groups -/

/-- Without such files the groups are the queries. -/
theorem C89_no_files {ρ : Str → Str} {w w' : World} {o o' : ToolOptions} (h1 : o.queryGroups = [])
    (h2 : o.querySet = []) (h1' : o'.queryGroups = []) (h2' : o'.querySet = []) :
    RenamedQueries ρ ρ w o w' o' := by
  constructor
  · unfold listedQueries
    simp [h1, h2, h1', h2']
  · intro q _
    unfold groupFor
    simp [h1, h1']

/-- A file with the renamed queries. -/
theorem C89_query_set {ρ : Str → Str} {w w' : World} {o o' : ToolOptions} (h1 : o.queryGroups = [])
    (h2 : o.querySet ≠ []) (h1' : o'.queryGroups = []) (h2' : o'.querySet ≠ []) (t t' : Str)
    (ht : w.file o.querySet = some t) (ht' : w'.file o'.querySet = some t')
    (h : words t' = (words t).map ρ) : RenamedQueries ρ ρ w o w' o' := by
  constructor
  · unfold listedQueries
    simp [h1, h2, h1', h2', ht, ht', h]
  · intro q _
    unfold groupFor
    simp [h1, h1']

theorem groupIn_some {α : Type} [DecidableEq α] (ls : List (List α)) (q : α) (l : List α) (h1 : l ∈ ls)
    (h2 : q ∈ l.tail) : ∃ g, groupIn ls q = some g := by
  have hne : ls.filter (fun l => decide (q ∈ l.tail)) ≠ [] :=
    List.ne_nil_of_mem (List.mem_filter.2 ⟨h1, by simpa using h2⟩)
  unfold groupIn
  rw [List.getLast?_eq_some_getLast hne, Option.bind_some]
  have hmem := List.mem_filter.1 (List.getLast_mem hne)
  cases e : (ls.filter (fun l => decide (q ∈ l.tail))).getLast hne with
  | nil => rw [e] at hmem; simp at hmem
  | cons a b => exact ⟨a, rfl⟩

theorem groupIn_renamed {α : Type} [DecidableEq α] {ρ γ : α → α} (hρ : Function.Injective ρ)
    (ls : List (List α)) (q : α) :
    groupIn (ls.map (renamedLine ρ γ)) (ρ q) = (groupIn ls q).map γ := by
  unfold groupIn
  have h1 : ∀ l : List α, (renamedLine ρ γ l).tail = l.tail.map ρ := by
    intro l; cases l <;> rfl
  have h2 : ∀ l : List α, (renamedLine ρ γ l).head? = l.head?.map γ := by
    intro l; cases l <;> rfl
  rw [List.filter_map]
  have : ls.filter ((fun l => decide (ρ q ∈ l.tail)) ∘ renamedLine ρ γ) =
      ls.filter (fun l => decide (q ∈ l.tail)) := by
    refine List.filter_congr fun l _ => ?_
    simp only [Function.comp, h1, decide_eq_decide]
    exact List.mem_map_of_injective hρ
  rw [this, List.getLast?_map]
  cases (ls.filter (fun l => decide (q ∈ l.tail))).getLast? with
  | none => rfl
  | some l => simp [h2]

/-- A groups file with renamed queries and groups. -/
theorem C89_query_groups {ρ γ : Str → Str} (hρ : Function.Injective ρ) {w w' : World}
    {o o' : ToolOptions} (h1 : o.queryGroups ≠ []) (h1' : o'.queryGroups ≠ []) (t t' : Str)
    (ht : w.file o.queryGroups = some t) (ht' : w'.file o'.queryGroups = some t')
    (hw : WellFormedGroups ((lines t).map words)) (hne : lines t ≠ [])
    (h : (lines t').map words = ((lines t).map words).map (renamedLine ρ γ)) :
    RenamedQueries ρ γ w o w' o' := by
  have hl : listedQueries w o = listedIn ((lines t).map words) := by
    unfold listedQueries
    simp [h1, ht]
  have hl' : listedQueries w' o' = (listedIn ((lines t).map words)).map ρ := by
    unfold listedQueries
    rw [if_pos h1', ht', Option.map_some, Option.getD_some, h]
    unfold listedIn
    rw [List.flatMap_map, List.map_flatMap]
    congr 1
    funext l
    cases l <;> rfl
  constructor
  · rw [hl, hl']
  · intro q hq
    rw [hl] at hq
    have hq : q ∈ listedIn ((lines t).map words) := by
      rcases hq with hq | hq
      · exfalso
        cases e : lines t with
        | nil => exact hne e
        | cons a b =>
          rw [e] at hq hw
          have := hw (words a) (by simp)
          unfold listedIn at hq
          rw [List.map_cons, List.flatMap_cons, List.append_eq_nil_iff] at hq
          cases hwa : words a with
          | nil => rw [hwa] at this; simp at this
          | cons x y =>
            rw [hwa] at this hq
            simp only [List.tail_cons] at hq
            rw [hq.1] at this
            simp at this
      · exact hq
    have hs : ∃ g, groupIn ((lines t).map words) q = some g := by
      obtain ⟨l, hl1, hl2⟩ := List.mem_flatMap.1 hq
      exact groupIn_some _ q l hl1 hl2
    obtain ⟨g, hg⟩ := hs
    unfold groupFor
    rw [if_pos h1, if_pos h1', ht, ht', Option.bind_some, Option.bind_some, h, groupIn_renamed hρ, hg]
    rfl

/-! ## Runs -/

section
variable {G G' : Type}

theorem forall₂_keep {E E' : Type} {query : E → Str} {query' : E' → Str} {R : E → E' → Prop}
    {ρ : Str → Str} (hρ : Function.Injective ρ) (hq : ∀ e e', R e e' → query' e' = ρ (query e))
    (listed : List Str) {es : List E} {es' : List E'} (h : List.Forall₂ R es es') :
    List.Forall₂ R (keep query listed es) (keep query' (listed.map ρ) es') := by
  unfold keep
  by_cases hl : listed = []
  · rw [if_pos hl, if_pos (by rw [hl]; rfl)]
    exact h
  · rw [if_neg hl, if_neg (by simpa using hl)]
    induction h with
    | nil => exact .nil
    | @cons a b _ _ hab _ ih =>
      have : decide (query' b ∈ listed.map ρ) = decide (query a ∈ listed) := by
        rw [hq a b hab, decide_eq_decide]
        exact List.mem_map_of_injective hρ
      rw [List.filter_cons, List.filter_cons]
      simp only [this]
      split
      · exact .cons hab ih
      · exact ih

/-- Two runs of the box tool on files that differ by names and positions. -/
theorem runs_placed (R : Rnd) (S S' : StdSort) (rng : Rng G) (rng' : Rng G')
    {ρ δ γ : Str → Str} {κ : Str → ℕ × ℕ} {τ : Str → ℤ × ℤ}
    (hρ : Function.Injective ρ) (hδ : Function.Injective δ)
    (hκ : ∀ d, 0 < (κ d).1 ∧ 0 < (κ d).2) (hγ : Function.Injective γ)
    (w w' : World) (o o' : ToolOptions) (t u t' u' : Str)
    (refs refs' : List (Event Str (DocBox Str UInt32)))
    (hyps hyps' : List (ScoredEvent Str (DocBox Str UInt32)))
    (ht : w.file o.refFilename = some t) (hu : hypText w o = some u)
    (ht' : w'.file o'.refFilename = some t') (hu' : hypText w' o' = some u')
    (hrefs : Yields BoxEventText (lines t) refs) (hrefs' : Yields BoxEventText (lines t') refs')
    (hhyps : Yields (ScoredText R BoxEventText) (lines u) hyps)
    (hhyps' : Yields (ScoredText R BoxEventText) (lines u') hyps')
    (hr : ∀ r ∈ refs, EdgesOkU r.location.toBBox) (hr' : ∀ r ∈ refs', EdgesOkU r.location.toBBox)
    (hh : ∀ h ∈ hyps, EdgesOkU h.base.location.toBBox) (hh' : ∀ h ∈ hyps', InRangeU h.base)
    (h24 : R = Rnd.ieee → ∀ h ∈ hyps', areaU h.base ≤ 2 ^ 24)
    (mr : List.Forall₂ (Placed ρ δ κ τ) refs refs') (mh : List.Forall₂ (PlacedScored ρ δ κ τ) hyps hyps')
    (mq : RenamedQueries ρ γ w o w' o')
    (hd : o.sort = "desc".toList) (hc : o.collapse = true) (hd' : o'.sort = "desc".toList)
    (hc' : o'.collapse = true) (hi : o'.interp = o.interp) (htr : o'.trapezoid = o.trapezoid)
    (r r' : Report Str (DocBox Str UInt32)) (ε : ℚ) (hT : Tolerance R (refs.length + hyps.length) ε)
    (h : mainWith R S rng (icdarKit R S) w o = .ok (.done r))
    (h' : mainWith R S' rng' (icdarKit R S') w' o' = .ok (.done r')) :
    ∃ n ms rep ms' rep' k kr,
      r.dump = (if o.dumpMatches = [] then none else some (ms, rep)) ∧
      r'.dump = (if o'.dumpMatches = [] then none else some (ms', rep')) ∧
      List.Forall₂ (PlacedMatch ρ δ κ τ) ms k ∧ ms'.Perm k ∧
      List.Forall₂ (PlacedMatch ρ δ κ τ) rep kr ∧ rep'.Perm kr ∧ Shows r n ε ∧ Shows r' n ε := by
  have hmem : ∀ y ∈ hyps, ∃ x ∈ hyps', areaU y.base ≤ areaU x.base := by
    intro y hy
    obtain ⟨e, hm⟩ := map_of_forall₂ (f := placeS ρ δ κ τ) (fun _ _ h => PlacedScored.eq h) mh
    refine ⟨placeS ρ δ κ τ y, by rw [e]; exact List.mem_map_of_mem hy, ?_⟩
    rw [(hm y hy).base.area]
    exact Nat.le_mul_of_pos_left _ (Nat.mul_pos (hκ _).1 (hκ _).2)
  have hlen : refs'.length + hyps'.length = refs.length + hyps.length := by
    rw [mr.length_eq, mh.length_eq]
  obtain ⟨ms, rep, a1, a2, a3⟩ := box_ties R S rng w o t u refs hyps ht hu hrefs hhyps hr
    (fun y hy => by
      obtain ⟨x, hx, hle⟩ := hmem y hy
      exact ⟨hh y hy, hle.trans_lt (hh' x hx).2⟩)
    (fun hR y hy => by
      obtain ⟨x, hx, hle⟩ := hmem y hy
      exact hle.trans (h24 hR x hx)) hd hc r ε hT h
  obtain ⟨ms', rep', b1, b2, b3⟩ := box_ties R S' rng' w' o' t' u' refs' hyps' ht' hu' hrefs' hhyps' hr'
    hh' h24 hd' hc' r' ε (by rw [hlen]; exact hT) h'
  rw [mq.listed] at b1
  have kr := forall₂_keep (query := (·.query)) (query' := (·.query)) hρ
    (fun e e' (h : Placed ρ δ κ τ e e') => h.query) (listedQueries w o) mr
  have kh := forall₂_keep (query := (·.base.query)) (query' := (·.base.query)) hρ
    (fun e e' (h : PlacedScored ρ δ κ τ e e') => h.base.query) (listedQueries w o) mh
  have hfin := (icdar_plain R S).finite u (yields_valid hhyps)
  rw [yields_events Format.boxHyps hhyps] at hfin
  have hn : ∀ x ∈ keep (·.base.query) (listedQueries w o) hyps, x.score ≠ .nan := by
    intro x hx
    exact hfin x (keep_mem hx)
  have hlist : ∀ {E : Type} {query : E → Str} {es : List E}, ∀ e ∈ keep query (listedQueries w o) es,
      listedQueries w o = [] ∨ query e ∈ listedQueries w o := by
    intro E query es e he
    unfold keep at he
    split at he
    · exact .inl (by assumption)
    · exact .inr (by simpa using (List.mem_filter.1 he).2)
  obtain ⟨⟨k, c1, c2⟩, ⟨k', c3, c4⟩⟩ := C102_matching hρ hδ hκ kr kh hn a1 b1
  refine ⟨_, ms, rep, ms', rep', k, k', a2, b2, c1, c2, c3, c4, a3, ?_⟩
  rw [← numbers_placed hρ hδ hκ hγ kr kh hn (grp := groupFor w o) (grp' := groupFor w' o')
    (fun x hx => mq.group _ (hlist x hx)) (fun x hx => mq.group _ (hlist x hx)) a1 b1, ← hi, ← htr]
  exact b3

/-- C102: the box tool reports the same for renamed queries, documents and groups and scaled and moved
boxes. -/
theorem C102_box (S S' : StdSort) (rng : Rng G) (rng' : Rng G')
    {ρ δ γ : Str → Str} {κ : Str → ℕ × ℕ} {τ : Str → ℤ × ℤ}
    (hρ : Function.Injective ρ) (hδ : Function.Injective δ)
    (hκ : ∀ d, 0 < (κ d).1 ∧ 0 < (κ d).2) (hγ : Function.Injective γ)
    (w w' : World) (o o' : ToolOptions) (t u t' u' : Str)
    (refs refs' : List (Event Str (DocBox Str UInt32)))
    (hyps hyps' : List (ScoredEvent Str (DocBox Str UInt32)))
    (ht : w.file o.refFilename = some t) (hu : hypText w o = some u)
    (ht' : w'.file o'.refFilename = some t') (hu' : hypText w' o' = some u')
    (hrefs : Yields BoxEventText (lines t) refs) (hrefs' : Yields BoxEventText (lines t') refs')
    (hhyps : Yields (ScoredText Rnd.exact BoxEventText) (lines u) hyps)
    (hhyps' : Yields (ScoredText Rnd.exact BoxEventText) (lines u') hyps')
    (hr : ∀ r ∈ refs, EdgesOkU r.location.toBBox) (hr' : ∀ r ∈ refs', EdgesOkU r.location.toBBox)
    (hh : ∀ h ∈ hyps, EdgesOkU h.base.location.toBBox) (hh' : ∀ h ∈ hyps', InRangeU h.base)
    (mr : List.Forall₂ (Placed ρ δ κ τ) refs refs') (mh : List.Forall₂ (PlacedScored ρ δ κ τ) hyps hyps')
    (mq : RenamedQueries ρ γ w o w' o')
    (hd : o.sort = "desc".toList) (hc : o.collapse = true) (hd' : o'.sort = "desc".toList)
    (hc' : o'.collapse = true) (hi : o'.interp = o.interp) (htr : o'.trapezoid = o.trapezoid)
    (r r' : Report Str (DocBox Str UInt32))
    (h : mainWith Rnd.exact S rng (icdarKit Rnd.exact S) w o = .ok (.done r))
    (h' : mainWith Rnd.exact S' rng' (icdarKit Rnd.exact S') w' o' = .ok (.done r')) :
    (r'.gAP.value = r.gAP.value ∧ r'.mAP.value = r.mAP.value ∧ r'.gNDCG.value = r.gNDCG.value ∧
      r'.mNDCG.value = r.mNDCG.value) ∧
    (∀ ms rep ms' rep', r.dump = some (ms, rep) → r'.dump = some (ms', rep') →
      (∃ k, List.Forall₂ (PlacedMatch ρ δ κ τ) ms k ∧ ms'.Perm k) ∧
      (∃ k, List.Forall₂ (PlacedMatch ρ δ κ τ) rep k ∧ rep'.Perm k)) := by
  obtain ⟨n, ms, rep, ms', rep', k, kr, d1, d2, d3, d4, d5, d6, s1, s2⟩ := runs_placed Rnd.exact S S' rng
    rng' hρ hδ hκ hγ w w' o o' t u t' u' refs refs' hyps hyps' ht hu ht' hu' hrefs hrefs' hhyps hhyps' hr
    hr' hh hh' (fun h => by
      have := congrArg (fun R : Rnd => R.f64 (1 / 3)) h
      exact absurd this (by decide +kernel)) mr mh mq hd hc hd' hc' hi htr r r' 0 (Or.inl ⟨rfl, rfl⟩) h h'
  refine ⟨⟨?_, ?_, s2.gNDCG.trans s1.gNDCG.symm, s2.mNDCG.trans s1.mNDCG.symm⟩, ?_⟩
  · rw [sub_eq_zero.1 (abs_nonpos_iff.1 s1.gAP), sub_eq_zero.1 (abs_nonpos_iff.1 s2.gAP)]
  · rw [sub_eq_zero.1 (abs_nonpos_iff.1 s1.mAP), sub_eq_zero.1 (abs_nonpos_iff.1 s2.mAP)]
  · intro a b a' b' e e'
    rw [d1] at e
    rw [d2] at e'
    split at e
    · cases e
    · split at e'
      · cases e'
      · simp only [Option.some.injEq, Prod.mk.injEq] at e e'
        obtain ⟨rfl, rfl⟩ := e
        obtain ⟨rfl, rfl⟩ := e'
        exact ⟨⟨k, d3, d4⟩, ⟨kr, d5, d6⟩⟩

/-- C102 in IEEE arithmetic: the average precisions differ by rounding. -/
theorem C102_box_rounded (S S' : StdSort) (rng : Rng G) (rng' : Rng G')
    {ρ δ γ : Str → Str} {κ : Str → ℕ × ℕ} {τ : Str → ℤ × ℤ}
    (hρ : Function.Injective ρ) (hδ : Function.Injective δ)
    (hκ : ∀ d, 0 < (κ d).1 ∧ 0 < (κ d).2) (hγ : Function.Injective γ)
    (w w' : World) (o o' : ToolOptions) (t u t' u' : Str)
    (refs refs' : List (Event Str (DocBox Str UInt32)))
    (hyps hyps' : List (ScoredEvent Str (DocBox Str UInt32)))
    (ht : w.file o.refFilename = some t) (hu : hypText w o = some u)
    (ht' : w'.file o'.refFilename = some t') (hu' : hypText w' o' = some u')
    (hrefs : Yields BoxEventText (lines t) refs) (hrefs' : Yields BoxEventText (lines t') refs')
    (hhyps : Yields (ScoredText Rnd.ieee BoxEventText) (lines u) hyps)
    (hhyps' : Yields (ScoredText Rnd.ieee BoxEventText) (lines u') hyps')
    (hr : ∀ r ∈ refs, EdgesOkU r.location.toBBox) (hr' : ∀ r ∈ refs', EdgesOkU r.location.toBBox)
    (hh : ∀ h ∈ hyps, EdgesOkU h.base.location.toBBox)
    (hh' : ∀ h ∈ hyps', EdgesOkU h.base.location.toBBox ∧ areaU h.base ≤ 2 ^ 24) (hl : refs.length + hyps.length ≤ 2 ^ 24)
    (mr : List.Forall₂ (Placed ρ δ κ τ) refs refs') (mh : List.Forall₂ (PlacedScored ρ δ κ τ) hyps hyps')
    (mq : RenamedQueries ρ γ w o w' o')
    (hd : o.sort = "desc".toList) (hc : o.collapse = true) (hd' : o'.sort = "desc".toList)
    (hc' : o'.collapse = true) (hi : o'.interp = o.interp) (htr : o'.trapezoid = o.trapezoid)
    (r r' : Report Str (DocBox Str UInt32))
    (h : mainWith Rnd.ieee S rng (icdarKit Rnd.ieee S) w o = .ok (.done r))
    (h' : mainWith Rnd.ieee S' rng' (icdarKit Rnd.ieee S') w' o' = .ok (.done r')) :
    let ε : ℚ := (refs.length + hyps.length + 3) ^ 2 / 2 ^ 52
    (|r'.gAP.value - r.gAP.value| ≤ 2 * ε ∧ |r'.mAP.value - r.mAP.value| ≤ 2 * ε ∧
      r'.gNDCG.value = r.gNDCG.value ∧ r'.mNDCG.value = r.mNDCG.value) ∧
    (∀ ms rep ms' rep', r.dump = some (ms, rep) → r'.dump = some (ms', rep') →
      (∃ k, List.Forall₂ (PlacedMatch ρ δ κ τ) ms k ∧ ms'.Perm k) ∧
      (∃ k, List.Forall₂ (PlacedMatch ρ δ κ τ) rep k ∧ rep'.Perm k)) := by
  intro ε
  obtain ⟨n, ms, rep, ms', rep', k, kr, d1, d2, d3, d4, d5, d6, s1, s2⟩ := runs_placed Rnd.ieee S S' rng
    rng' hρ hδ hκ hγ w w' o o' t u t' u' refs refs' hyps hyps' ht hu ht' hu' hrefs hrefs' hhyps hhyps' hr
    hr' hh (fun x hx => ⟨(hh' x hx).1, by have := (hh' x hx).2; omega⟩) (fun _ x hx => (hh' x hx).2)
    mr mh mq hd hc hd' hc' hi htr r r' ε (Or.inr ⟨rfl, hl, by push_cast; rfl⟩) h h'
  refine ⟨⟨?_, ?_, s2.gNDCG.trans s1.gNDCG.symm, s2.mNDCG.trans s1.mNDCG.symm⟩, ?_⟩
  · have := s1.gAP
    have := s2.gAP
    rw [abs_le] at *
    constructor <;> linarith
  · have := s1.mAP
    have := s2.mAP
    rw [abs_le] at *
    constructor <;> linarith
  · intro a b a' b' e e'
    rw [d1] at e
    rw [d2] at e'
    split at e
    · cases e
    · split at e'
      · cases e'
      · simp only [Option.some.injEq, Prod.mk.injEq] at e e'
        obtain ⟨rfl, rfl⟩ := e
        obtain ⟨rfl, rfl⟩ := e'
        exact ⟨⟨k, d3, d4⟩, ⟨kr, d5, d6⟩⟩

theorem placed_of_moved {ρ δ : Str → Str} {τ : Str → ℤ × ℤ} {e e' : Event Str (DocBox Str UInt32)} :
    Placed ρ δ (fun _ => (1, 1)) τ e e' ↔ Moved ρ δ τ e e' := by
  constructor
  · rintro ⟨h1, h2, h3, h4, h5, h6⟩
    refine ⟨h1, h2, by simpa using h3, by simpa using h4, ?_, ?_⟩
    · rw [← UInt32.toNat_inj, h5, Nat.one_mul]
    · rw [← UInt32.toNat_inj, h6, Nat.one_mul]
  · rintro ⟨h1, h2, h3, h4, h5, h6⟩
    exact ⟨h1, h2, by simpa using h3, by simpa using h4, by simp [h5], by simp [h6]⟩

theorem placedScored_of_moved {ρ δ : Str → Str} {τ : Str → ℤ × ℤ}
    {e e' : ScoredEvent Str (DocBox Str UInt32)} :
    PlacedScored ρ δ (fun _ => (1, 1)) τ e e' ↔ MovedScored ρ δ τ e e' :=
  ⟨fun h => ⟨placed_of_moved.1 h.base, h.score⟩, fun h => ⟨placed_of_moved.2 h.base, h.score⟩⟩

theorem placedMatch_of_moved {ρ δ : Str → Str} {τ : Str → ℤ × ℤ}
    {m m' : Match (Event Str (DocBox Str UInt32)) (ScoredEvent Str (DocBox Str UInt32))}
    (h : PlacedMatch ρ δ (fun _ => (1, 1)) τ m m') : MovedMatch ρ δ τ m m' := by
  obtain ⟨a, b, c⟩ := m
  obtain ⟨a', b', c'⟩ := m'
  obtain ⟨h1, h2, h3⟩ := h
  refine ⟨?_, ?_, h3⟩
  · cases h1 with
    | none => exact .none
    | some h => exact .some (placed_of_moved.1 h)
  · cases h2 with
    | none => exact .none
    | some h => exact .some (placedScored_of_moved.1 h)

theorem moved_area {ρ δ : Str → Str} {τ : Str → ℤ × ℤ} {hyps hyps' : List (ScoredEvent Str (DocBox Str UInt32))}
    (mh : List.Forall₂ (MovedScored ρ δ τ) hyps hyps') :
    ∀ x ∈ hyps', ∃ y ∈ hyps, areaU x.base = areaU y.base := by
  induction mh with
  | nil => intro x hx; cases hx
  | @cons a b _ _ hab _ ih =>
    intro x hx
    rcases List.mem_cons.1 hx with rfl | hx
    · refine ⟨a, by simp, ?_⟩
      have := (placedScored_of_moved.2 hab).base.area
      simpa using this
    · obtain ⟨y, hy, e⟩ := ih x hx
      exact ⟨y, by simp [hy], e⟩

/-! ## Without scaling -/

/-- C89: the matching of renamed and moved events consists of the renamed and moved matches. -/
theorem C89_matching {ρ δ : Str → Str} {τ : Str → ℤ × ℤ} (hρ : Function.Injective ρ)
    (hδ : Function.Injective δ) {refs refs' : List (Event Str (DocBox Str UInt32))}
    {hyps hyps' : List (ScoredEvent Str (DocBox Str UInt32))}
    {ms rep ms' rep' : List (Match (Event Str (DocBox Str UInt32)) (ScoredEvent Str (DocBox Str UInt32)))}
    (hr : List.Forall₂ (Moved ρ δ τ) refs refs') (hh : List.Forall₂ (MovedScored ρ δ τ) hyps hyps')
    (hn : ∀ h ∈ hyps, h.score ≠ .nan)
    (h : ExactBoxMatching refs hyps ms rep) (h' : ExactBoxMatching refs' hyps' ms' rep') :
    (∃ k, List.Forall₂ (MovedMatch ρ δ τ) ms k ∧ ms'.Perm k) ∧
      (∃ k, List.Forall₂ (MovedMatch ρ δ τ) rep k ∧ rep'.Perm k) := by
  obtain ⟨⟨k, c1, c2⟩, ⟨k', c3, c4⟩⟩ := C102_matching hρ hδ (κ := fun _ => (1, 1)) (τ := τ) (by simp)
    (hr.imp fun _ _ h => placed_of_moved.2 h) (hh.imp fun _ _ h => placedScored_of_moved.2 h) hn h h'
  exact ⟨⟨k, c1.imp fun _ _ h => placedMatch_of_moved h, c2⟩,
    ⟨k', c3.imp fun _ _ h => placedMatch_of_moved h, c4⟩⟩

/-- C89: the box tool reports the same for renamed queries, documents and groups and moved boxes. -/
theorem C89_box (S S' : StdSort) (rng : Rng G) (rng' : Rng G') {ρ δ γ : Str → Str} {τ : Str → ℤ × ℤ}
    (hρ : Function.Injective ρ) (hδ : Function.Injective δ) (hγ : Function.Injective γ)
    (w w' : World) (o o' : ToolOptions) (t u t' u' : Str)
    (refs refs' : List (Event Str (DocBox Str UInt32)))
    (hyps hyps' : List (ScoredEvent Str (DocBox Str UInt32)))
    (ht : w.file o.refFilename = some t) (hu : hypText w o = some u)
    (ht' : w'.file o'.refFilename = some t') (hu' : hypText w' o' = some u')
    (hrefs : Yields BoxEventText (lines t) refs) (hrefs' : Yields BoxEventText (lines t') refs')
    (hhyps : Yields (ScoredText Rnd.exact BoxEventText) (lines u) hyps)
    (hhyps' : Yields (ScoredText Rnd.exact BoxEventText) (lines u') hyps')
    (hr : ∀ r ∈ refs, EdgesOkU r.location.toBBox) (hr' : ∀ r ∈ refs', EdgesOkU r.location.toBBox)
    (hh : ∀ h ∈ hyps, InRangeU h.base) (hh' : ∀ h ∈ hyps', EdgesOkU h.base.location.toBBox)
    (mr : List.Forall₂ (Moved ρ δ τ) refs refs') (mh : List.Forall₂ (MovedScored ρ δ τ) hyps hyps')
    (mq : RenamedQueries ρ γ w o w' o')
    (hd : o.sort = "desc".toList) (hc : o.collapse = true) (hd' : o'.sort = "desc".toList)
    (hc' : o'.collapse = true) (hi : o'.interp = o.interp) (htr : o'.trapezoid = o.trapezoid)
    (r r' : Report Str (DocBox Str UInt32))
    (h : mainWith Rnd.exact S rng (icdarKit Rnd.exact S) w o = .ok (.done r))
    (h' : mainWith Rnd.exact S' rng' (icdarKit Rnd.exact S') w' o' = .ok (.done r')) :
    (r'.gAP.value = r.gAP.value ∧ r'.mAP.value = r.mAP.value ∧ r'.gNDCG.value = r.gNDCG.value ∧
      r'.mNDCG.value = r.mNDCG.value) ∧
    (∀ ms rep ms' rep', r.dump = some (ms, rep) → r'.dump = some (ms', rep') →
      (∃ k, List.Forall₂ (MovedMatch ρ δ τ) ms k ∧ ms'.Perm k) ∧
      (∃ k, List.Forall₂ (MovedMatch ρ δ τ) rep k ∧ rep'.Perm k)) := by
  obtain ⟨a, b⟩ := C102_box S S' rng rng' (κ := fun _ => (1, 1)) hρ hδ (by simp) hγ w w' o o' t u t' u' refs
    refs' hyps hyps' ht hu ht' hu' hrefs hrefs' hhyps hhyps' hr hr' (fun x hx => (hh x hx).1)
    (fun x hx => by
      obtain ⟨y, hy, e⟩ := moved_area mh x hx
      exact ⟨hh' x hx, by rw [e]; exact (hh y hy).2⟩)
    (mr.imp fun _ _ h => placed_of_moved.2 h) (mh.imp fun _ _ h => placedScored_of_moved.2 h) mq hd hc hd'
    hc' hi htr r r' h h'
  refine ⟨a, fun ms rep ms' rep' e e' => ?_⟩
  obtain ⟨⟨k, c1, c2⟩, ⟨k', c3, c4⟩⟩ := b ms rep ms' rep' e e'
  exact ⟨⟨k, c1.imp fun _ _ h => placedMatch_of_moved h, c2⟩,
    ⟨k', c3.imp fun _ _ h => placedMatch_of_moved h, c4⟩⟩

/-- C89 in IEEE arithmetic: the average precisions differ by rounding. -/
theorem C89_box_rounded (S S' : StdSort) (rng : Rng G) (rng' : Rng G') {ρ δ γ : Str → Str} {τ : Str → ℤ × ℤ}
    (hρ : Function.Injective ρ) (hδ : Function.Injective δ) (hγ : Function.Injective γ)
    (w w' : World) (o o' : ToolOptions) (t u t' u' : Str)
    (refs refs' : List (Event Str (DocBox Str UInt32)))
    (hyps hyps' : List (ScoredEvent Str (DocBox Str UInt32)))
    (ht : w.file o.refFilename = some t) (hu : hypText w o = some u)
    (ht' : w'.file o'.refFilename = some t') (hu' : hypText w' o' = some u')
    (hrefs : Yields BoxEventText (lines t) refs) (hrefs' : Yields BoxEventText (lines t') refs')
    (hhyps : Yields (ScoredText Rnd.ieee BoxEventText) (lines u) hyps)
    (hhyps' : Yields (ScoredText Rnd.ieee BoxEventText) (lines u') hyps')
    (hr : ∀ r ∈ refs, EdgesOkU r.location.toBBox) (hr' : ∀ r ∈ refs', EdgesOkU r.location.toBBox)
    (hh : ∀ h ∈ hyps, EdgesOkU h.base.location.toBBox ∧ areaU h.base ≤ 2 ^ 24)
    (hh' : ∀ h ∈ hyps', EdgesOkU h.base.location.toBBox) (hl : refs.length + hyps.length ≤ 2 ^ 24)
    (mr : List.Forall₂ (Moved ρ δ τ) refs refs') (mh : List.Forall₂ (MovedScored ρ δ τ) hyps hyps')
    (mq : RenamedQueries ρ γ w o w' o')
    (hd : o.sort = "desc".toList) (hc : o.collapse = true) (hd' : o'.sort = "desc".toList)
    (hc' : o'.collapse = true) (hi : o'.interp = o.interp) (htr : o'.trapezoid = o.trapezoid)
    (r r' : Report Str (DocBox Str UInt32))
    (h : mainWith Rnd.ieee S rng (icdarKit Rnd.ieee S) w o = .ok (.done r))
    (h' : mainWith Rnd.ieee S' rng' (icdarKit Rnd.ieee S') w' o' = .ok (.done r')) :
    let ε : ℚ := (refs.length + hyps.length + 3) ^ 2 / 2 ^ 52
    (|r'.gAP.value - r.gAP.value| ≤ 2 * ε ∧ |r'.mAP.value - r.mAP.value| ≤ 2 * ε ∧
      r'.gNDCG.value = r.gNDCG.value ∧ r'.mNDCG.value = r.mNDCG.value) ∧
    (∀ ms rep ms' rep', r.dump = some (ms, rep) → r'.dump = some (ms', rep') →
      (∃ k, List.Forall₂ (MovedMatch ρ δ τ) ms k ∧ ms'.Perm k) ∧
      (∃ k, List.Forall₂ (MovedMatch ρ δ τ) rep k ∧ rep'.Perm k)) := by
  intro ε
  obtain ⟨a, b⟩ := C102_box_rounded S S' rng rng' (κ := fun _ => (1, 1)) hρ hδ (by simp) hγ w w' o o' t u t' u'
    refs refs' hyps hyps' ht hu ht' hu' hrefs hrefs' hhyps hhyps' hr hr' (fun x hx => (hh x hx).1)
    (fun x hx => by
      obtain ⟨y, hy, e⟩ := moved_area mh x hx
      exact ⟨hh' x hx, by rw [e]; exact (hh y hy).2⟩) hl
    (mr.imp fun _ _ h => placed_of_moved.2 h) (mh.imp fun _ _ h => placedScored_of_moved.2 h) mq hd hc hd'
    hc' hi htr r r' h h'
  refine ⟨a, fun ms rep ms' rep' e e' => ?_⟩
  obtain ⟨⟨k, c1, c2⟩, ⟨k', c3, c4⟩⟩ := b ms rep ms' rep' e e'
  exact ⟨⟨k, c1.imp fun _ _ h => placedMatch_of_moved h, c2⟩,
    ⟨k', c3.imp fun _ _ h => placedMatch_of_moved h, c4⟩⟩

end

/-! ## An example -/

/-- The files of `runExample`, with the queries `a` and `b` swapped, the document `d` called `pd` and
all boxes moved by (5, 3). -/
def movedExample : World where
  file f := if f = "ref".toList then some "b pd 5 3 2 2\na pd 5 3 2 2\n".toList else none
  stdin := "a pd 5 3 2 2 0.5\nb pd 14 12 2 2 1.5\n".toList
  writable _ := false

theorem movedExample_file :
    movedExample.file "ref".toList = some "b pd 5 3 2 2\na pd 5 3 2 2\n".toList := by
  unfold movedExample
  dsimp only
  rw [if_pos rfl]

theorem movedExample_yields :
    Yields BoxEventText (lines "b pd 5 3 2 2\na pd 5 3 2 2\n".toList)
      [⟨"b".toList, ⟨⟨5, 3, 2, 2⟩, "pd".toList⟩⟩, ⟨"a".toList, ⟨⟨5, 3, 2, 2⟩, "pd".toList⟩⟩] ∧
    Yields (ScoredText Rnd.exact BoxEventText)
      (lines "a pd 5 3 2 2 0.5\nb pd 14 12 2 2 1.5\n".toList)
      [⟨⟨"a".toList, ⟨⟨5, 3, 2, 2⟩, "pd".toList⟩⟩, .fin (1 / 2)⟩,
        ⟨⟨"b".toList, ⟨⟨14, 12, 2, 2⟩, "pd".toList⟩⟩, .fin (3 / 2)⟩] :=
  ⟨(C48_accepts (Format.boxRefs (R := Rnd.exact)) _ _).1 (by decide +kernel),
    (C48_accepts (Format.boxHyps (R := Rnd.exact)) _ _).1 (by decide +kernel)⟩

/-- Two runs to which C89 applies. -/
example {G : Type} (S : StdSort) (rng : Rng G) :
    let o : ToolOptions := { refFilename := "ref".toList, alpha := 1 / 20 }
    ∃ r r', mainWith Rnd.exact S rng (icdarKit Rnd.exact S) runExample o = .ok (.done r) ∧
      mainWith Rnd.exact S rng (icdarKit Rnd.exact S) movedExample o = .ok (.done r') ∧
      r'.gAP.value = r.gAP.value ∧ r'.mAP.value = r.mAP.value ∧ r'.gNDCG.value = r.gNDCG.value ∧
      r'.mNDCG.value = r.mNDCG.value := by
  intro o
  obtain ⟨y1, y2⟩ := runExample_yields
  obtain ⟨z1, z2⟩ := movedExample_yields
  obtain ⟨r, hr, _⟩ := (C62_box_partial Rnd.exact S rng runExample o (fun t t' _ _ =>
    ⟨fun h => by simp [o] at h, fun h => absurd rfl h, fun h => absurd rfl h,
      fun h => by simp [o] at h⟩)).1
    ⟨⟨by decide, ⟨_, runExample_file, yields_valid y1⟩, ⟨_, if_pos rfl, yields_valid y2⟩,
      fun h => absurd rfl h, fun h => absurd rfl h⟩, Or.inl rfl⟩
  obtain ⟨r', hr', _⟩ := (C62_box_partial Rnd.exact S rng movedExample o (fun t t' _ _ =>
    ⟨fun h => by simp [o] at h, fun h => absurd rfl h, fun h => absurd rfl h,
      fun h => by simp [o] at h⟩)).1
    ⟨⟨by decide, ⟨_, movedExample_file, yields_valid z1⟩, ⟨_, if_pos rfl, yields_valid z2⟩,
      fun h => absurd rfl h, fun h => absurd rfl h⟩, Or.inl rfl⟩
  have sa : Equiv.swap "a".toList "b".toList "a".toList = "b".toList := Equiv.swap_apply_left _ _
  have sb : Equiv.swap "a".toList "b".toList "b".toList = "a".toList := Equiv.swap_apply_right _ _
  refine ⟨r, r', hr, hr', (C89_box S S rng rng (ρ := Equiv.swap "a".toList "b".toList)
    (δ := fun d => 'p' :: d) (γ := Equiv.swap "a".toList "b".toList) (τ := fun _ => (5, 3))
    (Equiv.injective _) (fun a b h => (List.cons.inj h).2) (Equiv.injective _) runExample movedExample o o
    _ _ _ _ _ _ _ _ runExample_file (if_pos rfl) movedExample_file (if_pos rfl) y1 z1 y2 z2 ?_ ?_ ?_ ?_
    ?_ ?_ (C89_no_files rfl rfl rfl rfl) rfl rfl rfl rfl rfl rfl r r' hr hr').1⟩
  · intro r hr
    simp only [List.mem_cons, List.not_mem_nil, or_false] at hr
    rcases hr with rfl | rfl <;> exact ⟨by decide, by decide⟩
  · intro r hr
    simp only [List.mem_cons, List.not_mem_nil, or_false] at hr
    rcases hr with rfl | rfl <;> exact ⟨by decide, by decide⟩
  · intro r hr
    simp only [List.mem_cons, List.not_mem_nil, or_false] at hr
    rcases hr with rfl | rfl <;> exact ⟨⟨by decide, by decide⟩, by decide +kernel⟩
  · intro r hr
    simp only [List.mem_cons, List.not_mem_nil, or_false] at hr
    rcases hr with rfl | rfl <;> exact ⟨by decide, by decide⟩
  · exact .cons ⟨sa.symm, rfl, by decide, by decide, rfl, rfl⟩
      (.cons ⟨sb.symm, rfl, by decide, by decide, rfl, rfl⟩ .nil)
  · exact .cons ⟨⟨sb.symm, rfl, by decide, by decide, rfl, rfl⟩, rfl⟩
      (.cons ⟨⟨sa.symm, rfl, by decide, by decide, rfl, rfl⟩, rfl⟩ .nil)

/-- The files of `runExample`, with the queries `a` and `b` swapped, the document `d` called `pd` and
all boxes scaled by (2, 3) and moved by (5, 3). -/
def scaledExample : World where
  file f := if f = "ref".toList then some "b pd 5 3 4 6\na pd 5 3 4 6\n".toList else none
  stdin := "a pd 5 3 4 6 0.5\nb pd 23 30 4 6 1.5\n".toList
  writable _ := false

theorem scaledExample_file :
    scaledExample.file "ref".toList = some "b pd 5 3 4 6\na pd 5 3 4 6\n".toList := by
  unfold scaledExample
  dsimp only
  rw [if_pos rfl]

theorem scaledExample_yields :
    Yields BoxEventText (lines "b pd 5 3 4 6\na pd 5 3 4 6\n".toList)
      [⟨"b".toList, ⟨⟨5, 3, 4, 6⟩, "pd".toList⟩⟩, ⟨"a".toList, ⟨⟨5, 3, 4, 6⟩, "pd".toList⟩⟩] ∧
    Yields (ScoredText Rnd.exact BoxEventText)
      (lines "a pd 5 3 4 6 0.5\nb pd 23 30 4 6 1.5\n".toList)
      [⟨⟨"a".toList, ⟨⟨5, 3, 4, 6⟩, "pd".toList⟩⟩, .fin (1 / 2)⟩,
        ⟨⟨"b".toList, ⟨⟨23, 30, 4, 6⟩, "pd".toList⟩⟩, .fin (3 / 2)⟩] :=
  ⟨(C48_accepts (Format.boxRefs (R := Rnd.exact)) _ _).1 (by decide +kernel),
    (C48_accepts (Format.boxHyps (R := Rnd.exact)) _ _).1 (by decide +kernel)⟩

/-- Two runs to which C102 applies: the second is at twice the horizontal and three times the vertical
resolution. -/
example {G : Type} (S : StdSort) (rng : Rng G) :
    let o : ToolOptions := { refFilename := "ref".toList, alpha := 1 / 20 }
    ∃ r r', mainWith Rnd.exact S rng (icdarKit Rnd.exact S) runExample o = .ok (.done r) ∧
      mainWith Rnd.exact S rng (icdarKit Rnd.exact S) scaledExample o = .ok (.done r') ∧
      r'.gAP.value = r.gAP.value ∧ r'.mAP.value = r.mAP.value ∧ r'.gNDCG.value = r.gNDCG.value ∧
      r'.mNDCG.value = r.mNDCG.value := by
  intro o
  obtain ⟨y1, y2⟩ := runExample_yields
  obtain ⟨z1, z2⟩ := scaledExample_yields
  obtain ⟨r, hr, _⟩ := (C62_box_partial Rnd.exact S rng runExample o (fun t t' _ _ =>
    ⟨fun h => by simp [o] at h, fun h => absurd rfl h, fun h => absurd rfl h,
      fun h => by simp [o] at h⟩)).1
    ⟨⟨by decide, ⟨_, runExample_file, yields_valid y1⟩, ⟨_, if_pos rfl, yields_valid y2⟩,
      fun h => absurd rfl h, fun h => absurd rfl h⟩, Or.inl rfl⟩
  obtain ⟨r', hr', _⟩ := (C62_box_partial Rnd.exact S rng scaledExample o (fun t t' _ _ =>
    ⟨fun h => by simp [o] at h, fun h => absurd rfl h, fun h => absurd rfl h,
      fun h => by simp [o] at h⟩)).1
    ⟨⟨by decide, ⟨_, scaledExample_file, yields_valid z1⟩, ⟨_, if_pos rfl, yields_valid z2⟩,
      fun h => absurd rfl h, fun h => absurd rfl h⟩, Or.inl rfl⟩
  have sa : Equiv.swap "a".toList "b".toList "a".toList = "b".toList := Equiv.swap_apply_left _ _
  have sb : Equiv.swap "a".toList "b".toList "b".toList = "a".toList := Equiv.swap_apply_right _ _
  refine ⟨r, r', hr, hr', (C102_box S S rng rng (ρ := Equiv.swap "a".toList "b".toList)
    (δ := fun d => 'p' :: d) (γ := Equiv.swap "a".toList "b".toList) (κ := fun _ => (2, 3)) (τ := fun _ => (5, 3))
    (Equiv.injective _) (fun a b h => (List.cons.inj h).2)
    (by simp) (Equiv.injective _) runExample scaledExample o o
    _ _ _ _ _ _ _ _ runExample_file (if_pos rfl) scaledExample_file (if_pos rfl) y1 z1 y2 z2 ?_ ?_ ?_ ?_
    ?_ ?_ (C89_no_files rfl rfl rfl rfl) rfl rfl rfl rfl rfl rfl r r' hr hr').1⟩
  · intro r hr
    simp only [List.mem_cons, List.not_mem_nil, or_false] at hr
    rcases hr with rfl | rfl <;> exact ⟨by decide, by decide⟩
  · intro r hr
    simp only [List.mem_cons, List.not_mem_nil, or_false] at hr
    rcases hr with rfl | rfl <;> exact ⟨by decide, by decide⟩
  · intro r hr
    simp only [List.mem_cons, List.not_mem_nil, or_false] at hr
    rcases hr with rfl | rfl <;> exact ⟨by decide, by decide⟩
  · intro r hr
    simp only [List.mem_cons, List.not_mem_nil, or_false] at hr
    rcases hr with rfl | rfl <;> exact ⟨⟨by decide, by decide⟩, by decide +kernel⟩
  · exact .cons ⟨sa.symm, rfl, by decide, by decide, rfl, rfl⟩
      (.cons ⟨sb.symm, rfl, by decide, by decide, rfl, rfl⟩ .nil)
  · exact .cons ⟨⟨sb.symm, rfl, by decide, by decide, rfl, rfl⟩, rfl⟩
      (.cons ⟨⟨sa.symm, rfl, by decide, by decide, rfl, rfl⟩, rfl⟩ .nil)

end Kws
