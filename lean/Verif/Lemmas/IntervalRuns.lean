import Verif.Lemmas.IntervalLaw
import Verif.Props.Moved
import Verif.Props.Ids

/-!
# Runs with ideal draws

The matches of a run do not depend on the draws, so that `assess_law` relates the laws of the reports.
-/

namespace Kws

open Spec

section
variable {Q L Q' L' : Type} [DecidableEq Q] [DecidableEq Q']

/-- Groups of the same matches under other names. -/
theorem groupMatches_regrouped {γ : Q → Q'} (hγ : Function.Injective γ) (F : KwsMatch Q L → KwsMatch Q' L')
    (q2g : List (Q × Q)) (q2g' : List (Q' × Q')) (ms : List (KwsMatch Q L)) (ms' : List (KwsMatch Q' L'))
    (hp : ms'.Perm (ms.map F))
    (hq : ∀ m ∈ ms, ∃ e e', eventOf m = some e ∧ eventOf (F m) = some e' ∧
      groupOf q2g' e'.query = γ (groupOf q2g e.query))
    (groups : List (List (KwsMatch Q L))) (groups' : List (List (KwsMatch Q' L')))
    (h : groupMatches q2g ms = .ok groups) (h' : groupMatches q2g' ms' = .ok groups') :
    Regrouped F groups groups' := by
  cases hms : ms with
  | nil =>
    subst hms
    have : ms' = [] := by simpa using hp
    subst this
    cases h
    cases h'
    exact ⟨[], List.Perm.refl _, List.Forall₂.nil⟩
  | cons m0 ms0 =>
    obtain ⟨e0, e0', _⟩ := hq m0 (by simp [hms])
    set query : KwsMatch Q L → Q := fun m => ((eventOf m).map (·.query)).getD e0.query with hquery
    set query' : KwsMatch Q' L' → Q' := fun m => ((eventOf m).map (·.query)).getD e0'.query with hquery'
    have mq : ∀ {Q L : Type} [DecidableEq Q] (m : KwsMatch Q L) (e : Event Q L), eventOf m = some e → matchQuery m = .ok e.query := by
      intro Q L _ m e he
      refine matchQuery_ok m _ ?_
      unfold eventOf at he
      obtain ⟨r, x, er⟩ := m
      cases r <;> cases x <;> simp_all
    have h1 : ∀ m ∈ ms, matchQuery m = .ok (query m) := by
      intro m hm
      obtain ⟨e, e', a, b, c⟩ := hq m hm
      rw [mq m e a, hquery]
      simp [a]
    have h2 : ∀ m ∈ ms', matchQuery m = .ok (query' m) := by
      intro m hm
      obtain ⟨x, hx, rfl⟩ := List.mem_map.1 (hp.mem_iff.1 hm)
      obtain ⟨e, e', a, b, c⟩ := hq x hx
      rw [mq _ e' b, hquery']
      simp [b]
    have h3 : ∀ m ∈ ms, groupOf q2g' (query' (F m)) = γ (groupOf q2g (query m)) := by
      intro m hm
      obtain ⟨e, e', a, b, c⟩ := hq m hm
      simp only [hquery, hquery', a, b, Option.map_some, Option.getD_some, c]
    obtain ⟨keys, k1, k2, k3⟩ := groupMatches_keys q2g ms query h1
    obtain ⟨keys', k1', k2', k3'⟩ := groupMatches_keys q2g' ms' query' h2
    rw [k3, Except.ok.injEq] at h
    rw [k3', Except.ok.injEq] at h'
    subst h h'
    refine ⟨keys.map (fun k => ms'.filter (fun m => groupOf q2g' (query' m) = γ k)), ?_, ?_⟩
    · have hk : keys'.Perm (keys.map γ) := by
        rw [List.perm_ext_iff_of_nodup k1' (k1.map hγ)]
        intro k
        rw [k2', List.mem_map]
        constructor
        · rintro ⟨m, hmm, rfl⟩
          obtain ⟨x, hx, rfl⟩ := List.mem_map.1 (hp.mem_iff.1 hmm)
          exact ⟨groupOf q2g (query x), (k2 _).2 ⟨x, hx, rfl⟩, by rw [h3 x hx]⟩
        · rintro ⟨k', hk', rfl⟩
          obtain ⟨x, hx, rfl⟩ := (k2 _).1 hk'
          exact ⟨_, hp.mem_iff.2 (List.mem_map_of_mem hx), by rw [h3 x hx]⟩
      have := hk.map (fun k => ms'.filter (fun m => groupOf q2g' (query' m) = k))
      rwa [List.map_map] at this
    · rw [List.forall₂_map_left_iff, List.forall₂_map_right_iff, List.forall₂_same]
      intro k _
      refine (hp.filter _).trans ?_
      rw [List.filter_map]
      refine List.Perm.of_eq ?_
      congr 1
      refine List.filter_congr fun m hm => ?_
      simp only [Function.comp, h3 m hm, hγ.eq_iff]

end

section
variable {Q L : Type}

/-- Fair draws for every group of the matches. -/
theorem fair_of_divides (groups : List (List (KwsMatch Q L))) (ms : List (KwsMatch Q L)) (n N k S : ℕ)
    (hl : ms.length ≤ n) (h1 : groups.flatten.Perm ms) (h2 : ∀ g ∈ groups, g.Sublist ms) (h3 : [] ∉ groups)
    (hN : 0 < N) (hd : ∀ k, 0 < k → k ≤ n → k ∣ N) (hL : S * (n * (n + 1)) ≤ k) :
    Fair groups N ∧ drawsFor groups S ≤ k := by
  have e1 := groups_length groups h3
  have e2 := h1.length_eq
  refine ⟨⟨hN, fun h => hd _ (List.length_pos_iff.2 h) (by omega), fun o ho hne =>
    hd _ (List.length_pos_iff.2 hne) ((h2 o ho).length_le.trans hl)⟩, ?_⟩
  refine le_trans ?_ hL
  unfold drawsFor
  exact Nat.mul_le_mul_left _ (Nat.mul_le_mul (by omega) (by omega))

end

section
variable {σ Q L : Type} [Cmp Q] [LawfulCmp Q] [Cmp L] [LawfulCmp L]

/-- Every match of the matcher has an event. -/
theorem run_has (ix : RefIndex σ (Event Q L) (ScoredEvent Q L))
    (scorer : Event Q L → ScoredEvent Q L → Cpp MatchError) (s s' : σ) (refs : List (Event Q L))
    (hyps : List (ScoredEvent Q L)) (ms rep : List (KwsMatch Q L))
    (h : SimpleMatcher.run ix scorer s refs hyps = .ok (s', ms, rep)) :
    ∀ m ∈ ms, m.ref ≠ none ∨ m.hyp ≠ none := by
  obtain ⟨hits, fns, rfl, _, _, _, h5⟩ := run_facts _ _ _ _ _ _ _ _ h
  intro m hm
  rcases List.mem_append.1 hm with hm | hm
  · rcases h5 m hm with ⟨x, rfl⟩ | ⟨r, x, e, rfl, he, _⟩
    · simp [Match.makeFalsePositive]
    · simp [Match.make]
  · obtain ⟨r, _, rfl⟩ := List.mem_map.1 hm
    simp [Match.makeFalseNegative]

end

section
variable {μ σ Q L G : Type} [DecidableEq Q] [Cmp Q] [Cmp L]

/-- What an evaluation assesses does not depend on the draws. -/
theorem evaluate_all {ι : Type} (i : ι) (S : StdSort) (rng : ι → Rng G) (kit : ToolKit μ σ Q L) (w : World) (o : ToolOptions) (q2g : List (Q × Q))
    (refs : List (Event Q L)) (hyps : List (ScoredEvent Q L)) (rep : ι → Report Q L)
    (h : ∀ l, evaluate Rnd.exact S (rng l) kit w o q2g refs hyps = .ok (.done (rep l))) :
    ∃ (l : List (ScoredEvent Q L)) (s' : σ) (ms rp : List (KwsMatch Q L)) (groups : List (List (KwsMatch Q L))),
      sortHyps S o.sort (usedHyps q2g hyps) = .ok l ∧
      SimpleMatcher.run kit.index kit.scorer kit.refsSet (usedRefs q2g refs) l = .ok (s', ms, rp) ∧
      groupMatches q2g ms = .ok groups ∧
      ∀ k, assess Rnd.exact S (rng k) w o ms groups (if o.dumpMatches = [] then none else some (ms, rp)) =
        .ok (rep k) := by
  obtain ⟨l, s', ms, rp, groups, a1, a2, a3, a4⟩ := evaluate_done _ _ _ _ _ _ _ _ _ _ (h i)
  refine ⟨l, s', ms, rp, groups, a1, a2, a3, fun k => ?_⟩
  obtain ⟨l', s'', ms', rp', groups', b1, b2, b3, b4⟩ := evaluate_done _ _ _ _ _ _ _ _ _ _ (h k)
  rw [a1, Except.ok.injEq] at b1
  subst b1
  rw [a2, Except.ok.injEq, Prod.mk.injEq, Prod.mk.injEq] at b2
  obtain ⟨rfl, rfl, rfl⟩ := b2
  rw [a3, Except.ok.injEq] at b3
  subst b3
  exact b4

end

section
variable {μ μ' Q L Q' L' : Type} [DecidableEq Q] [DecidableEq L] [Cmp Q] [LawfulCmp Q] [Cmp L]
  [LawfulCmp L] [DecidableEq Q'] [DecidableEq L'] [Cmp Q'] [LawfulCmp Q'] [Cmp L'] [LawfulCmp L']

/-- The law of the report for the renamed events in another order. -/
theorem evaluate_law (S S' : StdSort)
    (kit : ToolKit μ (EventSet (Event Q L)) Q L) (kit' : ToolKit μ' (EventSet (Event Q' L')) Q' L')
    (hk : SegKit kit) (hk' : SegKit kit') (w w' : World) (o : ToolOptions)
    {f : Q → Q'} {g : L → L'} (hf : Function.Injective f) (hg : Function.Injective g)
    (q2g : List (Q × Q)) (refs : List (Event Q L)) (refs' : List (Event Q' L'))
    (hyps : List (ScoredEvent Q L)) (hyps' : List (ScoredEvent Q' L'))
    (hr : ∀ r, r ∈ refs' ↔ r ∈ refs.map (Event.rename f g))
    (hp : hyps'.Perm (hyps.map (ScoredEvent.rename f g)))
    (hnan : ∀ h ∈ hyps, h.score ≠ .nan)
    (hd : o.sort = "desc".toList) (hc : o.collapse = true) (hw : w.writable = w'.writable)
    (r : List ℕ → Report Q L) (r' : List ℕ → Report Q' L')
    (h : ∀ l, evaluate Rnd.exact S (diceFrom l) kit w o q2g refs hyps = .ok (.done (r l)))
    (h' : ∀ l, evaluate Rnd.exact S' (diceFrom l) kit' w' o (q2g.map (Prod.map f f)) refs' hyps' =
      .ok (.done (r' l)))
    (n N k : ℕ) (hn : refs.length + hyps.length ≤ n) (hN : 0 < N) (hdv : ∀ k, 0 < k → k ≤ n → k ∣ N)
    (hL : o.samples * (n * (n + 1)) ≤ k) (Φ : Statement) :
    probability N k (fun l => Φ.of (r l)) = probability N k (fun l => Φ.of (r' l)) := by
  have hnan' : ∀ h ∈ hyps', h.score ≠ .nan := by
    intro x hx
    obtain ⟨y, hy, rfl⟩ := List.mem_map.1 (hp.mem_iff.1 hx)
    exact hnan y hy
  have hag := evaluate_agree Rnd.exact S S' (diceFrom []) (diceFrom []) kit kit' hk hk' w w' o hf hg q2g refs
    refs' hyps hyps' hr hp hnan (Or.inl rfl) hd hc hw _ _ (h []) (h' [])
  obtain ⟨l, s1, ms, rep, groups, a1, a2, a3, a4⟩ := evaluate_all [] _ _ _ _ _ _ _ _ _ h
  obtain ⟨l', s1', ms', rep', groups', b1, b2, b3, b4⟩ := evaluate_all [] _ _ _ _ _ _ _ _ _ h'
  rw [hd] at a1 b1
  obtain ⟨A1, A2, A3⟩ := evaluate_ranked Rnd.exact S kit hk.safe q2g refs hyps l s1 ms rep hnan
    (Or.inl rfl) a1 a2
  obtain ⟨B1, B2, B3⟩ := evaluate_ranked Rnd.exact S' kit' hk'.safe _ refs' hyps' l' s1' ms' rep' hnan'
    (Or.inl rfl) b1 b2
  obtain ⟨e1, e2, e3⟩ := groupMatches_facts _ _ _ a3
  have hpl : l'.Perm (l.map (ScoredEvent.rename f g)) := by
    refine B2.trans ((usedHyps_perm _ hp).trans ?_)
    rw [usedHyps_rename g hf]
    exact (A2.map _).symm
  have hrl : ∀ r, r ∈ usedRefs (q2g.map (Prod.map f f)) refs' ↔
      r ∈ (usedRefs q2g refs).map (Event.rename f g) := by
    intro r
    rw [usedRefs_mem_congr _ _ _ hr, usedRefs_rename g hf]
  have hlen := run_length _ _ _ _ _ _ _ _ a2
  have hused := used_length q2g refs hyps
  have hll := A2.length_eq
  have hhas := run_has _ _ _ _ _ _ _ _ a2
  obtain ⟨t, t', m, m', rp, rp', c1, c2, c3⟩ := seg_rename hf hg kit.refsSet kit'.refsSet
    (usedRefs q2g refs) (usedRefs (q2g.map (Prod.map f f)) refs') l l' hrl hpl
    (fun x hx => hnan x (usedHyps_mem q2g hyps x (A2.mem_iff.1 hx))) A3 B3
  rw [hk.index, hk.scorer, c1, Except.ok.injEq, Prod.mk.injEq, Prod.mk.injEq] at a2
  rw [hk'.index, hk'.scorer, c2, Except.ok.injEq, Prod.mk.injEq, Prod.mk.injEq] at b2
  obtain ⟨rfl, rfl, rfl⟩ := a2
  obtain ⟨rfl, rfl, rfl⟩ := b2
  obtain ⟨gr, gr', gs, g1, g2, g3, g4⟩ := groupMatches_rename hf g q2g m m' c3 hhas
  rw [g1] at a3
  rw [g2] at b3
  injection a3 with a3
  injection b3 with b3
  subst a3 b3
  obtain ⟨F1, F2⟩ := fair_of_divides gr m n N k o.samples (by omega) e1 e2 e3 hN hdv hL
  refine assess_law (f := renameMatch f g) S S' w w' o o m m' gr gr' _ _ r r' a4 b4 ?_ ⟨gs, g3, g4⟩ ?_ hc hc
    ⟨rfl, rfl, rfl, rfl, rfl, rfl, rfl, rfl⟩
    ⟨hag.gAP.symm, (hag.exact rfl).1.symm, hag.gNDCG.symm, hag.mNDCG.symm⟩ F1 F2 Φ
  · rintro ⟨r, x, e⟩
    cases x <;> exact ⟨rfl, rfl⟩
  · intro G hG x hx
    exact A1.noNaN x ((e2 G hG).subset hx)

end

section
variable {μ μ' Q Q' : Type} [DecidableEq Q] [Cmp Q] [LawfulCmp Q] [DecidableEq Q'] [Cmp Q'] [LawfulCmp Q']

/-- The names of the segmentation-based tool do not depend on the draws. -/
theorem simple_good_all (R : Rnd) (S : StdSort) (qf : Bool) (w : World) (o : ToolOptions)
    (hV : (vocabulary w o).dedup.length ≤ 2 ^ 31) (hr : o.refFilename ≠ []) (t t' : Str)
    (ht : w.file o.refFilename = some t) (ht' : hypText w o = some t') (hv : ValidFile StrEventText t)
    (hv' : ValidFile (ScoredText R StrEventText) t') :
    ∃ (f : Str → Nat) (N : Nat), Function.Injective f ∧ (∀ s n, f s ≠ N + (2 * n + 1)) ∧
      ∀ l, RunsRenamed R S (diceFrom l) (simpleKit R qf) w o f t t' := by
  obtain ⟨f, N, m, m', hf, hN, e1, e3, hq⟩ := simple_ids R qf w o hV t t' ht ht' hv hv'
  refine ⟨f, N, hf, hN, fun l => ?_⟩
  unfold RunsRenamed
  rw [mainWith_inputs R S (diceFrom l) (simpleKit R qf) w o t t' m m' _ _ hr ht ht' e1 e3]
  rcases hq with ⟨q2g, h1, h2⟩ | ⟨h1, h2⟩
  · rw [h1, h2]
    rfl
  · rw [h1, h2]
    rfl

/-- The laws of two runs on files with the same lines in another order. -/
theorem main_law (S S' : StdSort)
    {kit : ToolKit μ (EventSet (Event Q Q)) Q Q} {kit' : ToolKit μ' (EventSet (Event Q' Q')) Q' Q'}
    (hk : SegKit kit) (hk' : SegKit kit') (w w' : World) (o : ToolOptions) (hw : Reordered o w w')
    {f : Str → Q} {f' : Str → Q'} (g : Q → Q') (hg : Function.Injective g) (hgf : ∀ s, g (f s) = f' s)
    (t t' u u' : Str) (ht : w.file o.refFilename = some t) (ht' : hypText w o = some t')
    (hu : w'.file o.refFilename = some u) (hu' : hypText w' o = some u')
    (hv' : ValidFile (ScoredText Rnd.exact StrEventText) t') (n : Nat)
    (hn : (lines t).length + (lines t').length ≤ n)
    (hd : o.sort = "desc".toList) (hc : o.collapse = true)
    (hrun : ∀ l, RunsRenamed Rnd.exact S (diceFrom l) kit w o f t t')
    (hrun' : ∀ l, RunsRenamed Rnd.exact S' (diceFrom l) kit' w' o f' u u')
    (r : List ℕ → Report Q Q) (r' : List ℕ → Report Q' Q')
    (h : ∀ l, mainWith Rnd.exact S (diceFrom l) kit w o = .ok (.done (r l)))
    (h' : ∀ l, mainWith Rnd.exact S' (diceFrom l) kit' w' o = .ok (.done (r' l)))
    (N k : ℕ) (hN : 0 < N) (hdv : ∀ k, 0 < k → k ≤ n → k ∣ N)
    (hL : o.samples * (n * (n + 1)) ≤ k) (Φ : Statement) :
    probability N k (fun l => Φ.of (r l)) = probability N k (fun l => Φ.of (r' l)) := by
  unfold RunsRenamed at hrun hrun'
  simp only [hrun, readQueryMap_world _ w w' o () hw.querySet hw.queryGroups] at h
  simp only [hrun'] at h'
  have hl : ∀ x, x ∈ lines t ↔ x ∈ lines u := by
    rcases hw.refs with ⟨h, _⟩ | ⟨a, b, ha, hb, h⟩
    · rw [ht] at h; cases h
    · rw [ht] at ha; rw [hu] at hb
      injection ha with ha; injection hb with hb
      subst ha; subst hb
      exact h
  have hp : (lines t').Perm (lines u') := by
    rcases hw.hyps with ⟨h, _⟩ | ⟨a, b, ha, hb, h⟩
    · rw [ht'] at h; cases h
    · rw [ht'] at ha; rw [hu'] at hb
      injection ha with ha; injection hb with hb
      subst ha; subst hb
      exact h
  have hrefs : ∀ e, e ∈ eventsIn extractStrEvent t ↔ e ∈ eventsIn extractStrEvent u := by
    intro e
    unfold eventsIn
    simp only [List.mem_filterMap, hl]
  have hhyps : (eventsIn (extractScored Rnd.exact extractStrEvent) t').Perm
      (eventsIn (extractScored Rnd.exact extractStrEvent) u') := hp.filterMap _
  have hfin := (str_plain Rnd.exact).finite t' hv'
  have len1 : (eventsIn extractStrEvent t).length +
      (eventsIn (extractScored Rnd.exact extractStrEvent) t').length ≤ n :=
    (Nat.add_le_add (List.length_filterMap_le _ _) (List.length_filterMap_le _ _)).trans hn
  set refs := eventsIn extractStrEvent t
  set hyps := eventsIn (extractScored Rnd.exact extractStrEvent) t'
  set refs' := eventsIn extractStrEvent u
  set hyps' := eventsIn (extractScored Rnd.exact extractStrEvent) u'
  have hnan : ∀ h ∈ hyps.map (ScoredEvent.rename f f), h.score ≠ .nan := by
    intro x hx
    obtain ⟨y, hy, rfl⟩ := List.mem_map.1 hx
    exact hfin y hy
  have hgf' : g ∘ f = f' := funext hgf
  have ren1 : ∀ e : Event Str Str, (e.rename f f).rename g g = e.rename f' f' := fun e => by
    unfold Event.rename; simp only [hgf]
  have ren2 : ∀ e : ScoredEvent Str Str, (e.rename f f).rename g g = e.rename f' f' := fun e => by
    unfold ScoredEvent.rename Event.rename; simp only [hgf]
  cases hq : readQueryMap (fun (m : Unit) q => (m, (.ok q : Cpp Str))) w' o () with
  | error e => rw [hq] at h; cases h []
  | ok x =>
    rw [hq] at h h'
    cases x with
    | none => cases h []
    | some q2g =>
      have eq : (q2g.map (Prod.map f f)).map (Prod.map g g) = q2g.map (Prod.map f' f') := by
        rw [List.map_map, Prod.map_comp_map, hgf']
      refine evaluate_law S S' kit kit' hk hk' w w' o hg hg (q2g.map (Prod.map f f))
        (refs.map (Event.rename f f)) (refs'.map (Event.rename f' f')) _ (hyps'.map (ScoredEvent.rename f' f'))
        ?_ ?_ hnan hd hc hw.writable r r' h (by rw [eq]; exact h') n N k (by simpa using len1) hN hdv hL Φ
      · intro e
        simp only [List.map_map, List.mem_map, Function.comp, ren1, hrefs]
      · rw [List.map_map]
        have : ScoredEvent.rename g g ∘ ScoredEvent.rename f f = ScoredEvent.rename f' f' :=
          funext ren2
        rw [this]
        exact hhyps.symm.map _

end

/-- What the box tool assesses does not depend on the draws. -/
theorem box_all {ι G : Type} (i : ι) (S : StdSort) (rng : ι → Rng G) (w : World) (o : ToolOptions) (t u : Str)
    (refs : List (Event Str (DocBox Str UInt32))) (hyps : List (ScoredEvent Str (DocBox Str UInt32)))
    (ht : w.file o.refFilename = some t) (hu : hypText w o = some u)
    (hrefs : Yields BoxEventText (lines t) refs)
    (hhyps : Yields (ScoredText Rnd.exact BoxEventText) (lines u) hyps)
    (hr : ∀ r ∈ refs, EdgesOkU r.location.toBBox) (hh : ∀ h ∈ hyps, InRangeU h.base)
    (hd : o.sort = "desc".toList) (hc : o.collapse = true) (r : ι → Report Str (DocBox Str UInt32))
    (h : ∀ l, mainWith Rnd.exact S (rng l) (icdarKit Rnd.exact S) w o = .ok (.done (r l))) :
    ∃ (q2g : List (Str × Str)) (ms rep : List (KwsMatch Str (DocBox Str UInt32)))
      (groups : List (List (KwsMatch Str (DocBox Str UInt32)))),
      ExactBoxMatching (keep (·.query) (listedQueries w o) refs)
        (keep (·.base.query) (listedQueries w o) hyps) ms rep ∧
      (∀ q, groupOf q2g q = groupFor w o q) ∧ groupMatches q2g ms = .ok groups ∧
      (∀ m ∈ ms, m.ref ≠ none ∨ m.hyp ≠ none) ∧ ms.length ≤ refs.length + hyps.length ∧ NoNaN ms ∧
      Shows (r i) (matchNumbers (groupFor w o) o.interp o.trapezoid ms) 0 ∧
      ∀ k, assess Rnd.exact S (rng k) w o ms groups (if o.dumpMatches = [] then none else some (ms, rep)) =
        .ok (r k) := by
  have hr0 : o.refFilename ≠ [] := by
    intro hr
    have h := h i
    unfold mainWith at h
    rw [if_pos hr] at h
    cases h
  have v1 := yields_valid hrefs
  have v2 := yields_valid hhyps
  simp only [(icdar_plain Rnd.exact S).main_good S _ w o hr0 t u ht hu v1 v2,
    yields_events (Format.boxRefs (R := Rnd.exact)) hrefs, yields_events Format.boxHyps hhyps,
    (icdar_plain Rnd.exact S).mapQuery] at h
  cases hq : readQueryMap (fun (m : Unit) q => (m, (.ok q : Cpp Str))) w o () with
  | error x => rw [hq] at h; cases h i
  | ok x =>
    rw [hq] at h
    cases x with
    | none => cases h i
    | some q2g =>
      obtain ⟨q1, q2⟩ := readQueryMap_spec w o q2g hq
      have hfin := (icdar_plain Rnd.exact S).finite u v2
      rw [yields_events Format.boxHyps hhyps] at hfin
      obtain ⟨l, s', ms, rep, groups, e1, e2, e3, e4⟩ := evaluate_all i S rng (icdarKit Rnd.exact S) w o q2g refs
        hyps r h
      rw [hd] at e1
      obtain ⟨d1, d2, d3⟩ := evaluate_ranked Rnd.exact S (icdarKit Rnd.exact S) (icdar_safe Rnd.exact S) q2g refs
        hyps l s' ms rep hfin (Or.inl rfl) e1 e2
      have k1 : usedRefs q2g refs = keep (·.query) (listedQueries w o) refs := by
        unfold usedRefs
        rw [filter_keep _ _ q1]
      have k2 : usedHyps q2g hyps = keep (·.base.query) (listedQueries w o) hyps := by
        unfold usedHyps
        rw [filter_keep _ _ q1]
      have hsub : ∀ x ∈ usedHyps q2g hyps, x ∈ hyps := fun x hx => usedHyps_mem q2g hyps x hx
      have hsubr : ∀ x ∈ usedRefs q2g refs, x ∈ refs := by
        intro x hx
        rw [k1] at hx
        exact keep_mem hx
      have hlen := run_length _ _ _ _ _ _ _ _ e2
      have hused := used_length q2g refs hyps
      have hll := d2.length_eq
      have hhas := run_has _ _ _ _ _ _ _ _ e2
      have hhard := run_hardMatch _ _ _ _ _ _ _ _ e2 (by
        intro a b e he hf
        obtain ⟨i, hi⟩ := inter_ok a b.base
        have := ioh_eq Rnd.exact (1 / 2) a b i hi
        rw [show (icdarKit Rnd.exact S).scorer a b = iohScorer Rnd.exact (1 / 2) a b from rfl, this] at he
        injection he with he
        subst he
        unfold verdict at hf ⊢
        split
        · rfl
        · rename_i hne; rw [if_neg hne] at hf; norm_num at hf)
      have hshow := assess_numbers Rnd.exact S (rng i) w o q2g ms groups _ (r i) _ 0 (Or.inl ⟨rfl, rfl⟩)
        le_rfl hhard d1 hc e3 (e4 i)
      rw [show groupOf q2g = groupFor w o from funext q2] at hshow
      obtain ⟨s1, ms1, rep1, f1, f2⟩ := box_exact Rnd.exact S DocEventSet.new (usedRefs q2g refs)
        (usedHyps q2g hyps) l e1 (fun x hx => hfin x (hsub x hx)) (fun x hx => hr x (hsubr x hx))
        (fun x hx => hh x (hsub x hx)) (Or.inl rfl)
      rw [show SimpleMatcher.run (icdarKit Rnd.exact S).index (icdarKit Rnd.exact S).scorer
        (icdarKit Rnd.exact S).refsSet (usedRefs q2g refs) l = _ from f1, Except.ok.injEq, Prod.mk.injEq,
        Prod.mk.injEq] at e2
      obtain ⟨_, rfl, rfl⟩ := e2
      rw [← k1, ← k2]
      exact ⟨q2g, ms1, rep1, groups, f2, q2, e3, hhas, by omega, d1.noNaN, hshow, e4⟩

theorem keep_perm {E : Type} (query : E → Str) (listed : List Str) {es es' : List E} (h : es.Perm es') :
    (keep query listed es).Perm (keep query listed es') := by
  unfold keep
  split
  · exact h
  · exact h.filter _

/-- The matching depends only on the set of the references and on the hypotheses in any order. -/
theorem exactBoxMatching_same {refs refs' : List (Event Str (DocBox Str UInt32))}
    {hyps hyps' : List (ScoredEvent Str (DocBox Str UInt32))}
    {ms rep : List (Match (Event Str (DocBox Str UInt32)) (ScoredEvent Str (DocBox Str UInt32)))}
    (h : ExactBoxMatching refs hyps ms rep) (hr : ∀ e, e ∈ refs ↔ e ∈ refs') (hh : hyps.Perm hyps') :
    ExactBoxMatching refs' hyps' ms rep := by
  obtain ⟨l, ov, en, mi, a1, a2, a3, a4, a5, a6, e⟩ := h
  simp only [hr] at a3 a6
  exact ⟨l, ov, en, mi, a1.trans hh, a2, a3, a4, a5, a6, e⟩

end Kws
