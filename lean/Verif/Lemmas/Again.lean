import Verif.Spec.Again
import Verif.Props.ToolMatching
import Verif.Lemmas.Total
import Verif.Lemmas.Ids
import Verif.Lemmas.Output
import Verif.Lemmas.Layout

/-!
# Lemmas for one more hypothesis for what has been found already
-/

namespace Kws
open Spec

/-! ## Matching -/

section
variable {σ RE HE : Type} [Cmp RE] [LawfulCmp RE]

omit [Cmp RE] [LawfulCmp RE] in
theorem Spec.Greedy.join {overl : HE → List RE} {score : RE → HE → MatchError}
    {earlier : List (Match RE HE)} {pre post : List HE} {e1 e2 r1 r2 : List (Match RE HE)}
    (h1 : Greedy overl score earlier pre e1 r1)
    (h2 : Greedy overl score (earlier ++ e1) post e2 r2) :
    Greedy overl score earlier (pre ++ post) (e1 ++ e2) (r1 ++ r2) := by
  induction h1 with
  | nil earlier => simpa using h2
  | cons earlier h hs entry repeats entries repeated d1 d2 _ ih =>
    rw [List.append_assoc, List.append_assoc]
    refine Greedy.cons _ _ _ _ _ _ _ d1 d2 (ih ?_)
    rwa [List.append_assoc]

/-- A hypothesis that may be given one reference only leaves it taken. -/
theorem Spec.Greedy.taken {overl : HE → List RE} {score : RE → HE → MatchError}
    {hyps : List HE} {e rep : List (Match RE HE)} (h : Greedy overl score [] hyps e rep) {y : HE}
    (hy : y ∈ hyps) {r : RE} (hr : r ∈ overl y) (hfp : (score r y).fp < 1)
    (hone : ∀ r' ∈ overl y, (score r' y).fp < 1 → r' = r) : Taken e r := by
  obtain ⟨l1, l2, rfl⟩ := List.append_of_mem hy
  obtain ⟨e1, e2, r1, r2, rfl, rfl, g1, g2⟩ := h.split
  cases g2 with
  | cons _ _ _ entry repeats entries repeated d1 d2 g3 =>
    rw [List.nil_append] at d1
    rcases d1 with ⟨a, -⟩ | ⟨k1, r', k2, a1, a2, a3, a4, rfl⟩ | ⟨-, a2, -⟩
    · exact absurd hfp (not_lt.2 (a r hr))
    · obtain rfl := hone r' (by rw [a1]; simp) a2
      exact ⟨⟨some r', some y, score r' y⟩, by simp, rfl⟩
    · obtain ⟨m, hm, e⟩ := a2 r hr hfp
      exact ⟨m, by simp [hm], e⟩

/-- Leaving out a hypothesis all of whose references are taken before. -/
theorem Spec.Greedy.without {overl : HE → List RE} {score : RE → HE → MatchError}
    {l1 l2 : List HE} {x : HE} {e rep : List (Match RE HE)}
    (h : Greedy overl score [] (l1 ++ x :: l2) e rep)
    (hright : ∃ r ∈ overl x, (score r x).fp < 1)
    (htaken : ∀ e1 r1, Greedy overl score [] l1 e1 r1 → ∀ r ∈ overl x, (score r x).fp < 1 → Taken e1 r) :
    ∃ c d, rep = c ++ ((overl x).filter fun r => (score r x).fp < 1).map
        (fun r => ⟨some r, some x, score r x⟩) ++ d ∧
      Greedy overl score [] (l1 ++ l2) e (c ++ d) := by
  obtain ⟨e1, e2, r1, r2, rfl, rfl, g1, g2⟩ := h.split
  have ht := htaken e1 r1 g1
  cases g2 with
  | cons _ _ _ entry repeats entries repeated d1 d2 g3 =>
    rw [List.nil_append] at d1 d2
    have h1 : entry = [] := deserves_unique d1 (Or.inr (Or.inr ⟨hright, ht, rfl⟩))
    have h2 : repeats = ((overl x).filter fun r => (score r x).fp < 1).map
        (fun r => ⟨some r, some x, score r x⟩) :=
      deservesRepeated_unique d2 ⟨overl x, [], by simp, ht, by simp, rfl⟩
    subst h1 h2
    refine ⟨r1, repeated, by simp, ?_⟩
    rw [List.append_nil] at g3
    exact g1.join g3

theorem run_without (ix : RefIndex σ RE HE) (scorer : RE → HE → Cpp MatchError) (s : σ)
    (overl : HE → List RE) (score : RE → HE → MatchError) (refs : List RE) (l1 l2 : List HE) (x : HE)
    (hov : ∀ h ∈ l1 ++ x :: l2,
      ix.findOverlapping (refs.foldl ix.insert (ix.clear s)) h = .ok (overl h))
    (hsub : ∀ h ∈ l1 ++ x :: l2, ∀ r ∈ overl h, r ∈ refs)
    (hsc : ∀ h ∈ l1 ++ x :: l2, ∀ r ∈ overl h, scorer r h = .ok (score r h))
    (hright : ∃ r ∈ overl x, (score r x).fp < 1)
    (htaken : ∀ e1 r1, Greedy overl score [] l1 e1 r1 → ∀ r ∈ overl x, (score r x).fp < 1 → Taken e1 r) :
    ∃ s' ms c d, SimpleMatcher.run ix scorer s refs (l1 ++ l2) = .ok (s', ms, c ++ d) ∧
      SimpleMatcher.run ix scorer s refs (l1 ++ x :: l2) =
        .ok (s', ms, c ++ ((overl x).filter fun r => (score r x).fp < 1).map
          (fun r => ⟨some r, some x, score r x⟩) ++ d) := by
  have hm : ∀ h ∈ l1 ++ l2, h ∈ l1 ++ x :: l2 := by
    intro h hh
    simp only [List.mem_append, List.mem_cons] at hh ⊢
    tauto
  obtain ⟨e', mi', rep', a1, a2, a3, a4⟩ := run_spec ix scorer s overl score refs _ hov hsub hsc
  obtain ⟨e, mi, rep, b1, b2, b3, b4⟩ := run_spec ix scorer s overl score refs (l1 ++ l2)
    (fun h hh => hov h (hm h hh)) (fun h hh => hsub h (hm h hh)) (fun h hh => hsc h (hm h hh))
  obtain ⟨c, d, rfl, g⟩ := a2.without hright htaken
  obtain ⟨rfl, rfl⟩ := b2.unique g
  have : mi = mi' := StdSet.sorted_ext b3 a3 fun r => by rw [b4, a4]
  subst this
  exact ⟨_, _, c, d, b1, a1⟩

end

/-! ## Sorting -/

section
variable {Q L : Type} [Cmp Q] [LawfulCmp Q] [Cmp L] [LawfulCmp L]

theorem lt_score (a b : ScoredEvent Q L) (h : Flt.lt a.score b.score = true) :
    ScoredEvent.lt a b = true := gt_score b a h

omit [Cmp Q] [LawfulCmp Q] [Cmp L] [LawfulCmp L] in
theorem last_split {x : ScoredEvent Q L} {l : List (ScoredEvent Q L)} (h : x ∈ l) :
    ∃ l1 l2, l = l1 ++ x :: l2 ∧ x ∉ l2 := by
  obtain ⟨k1, k2, e, hx⟩ := List.eq_append_cons_of_mem (List.mem_reverse.2 h)
  refine ⟨k2.reverse, k1.reverse, ?_, by simpa using hx⟩
  rw [← List.reverse_reverse l, e]
  simp

theorem sort_split (S : StdSort) (f : ScoredEvent Q L → ScoredEvent Q L → Bool)
    (hf : (∀ a b : ScoredEvent Q L, a.score ≠ .nan → b.score ≠ .nan → (f a b = true ↔
        ScoredLt (fun a b => Cmp.lt a b = true) (fun a b => Cmp.lt a b = true) a b)) ∨
      (∀ a b : ScoredEvent Q L, a.score ≠ .nan → b.score ≠ .nan → (f a b = true ↔
        ScoredLt (fun a b => Cmp.lt a b = true) (fun a b => Cmp.lt a b = true) b a)))
    (a b : List (ScoredEvent Q L)) (x : ScoredEvent Q L) (hn : ∀ h ∈ a ++ x :: b, h.score ≠ .nan) :
    ∃ l1 l2, S.sort f (a ++ b) = .ok (l1 ++ l2) ∧ S.sort f (a ++ x :: b) = .ok (l1 ++ x :: l2) ∧
      ∀ y ∈ a ++ b, (f y x = true ∨ y = x) → y ∈ l1 := by
  have ho := C07_scored_order_partial Q L
  have hn' : ∀ h ∈ a ++ b, h.score ≠ .nan := fun h hh => hn h (by
    simp only [List.mem_append, List.mem_cons] at hh ⊢
    tauto)
  obtain ⟨l, h1, h2⟩ := S.ok _ _ (ho.weak_of f hf _ hn)
  obtain ⟨k, g1, g2⟩ := S.ok _ _ (ho.weak_of f hf _ hn')
  obtain ⟨l1, l2, rfl, hx⟩ := last_split (h2.perm.mem_iff.2 (by simp) : x ∈ l)
  have hp : (l1 ++ l2).Perm (a ++ b) :=
    List.Perm.cons_inv (List.perm_middle.symm.trans (h2.perm.trans List.perm_middle))
  have hs : SortedPerm f (a ++ b) (l1 ++ l2) :=
    ⟨hp, h2.sorted.sublist (List.Sublist.append_left (List.sublist_cons_self _ _) _)⟩
  obtain rfl := ho.sorted_unique f hf hn' (List.Perm.refl _) g2 hs
  refine ⟨l1, l2, g1, h1, fun y hy hyx => ?_⟩
  rcases List.mem_append.1 (hp.mem_iff.2 hy) with h | h
  · exact h
  · rcases hyx with hyx | rfl
    · have := (List.pairwise_append.1 h2.sorted).2.1
      rw [List.pairwise_cons] at this
      rw [this.1 y h] at hyx
      cases hyx
    · exact absurd h hx

theorem sortHyps_split (S : StdSort) (sort : Str) (a b : List (ScoredEvent Q L)) (x : ScoredEvent Q L)
    (hn : ∀ h ∈ a ++ x :: b, h.score ≠ .nan) :
    ∃ l1 l2, sortHyps S sort (a ++ b) = .ok (l1 ++ l2) ∧
      sortHyps S sort (a ++ x :: b) = .ok (l1 ++ x :: l2) ∧
      ∀ y ∈ a ++ b, Ahead sort a y x → y ∈ l1 := by
  unfold sortHyps Ahead
  split
  · obtain ⟨l1, l2, h1, h2, h3⟩ := sort_split S ScoredEvent.gt (Or.inr gt_ops) a b x hn
    exact ⟨l1, l2, h1, h2, fun y hy h => h3 y hy (h.imp_left (gt_score y x))⟩
  · split
    · obtain ⟨l1, l2, h1, h2, h3⟩ := sort_split S ScoredEvent.lt (Or.inl lt_ops) a b x hn
      exact ⟨l1, l2, h1, h2, fun y hy h => h3 y hy (h.imp_left (lt_score y x))⟩
    · exact ⟨a, b, rfl, rfl, fun y _ h => h⟩

end

/-! ## Evaluation -/

section
variable {μ σ Q L G : Type} [DecidableEq Q] [Cmp Q] [LawfulCmp Q] [Cmp L] [LawfulCmp L]

omit [DecidableEq Q] [Cmp Q] [LawfulCmp Q] [Cmp L] [LawfulCmp L] in
theorem assess_dump (R : Rnd) (S : StdSort) (rng : Rng G) (w : World) (o : ToolOptions)
    (ms : List (KwsMatch Q L)) (groups : List (List (KwsMatch Q L)))
    (dump dump' : Option (List (KwsMatch Q L) × List (KwsMatch Q L))) :
    assess R S rng w o ms groups dump' =
      (assess R S rng w o ms groups dump).map fun r => { r with dump := dump' } := by
  unfold assess
  simp only [bind, Except.bind, pure, Except.pure]
  repeat' split
  all_goals rfl

/-- The pairs that matching accepts are those of `pair`, and all searches and scores succeed. -/
structure Accepts (kit : ToolKit μ σ Q L) (pair : Event Q L → ScoredEvent Q L → Prop)
    (refs : List (Event Q L)) (hyps : List (ScoredEvent Q L)) : Prop where
  ex : ∃ (overl : ScoredEvent Q L → List (Event Q L)) (score : Event Q L → ScoredEvent Q L → MatchError),
    ∀ h ∈ hyps, kit.index.findOverlapping
        (refs.foldl kit.index.insert (kit.index.clear kit.refsSet)) h = .ok (overl h) ∧
      (∀ r ∈ overl h, r ∈ refs ∧ kit.scorer r h = .ok (score r h)) ∧
      ∀ r ∈ refs, (r ∈ overl h ∧ (score r h).fp < 1 ↔ pair r h)

theorem matchAndAssess_again (R : Rnd) (S : StdSort) (rng : Rng G) (kit : ToolKit μ σ Q L) (w : World)
    (o : ToolOptions) (q2g : List (Q × Q)) (refs : List (Event Q L))
    (a b : List (ScoredEvent Q L)) (x : ScoredEvent Q L) (pair : Event Q L → ScoredEvent Q L → Prop)
    (hn : ∀ h ∈ a ++ x :: b, h.score ≠ .nan) (hk : Accepts kit pair refs (a ++ x :: b))
    (hx : FoundAlready pair o.sort refs a b x) :
    SameButRepeats o (matchAndAssess R S rng kit w o q2g refs (a ++ b))
      (matchAndAssess R S rng kit w o q2g refs (a ++ x :: b)) := by
  obtain ⟨l1, l2, e1, e2, hl⟩ := sortHyps_split S o.sort a b x hn
  obtain ⟨overl, score, hk⟩ := hk
  have hp := fun {h} => (sortHyps_mem S o.sort _ _ e2).mem_iff (a := h)
  have hx0 : x ∈ a ++ x :: b := by simp
  obtain ⟨s', ms, c, d, r1, r2⟩ := run_without kit.index kit.scorer kit.refsSet overl score refs l1 l2 x
    (fun h hh => (hk h (hp.1 hh)).1) (fun h hh r hr => ((hk h (hp.1 hh)).2.1 r hr).1)
    (fun h hh r hr => ((hk h (hp.1 hh)).2.1 r hr).2)
    (by
      obtain ⟨r, hr, hrx⟩ := hx.right
      exact ⟨r, ((hk x hx0).2.2 r hr).2 hrx⟩)
    (by
      intro en rp g r hr hfp
      have hr' := ((hk x hx0).2.1 r hr).1
      obtain ⟨y, hy, hyx, hry, hone⟩ := hx.found r hr' (((hk x hx0).2.2 r hr').1 ⟨hr, hfp⟩)
      have hy0 : y ∈ a ++ x :: b := by
        simp only [List.mem_append, List.mem_cons] at hy ⊢
        tauto
      obtain ⟨q1, q2⟩ := ((hk y hy0).2.2 r hr').2 hry
      refine g.taken (hl y hy hyx) q1 q2 fun r2 h2 h3 => ?_
      have h4 := ((hk y hy0).2.1 r2 h2).1
      exact hone r2 h4 (((hk y hy0).2.2 r2 h4).1 ⟨h2, h3⟩))
  have n1 := run_nh r1
  rw [matchAndAssess_eq, matchAndAssess_eq, e1, e2]
  simp only [Except.bind, r1, r2, Except.map]
  unfold afterMatching
  simp only
  simp only at n1
  have n2 : (l1 ++ x :: l2).length = (l1 ++ l2).length + 1 := by simp; omega
  rw [if_neg (not_lt.2 n1), if_neg (not_lt.2 (n1.trans (by omega)))]
  by_cases hd : o.dumpMatches ≠ [] ∧ w.writable o.dumpMatches = false
  · rw [if_pos hd, if_pos hd]
    exact Or.inl rfl
  · rw [if_neg hd, if_neg hd]
    cases hg : groupMatches q2g ms with
    | error e => exact Or.inl rfl
    | ok groups =>
      simp only [Except.bind]
      by_cases hd0 : o.dumpMatches = []
      · simp only [if_pos hd0]
        exact Or.inl rfl
      · simp only [if_neg hd0]
        rw [assess_dump R S rng w o ms groups (some (ms, c ++ d)) (some (ms, c ++ _ ++ d))]
        cases ha : assess R S rng w o ms groups (some (ms, c ++ d)) with
        | error e => exact Or.inl rfl
        | ok r =>
          refine Or.inr ⟨hd0, r, ms, c ++ d, _, (assess_ok _ _ _ _ _ _ _ _ _ ha).2.2.2.2, ?_, rfl, rfl⟩
          rw [List.append_assoc]
          exact List.Sublist.append_left (List.sublist_append_right _ _) _

theorem evaluate_again (R : Rnd) (S : StdSort) (rng : Rng G) (kit : ToolKit μ σ Q L) (w : World)
    (o : ToolOptions) (q2g : List (Q × Q)) (refs : List (Event Q L))
    (a b : List (ScoredEvent Q L)) (x : ScoredEvent Q L) (pair : Event Q L → ScoredEvent Q L → Prop)
    (hq : ∀ r h, pair r h → r.query = h.base.query)
    (hn : ∀ h ∈ a ++ x :: b, h.score ≠ .nan)
    (hk : ∀ refs' hyps', refs' ⊆ refs → hyps' ⊆ a ++ x :: b → Accepts kit pair refs' hyps')
    (hx : FoundAlready pair o.sort refs a b x) :
    SameButRepeats o (evaluate R S rng kit w o q2g refs (a ++ b))
      (evaluate R S rng kit w o q2g refs (a ++ x :: b)) := by
  unfold evaluate
  by_cases h0 : q2g = []
  · simp only [if_pos h0]
    exact matchAndAssess_again R S rng kit w o q2g refs a b x pair hn
      (hk _ _ (fun _ h => h) (fun _ h => h)) hx
  · simp only [if_neg h0]
    unfold filterEvents
    rw [List.filter_append, List.filter_append, List.filter_cons]
    split
    · rename_i hkeep
      refine matchAndAssess_again R S rng kit w o q2g _ _ _ x pair ?_ ?_ ⟨?_, ?_⟩
      · intro h hh
        refine hn h ?_
        simp only [List.mem_append, List.mem_cons, List.mem_filter] at hh ⊢
        tauto
      · refine hk _ _ (fun _ h => (List.mem_filter.1 h).1) fun h hh => ?_
        simp only [List.mem_append, List.mem_cons, List.mem_filter] at hh ⊢
        tauto
      · obtain ⟨r, hr, hrx⟩ := hx.right
        exact ⟨r, List.mem_filter.2 ⟨hr, by simpa only [hq r x hrx] using hkeep⟩, hrx⟩
      · intro r hr hrx
        obtain ⟨y, hy, hyx, hry, hone⟩ := hx.found r (List.mem_filter.1 hr).1 hrx
        have hyk := hkeep
        simp only [← hq r x hrx, hq r y hry] at hyk
        refine ⟨y, ?_, ?_, hry, fun r' hr' => hone r' (List.mem_filter.1 hr').1⟩
        · rw [← List.filter_append]
          exact List.mem_filter.2 ⟨hy, hyk⟩
        · unfold Ahead at hyx ⊢
          split
          · rwa [if_pos ‹_›] at hyx
          · rw [if_neg ‹_›] at hyx
            split
            · rwa [if_pos ‹_›] at hyx
            · rw [if_neg ‹_›] at hyx
              exact List.mem_filter.2 ⟨hyx, hyk⟩
    · exact Or.inl rfl

end

/-! ## Numbers for strings -/

theorem firsts_known {P X : List Str} (h : X ⊆ P) (Q : List Str) : firsts (P ++ X ++ Q) = firsts (P ++ Q) := by
  have h' : ∀ s ∈ X, s ∈ firsts P := fun s hs => (mem_firsts P s).2 (h hs)
  clear h
  unfold firsts at h' ⊢
  rw [List.foldl_append, List.foldl_append, List.foldl_append]
  congr 1
  generalize List.foldl (fun acc s => if s ∈ acc then acc else acc ++ [s]) [] P = acc at h' ⊢
  induction X with
  | nil => rfl
  | cons s X ih =>
    rw [List.foldl_cons, if_pos (h' s List.mem_cons_self)]
    exact ih fun s hs => h' s (List.mem_cons_of_mem _ hs)

/-- A run with good event files, with a given way to name the strings. -/
theorem simple_named {G : Type} (R : Rnd) (S : StdSort) (rng : Rng G) (qf : Bool) (w : World) (o : ToolOptions)
    (hr : o.refFilename ≠ []) (t t' : Str) (ht : w.file o.refFilename = some t)
    (ht' : hypText w o = some t') (hv : ValidFile StrEventText t)
    (hv' : ValidFile (ScoredText R StrEventText) t') (refs : List (Event Str Str))
    (hyps : List (ScoredEvent Str Str)) (hrefs : eventsIn extractStrEvent t = refs)
    (hhyps : eventsIn (extractScored R extractStrEvent) t' = hyps) (T : List Str)
    (hT : T = refs.flatMap (strings qf) ++ hyps.flatMap (fun e => strings qf e.base) ++ queryWords w o)
    (hcap : (firsts T).length ≤ 2 ^ 31) (f : Str → Nat) (hf : Function.Injective f)
    (hfT : ∀ s ∈ T, f s = idOf T s) :
    mainWith R S rng (simpleKit R qf) w o =
      (readQueryMap (fun (m : Unit) q => (m, .ok q)) w o ()).bind fun
        | none => .ok .failed
        | some q2g => evaluate R S rng (simpleKit R qf) w o (q2g.map (Prod.map f f))
            (refs.map (Event.rename f f)) (hyps.map (ScoredEvent.rename f f)) := by
  set A := refs.flatMap (strings qf) with hA
  set B := hyps.flatMap (fun e => strings qf e.base) with hB
  obtain ⟨m, e1, a1⟩ := simple_readRef R qf T (B ++ queryWords w o) t hv
    (by rw [hT, List.append_assoc, hrefs]) hcap
  rw [hrefs] at e1 a1
  obtain ⟨m', e2, a2⟩ := IntMapper.mapEachScored_ids qf (2 ^ 31 - 1) T (by rw [kMax31]; exact hcap) hyps
    m A (queryWords w o) hT a1
  have e3 : (simpleKit R qf).readHyp m t' =
      (m', hyps.map (ScoredEvent.rename (idOf T) (idOf T)), .ok) := by
    have := C48_mapped (extractScored R extractStrEvent) (IntMapper.mapScoredEvent qf (2 ^ 31 - 1)) m t'
    rw [(Format.strHyps (R := R)).readPlain_ok t' hv'] at this
    simp only [show (lines t').filterMap (lineEvent (extractScored R extractStrEvent)) = hyps from hhyps,
      e2] at this
    exact this
  have hren : refs.map (Event.rename (idOf T) (idOf T)) = refs.map (Event.rename f f) := by
    refine List.map_congr_left (fun e he => ?_)
    have hm : ∀ s ∈ strings qf e, s ∈ T := fun s hs => by
      rw [hT]
      exact List.mem_append_left _ (List.mem_append_left _ (List.mem_flatMap.2 ⟨e, he, hs⟩))
    unfold Event.rename
    rw [hfT e.query (hm _ (by simp [strings_mem])), hfT e.location (hm _ (by simp [strings_mem]))]
  have hren' : hyps.map (ScoredEvent.rename (idOf T) (idOf T)) = hyps.map (ScoredEvent.rename f f) := by
    refine List.map_congr_left (fun e he => ?_)
    have hm : ∀ s ∈ strings qf e.base, s ∈ T := fun s hs => by
      rw [hT]
      exact List.mem_append_left _ (List.mem_append_right _ (List.mem_flatMap.2 ⟨e, he, hs⟩))
    unfold ScoredEvent.rename Event.rename
    rw [hfT e.base.query (hm _ (by simp [strings_mem])),
      hfT e.base.location (hm _ (by simp [strings_mem]))]
  have hNames := IntMapper.names_ids (2 ^ 31 - 1) T (A ++ B) (queryWords w o) hT
    (by rw [kMax31]; exact hcap)
  rw [hren] at e1
  rw [hren'] at e3
  rw [mainWith_inputs R S rng (simpleKit R qf) w o t t' m m' _ _ hr ht ht' e1 e3]
  rcases readQueryMap_names hf w o hNames m' (by simpa using a2)
    (fun s hs => hfT s (by rw [hT]; exact List.mem_append_right _ hs)) with ⟨q2g, h1, h2⟩ | ⟨h1, h2⟩
  · rw [h1, show readQueryMap (simpleKit R qf).mapQuery w o m' = _ from h2]
    rfl
  · rw [h1, show readQueryMap (simpleKit R qf).mapQuery w o m' = _ from h2]
    rfl

end Kws
