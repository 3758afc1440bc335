import Verif.Lemmas.Dilution
import Verif.Props.BoxImprovement
import Verif.Props.Runs

/-!
# C112: queries for which nothing is found
-/

namespace Kws
open Spec

/-! ## Numbers -/

section
variable {Q L Q' L' : Type}

theorem diluted_near {a b ε ε' x y : ℚ} {g g' : ℕ} (ha : |x - a| ≤ ε) (hb : |y - b| ≤ ε')
    (h : b * g' = a * g) : |y * g' - x * g| ≤ ε' * g' + ε * g := by
  have e : y * g' - x * g = (y - b) * g' - (x - a) * g := by
    rw [sub_mul, sub_mul, h]
    ring
  rw [e]
  refine (abs_sub _ _).trans (add_le_add ?_ ?_)
  · rw [abs_mul, Nat.abs_cast]
    exact mul_le_mul_of_nonneg_right hb (Nat.cast_nonneg _)
  · rw [abs_mul, Nat.abs_cast]
    exact mul_le_mul_of_nonneg_right ha (Nat.cast_nonneg _)

theorem shows_means {r : Report Q L} {r' : Report Q' L'} {a b : Numbers} {ε ε' : ℚ} {g g' : ℕ}
    (h : Shows r a ε) (h' : Shows r' b ε') (h1 : b.mAP * g' = a.mAP * g) (h2 : b.mNDCG * g' = a.mNDCG * g) :
    MeansDiluted r g ε r' g' ε' :=
  ⟨diluted_near h.mAP h'.mAP h1, by rw [h.mNDCG, h'.mNDCG, h2]⟩

theorem shows_globals {r : Report Q L} {r' : Report Q' L'} {a b : Numbers} {ε ε' : ℚ} {g g' : ℕ}
    (h : Shows r a ε) (h' : Shows r' b ε') (h1 : b.gAP * g' = a.gAP * g)
    (h2 : b.gNDCG * idealGain g' = a.gNDCG * idealGain g) : GlobalsDiluted r g ε r' g' ε' :=
  ⟨diluted_near h.gAP h'.gAP h1, by rw [h.gNDCG, h'.gNDCG, h2]⟩

end

/-- Restricting the queries. -/
theorem Spec.AddsQueries.keep {L : Type} [DecidableEq L] {grp : Str → Str} {refs more refs' : List (Event Str L)}
    {hyps others hyps' : List (ScoredEvent Str L)} (h : AddsQueries grp refs more refs' hyps others hyps')
    (qs : List Str) :
    AddsQueries grp (keep (·.query) qs refs) (keep (·.query) qs more) (keep (·.query) qs refs')
      (keep (·.base.query) qs hyps) (keep (·.base.query) qs others) (keep (·.base.query) qs hyps') := by
  have hsub : ∀ (a : List (Event Str L)) (b : List (ScoredEvent Str L)) q,
      q ∈ queriesOf (Spec.keep (·.query) qs a) (Spec.keep (·.base.query) qs b) → q ∈ queriesOf a b := by
    intro a b q hq
    rcases List.mem_append.1 hq with hq | hq <;> obtain ⟨x, hx, rfl⟩ := List.mem_map.1 hq
    · exact mem_queriesOf_ref (keep_subset _ _ _ x hx)
    · exact mem_queriesOf_hyp (keep_subset _ _ _ x hx)
  refine ⟨fun r => ?_, ?_, fun a ha b hb => h.apart a (hsub _ _ a ha) b (hsub _ _ b hb)⟩
  · simp only [keep_filter, List.mem_filter, h.allRefs, or_and_right]
  · simp only [keep_filter, ← List.filter_append]
    exact h.allHyps.filter _

/-! ## The matching of boxes -/

section
variable {grp : Str → Str} {refs more refs' : List (Event Str (DocBox Str UInt32))}
  {hyps others hyps' : List (ScoredEvent Str (DocBox Str UInt32))}
  {ms rep ms' rep' : List (KwsMatch Str (DocBox Str UInt32))}

theorem greedy_pairs {RE HE : Type} {overl : HE → List RE} {score : RE → HE → MatchError}
    {earlier entries rep : List (Match RE HE)} {l : List HE}
    (h : Greedy overl score earlier l entries rep) :
    (∀ m ∈ entries, ∀ r x, m.ref = some r → m.hyp = some x → x ∈ l ∧ r ∈ overl x ∧ (score r x).fp < 1) ∧
    (∀ x ∈ l, (∃ m ∈ entries, m.hyp = some x) ∨ ∃ r, r ∈ overl x) := by
  induction h with
  | nil => simp
  | cons earlier h hs entry repeats entries repeated h1 h2 _ ih =>
    constructor
    · intro m hm r x hr hx
      rcases List.mem_append.1 hm with hm | hm
      · rcases h1 with ⟨_, rfl⟩ | ⟨l1, r', l2, e, h3, _, _, rfl⟩ | ⟨_, _, rfl⟩
        · rw [List.mem_singleton] at hm
          subst hm
          cases hr
        · rw [List.mem_singleton] at hm
          subst hm
          cases hr
          cases hx
          exact ⟨by simp, by simp [e], h3⟩
        · simp at hm
      · obtain ⟨a, b⟩ := ih.1 m hm r x hr hx
        exact ⟨List.mem_cons_of_mem _ a, b⟩
    · intro x hx
      rcases List.mem_cons.1 hx with rfl | hx
      · rcases h1 with ⟨_, rfl⟩ | ⟨l1, r', l2, e, h3, _, _, rfl⟩ | ⟨⟨r, hr, _⟩, _, rfl⟩
        · exact .inl ⟨_, List.mem_append.2 (.inl (List.mem_singleton.2 rfl)), rfl⟩
        · exact .inl ⟨_, List.mem_append.2 (.inl (List.mem_singleton.2 rfl)), rfl⟩
        · exact .inr ⟨r, hr⟩
      · rcases ih.2 x hx with ⟨m, hm, e⟩ | h
        · exact .inl ⟨m, List.mem_append.2 (.inr hm), e⟩
        · exact .inr h

/-- The hits are pairs of a hypothesis and a reference that fits it. -/
theorem exact_pairs (h : ExactBoxMatching refs hyps ms rep) :
    ∀ m ∈ ms, ∀ r x, m.ref = some r → m.hyp = some x → x ∈ hyps ∧ r ∈ refs ∧ BoxPair r x := by
  obtain ⟨l, overl, entries, missed, h1, _, h3, h4, _, _, rfl⟩ := h
  intro m hm r x hr hx
  rcases List.mem_append.1 hm with hm | hm
  · obtain ⟨a, b, c⟩ := (greedy_pairs h4).1 m hm r x hr hx
    obtain ⟨d, e, f⟩ := ((h3 x a).1 r).1 b
    refine ⟨h1.mem_iff.1 a, d, e, f, ?_⟩
    by_contra hlt
    rw [verdict, if_neg hlt] at c
    exact absurd c (by norm_num [Outcome.error])
  · obtain ⟨y, _, rfl⟩ := List.mem_map.1 hm
    cases hx

/-- The groups of the matches are those of the events. -/
theorem exact_groups (h : ExactBoxMatching refs hyps ms rep) (grp : Str → Str) :
    (groupsIn grp ms).length = groupCount grp refs hyps := by
  have hm := exactBoxMatching_mem h
  have hp := exact_pairs h
  obtain ⟨l0, _, hB⟩ := C88_refines _ _ _ _ h
  have hrefs := (boxMatching_refs hB).2
  have key : ∀ g, g ∈ groupsIn grp ms ↔ g ∈ ((queriesOf refs hyps).map grp).dedup := by
    intro g
    rw [mem_groupsIn, List.mem_dedup, List.mem_map]
    constructor
    · rintro ⟨m, hm', e, he, rfl⟩
      refine ⟨_, ?_, rfl⟩
      unfold eventOf at he
      cases hr : m.ref with
      | some r =>
        rw [hr] at he
        cases he
        exact mem_queriesOf_ref ((hm m (.inl hm')).1 _ hr)
      | none =>
        rw [hr] at he
        cases hx : m.hyp with
        | none => rw [hx] at he; cases he
        | some x =>
          rw [hx] at he
          cases he
          exact mem_queriesOf_hyp ((hm m (.inl hm')).2 _ hx)
    · rintro ⟨q, hq, rfl⟩
      have hr : ∀ r ∈ refs, ∃ m ∈ ms, ∃ e, eventOf m = some e ∧ grp e.query = grp r.query := by
        intro r hr
        obtain ⟨m, hm', e⟩ := List.mem_filterMap.1 ((hrefs r).2 hr)
        exact ⟨m, hm', r, by unfold eventOf; rw [e]; rfl, rfl⟩
      rcases List.mem_append.1 hq with hq | hq <;> obtain ⟨x, hx, rfl⟩ := List.mem_map.1 hq
      · exact hr x hx
      · obtain ⟨l, overl, entries, missed, h1, _, h3, h4, _, _, rfl⟩ := h
        have hxl := h1.mem_iff.2 hx
        rcases (greedy_pairs h4).2 x hxl with ⟨m, hm', e⟩ | ⟨r, hr'⟩
        · have hm2 := List.mem_append_left (missed.map (fun r => (⟨some r, none, Outcome.falseNeg.error⟩ :
            KwsMatch Str (DocBox Str UInt32)))) hm'
          cases hmr : m.ref with
          | some r =>
            obtain ⟨_, _, hb⟩ := hp m hm2 r x hmr e
            exact ⟨m, hm2, r, by unfold eventOf; rw [hmr]; rfl, by rw [hb.1]⟩
          | none => exact ⟨m, hm2, x.base, by unfold eventOf; rw [hmr, e]; rfl, rfl⟩
        · obtain ⟨a, b, _⟩ := ((h3 x hxl).1 r).1 hr'
          rw [← b]
          exact hr r a
  exact ((List.perm_ext_iff_of_nodup (List.nodup_dedup _) (List.nodup_dedup _)).2 key).length_eq

theorem exact_refCount (h : ExactBoxMatching refs hyps ms rep) : references ms = refs.toFinset.card := by
  obtain ⟨l, _, h⟩ := C88_refines _ _ _ _ h
  obtain ⟨a1, a2⟩ := boxMatching_refs h
  have key : ∀ k : List (KwsMatch Str (DocBox Str UInt32)),
      references k = (k.filterMap (·.ref)).length := by
    intro k
    unfold references
    induction k with
    | nil => rfl
    | cons m k ih => cases hm : m.ref <;> simp [hm, ih]
  rw [key, ← List.toFinset_card_of_nodup a1]
  congr 1
  ext r
  rw [List.mem_toFinset, List.mem_toFinset, a2]

open Classical in
/-- The matches about the queries that were there before. -/
theorem exact_old (h : AddsQueries grp refs more refs' hyps others hyps')
    (hm : ExactBoxMatching refs hyps ms rep) (hm' : ExactBoxMatching refs' hyps' ms' rep')
    (hn : ∀ x ∈ hyps', x.score ≠ .nan) :
    ∃ P : Str → Bool, (∀ q q', grp q = grp q' → P q = P q') ∧ ms = ms'.filter (about P) ∧
      (∀ q ∈ queriesOf refs hyps, P q = true) ∧ (∀ q ∈ queriesOf more others, P q = false) := by
  let P : Str → Bool := fun q => decide (∃ a ∈ queriesOf refs hyps, grp a = grp q)
  have hP1 : ∀ q ∈ queriesOf refs hyps, P q = true := fun q hq => decide_eq_true ⟨q, hq, rfl⟩
  have hP2 : ∀ q ∈ queriesOf more others, P q = false :=
    fun q hq => decide_eq_false fun ⟨a, ha, e⟩ => h.apart a ha q hq e
  refine ⟨P, fun q q' e => by simp only [P, e], ?_, hP1, hP2⟩
  refine (C88_determined _ _ _ _ _ _ _ _ (fun r => ?_) ?_ (fun x hx => ?_) hm
    (exactBoxMatching_filter hm' P)).1
  · rw [List.mem_filter, h.allRefs]
    constructor
    · exact fun hr => ⟨.inl hr, hP1 _ (mem_queriesOf_ref hr)⟩
    · rintro ⟨hr | hr, e⟩
      · exact hr
      · rw [hP2 _ (mem_queriesOf_ref hr)] at e
        cases e
  · have e1 : hyps.filter (fun x => P x.base.query) = hyps :=
      List.filter_eq_self.2 fun x hx => hP1 _ (mem_queriesOf_hyp hx)
    have e2 : others.filter (fun x => P x.base.query) = [] :=
      List.filter_eq_nil_iff.2 fun x hx => by rw [hP2 _ (mem_queriesOf_hyp hx)]; simp
    have := h.allHyps.filter (fun x => P x.base.query)
    rw [List.filter_append, e1, e2, List.append_nil] at this
    exact this.symm
  · exact hn x (h.allHyps.mem_iff.2 (List.mem_append.2 (.inl hx)))

/-- C112 for the matching: with queries for which nothing is found, the sums of which the means are made stay
the same. -/
theorem C112_matching (h : AddsQueries grp refs more refs' hyps others hyps')
    (hw : ∀ x ∈ others, ¬ Fits more x)
    (hm : ExactBoxMatching refs hyps ms rep) (hm' : ExactBoxMatching refs' hyps' ms' rep')
    (hn : ∀ x ∈ hyps', x.score ≠ .nan) (i t : Bool) :
    (matchNumbers grp i t ms').mAP * groupCount grp refs' hyps' =
      (matchNumbers grp i t ms).mAP * groupCount grp refs hyps ∧
    (matchNumbers grp i t ms').mNDCG * groupCount grp refs' hyps' =
      (matchNumbers grp i t ms).mNDCG * groupCount grp refs hyps := by
  obtain ⟨P, hP, e, hP1, hP2⟩ := exact_old h hm hm' hn
  rw [← exact_groups hm, ← exact_groups hm', e]
  refine matchNumbers_means hP (fun m hmm hab => ?_) (exact_noNaN hm' hn) i t
  by_contra hhit
  rw [Bool.not_eq_false] at hhit
  unfold IsHit at hhit
  rw [Bool.and_eq_true] at hhit
  obtain ⟨r, hr⟩ := Option.isSome_iff_exists.1 hhit.1
  obtain ⟨x, hx⟩ := Option.isSome_iff_exists.1 hhit.2
  obtain ⟨a, b, c⟩ := exact_pairs hm' m hmm r x hr hx
  have hq : P r.query = false := by
    rw [← hab, eventOf_about m (e := r) (by unfold eventOf; rw [hr]; rfl)]
  have hr' : r ∈ more := by
    rcases (h.allRefs r).1 b with b | b
    · rw [hP1 _ (mem_queriesOf_ref b)] at hq
      cases hq
    · exact b
  have hx' : x ∈ others := by
    rcases List.mem_append.1 (h.allHyps.mem_iff.1 a) with a | a
    · rw [c.1, hP1 _ (mem_queriesOf_hyp a)] at hq
      cases hq
    · exact a
  exact hw x hx' ⟨r, hr', c⟩

/-- C112 for the matching: with references of other queries, which nobody looks for, the global numbers are as
if fewer references were found. -/
theorem C112_matching_global (h : AddsQueries grp refs more refs' hyps [] hyps')
    (hm : ExactBoxMatching refs hyps ms rep) (hm' : ExactBoxMatching refs' hyps' ms' rep')
    (hn : ∀ x ∈ hyps', x.score ≠ .nan) (i t : Bool) :
    (matchNumbers grp i t ms').gAP * refs'.toFinset.card =
      (matchNumbers grp i t ms).gAP * refs.toFinset.card ∧
    (matchNumbers grp i t ms').gNDCG * idealGain refs'.toFinset.card =
      (matchNumbers grp i t ms).gNDCG * idealGain refs.toFinset.card := by
  obtain ⟨P, hP, e, hP1, hP2⟩ := exact_old h hm hm' hn
  rw [← exact_refCount hm, ← exact_refCount hm', e]
  refine matchNumbers_globals (fun m hmm hab => ?_) (exact_noNaN hm' hn) i t
  by_contra hx
  obtain ⟨x, hx⟩ := Option.ne_none_iff_exists'.1 hx
  have hxm := (exactBoxMatching_mem hm' m (.inl hmm)).2 x hx
  rw [h.allHyps.mem_iff, List.append_nil] at hxm
  have hq := hP1 _ (mem_queriesOf_hyp hxm)
  cases hr : m.ref with
  | none =>
    rw [eventOf_about m (e := x.base) (by unfold eventOf; rw [hr, hx]; rfl), hq] at hab
    cases hab
  | some r =>
    rw [eventOf_about m (e := r) (by unfold eventOf; rw [hr]; rfl),
      (exact_pairs hm' m hmm r x hr hx).2.2.1, hq] at hab
    cases hab

end

/-! ## The tools -/

/-- C112 for the box tool, with descending order and collapsing (the defaults): two runs, the second of which
has further references and hypotheses, of other groups of queries, and none of these hypotheses fits. Mean
average precision and NDCG are as if divided by the greater number of groups. If there are further references
only, global average precision and NDCG are as if divided by the greater number (ideal gain) of references. -/
theorem C112_box {R : Rnd} {w w' : World} {o : ToolOptions}
    {refs more refs' : List (Event Str (DocBox Str UInt32))}
    {hyps others hyps' : List (ScoredEvent Str (DocBox Str UInt32))}
    {r r' : Report Str (DocBox Str UInt32)} {ε ε' : ℚ}
    (h : BoxRun R w o refs hyps r ε) (h' : BoxRun R w' o refs' hyps' r' ε')
    (hg : groupFor w' o = groupFor w o) (hq : listedQueries w' o = listedQueries w o)
    (hd : o.sort = "desc".toList) (hc : o.collapse = true)
    (ha : AddsQueries (groupFor w o) refs more refs' hyps others hyps')
    (hw : ∀ x ∈ others, ¬ Fits more x) :
    let kr := keep (Event.query (L := DocBox Str UInt32)) (listedQueries w o)
    let kh := keep (fun x : ScoredEvent Str (DocBox Str UInt32) => x.base.query) (listedQueries w o)
    MeansDiluted r (groupCount (groupFor w o) (kr refs) (kh hyps)) ε
      r' (groupCount (groupFor w o) (kr refs') (kh hyps')) ε' ∧
    (others = [] → GlobalsDiluted r (kr refs).toFinset.card ε r' (kr refs').toFinset.card ε') := by
  intro kr kh
  obtain ⟨ms, rep, a1, a2⟩ := h.numbers hd hc
  obtain ⟨ms', rep', b1, b2⟩ := h'.numbers hd hc
  rw [hq] at b1
  rw [hg] at b2
  have hk := ha.keep (listedQueries w o)
  have hn : ∀ x ∈ kh hyps', x.score ≠ .nan := fun x hx => h'.scores x (keep_subset _ _ _ x hx)
  constructor
  · obtain ⟨c1, c2⟩ := C112_matching hk (fun x hx ⟨y, hy, hb⟩ =>
      hw x (keep_subset _ _ _ x hx) ⟨y, keep_subset _ _ _ y hy, hb⟩) a1 b1 hn o.interp o.trapezoid
    exact shows_means a2 b2 c1 c2
  · rintro rfl
    have e : kh [] = [] := by simp only [kh, keep_filter]; rfl
    have hk' := hk
    rw [show keep (fun x : ScoredEvent Str (DocBox Str UInt32) => x.base.query) (listedQueries w o) [] = []
      from e] at hk'
    obtain ⟨c1, c2⟩ := C112_matching_global hk' a1 b1 hn o.interp o.trapezoid
    exact shows_globals a2 b2 c1 c2

/-- Runs to which C112 applies: further references of `b` and a further hypothesis of `c`. The means are a
third of what they were. -/
example {G : Type} (S : StdSort) (rng : Rng G) : ∃ r r' : Report Str (DocBox Str UInt32),
    mainWith Rnd.exact S rng (icdarKit Rnd.exact S) (dumpExample "a d 0 0 2 2\n".toList
      "a d 0 0 2 2 1\na d 9 9 1 1 2\n".toList) dumpOptions = .ok (.done r) ∧
    mainWith Rnd.exact S rng (icdarKit Rnd.exact S) (dumpExample "b d 0 0 2 2\na d 0 0 2 2\n".toList
      "a d 0 0 2 2 1\nc d 0 0 2 2 5\na d 9 9 1 1 2\n".toList) dumpOptions = .ok (.done r') ∧
    r'.mAP.value * 3 = r.mAP.value ∧ r'.mNDCG.value * 3 = r.mNDCG.value := by
  have y1 : Yields BoxEventText (lines "a d 0 0 2 2\n".toList) [⟨['a'], ⟨⟨0, 0, 2, 2⟩, ['d']⟩⟩] :=
    (C48_accepts (Format.boxRefs (R := Rnd.exact)) _ _).1 (by decide +kernel)
  have y2 : Yields (ScoredText Rnd.exact BoxEventText) (lines "a d 0 0 2 2 1\na d 9 9 1 1 2\n".toList)
      [⟨⟨['a'], ⟨⟨0, 0, 2, 2⟩, ['d']⟩⟩, .fin 1⟩, ⟨⟨['a'], ⟨⟨9, 9, 1, 1⟩, ['d']⟩⟩, .fin 2⟩] :=
    (C48_accepts (Format.boxHyps (R := Rnd.exact)) _ _).1 (by decide +kernel)
  have y3 : Yields BoxEventText (lines "b d 0 0 2 2\na d 0 0 2 2\n".toList)
      [⟨['b'], ⟨⟨0, 0, 2, 2⟩, ['d']⟩⟩, ⟨['a'], ⟨⟨0, 0, 2, 2⟩, ['d']⟩⟩] :=
    (C48_accepts (Format.boxRefs (R := Rnd.exact)) _ _).1 (by decide +kernel)
  have y4 : Yields (ScoredText Rnd.exact BoxEventText)
      (lines "a d 0 0 2 2 1\nc d 0 0 2 2 5\na d 9 9 1 1 2\n".toList)
      [⟨⟨['a'], ⟨⟨0, 0, 2, 2⟩, ['d']⟩⟩, .fin 1⟩, ⟨⟨['c'], ⟨⟨0, 0, 2, 2⟩, ['d']⟩⟩, .fin 5⟩,
        ⟨⟨['a'], ⟨⟨9, 9, 1, 1⟩, ['d']⟩⟩, .fin 2⟩] :=
    (C48_accepts (Format.boxHyps (R := Rnd.exact)) _ _).1 (by decide +kernel)
  obtain ⟨r, hr⟩ := dump_run S rng _ _ _ _ y1 y2
  obtain ⟨r', hr'⟩ := dump_run S rng _ _ _ _ y3 y4
  have g1 : ∀ a b, groupFor (dumpExample a b) dumpOptions = id := fun _ _ => rfl
  have g2 : ∀ a b, listedQueries (dumpExample a b) dumpOptions = [] := fun _ _ => rfl
  have b1 : BoxRun Rnd.exact _ dumpOptions _ _ r 0 := ⟨⟨_, dumpExample_file _ _, y1⟩, ⟨_, if_pos rfl, y2⟩,
    by simp [EdgesOkU], (by
      intro x hx
      simp only [List.mem_cons, List.not_mem_nil, or_false] at hx
      casesm* _ ∨ _ <;> subst_vars <;> exact ⟨⟨by decide, by decide⟩, by decide +kernel⟩),
    fun e => absurd e exact_ne_ieee, .inl ⟨rfl, rfl⟩, G, S, rng, hr⟩
  have b2 : BoxRun Rnd.exact _ dumpOptions _ _ r' 0 := ⟨⟨_, dumpExample_file _ _, y3⟩, ⟨_, if_pos rfl, y4⟩,
    by simp [EdgesOkU], (by
      intro x hx
      simp only [List.mem_cons, List.not_mem_nil, or_false] at hx
      casesm* _ ∨ _ <;> subst_vars <;> exact ⟨⟨by decide, by decide⟩, by decide +kernel⟩),
    fun e => absurd e exact_ne_ieee, .inl ⟨rfl, rfl⟩, G, S, rng, hr'⟩
  have p : AddsQueries (id : Str → Str)
      [(⟨['a'], ⟨⟨0, 0, 2, 2⟩, ['d']⟩⟩ : Event Str (DocBox Str UInt32))] [⟨['b'], ⟨⟨0, 0, 2, 2⟩, ['d']⟩⟩]
      [⟨['b'], ⟨⟨0, 0, 2, 2⟩, ['d']⟩⟩, ⟨['a'], ⟨⟨0, 0, 2, 2⟩, ['d']⟩⟩]
      [⟨⟨['a'], ⟨⟨0, 0, 2, 2⟩, ['d']⟩⟩, .fin 1⟩, ⟨⟨['a'], ⟨⟨9, 9, 1, 1⟩, ['d']⟩⟩, .fin 2⟩]
      [⟨⟨['c'], ⟨⟨0, 0, 2, 2⟩, ['d']⟩⟩, .fin 5⟩]
      [⟨⟨['a'], ⟨⟨0, 0, 2, 2⟩, ['d']⟩⟩, .fin 1⟩, ⟨⟨['c'], ⟨⟨0, 0, 2, 2⟩, ['d']⟩⟩, .fin 5⟩,
        ⟨⟨['a'], ⟨⟨9, 9, 1, 1⟩, ['d']⟩⟩, .fin 2⟩] :=
    ⟨fun r => by simp [or_comm], List.Perm.cons _ (List.Perm.swap _ _ _), by decide +kernel⟩
  have key := (C112_box b1 b2 ((g1 _ _).trans (g1 _ _).symm)
    ((g2 _ _).trans (g2 _ _).symm) rfl rfl p (by decide +kernel)).1
  obtain ⟨k1, k2⟩ := key
  simp only [g1, g2] at k1 k2
  generalize hg' : groupCount (Q := Str) (L := DocBox Str UInt32) id _ _ = g' at k1 k2
  generalize hg : groupCount (Q := Str) (L := DocBox Str UInt32) id _ _ = g at k1 k2
  have e' : g' = 3 := hg'.symm.trans (by decide +kernel)
  have e : g = 1 := hg.symm.trans (by decide +kernel)
  subst e e'
  refine ⟨r, r', hr, hr', ?_, ?_⟩
  · have := abs_nonpos_iff.1 (k1.trans_eq (by norm_num))
    push_cast at this
    linarith
  · push_cast at k2
    linarith

/-- C112 for the segmentation-based tool. -/
theorem C112_segmentation {R : Rnd} {w w' : World} {o : ToolOptions} {refs more refs' : List (Event Str Str)}
    {hyps others hyps' : List (ScoredEvent Str Str)} {r r' : Report Nat Nat} {ε ε' : ℚ}
    (h : SegRun R w o refs hyps r ε) (h' : SegRun R w' o refs' hyps' r' ε')
    (hg : groupFor w' o = groupFor w o) (hq : listedQueries w' o = listedQueries w o)
    (hd : o.sort = "desc".toList) (hc : o.collapse = true)
    (ha : AddsQueries (groupFor w o) refs more refs' hyps others hyps')
    (hw : ∀ x ∈ others, x.base ∉ more) :
    let kr := keep (Event.query (L := Str)) (listedQueries w o)
    let kh := keep (fun x : ScoredEvent Str Str => x.base.query) (listedQueries w o)
    MeansDiluted r (groupCount (groupFor w o) (kr refs) (kh hyps)) ε
      r' (groupCount (groupFor w o) (kr refs') (kh hyps')) ε' ∧
    (others = [] → GlobalsDiluted r (kr refs).toFinset.card ε r' (kr refs').toFinset.card ε') := by
  intro kr kh
  have a2 := h.numbers hd hc
  have b2 := h'.numbers hd hc
  rw [hq, hg] at b2
  have hk := ha.keep (listedQueries w o)
  have hn : ∀ x ∈ kh hyps', x.score ≠ .nan := fun x hx => h'.scores x (keep_subset _ _ _ x hx)
  constructor
  · obtain ⟨c1, c2⟩ := segNumbers_means hk (fun x hx hy =>
      hw x (keep_subset _ _ _ x hx) (keep_subset _ _ _ _ hy)) hn o.interp o.trapezoid
    exact shows_means a2 b2 c1 c2
  · rintro rfl
    have e : kh [] = [] := by simp only [kh, keep_filter]; rfl
    have hk' := hk
    rw [show keep (fun x : ScoredEvent Str Str => x.base.query) (listedQueries w o) [] = [] from e] at hk'
    obtain ⟨c1, c2⟩ := segNumbers_globals hk' hn o.interp o.trapezoid
    exact shows_globals a2 b2 c1 c2

end Kws
