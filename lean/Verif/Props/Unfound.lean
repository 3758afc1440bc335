import Verif.Lemmas.Unfound
import Verif.Props.Dilution
import Verif.Props.Pooling
import Verif.Props.Tail

/-!
# C134: references that nothing finds
-/

namespace Kws
open Spec

section
variable {refs more refs' : List (Event Str (DocBox Str UInt32))}
  {hyps hyps' : List (ScoredEvent Str (DocBox Str UInt32))}
  {ms rep ms' rep' : List (KwsMatch Str (DocBox Str UInt32))}

/-- C134 for the matching: with more references, none of which fits a hypothesis, the matches of the hypotheses
and the repeated matches are the same, and only the references are added at the end. -/
theorem C134_matching (hr : AddsRefs refs more refs') (hp : hyps'.Perm hyps)
    (hw : ∀ x ∈ hyps, ¬ Fits more x)
    (hm : ExactBoxMatching refs hyps ms rep) (hm' : ExactBoxMatching refs' hyps' ms' rep')
    (hn : ∀ x ∈ hyps, x.score ≠ .nan) : OnlyMissesAdded more ms ms' ∧ rep' = rep := by
  obtain ⟨l, overl, en, missed, h1, h2, h3, h4, h5, h6, rfl⟩ := hm'
  have htaken : ∀ r ∈ more, ¬ Taken en r := by
    rintro r hmr ⟨m, hmm, e⟩
    obtain ⟨x, hx⟩ := Option.ne_none_iff_exists'.1 (greedy_hyp h4 m hmm)
    obtain ⟨a, b, c⟩ := (greedy_pairs h4).1 m hmm r x e hx
    obtain ⟨d, e, f⟩ := ((h3 x a).1 r).1 b
    refine hw x (hp.mem_iff.1 (h1.mem_iff.1 a)) ⟨r, hmr, e, f, ?_⟩
    by_contra hlt
    rw [verdict, if_neg hlt] at c
    exact absurd c (by norm_num [Outcome.error])
  have hold : ExactBoxMatching refs hyps
      (en ++ (missed.filter (· ∈ refs)).map (fun r => ⟨some r, none, Outcome.falseNeg.error⟩)) rep' := by
    refine ⟨l, fun x => (overl x).filter (· ∈ refs), en, missed.filter (· ∈ refs), h1.trans hp, h2,
      fun x hx => ⟨fun r => ?_, (h3 x hx).2.filter _⟩, greedy_filter _ h4 fun x hx r hrx hnr => ?_,
      h5.filter _, fun r => ?_, rfl⟩
    · rw [List.mem_filter, (h3 x hx).1, hr r]
      simp only [decide_eq_true_eq]
      tauto
    · obtain ⟨d, e, f⟩ := ((h3 x hx).1 r).1 hrx
      have hmr : r ∈ more := ((hr r).1 d).resolve_left (by simpa using hnr)
      have : ¬ areaU x.base ≤ 2 * commonU r x.base := fun hle =>
        hw x (hp.mem_iff.1 (h1.mem_iff.1 hx)) ⟨r, hmr, e, f, hle⟩
      simp only [verdict, if_neg this]
      norm_num [Outcome.error]
    · rw [List.mem_filter, h6, hr r]
      simp only [decide_eq_true_eq]
      tauto
  obtain ⟨rfl, rfl⟩ := C88_determined _ _ _ _ _ _ _ _ (fun _ => Iff.rfl) (.refl _) hn hm hold
  refine ⟨⟨en, _, _, rfl, rfl, greedy_hyp h4, fun m hmm => ?_,
    (List.filter_sublist (l := missed)).map _, fun m => ?_⟩, rfl⟩
  · rcases List.mem_append.1 hmm with h | h <;> obtain ⟨_, _, rfl⟩ := List.mem_map.1 h <;> rfl
  · simp only [List.mem_map, List.mem_filter, decide_eq_true_eq]
    constructor
    · rintro ⟨r, a, rfl⟩
      rcases (hr r).1 ((h6 r).1 a).1 with b | b
      · exact .inl ⟨r, ⟨a, b⟩, rfl⟩
      · exact .inr ⟨r, b, rfl⟩
    · rintro (⟨r, ⟨a, _⟩, rfl⟩ | ⟨r, a, rfl⟩)
      · exact ⟨r, a, rfl⟩
      · exact ⟨r, (h6 r).2 ⟨(hr r).2 (.inr a), htaken r a⟩, rfl⟩

end

/-! ## The tools -/

theorem Spec.AddsRefs.keep {L : Type} [DecidableEq L] {refs more refs' : List (Event Str L)}
    (h : AddsRefs refs more refs') (qs : List Str) :
    AddsRefs (keep (·.query) qs refs) (keep (·.query) qs more) (keep (·.query) qs refs') := by
  intro r
  simp only [keep_filter, List.mem_filter, h r, or_and_right]

/-- C134 for the box tool, with descending order and collapsing (the defaults): two runs with the same
hypotheses, the second of which has more references that fit no hypothesis. Global average precision and NDCG
are as if divided by the greater number (ideal gain) of references, and no number rises. If the matches are
written, they differ in the references without hypothesis only. -/
theorem C134_box {R : Rnd} {w w' : World} {o : ToolOptions}
    {refs more refs' : List (Event Str (DocBox Str UInt32))}
    {hyps hyps' : List (ScoredEvent Str (DocBox Str UInt32))}
    {r r' : Report Str (DocBox Str UInt32)} {ε ε' : ℚ}
    (h : BoxRun R w o refs hyps r ε) (h' : BoxRun R w' o refs' hyps' r' ε')
    (hg : groupFor w' o = groupFor w o) (hq : listedQueries w' o = listedQueries w o)
    (hd : o.sort = "desc".toList) (hc : o.collapse = true)
    (hr : AddsRefs refs more refs') (hp : hyps'.Perm hyps) (hw : ∀ x ∈ hyps, ¬ Fits more x) :
    let kr := keep (Event.query (L := DocBox Str UInt32)) (listedQueries w o)
    GlobalsDiluted r (kr refs).toFinset.card ε r' (kr refs').toFinset.card ε' ∧
    NoneLower (numbersShown r') (numbersShown r) (ε' + ε) ∧
    (o.dumpMatches ≠ [] → ∃ ms ms' rep, r.dump = some (ms, rep) ∧ r'.dump = some (ms', rep) ∧
      OnlyMissesAdded (kr more) ms ms') := by
  intro kr
  have s := h.scores
  have s' := h'.scores
  obtain ⟨⟨t, t1, t2⟩, ⟨u, u1, u2⟩, x1, x2, x3, x4, G, S, rng, x5⟩ := h
  obtain ⟨⟨t', t1', t2'⟩, ⟨u', u1', u2'⟩, x1', x2', x3', x4', G', S', rng', x5'⟩ := h'
  obtain ⟨ms, rep, a1, a2, a3⟩ := box_ties R S rng w o t u refs hyps t1 u1 t2 u2 x1 x2 x3 hd hc r ε
    (tolerance_of x4) x5
  obtain ⟨ms', rep', b1, b2, b3⟩ := box_ties R S' rng' w' o t' u' refs' hyps' t1' u1' t2' u2' x1' x2' x3' hd hc
    r' ε' (tolerance_of x4') x5'
  rw [hq] at b1
  rw [hg] at b3
  have hpk : (keep (fun x : ScoredEvent Str (DocBox Str UInt32) => x.base.query) (listedQueries w o) hyps').Perm
      (keep (fun x => x.base.query) (listedQueries w o) hyps) := by
    simp only [keep_filter]
    exact hp.filter _
  obtain ⟨k1, rfl⟩ := C134_matching (hr.keep (listedQueries w o)) hpk (fun x hx ⟨y, hy, hb⟩ =>
    hw x (keep_subset _ _ _ x hx) ⟨y, keep_subset _ _ _ y hy, hb⟩) a1 b1
    (fun x hx => s x (keep_subset _ _ _ x hx))
  have n1 := exact_noNaN a1 fun x hx => s x (keep_subset _ _ _ x hx)
  have n2 := exact_noNaN b1 fun x hx => s' x (keep_subset _ _ _ x hx)
  refine ⟨?_, NoneLower.shown (matchNumbers_fall k1 n1 n2 o.interp o.trapezoid) b3 a3, ?_⟩
  · obtain ⟨c1, c2⟩ := matchNumbers_unfound (grp := groupFor w o) k1 n1 n2 o.interp o.trapezoid
    rw [exact_refCount a1, exact_refCount b1] at c1 c2
    exact shows_globals a3 b3 c1 c2
  · intro hf
    rw [if_neg hf] at a2 b2
    exact ⟨ms, ms', _, a2, b2, k1⟩

/-- C134 for the segmentation-based tool. -/
theorem C134_segmentation {R : Rnd} {w w' : World} {o : ToolOptions} {refs more refs' : List (Event Str Str)}
    {hyps hyps' : List (ScoredEvent Str Str)} {r r' : Report Nat Nat} {ε ε' : ℚ}
    (h : SegRun R w o refs hyps r ε) (h' : SegRun R w' o refs' hyps' r' ε')
    (hg : groupFor w' o = groupFor w o) (hq : listedQueries w' o = listedQueries w o)
    (hd : o.sort = "desc".toList) (hc : o.collapse = true)
    (hr : AddsRefs refs more refs') (hp : hyps'.Perm hyps) (hw : ∀ x ∈ hyps, x.base ∉ more) :
    let kr := keep (Event.query (L := Str)) (listedQueries w o)
    GlobalsDiluted r (kr refs).toFinset.card ε r' (kr refs').toFinset.card ε' ∧
    NoneLower (numbersShown r') (numbersShown r) (ε' + ε) := by
  intro kr
  have a2 := h.numbers hd hc
  have b2 := h'.numbers hd hc
  rw [hq, hg] at b2
  have hpk : (keep (fun x : ScoredEvent Str Str => x.base.query) (listedQueries w o) hyps').Perm
      (keep (fun x => x.base.query) (listedQueries w o) hyps) := by
    simp only [keep_filter]
    exact hp.filter _
  have k1 : ∀ x ∈ keep (fun x : ScoredEvent Str Str => x.base.query) (listedQueries w o) hyps,
      x.base ∉ keep (Event.query (L := Str)) (listedQueries w o) more :=
    fun x hx hy => hw x (keep_subset _ _ _ x hx) (keep_subset _ _ _ _ hy)
  have n1 : ∀ x ∈ keep (fun x : ScoredEvent Str Str => x.base.query) (listedQueries w o) hyps', x.score ≠ .nan :=
    fun x hx => h'.scores x (keep_subset _ _ _ x hx)
  obtain ⟨c1, c2⟩ := segNumbers_unfound (grp := groupFor w o) (hr.keep (listedQueries w o)) hpk k1 n1
    o.interp o.trapezoid
  exact ⟨shows_globals a2 b2 c1 c2, NoneLower.shown (segNumbers_fall (hr.keep (listedQueries w o)) hpk k1 n1
    o.interp o.trapezoid) b2 a2⟩

/-- Runs to which C134 applies: a further reference of the same query, of which a hypothesis covers less than
half. Global average precision is half of what it was. -/
example {G : Type} (S : StdSort) (rng : Rng G) : ∃ r r' : Report Str (DocBox Str UInt32),
    mainWith Rnd.exact S rng (icdarKit Rnd.exact S) (dumpExample "a d 0 0 2 2\n".toList
      "a d 0 0 2 2 1\na d 9 9 9 9 2\n".toList) dumpOptions = .ok (.done r) ∧
    mainWith Rnd.exact S rng (icdarKit Rnd.exact S) (dumpExample "a d 9 9 2 2\na d 0 0 2 2\n".toList
      "a d 0 0 2 2 1\na d 9 9 9 9 2\n".toList) dumpOptions = .ok (.done r') ∧
    r'.gAP.value * 2 = r.gAP.value ∧ ∃ ms ms' rep, r.dump = some (ms, rep) ∧ r'.dump = some (ms', rep) ∧
      OnlyMissesAdded [⟨['a'], ⟨⟨9, 9, 2, 2⟩, ['d']⟩⟩] ms ms' := by
  have y1 : Yields BoxEventText (lines "a d 0 0 2 2\n".toList) [⟨['a'], ⟨⟨0, 0, 2, 2⟩, ['d']⟩⟩] :=
    (C48_accepts (Format.boxRefs (R := Rnd.exact)) _ _).1 (by decide +kernel)
  have y2 : Yields (ScoredText Rnd.exact BoxEventText) (lines "a d 0 0 2 2 1\na d 9 9 9 9 2\n".toList)
      [⟨⟨['a'], ⟨⟨0, 0, 2, 2⟩, ['d']⟩⟩, .fin 1⟩, ⟨⟨['a'], ⟨⟨9, 9, 9, 9⟩, ['d']⟩⟩, .fin 2⟩] :=
    (C48_accepts (Format.boxHyps (R := Rnd.exact)) _ _).1 (by decide +kernel)
  have y3 : Yields BoxEventText (lines "a d 9 9 2 2\na d 0 0 2 2\n".toList)
      [⟨['a'], ⟨⟨9, 9, 2, 2⟩, ['d']⟩⟩, ⟨['a'], ⟨⟨0, 0, 2, 2⟩, ['d']⟩⟩] :=
    (C48_accepts (Format.boxRefs (R := Rnd.exact)) _ _).1 (by decide +kernel)
  obtain ⟨r, hr⟩ := dump_run S rng _ _ _ _ y1 y2
  obtain ⟨r', hr'⟩ := dump_run S rng _ _ _ _ y3 y2
  have g1 : ∀ a b, groupFor (dumpExample a b) dumpOptions = id := fun _ _ => rfl
  have g2 : ∀ a b, listedQueries (dumpExample a b) dumpOptions = [] := fun _ _ => rfl
  have b1 : BoxRun Rnd.exact _ dumpOptions _ _ r 0 := ⟨⟨_, dumpExample_file _ _, y1⟩, ⟨_, if_pos rfl, y2⟩,
    by simp [EdgesOkU], (by
      intro x hx
      simp only [List.mem_cons, List.not_mem_nil, or_false] at hx
      casesm* _ ∨ _ <;> subst_vars <;> exact ⟨⟨by decide, by decide⟩, by decide +kernel⟩),
    fun e => absurd e exact_ne_ieee, .inl ⟨rfl, rfl⟩, G, S, rng, hr⟩
  have b2 : BoxRun Rnd.exact _ dumpOptions _ _ r' 0 := ⟨⟨_, dumpExample_file _ _, y3⟩, ⟨_, if_pos rfl, y2⟩,
    (by
      intro x hx
      simp only [List.mem_cons, List.not_mem_nil, or_false] at hx
      casesm* _ ∨ _ <;> subst_vars <;> exact ⟨by decide, by decide⟩), (by
      intro x hx
      simp only [List.mem_cons, List.not_mem_nil, or_false] at hx
      casesm* _ ∨ _ <;> subst_vars <;> exact ⟨⟨by decide, by decide⟩, by decide +kernel⟩),
    fun e => absurd e exact_ne_ieee, .inl ⟨rfl, rfl⟩, G, S, rng, hr'⟩
  have key := C134_box (more := [⟨['a'], ⟨⟨9, 9, 2, 2⟩, ['d']⟩⟩]) b1 b2 ((g1 _ _).trans (g1 _ _).symm)
    ((g2 _ _).trans (g2 _ _).symm) rfl rfl (fun r => by simp [or_comm]) (.refl _) (by decide +kernel)
  simp only [g2] at key
  obtain ⟨⟨k1, _⟩, _, k2⟩ := key
  generalize hg' : (List.toFinset (α := Event Str (DocBox Str UInt32)) _).card = g' at k1
  generalize hg : (List.toFinset (α := Event Str (DocBox Str UInt32)) _).card = g at k1
  have e' : g' = 2 := hg'.symm.trans (by decide +kernel)
  have e : g = 1 := hg.symm.trans (by decide +kernel)
  subst e e'
  refine ⟨r, r', hr, hr', ?_, k2 (by decide)⟩
  have := abs_nonpos_iff.1 (k1.trans_eq (by norm_num))
  push_cast at this
  linarith

/-- Runs of the segmentation-based tool to which C134 applies: a third reference, of a query that was there
before. Global average precision is two thirds of what it was, and mean NDCG is not higher. -/
example {G : Type} (S : StdSort) (rng : Rng G) : ∃ r r' : Report Nat Nat,
    mainWith Rnd.exact S rng (simpleKit Rnd.exact true) (poolWorld "a l\nb l\n".toList
      "a l 2\na m 1\n".toList) poolOptions = .ok (.done r) ∧
    mainWith Rnd.exact S rng (simpleKit Rnd.exact true) (poolWorld "a l\nb l\na n\n".toList
      "a l 2\na m 1\n".toList) poolOptions = .ok (.done r') ∧
    r'.gAP.value * 3 = r.gAP.value * 2 ∧ r.gAP.value = 1 / 2 ∧ r'.mNDCG.value ≤ r.mNDCG.value := by
  obtain ⟨r, hr, h⟩ := pool_run S rng "a l\nb l\n".toList "a l 2\na m 1\n".toList
    [⟨['a'], ['l']⟩, ⟨['b'], ['l']⟩] [⟨⟨['a'], ['l']⟩, .fin 2⟩, ⟨⟨['a'], ['m']⟩, .fin 1⟩]
    (by decide +kernel) (by decide +kernel) (by decide +kernel)
  obtain ⟨r', hr', h'⟩ := pool_run S rng "a l\nb l\na n\n".toList "a l 2\na m 1\n".toList
    [⟨['a'], ['l']⟩, ⟨['b'], ['l']⟩, ⟨['a'], ['n']⟩] [⟨⟨['a'], ['l']⟩, .fin 2⟩, ⟨⟨['a'], ['m']⟩, .fin 1⟩]
    (by decide +kernel) (by decide +kernel) (by decide +kernel)
  have g1 : ∀ a b, groupFor (poolWorld a b) poolOptions = id := fun _ _ => rfl
  have g2 : ∀ a b, listedQueries (poolWorld a b) poolOptions = [] := fun _ _ => rfl
  have key := C134_segmentation (more := [⟨['a'], ['n']⟩]) h h' ((g1 _ _).trans (g1 _ _).symm)
    ((g2 _ _).trans (g2 _ _).symm) rfl rfl (fun r => by simp [or_assoc]) (.refl _) (by decide +kernel)
  simp only [g2] at key
  obtain ⟨⟨k1, _⟩, k2⟩ := key
  generalize hg' : (List.toFinset (α := Event Str Str) _).card = g' at k1
  generalize hg : (List.toFinset (α := Event Str Str) _).card = g at k1
  have e' : g' = 3 := hg'.symm.trans (by decide +kernel)
  have e : g = 2 := hg.symm.trans (by decide +kernel)
  subst e e'
  refine ⟨r, r', hr, hr', ?_, (pool_gAP h).trans (by decide +kernel), k2.mNDCG⟩
  have := abs_nonpos_iff.1 (k1.trans_eq (by norm_num))
  push_cast at this
  linarith

end Kws
