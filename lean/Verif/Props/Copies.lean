import Verif.Lemmas.Copies
import Verif.Props.Pooling

/-!
# C120: copies of a collection
-/

namespace Kws
open Spec

/-! ## The matching of boxes -/

section
variable {k : ℕ} {ρ : Fin k → Str → Str} {refs refs' : List (Event Str (DocBox Str UInt32))}
  {hyps hyps' : List (ScoredEvent Str (DocBox Str UInt32))} {ms rep ms' rep' : List (KwsMatch Str (DocBox Str UInt32))}

/-- C120 for the matching: that of copies consists of the copies of the matches, and so do the repeated ones. -/
theorem C120_matching (h : Copies ρ refs refs' hyps hyps') (hm : ExactBoxMatching refs hyps ms rep)
    (hm' : ExactBoxMatching refs' hyps' ms' rep') (hn : ∀ x ∈ hyps, x.score ≠ .nan) :
    ms'.Perm ((List.finRange k).flatMap fun i => ms.map (matchedByName (ρ i))) ∧
    rep'.Perm ((List.finRange k).flatMap fun i => rep.map (matchedByName (ρ i))) :=
  matching_copies h hm hm' hn

theorem matching_numbers (h : Copies ρ refs refs' hyps hyps') (hk : k ≠ 0) {grp grp' : Str → Str}
    (hm : ExactBoxMatching refs hyps ms rep) (hm' : ExactBoxMatching refs' hyps' ms' rep')
    (hn : ∀ x ∈ hyps', x.score ≠ .nan)
    (hg : ∀ i j, ∀ q ∈ queriesOf refs hyps, ∀ q' ∈ queriesOf refs hyps,
      grp' (ρ i q) = grp' (ρ j q') ↔ i = j ∧ grp q = grp q') (i t : Bool) :
    (matchNumbers grp' i t ms').gAP = (matchNumbers grp i t ms).gAP ∧
    (matchNumbers grp' i t ms').mAP = (matchNumbers grp i t ms).mAP ∧
    (matchNumbers grp' i t ms').mNDCG = (matchNumbers grp i t ms).mNDCG := by
  obtain ⟨γ, hγ, hg⟩ := group_names _ hg
  have hq : ∀ m ∈ ms, ∀ e, eventOf m = some e → e.query ∈ queriesOf refs hyps := by
    intro m hmm e he
    obtain ⟨a, b⟩ := exactBoxMatching_mem hm m (.inl hmm)
    unfold eventOf at he
    cases hr : m.ref with
    | some e₀ =>
      rw [hr] at he
      obtain rfl : e₀ = e := Option.some.inj he
      exact mem_queriesOf_ref (a _ hr)
    | none =>
      rw [hr] at he
      obtain ⟨x, hx, rfl⟩ := Option.map_eq_some_iff.1 he
      exact mem_queriesOf_hyp (b x hx)
  have hn₀ : ∀ x ∈ hyps, x.score ≠ .nan := fun x hx =>
    hn (scoredByName (ρ ⟨0, Nat.pos_of_ne_zero hk⟩) x) ((h.mem_hyps _).2 ⟨_, x, hx, rfl⟩)
  refine matchNumbers_copies hk (γ := γ) (fun i j g hg1 g' hg2 => ?_) (matching_copies h hm hm' hn₀).1
    (fun i m hmm e he => hg i _ (hq m hmm e he)) (fun s hs => ?_) i t
  · obtain ⟨m, hmm, e, he, rfl⟩ := (mem_groupsIn _ _ _).1 hg1
    obtain ⟨m', hmm', e', he', rfl⟩ := (mem_groupsIn _ _ _).1 hg2
    exact hγ i j _ (List.mem_map_of_mem (hq m hmm e he)) _ (List.mem_map_of_mem (hq m' hmm' e' he'))
  · obtain ⟨m, hmm, e⟩ := List.mem_filterMap.1 hs
    obtain ⟨x, hx, rfl⟩ := Option.map_eq_some_iff.1 e
    exact hn x ((exactBoxMatching_mem hm' m (.inl hmm)).2 x hx)

end

/-! ## The tools -/

theorem near_same {a x y ε ε' : ℚ} (h : |x - a| ≤ ε) (h' : |y - a| ≤ ε') : |y - x| ≤ ε' + ε := by
  rw [abs_le] at *
  constructor <;> linarith [h.1, h.2, h'.1, h'.2]

theorem shows_copies {Q L Q' L' : Type} {r : Report Q L} {r' : Report Q' L'} {a b : Numbers} {ε ε' : ℚ}
    (h : Shows r a ε) (h' : Shows r' b ε') (he : b.gAP = a.gAP ∧ b.mAP = a.mAP ∧ b.mNDCG = a.mNDCG) :
    SameButGlobalNDCG r ε r' ε' := by
  obtain ⟨h1, h2, h3⟩ := he
  refine ⟨near_same h.gAP ?_, near_same h.mAP ?_, ?_⟩
  · rw [← h1]; exact h'.gAP
  · rw [← h2]; exact h'.mAP
  · rw [h.mNDCG, h'.mNDCG, h3]

section
variable {L : Type} [DecidableEq L] {k : ℕ} {ρ : Fin k → Str → Str} {refs refs' : List (Event Str L)}
  {hyps hyps' : List (ScoredEvent Str L)} {w w' : World} {o : ToolOptions}

/-- Copies of what is kept, and their groups. -/
theorem copies_kept (h : Copies ρ refs refs' hyps hyps') (hq : CopiedQueries (queriesOf refs hyps) ρ w w' o) :
    Copies ρ (keep (·.query) (listedQueries w o) refs) (keep (·.query) (listedQueries w' o) refs')
      (keep (·.base.query) (listedQueries w o) hyps) (keep (·.base.query) (listedQueries w' o) hyps') ∧
    ∀ i j, ∀ q ∈ queriesOf (keep (·.query) (listedQueries w o) refs) (keep (·.base.query) (listedQueries w o) hyps),
      ∀ q' ∈ queriesOf (keep (·.query) (listedQueries w o) refs) (keep (·.base.query) (listedQueries w o) hyps),
      groupFor w' o (ρ i q) = groupFor w' o (ρ j q') ↔ i = j ∧ groupFor w o q = groupFor w o q' := by
  simp only [keep_filter]
  refine ⟨h.filter (fun q => decide (listedQueries w o = [] ∨ q ∈ listedQueries w o))
    (fun q => decide (listedQueries w' o = [] ∨ q ∈ listedQueries w' o))
    fun i q hq' => decide_eq_decide.2 (hq.listed i q hq'), fun i j q h1 q' h2 => ?_⟩
  obtain ⟨a, b⟩ := queries_filter (p := fun q => decide (listedQueries w o = [] ∨ q ∈ listedQueries w o)) h1
  obtain ⟨c, d⟩ := queries_filter (p := fun q => decide (listedQueries w o = [] ∨ q ∈ listedQueries w o)) h2
  exact hq.group i j q a q' c (of_decide_eq_true b) (of_decide_eq_true d)

omit [DecidableEq L] in
/-- Without options about queries they are what C120 asks of them. -/
theorem C120_no_files (h : Copies ρ refs refs' hyps hyps') (h1 : o.queryGroups = []) (h2 : o.querySet = []) :
    CopiedQueries (queriesOf refs hyps) ρ w w' o := by
  constructor
  · intro i q _
    unfold listedQueries
    simp [h1, h2]
  · intro i j q hq q' hq' _ _
    unfold groupFor
    simp only [h1]
    exact ⟨fun e => h.apart i j q hq q' hq' e, fun ⟨a, b⟩ => by subst a; exact congrArg (ρ i) b⟩

end

/-- C120 for the box tool, with descending order and collapsing (the defaults): two runs, the second of which has
`k ≥ 1` copies of all references and hypotheses of the first, with different names of the queries and groups. Global
average precision, mean average precision and mean NDCG are the same. -/
theorem C120_box {R : Rnd} {k : ℕ} (hk : k ≠ 0) {ρ : Fin k → Str → Str} {w w' : World} {o : ToolOptions}
    {refs refs' : List (Event Str (DocBox Str UInt32))} {hyps hyps' : List (ScoredEvent Str (DocBox Str UInt32))}
    {r r' : Report Str (DocBox Str UInt32)} {ε ε' : ℚ}
    (h : BoxRun R w o refs hyps r ε) (h' : BoxRun R w' o refs' hyps' r' ε')
    (hd : o.sort = "desc".toList) (hc : o.collapse = true)
    (hcp : Copies ρ refs refs' hyps hyps') (hq : CopiedQueries (queriesOf refs hyps) ρ w w' o) :
    SameButGlobalNDCG r ε r' ε' := by
  obtain ⟨ms, rep, a1, a2⟩ := h.numbers hd hc
  obtain ⟨ms', rep', b1, b2⟩ := h'.numbers hd hc
  obtain ⟨hk1, hk2⟩ := copies_kept hcp hq
  exact shows_copies a2 b2 (matching_numbers hk1 hk a1 b1
    (fun x hx => h'.scores x (keep_subset _ _ _ x hx)) hk2 o.interp o.trapezoid)

/-- C120 for the segmentation-based tool. -/
theorem C120_segmentation {R : Rnd} {k : ℕ} (hk : k ≠ 0) {ρ : Fin k → Str → Str} {w w' : World} {o : ToolOptions}
    {refs refs' : List (Event Str Str)} {hyps hyps' : List (ScoredEvent Str Str)} {r r' : Report Nat Nat} {ε ε' : ℚ}
    (h : SegRun R w o refs hyps r ε) (h' : SegRun R w' o refs' hyps' r' ε')
    (hd : o.sort = "desc".toList) (hc : o.collapse = true)
    (hcp : Copies ρ refs refs' hyps hyps') (hq : CopiedQueries (queriesOf refs hyps) ρ w w' o) :
    SameButGlobalNDCG r ε r' ε' := by
  obtain ⟨hk1, hk2⟩ := copies_kept hcp hq
  exact shows_copies (h.numbers hd hc) (h'.numbers hd hc) (segNumbers_copies hk1 hk hk2
    (fun x hx => h'.scores x (keep_subset _ _ _ x hx)) o.interp o.trapezoid)

/-! ## Cases -/

/-- The names of the queries in two copies: the second has a prime. -/
def primed (i : Fin 2) (q : Str) : Str := if i = 0 then q else q ++ "'".toList

/-- NDCG if all hits come after all that is wrong. -/
theorem late_ndcg {c : Tally} {s s' : Flt} {a n : ℕ} (h1 : c.hits s = 0) (h2 : c.wrong s = a) (h3 : c.hits s' = n)
    (h4 : c.wrong s' = a) (h5 : c.refs = n) (hn : n ≠ 0) : c.ndcg [s, s'] =
      (∑ k ∈ Finset.Ico a (n + a), 1 / Real.logb 2 (k + 2)) / ∑ k ∈ Finset.range n, 1 / Real.logb 2 (k + 2) := by
  have hn' : (n : ℝ) ≠ 0 := by exact_mod_cast hn
  unfold Tally.ndcg
  rw [if_neg (by rw [h5]; exact hn), h5]
  congr 1
  unfold Tally.gain Tally.gain Tally.gain
  simp only [h1, h2, h3, h4, Nat.cast_zero, sub_zero, zero_div, zero_add, add_zero, Real.rpow_zero, sub_self,
    Finset.sum_const_zero, div_self hn', Real.rpow_one]
  norm_num

/-- A case of C120, and why it leaves out global NDCG: two copies of one reference that is found after something wrong.
Global NDCG gets worse; the other numbers are those of the single copy. -/
theorem C120_global_ndcg {G : Type} (S : StdSort) (rng : Rng G) : ∃ (w w' : World) (refs refs' : List (Event Str Str))
    (hyps hyps' : List (ScoredEvent Str Str)) (r r' : Report Nat Nat),
    mainWith Rnd.exact S rng (simpleKit Rnd.exact true) w poolOptions = .ok (.done r) ∧
    mainWith Rnd.exact S rng (simpleKit Rnd.exact true) w' poolOptions = .ok (.done r') ∧
    SegRun Rnd.exact w poolOptions refs hyps r 0 ∧ SegRun Rnd.exact w' poolOptions refs' hyps' r' 0 ∧
    Copies primed refs refs' hyps hyps' ∧ CopiedQueries (queriesOf refs hyps) primed w w' poolOptions ∧
    r'.gAP.value = r.gAP.value ∧ r.gAP.value = 1 / 2 ∧ r'.mAP.value = r.mAP.value ∧
    r'.mNDCG.value = r.mNDCG.value ∧ r'.gNDCG.value < r.gNDCG.value := by
  obtain ⟨r, hr, h⟩ := pool_run S rng "a l\n".toList "a m 2\na l 1\n".toList
    [⟨['a'], ['l']⟩] [⟨⟨['a'], ['m']⟩, .fin 2⟩, ⟨⟨['a'], ['l']⟩, .fin 1⟩]
    (by decide +kernel) (by decide +kernel) (by decide +kernel)
  obtain ⟨r', hr', h'⟩ := pool_run S rng "a' l\na l\n".toList "a m 2\na' l 1\na l 1\na' m 2\n".toList
    [⟨"a'".toList, ['l']⟩, ⟨['a'], ['l']⟩]
    [⟨⟨['a'], ['m']⟩, .fin 2⟩, ⟨⟨"a'".toList, ['l']⟩, .fin 1⟩, ⟨⟨['a'], ['l']⟩, .fin 1⟩,
      ⟨⟨"a'".toList, ['m']⟩, .fin 2⟩]
    (by decide +kernel) (by decide +kernel) (by decide +kernel)
  have hcp : Copies primed [⟨['a'], ['l']⟩] [⟨"a'".toList, ['l']⟩, ⟨['a'], ['l']⟩]
      [⟨⟨['a'], ['m']⟩, .fin 2⟩, ⟨⟨['a'], ['l']⟩, .fin 1⟩]
      [⟨⟨['a'], ['m']⟩, .fin 2⟩, ⟨⟨"a'".toList, ['l']⟩, .fin 1⟩, ⟨⟨['a'], ['l']⟩, .fin 1⟩,
        ⟨⟨"a'".toList, ['m']⟩, .fin 2⟩] := by
    refine ⟨by unfold ApartOn; decide +kernel, fun r => ?_, by decide +kernel⟩
    simp only [Fin.exists_fin_two, exists_eq_left, List.mem_cons, List.not_mem_nil, or_false]
    exact or_comm
  have hq : CopiedQueries _ primed (poolWorld "a l\n".toList "a m 2\na l 1\n".toList)
    (poolWorld "a' l\na l\n".toList "a m 2\na' l 1\na l 1\na' m 2\n".toList) poolOptions := C120_no_files hcp rfl rfl
  have key := C120_segmentation two_ne_zero h h' rfl rfl hcp hq
  refine ⟨_, _, _, _, _, _, r, r', hr, hr', h, h', hcp, hq, ?_, (pool_gAP h).trans (by decide +kernel), ?_, key.mNDCG, ?_⟩
  · exact sub_eq_zero.1 (abs_nonpos_iff.1 (key.gAP.trans_eq (add_zero 0)))
  · exact sub_eq_zero.1 (abs_nonpos_iff.1 (key.mAP.trans_eq (add_zero 0)))
  · rw [(h.numbers rfl rfl).gNDCG, (h'.numbers rfl rfl).gNDCG]
    have e1 : (segTally [⟨['a'], ['l']⟩] [⟨⟨['a'], ['m']⟩, .fin 2⟩, ⟨⟨['a'], ['l']⟩, .fin 1⟩] : Tally).ndcg
        [.fin 2, .fin 1] = _ :=
      late_ndcg (a := 1) (n := 1) (by decide +kernel) (by decide +kernel) (by decide +kernel) (by decide +kernel)
        (by decide +kernel) (by decide)
    have e2 : (segTally [⟨"a'".toList, ['l']⟩, ⟨['a'], ['l']⟩]
        [⟨⟨['a'], ['m']⟩, .fin 2⟩, ⟨⟨"a'".toList, ['l']⟩, .fin 1⟩, ⟨⟨['a'], ['l']⟩, .fin 1⟩,
          ⟨⟨"a'".toList, ['m']⟩, .fin 2⟩] : Tally).ndcg [.fin 2, .fin 1] = _ :=
      late_ndcg (a := 2) (n := 2) (by decide +kernel) (by decide +kernel) (by decide +kernel) (by decide +kernel)
        (by decide +kernel) (by decide)
    refine (lt_of_eq_of_lt e2 ?_).trans_eq e1.symm
    have l2 : Real.logb 2 2 = 1 := Real.logb_self_eq_one (by norm_num)
    have l4 : Real.logb 2 4 = 2 := by
      rw [show (4 : ℝ) = 2 ^ (2 : ℝ) by norm_num]
      exact Real.logb_rpow (by norm_num) (by norm_num)
    have l3 : Real.logb 2 3 < 8 / 5 := by
      rw [Real.logb_lt_iff_lt_rpow (by norm_num) (by norm_num)]
      refine lt_of_pow_lt_pow_left₀ 5 (by positivity) ?_
      rw [← Real.rpow_natCast (2 ^ _), ← Real.rpow_mul (by norm_num)]
      norm_num
    have l3' : 0 < Real.logb 2 3 := Real.logb_pos (by norm_num) (by norm_num)
    have l5 : 23 / 10 < Real.logb 2 5 := by
      rw [Real.lt_logb_iff_rpow_lt (by norm_num) (by norm_num)]
      refine lt_of_pow_lt_pow_left₀ 10 (by positivity) ?_
      rw [← Real.rpow_natCast (2 ^ _), ← Real.rpow_mul (by norm_num)]
      norm_num
    have a1 : 5 / 8 < 1 / Real.logb 2 3 := by
      rw [lt_div_iff₀ l3']
      linarith
    have a2 : 1 / Real.logb 2 5 < 10 / 23 := by
      rw [div_lt_iff₀ (by linarith)]
      linarith
    simp only [show Finset.Ico 2 (2 + 2) = {2, 3} by decide, show Finset.Ico 1 (1 + 1) = {1} by decide,
      Finset.sum_range_succ, Finset.sum_range_zero, Finset.sum_singleton,
      Finset.sum_pair (show (2 : ℕ) ≠ 3 by decide)]
    norm_num [l2, l4]
    rw [inv_eq_one_div, inv_eq_one_div]
    rw [div_lt_iff₀ (by linarith)]
    nlinarith

/-- The hypothesis of C120 about boxes is met by two names for a word that is looked for twice. -/
example : Copies primed [(⟨['a'], ⟨⟨0, 0, 2, 2⟩, ['d']⟩⟩ : Event Str (DocBox Str UInt32))]
    [⟨"a'".toList, ⟨⟨0, 0, 2, 2⟩, ['d']⟩⟩, ⟨['a'], ⟨⟨0, 0, 2, 2⟩, ['d']⟩⟩]
    [⟨⟨['a'], ⟨⟨0, 0, 2, 2⟩, ['d']⟩⟩, .fin 1⟩, ⟨⟨['a'], ⟨⟨9, 0, 2, 2⟩, ['d']⟩⟩, .fin 2⟩]
    [⟨⟨"a'".toList, ⟨⟨9, 0, 2, 2⟩, ['d']⟩⟩, .fin 2⟩, ⟨⟨['a'], ⟨⟨0, 0, 2, 2⟩, ['d']⟩⟩, .fin 1⟩,
      ⟨⟨"a'".toList, ⟨⟨0, 0, 2, 2⟩, ['d']⟩⟩, .fin 1⟩, ⟨⟨['a'], ⟨⟨9, 0, 2, 2⟩, ['d']⟩⟩, .fin 2⟩] := by
  refine ⟨by unfold ApartOn; decide +kernel, fun r => ?_, by decide +kernel⟩
  simp only [Fin.exists_fin_two, List.mem_cons, List.not_mem_nil, or_false, exists_eq_left]
  exact or_comm

end Kws
