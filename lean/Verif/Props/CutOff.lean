import Verif.Lemmas.CutOff
import Verif.Spec.CutOff
import Verif.Props.Tail

/-! # C132: hypotheses at the end of a ranking gain at most the recall that they add -/

namespace Kws
open Spec

theorem GainsLittle.shown {Q L : Type} {a b : Numbers} {x n N : ℕ} {r r' : Report Q L} {ε ε' : ℚ}
    (h : GainsLittle a b x n N 0) (h1 : Shows r a ε) (h2 : Shows r' b ε') :
    GainsLittle (numbersShown r) (numbersShown r') x n N (ε + ε') := by
  have a1 := abs_le.1 h1.gAP
  have b1 := abs_le.1 h2.gAP
  have c1 := h.gAP
  refine ⟨?_, ?_⟩
  · show r'.gAP.value ≤ r.gAP.value + (x : ℚ) / N + (ε + ε')
    linarith
  · show r'.gNDCG.value ≤ r.gNDCG.value + _
    rw [h1.gNDCG, h2.gNDCG]
    exact h.gNDCG

theorem exists_lowest (S : List Flt) (hn : ∀ s ∈ S, s ≠ .nan) (h0 : S ≠ []) :
    ∃ s ∈ S, ∀ y ∈ S, Flt.lt y s = false := by
  have t := descending_thresholds S hn
  have hd : descending S ≠ [] := by
    intro e
    obtain ⟨x, hx⟩ := List.exists_mem_of_ne_nil S h0
    have := (t.mem x).2 hx
    rw [e] at this
    cases this
  obtain ⟨l, s, e⟩ : ∃ l s, descending S = l ++ [s] := ⟨_, _, (List.dropLast_append_getLast hd).symm⟩
  refine ⟨s, (t.mem s).1 (by rw [e]; simp), fun y hy => ?_⟩
  have hy' := (t.mem y).2 hy
  have hp := t.sorted
  rw [e] at hy' hp
  rcases List.mem_append.1 hy' with hy' | hy'
  · exact Flt.lt_asymm' _ _ ((List.pairwise_append.1 hp).2.2 y hy' s (by simp))
  · rw [List.mem_singleton.1 hy']
    exact Flt.lt_irrefl' _

section
variable {Q L : Type} [DecidableEq Q] [DecidableEq L]

theorem seg_lowest (refs : List (Event Q L)) (hyps : List (ScoredEvent Q L))
    (hn1 : ∀ s ∈ hyps.map (·.score), s ≠ .nan) : Lowest (hyps.map (·.score)) (segTally refs hyps)
      (refs.toFinset ∩ (hyps.map (·.base)).toFinset).card (hyps.countP (fun h => h.base ∉ refs)) := by
  set f := (refs.toFinset ∩ (hyps.map (·.base)).toFinset).card with hf
  set v := hyps.countP (fun h => h.base ∉ refs) with hv
  by_cases h0 : hyps = []
  · subst h0
    exact .inl ⟨rfl, by simp [hf], by simp [hv]⟩
  · right
    obtain ⟨s, hs, hlow⟩ := exists_lowest (hyps.map (·.score)) hn1 (by simpa using h0)
    have low : ∀ y ∈ hyps, Flt.lt y.score s = false := fun y hy => hlow _ (List.mem_map_of_mem hy)
    refine ⟨s, hs, hlow, ?_, ?_⟩
    · unfold segTally
      dsimp only
      rw [hf]
      congr 1
      ext r
      simp only [Finset.mem_filter, Finset.mem_inter, List.mem_toFinset, List.mem_map]
      constructor
      · rintro ⟨h1, y, hy, e, _⟩
        exact ⟨h1, y, hy, e⟩
      · rintro ⟨h1, y, hy, e⟩
        exact ⟨h1, y, hy, e, low y hy⟩
    · unfold segTally
      dsimp only
      rw [hv]
      refine List.countP_congr fun y hy => ?_
      simp [low y hy]

/-- C132: the numbers that the files define for the segmentation-based tool. Hypotheses `extra` with lower
scores than the others raise the global average precision by at most the number of references that they alone
find, divided by the number of references, and NDCG by at most that number, divided by the ideal gain and the
logarithm of the first rank that they can have. This is for every curve, interpolation and area. -/
theorem C132_numbers (grp : Q → Q) (interp trapezoid : Bool) (refs : List (Event Q L))
    (hyps hyps' extra : List (ScoredEvent Q L)) (hp : hyps'.Perm (hyps ++ extra))
    (hb : ScoredBelow extra hyps) (hn : ∀ y ∈ hyps', y.score ≠ .nan) (hr : refs ≠ []) :
    GainsLittle (segNumbers grp interp trapezoid refs hyps) (segNumbers grp interp trapezoid refs hyps')
      (newlyFound refs hyps extra) (segEffective refs hyps) refs.toFinset.card 0 := by
  have hpr := segTally_prolongs refs hyps hyps' extra hp hb hn
  have hn1 : ∀ s ∈ hyps.map (·.score), s ≠ .nan := fun s hs => hpr.num s (hpr.sub s hs)
  have hl := seg_lowest refs hyps hn1
  set f := (refs.toFinset ∩ (hyps.map (·.base)).toFinset).card with hf
  set v := hyps.countP (fun h => h.base ∉ refs) with hv
  have hF : ∀ s ∈ hyps'.map (·.score), (segTally refs hyps').hits s ≤ f + newlyFound refs hyps extra := by
    intro s _
    unfold segTally newlyFound
    dsimp only
    rw [hf]
    refine le_trans (Finset.card_le_card fun r hrr => ?_) (Finset.card_union_le _ _)
    obtain ⟨h1, y, hy, e, _⟩ := Finset.mem_filter.1 hrr
    rw [Finset.mem_union]
    by_cases hh : ∃ z ∈ hyps, z.base = r
    · obtain ⟨z, hz, e⟩ := hh
      exact .inl (Finset.mem_inter.2 ⟨h1, List.mem_toFinset.2 (List.mem_map.2 ⟨z, hz, e⟩)⟩)
    · push Not at hh
      rcases List.mem_append.1 (hp.mem_iff.1 hy) with hy | hy
      · exact absurd e (hh y hy)
      · exact .inr (Finset.mem_filter.2 ⟨h1, ⟨y, hy, e⟩, hh⟩)
  have hN : (segTally refs hyps).refs ≠ 0 := by
    obtain ⟨r, hrr⟩ := List.exists_mem_of_ne_nil refs hr
    exact (Finset.card_pos.2 ⟨r, List.mem_toFinset.2 hrr⟩).ne'
  have a1 := hpr.ap_gain hl hF hN interp trapezoid
  have a2 := hpr.ndcg_gain hl hF hN
  refine ⟨?_, ?_⟩
  · rw [add_zero]
    push_cast at a1
    rw [add_sub_cancel_left] at a1
    exact a1
  · push_cast at a2
    rw [add_sub_cancel_left] at a2
    have e : ((segEffective refs hyps : ℕ) : ℝ) = (f : ℝ) + v := by
      unfold segEffective
      push_cast
      rfl
    rw [e]
    exact a2

end

section
variable {refs : List (Event Str (DocBox Str UInt32))}
  {hyps hyps' extra : List (ScoredEvent Str (DocBox Str UInt32))}
  {ms rep ms' rep' : List (KwsMatch Str (DocBox Str UInt32))}

theorem match_lowest (ms : List (KwsMatch Str (DocBox Str UInt32))) (hn1 : ∀ s ∈ scoresIn ms, s ≠ .nan) :
    Lowest (scoresIn ms) (tallyOf ms) (hitCount ms) (ms.countP (fun x => x.ref.isNone && x.hyp.isSome)) := by
  set v := ms.countP (fun x => x.ref.isNone && x.hyp.isSome) with hv
  by_cases h0 : scoresIn ms = []
  · have none : ∀ x ∈ ms, x.hyp = none := by
      intro x hx
      have := List.filterMap_eq_nil_iff.1 h0 x hx
      simpa using this
    refine .inl ⟨h0, by
      refine List.countP_eq_zero.2 fun x hx => ?_
      simp [none x hx], ?_⟩
    rw [hv]
    refine List.countP_eq_zero.2 fun x hx => ?_
    simp [none x hx]
  · right
    obtain ⟨s, hs, hlow⟩ := exists_lowest _ hn1 h0
    have any : ∀ x ∈ ms, x.hyp.any (fun y => !Flt.lt y.score s) = x.hyp.isSome := by
      intro x hx
      cases hxy : x.hyp with
      | none => rfl
      | some y =>
        have := hlow y.score (List.mem_filterMap.2 ⟨x, hx, by simp [hxy]⟩)
        simp [this]
    refine ⟨s, hs, hlow, ?_, ?_⟩
    · unfold tallyOf hitCount
      exact List.countP_congr fun x hx => by rw [any x hx]
    · unfold tallyOf
      rw [hv]
      exact List.countP_congr fun x hx => by rw [any x hx]

theorem box_prolongs (hp : hyps'.Perm (hyps ++ extra))
    (hb : ScoredBelow extra hyps) (hn : ∀ y ∈ hyps', y.score ≠ .nan)
    (h : ExactBoxMatching refs hyps ms rep) (h' : ExactBoxMatching refs hyps' ms' rep') :
    (tallyOf ms).refs = refs.toFinset.card ∧
      Prolongs (scoresIn ms) (scoresIn ms') (tallyOf ms) (tallyOf ms') := by
  obtain ⟨_, _, hr1⟩ := C88_refines _ _ _ _ h
  obtain ⟨_, _, hr2⟩ := C88_refines _ _ _ _ h'
  obtain ⟨n1, m1⟩ := boxMatching_refs hr1
  obtain ⟨n2, m2⟩ := boxMatching_refs hr2
  have pr : (ms'.filterMap (·.ref)).Perm (ms.filterMap (·.ref)) :=
    (List.perm_ext_iff_of_nodup n2 n1).2 fun r => by rw [m1, m2]
  have hcard : (tallyOf ms).refs = refs.toFinset.card := by
    rw [refs_count, ← List.toFinset_card_of_nodup n1]
    congr 1
    ext r
    simp only [List.mem_toFinset, m1]
  obtain ⟨a, b, m, m', r, rfl, rfl, rfl, k1, k2, k3⟩ := exact_tail hp hb hn h h'
  have hmem := exactBoxMatching_mem h'
  have scores : ∀ s ∈ scoresIn a, ∃ y ∈ hyps, y.score = s := by
    intro s hs
    obtain ⟨x, hx, h0⟩ := List.mem_filterMap.1 hs
    obtain ⟨y, hy, e⟩ := k1 x hx
    rw [e] at h0
    exact ⟨y, hy, by simpa using h0⟩
  have scores' : ∀ s ∈ scoresIn (a ++ b), s ≠ .nan := by
    intro s hs
    obtain ⟨x, hx, h0⟩ := List.mem_filterMap.1 hs
    obtain ⟨y, hy, rfl⟩ := Option.map_eq_some_iff.1 h0
    exact hn y ((hmem x (.inl (List.mem_append_left _ hx))).2 y hy)
  have low : ∀ x ∈ b, ∀ y, x.hyp = some y → ∀ s ∈ scoresIn a, Flt.lt y.score s = true := by
    intro x hx y hy s hs
    obtain ⟨z, hz, rfl⟩ := scores s hs
    obtain ⟨y', hy', e⟩ := k2 x (List.mem_append_left _ hx)
    rw [hy] at e
    cases e
    exact hb _ hy' z hz
  exact ⟨hcard, tallyOf_prolongs a b m m' (fun x hx => k3 x (List.mem_append_left _ hx))
      (fun x hx => k3 x (List.mem_append_right _ hx)) low scores' (by rw [refs_count, refs_count, pr.length_eq])⟩

/-- C132: the matchings of the box-based tool. -/
theorem C132_boxNumbers (grp : Str → Str) (interp trapezoid : Bool) (hp : hyps'.Perm (hyps ++ extra))
    (hb : ScoredBelow extra hyps) (hn : ∀ y ∈ hyps', y.score ≠ .nan) (hr : refs ≠ [])
    (h : ExactBoxMatching refs hyps ms rep) (h' : ExactBoxMatching refs hyps' ms' rep') :
    hitCount ms ≤ hitCount ms' ∧
    GainsLittle (matchNumbers grp interp trapezoid ms) (matchNumbers grp interp trapezoid ms')
      (hitCount ms' - hitCount ms) (ms.countP (fun m => m.hyp.isSome)) refs.toFinset.card 0 := by
  obtain ⟨hcard, hpr⟩ := box_prolongs hp hb hn h h'
  obtain ⟨a, b, m, m', r, rfl, rfl, rfl, k1, k2, k3⟩ := exact_tail hp hb hn h h'
  have hits0 : ∀ l : List (KwsMatch Str (DocBox Str UInt32)), (∀ x ∈ l, x.hyp = none) → hitCount l = 0 := by
    intro l hl
    refine List.countP_eq_zero.2 fun x hx => ?_
    simp [hl x hx]
  have hm0 := hits0 m (fun x hx => k3 x (List.mem_append_left _ hx))
  have hm0' := hits0 m' (fun x hx => k3 x (List.mem_append_right _ hx))
  have hle : hitCount (a ++ m) ≤ hitCount (a ++ b ++ m') := by
    unfold hitCount at *
    simp only [List.countP_append]
    omega
  have hn1 : ∀ s ∈ scoresIn (a ++ m), s ≠ .nan := fun s hs => hpr.num s (hpr.sub s hs)
  set v := (a ++ m).countP (fun x => x.ref.isNone && x.hyp.isSome) with hv
  have hl := match_lowest (a ++ m) hn1
  rw [← hv] at hl
  have hF : ∀ s ∈ scoresIn (a ++ b ++ m'), (tallyOf (a ++ b ++ m')).hits s ≤ hitCount (a ++ b ++ m') := by
    intro s _
    unfold tallyOf hitCount
    refine List.countP_mono_left fun x _ hx => ?_
    simp only [Bool.and_eq_true] at hx ⊢
    refine ⟨hx.1, ?_⟩
    cases hxy : x.hyp with
    | none => simp [hxy] at hx
    | some y => rfl
  have hN : (tallyOf (a ++ m)).refs ≠ 0 := by
    rw [hcard]
    obtain ⟨r, hrr⟩ := List.exists_mem_of_ne_nil refs hr
    exact (Finset.card_pos.2 ⟨r, List.mem_toFinset.2 hrr⟩).ne'
  have a1 := hpr.ap_gain hl hF hN interp trapezoid
  have a2 := hpr.ndcg_gain hl hF hN
  refine ⟨hle, ?_, ?_⟩
  · rw [add_zero, Nat.cast_sub hle]
    rw [hcard] at a1
    exact a1
  · rw [Nat.cast_sub hle]
    rw [hcard] at a2
    have e : (a ++ m).countP (fun x => x.hyp.isSome) = hitCount (a ++ m) + v := by
      rw [hv]
      unfold hitCount
      generalize a ++ m = l
      induction l with
      | nil => rfl
      | cons x l ih =>
        simp only [List.countP_cons, ih]
        cases x.ref <;> cases x.hyp <;> simp <;> omega
    rw [e]
    exact a2

end

section
variable {G : Type}

theorem seg_cutOff (R : Rnd) (S S' : StdSort) (rng rng' : Rng G) (qf : Bool) (w w' : World)
    (o : ToolOptions)
    (hV : (vocabulary w o).dedup.length ≤ 2 ^ 31) (hV' : (vocabulary w' o).dedup.length ≤ 2 ^ 31)
    (t u u' : Str) (refs : List (Event Str Str)) (hyps hyps' extra : List (ScoredEvent Str Str))
    (ht : w.file o.refFilename = some t) (ht' : w'.file o.refFilename = some t)
    (hu : hypText w o = some u) (hu' : hypText w' o = some u')
    (hrefs : Yields StrEventText (lines t) refs)
    (hhyps : Yields (ScoredText R StrEventText) (lines u) hyps)
    (hhyps' : Yields (ScoredText R StrEventText) (lines u') hyps')
    (hg : groupFor w' o = groupFor w o) (hq : listedQueries w' o = listedQueries w o)
    (hd : o.sort = "desc".toList) (hc : o.collapse = true)
    (hp : hyps'.Perm (hyps ++ extra)) (hb : ScoredBelow extra hyps)
    (hr : keep (·.query) (listedQueries w o) refs ≠ [])
    (r r' : Report Nat Nat) (ε ε' : ℚ)
    (hT : Tolerance R (refs.length + hyps.length) ε) (hT' : Tolerance R (refs.length + hyps'.length) ε')
    (h : mainWith R S rng (simpleKit R qf) w o = .ok (.done r))
    (h' : mainWith R S' rng' (simpleKit R qf) w' o = .ok (.done r')) :
    GainsLittle (numbersShown r) (numbersShown r')
      (newlyFound (keep (·.query) (listedQueries w o) refs) (keep (·.base.query) (listedQueries w o) hyps)
        (keep (·.base.query) (listedQueries w o) extra))
      (segEffective (keep (·.query) (listedQueries w o) refs) (keep (·.base.query) (listedQueries w o) hyps))
      (keep (·.query) (listedQueries w o) refs).toFinset.card (ε + ε') := by
  have a := segmentation_numbers R S rng qf w o hV t u refs hyps ht hu hrefs hhyps hd hc r ε hT h
  have b := segmentation_numbers R S' rng' qf w' o hV' t u' refs hyps' ht' hu' hrefs hhyps' hd hc r' ε' hT' h'
  rw [hg, hq] at b
  refine GainsLittle.shown (C132_numbers (groupFor w o) o.interp o.trapezoid _ _ _
    (keep (·.base.query) (listedQueries w o) extra) ?_ ?_ ?_ hr) a b
  · rw [keep_filter, keep_filter, keep_filter, ← List.filter_append]
    exact hp.filter _
  · intro x hx y hy
    rw [keep_filter] at hx hy
    exact hb x (List.mem_of_mem_filter hx) y (List.mem_of_mem_filter hy)
  · intro y hy
    rw [keep_filter] at hy
    exact yields_finite _ u' hyps' hhyps' y (List.mem_of_mem_filter hy)

/-- C132: two runs of the segmentation-based tool, of which the second has more hypotheses, `extra`, all with
lower scores than the others. Some reference is kept. -/
theorem C132_segmentation (S S' : StdSort) (rng rng' : Rng G) (qf : Bool) (w w' : World)
    (o : ToolOptions)
    (hV : (vocabulary w o).dedup.length ≤ 2 ^ 31) (hV' : (vocabulary w' o).dedup.length ≤ 2 ^ 31)
    (t u u' : Str) (refs : List (Event Str Str)) (hyps hyps' extra : List (ScoredEvent Str Str))
    (ht : w.file o.refFilename = some t) (ht' : w'.file o.refFilename = some t)
    (hu : hypText w o = some u) (hu' : hypText w' o = some u')
    (hrefs : Yields StrEventText (lines t) refs)
    (hhyps : Yields (ScoredText Rnd.exact StrEventText) (lines u) hyps)
    (hhyps' : Yields (ScoredText Rnd.exact StrEventText) (lines u') hyps')
    (hg : groupFor w' o = groupFor w o) (hq : listedQueries w' o = listedQueries w o)
    (hd : o.sort = "desc".toList) (hc : o.collapse = true)
    (hp : hyps'.Perm (hyps ++ extra)) (hb : ScoredBelow extra hyps)
    (hr : keep (·.query) (listedQueries w o) refs ≠ [])
    (r r' : Report Nat Nat)
    (h : mainWith Rnd.exact S rng (simpleKit Rnd.exact qf) w o = .ok (.done r))
    (h' : mainWith Rnd.exact S' rng' (simpleKit Rnd.exact qf) w' o = .ok (.done r')) :
    GainsLittle (numbersShown r) (numbersShown r')
      (newlyFound (keep (·.query) (listedQueries w o) refs) (keep (·.base.query) (listedQueries w o) hyps)
        (keep (·.base.query) (listedQueries w o) extra))
      (segEffective (keep (·.query) (listedQueries w o) refs) (keep (·.base.query) (listedQueries w o) hyps))
      (keep (·.query) (listedQueries w o) refs).toFinset.card 0 := by
  have := seg_cutOff Rnd.exact S S' rng rng' qf w w' o hV hV' t u u' refs hyps hyps' extra ht ht' hu hu' hrefs
    hhyps hhyps' hg hq hd hc hp hb hr r r' 0 0 (Or.inl ⟨rfl, rfl⟩) (Or.inl ⟨rfl, rfl⟩) h h'
  rwa [add_zero] at this

/-- C132 in IEEE arithmetic. -/
theorem C132_segmentation_rounded (S S' : StdSort) (rng rng' : Rng G) (qf : Bool) (w w' : World)
    (o : ToolOptions)
    (hV : (vocabulary w o).dedup.length ≤ 2 ^ 31) (hV' : (vocabulary w' o).dedup.length ≤ 2 ^ 31)
    (t u u' : Str) (refs : List (Event Str Str)) (hyps hyps' extra : List (ScoredEvent Str Str))
    (ht : w.file o.refFilename = some t) (ht' : w'.file o.refFilename = some t)
    (hu : hypText w o = some u) (hu' : hypText w' o = some u')
    (hrefs : Yields StrEventText (lines t) refs)
    (hhyps : Yields (ScoredText Rnd.ieee StrEventText) (lines u) hyps)
    (hhyps' : Yields (ScoredText Rnd.ieee StrEventText) (lines u') hyps')
    (hn : refs.length + hyps.length ≤ 2 ^ 24) (hn' : refs.length + hyps'.length ≤ 2 ^ 24)
    (hg : groupFor w' o = groupFor w o) (hq : listedQueries w' o = listedQueries w o)
    (hd : o.sort = "desc".toList) (hc : o.collapse = true)
    (hp : hyps'.Perm (hyps ++ extra)) (hb : ScoredBelow extra hyps)
    (hr : keep (·.query) (listedQueries w o) refs ≠ [])
    (r r' : Report Nat Nat)
    (h : mainWith Rnd.ieee S rng (simpleKit Rnd.ieee qf) w o = .ok (.done r))
    (h' : mainWith Rnd.ieee S' rng' (simpleKit Rnd.ieee qf) w' o = .ok (.done r')) :
    GainsLittle (numbersShown r) (numbersShown r')
      (newlyFound (keep (·.query) (listedQueries w o) refs) (keep (·.base.query) (listedQueries w o) hyps)
        (keep (·.base.query) (listedQueries w o) extra))
      (segEffective (keep (·.query) (listedQueries w o) refs) (keep (·.base.query) (listedQueries w o) hyps))
      (keep (·.query) (listedQueries w o) refs).toFinset.card
      ((refs.length + hyps.length + 3) ^ 2 / 2 ^ 52 + (refs.length + hyps'.length + 3) ^ 2 / 2 ^ 52) :=
  seg_cutOff Rnd.ieee S S' rng rng' qf w w' o hV hV' t u u' refs hyps hyps' extra ht ht' hu hu' hrefs
    hhyps hhyps' hg hq hd hc hp hb hr r r' _ _ (Or.inr ⟨rfl, hn, by push_cast; rfl⟩)
    (Or.inr ⟨rfl, hn', by push_cast; rfl⟩) h h'

/-- C132: two runs of the box-based tool, in exact or IEEE arithmetic (`ε` and `ε'` are 0 or the bounds of the
rounding errors). -/
theorem C132_box (R : Rnd) (S S' : StdSort) (rng rng' : Rng G) (w w' : World) (o : ToolOptions)
    (refs : List (Event Str (DocBox Str UInt32)))
    (hyps hyps' extra : List (ScoredEvent Str (DocBox Str UInt32)))
    (h2 : TwoRuns R w w' o refs hyps hyps')
    (hr : ∀ r ∈ refs, EdgesOkU r.location.toBBox) (hh : ∀ h ∈ hyps', InRangeU h.base)
    (h24 : R = Rnd.ieee → ∀ h ∈ hyps', areaU h.base ≤ 2 ^ 24)
    (hd : o.sort = "desc".toList) (hc : o.collapse = true)
    (hp : hyps'.Perm (hyps ++ extra)) (hb : ScoredBelow extra hyps)
    (h0 : keep (·.query) (listedQueries w o) refs ≠ [])
    (r r' : Report Str (DocBox Str UInt32)) (ε ε' : ℚ)
    (hT : Tolerance R (refs.length + hyps.length) ε) (hT' : Tolerance R (refs.length + hyps'.length) ε')
    (h : mainWith R S rng (icdarKit R S) w o = .ok (.done r))
    (h' : mainWith R S' rng' (icdarKit R S') w' o = .ok (.done r')) :
    let kr := keep (Event.query (L := DocBox Str UInt32)) (listedQueries w o) refs
    let kh := keep (fun x : ScoredEvent Str (DocBox Str UInt32) => x.base.query) (listedQueries w o)
    ∃ ms rep ms' rep', ExactBoxMatching kr (kh hyps) ms rep ∧ ExactBoxMatching kr (kh hyps') ms' rep' ∧
      hitCount ms ≤ hitCount ms' ∧
      GainsLittle (numbersShown r) (numbersShown r') (hitCount ms' - hitCount ms)
        (ms.countP (fun m => m.hyp.isSome)) kr.toFinset.card (ε + ε') := by
  intro kr kh
  obtain ⟨⟨t, t1, t2, t3⟩, ⟨u, u1, u2⟩, ⟨u', v1, v2⟩, hgr, hq⟩ := h2
  have sub : ∀ y ∈ hyps, y ∈ hyps' := fun y hy => hp.mem_iff.2 (by simp [hy])
  obtain ⟨ms, rep, a1, _, a2⟩ := box_ties R S rng w o t u refs hyps t1 u1 t3 u2 hr
    (fun y hy => hh y (sub y hy)) (fun e y hy => h24 e y (sub y hy)) hd hc r ε hT h
  obtain ⟨ms', rep', b1, _, b2⟩ := box_ties R S' rng' w' o t u' refs hyps' t2 v1 t3 v2 hr
    hh h24 hd hc r' ε' hT' h'
  rw [hgr] at b2
  rw [hq] at b1
  obtain ⟨c1, c2⟩ := C132_boxNumbers (groupFor w o) o.interp o.trapezoid
    (extra := keep (·.base.query) (listedQueries w o) extra) (by
      rw [keep_filter, keep_filter, keep_filter, ← List.filter_append]
      exact hp.filter _) (by
      intro x hx y hy
      rw [keep_filter] at hx hy
      exact hb x (List.mem_of_mem_filter hx) y (List.mem_of_mem_filter hy)) (by
      intro y hy
      rw [keep_filter] at hy
      exact scores_finite S v2 y (List.mem_of_mem_filter hy)) h0 a1 b1
  exact ⟨ms, rep, ms', rep', a1, b1, c1, GainsLittle.shown c2 a2 b2⟩

end

/-! ## The bound is reached, and the condition is needed -/

/-- C132: the bound is reached. A right hypothesis after the only other one, which is right too. -/
theorem C132_reached (interp : Bool) :
    (segNumbers id interp false [⟨0, 0⟩, ⟨0, 1⟩] [⟨⟨0, 0⟩, .fin 2⟩, ⟨⟨0, 1⟩, .fin 1⟩] : Numbers).gAP =
      (segNumbers id interp false [⟨0, 0⟩, ⟨0, 1⟩] [⟨⟨(0 : ℕ), (0 : ℕ)⟩, .fin 2⟩]).gAP + (1 : ℕ) / (2 : ℕ) := by
  unfold segNumbers Numbers.of
  revert interp
  decide +kernel

/-- C132: the scores must be lower. A right hypothesis before a wrong and another right one gains more. -/
theorem C132_lower_needed (interp : Bool) :
    (segNumbers id interp false [⟨0, 0⟩, ⟨0, 1⟩] [⟨⟨0, 2⟩, .fin 2⟩, ⟨⟨0, 0⟩, .fin 1⟩] : Numbers).gAP + (1 : ℕ) / (2 : ℕ) <
      (segNumbers id interp false [⟨0, 0⟩, ⟨0, 1⟩]
        [⟨⟨(0 : ℕ), (2 : ℕ)⟩, .fin 2⟩, ⟨⟨0, 0⟩, .fin 1⟩, ⟨⟨0, 1⟩, .fin 3⟩]).gAP := by
  unfold segNumbers Numbers.of
  revert interp
  decide +kernel

/-! ## Runs -/

/-- Runs to which C132 applies: a wrong and a right hypothesis come in at the end of one, and there are two
references. The global average precision goes from 1/2 to 5/6; the bound is 1/2 + 1/2. -/
example {G : Type} (S : StdSort) (rng : Rng G) : ∃ r r',
    mainWith Rnd.exact S rng (simpleKit Rnd.exact true) (betterExample "b l 3\n".toList)
      idsOptions = .ok (.done r) ∧
    mainWith Rnd.exact S rng (simpleKit Rnd.exact true) (betterExample "b l 3\na m 2\na l 1\n".toList)
      idsOptions = .ok (.done r') ∧
    GainsLittle (numbersShown r) (numbersShown r') 1 1 2 0 ∧ r.gAP.value = 1 / 2 ∧ r'.gAP.value = 5 / 6 := by
  obtain ⟨y1, _, y3⟩ := betterExample_yields
  have y2 : Yields (ScoredText Rnd.exact StrEventText) (lines "b l 3\n".toList)
      [⟨⟨"b".toList, "l".toList⟩, .fin 3⟩] :=
    (C48_accepts (Format.strHyps (R := Rnd.exact)) _ _).1 (by decide +kernel)
  have v := betterExample_vocabulary "b l 3\n".toList (by decide +kernel)
  have v' := betterExample_vocabulary "b l 3\na m 2\na l 1\n".toList (by decide +kernel)
  obtain ⟨r, h⟩ := betterExample_runs S rng _ v (yields_valid y2)
  obtain ⟨r', h'⟩ := betterExample_runs S rng _ v' (yields_valid y3)
  have hq : ∀ u, listedQueries (betterExample u) idsOptions = [] := fun _ => rfl
  have hg : ∀ u, groupFor (betterExample u) idsOptions = id := fun _ => rfl
  have key := C132_segmentation S S rng rng true _ _ idsOptions v v' _ _ _ _ _ _
    [⟨⟨"a".toList, "m".toList⟩, .fin 2⟩, ⟨⟨"a".toList, "l".toList⟩, .fin 1⟩]
    (betterExample_file _) (betterExample_file _) (if_pos rfl) (if_pos rfl) y1 y2 y3
    ((hg _).trans (hg _).symm) ((hq _).trans (hq _).symm) rfl rfl (.refl _)
    (by unfold ScoredBelow; decide +kernel) (by rw [hq]; decide +kernel) r r' h h'
  rw [hq] at key
  obtain ⟨a1, _⟩ := C66_segmentation S rng true _ idsOptions v _ _ _ _ (betterExample_file _) (if_pos rfl)
    y1 y2 rfl rfl r h
  obtain ⟨b1, _⟩ := C66_segmentation S rng true _ idsOptions v' _ _ _ _ (betterExample_file _) (if_pos rfl)
    y1 y3 rfl rfl r' h'
  refine ⟨r, r', h, h', key, a1.trans ?_, b1.trans ?_⟩
  all_goals
    rw [hq]
    unfold segNumbers Numbers.of
    decide +kernel

/-- Runs of the box-based tool to which C132 applies: the second hypothesis finds the reference that the first
one leaves. -/
example {G : Type} (S : StdSort) (rng : Rng G) : ∃ r r' : Report Str (DocBox Str UInt32),
    mainWith Rnd.exact S rng (icdarKit Rnd.exact S) (dumpExample "q d 0 0 1 1\nq d 0 0 5 1\n".toList
      "q d 0 0 5 1 2\n".toList) dumpOptions = .ok (.done r) ∧
    mainWith Rnd.exact S rng (icdarKit Rnd.exact S) (dumpExample "q d 0 0 1 1\nq d 0 0 5 1\n".toList
      "q d 0 0 5 1 2\nq d 0 0 1 1 1\n".toList) dumpOptions = .ok (.done r') ∧
    ∃ x n, GainsLittle (numbersShown r) (numbersShown r') x n 2 0 := by
  have y1 : Yields BoxEventText (lines "q d 0 0 1 1\nq d 0 0 5 1\n".toList)
      [⟨['q'], ⟨⟨0, 0, 1, 1⟩, ['d']⟩⟩, ⟨['q'], ⟨⟨0, 0, 5, 1⟩, ['d']⟩⟩] :=
    (C48_accepts (Format.boxRefs (R := Rnd.exact)) _ _).1 (by decide +kernel)
  have y2 : Yields (ScoredText Rnd.exact BoxEventText) (lines "q d 0 0 5 1 2\n".toList)
      [⟨⟨['q'], ⟨⟨0, 0, 5, 1⟩, ['d']⟩⟩, .fin 2⟩] :=
    (C48_accepts (Format.boxHyps (R := Rnd.exact)) _ _).1 (by decide +kernel)
  have y3 : Yields (ScoredText Rnd.exact BoxEventText) (lines "q d 0 0 5 1 2\nq d 0 0 1 1 1\n".toList)
      [⟨⟨['q'], ⟨⟨0, 0, 5, 1⟩, ['d']⟩⟩, .fin 2⟩, ⟨⟨['q'], ⟨⟨0, 0, 1, 1⟩, ['d']⟩⟩, .fin 1⟩] :=
    (C48_accepts (Format.boxHyps (R := Rnd.exact)) _ _).1 (by decide +kernel)
  obtain ⟨r, hr⟩ := dump_run S rng _ _ _ _ y1 y2
  obtain ⟨r', hr'⟩ := dump_run S rng _ _ _ _ y1 y3
  have h1 : ∀ r ∈ ([⟨['q'], ⟨⟨0, 0, 1, 1⟩, ['d']⟩⟩, ⟨['q'], ⟨⟨0, 0, 5, 1⟩, ['d']⟩⟩] :
      List (Event Str (DocBox Str UInt32))), EdgesOkU r.location.toBBox := by
    intro r hr
    simp only [List.mem_cons, List.not_mem_nil, or_false] at hr
    rcases hr with rfl | rfl <;> exact ⟨by decide, by decide⟩
  have h2 : ∀ x ∈ ([⟨⟨['q'], ⟨⟨0, 0, 5, 1⟩, ['d']⟩⟩, .fin 2⟩, ⟨⟨['q'], ⟨⟨0, 0, 1, 1⟩, ['d']⟩⟩, .fin 1⟩] :
      List (ScoredEvent Str (DocBox Str UInt32))), InRangeU x.base := by
    intro x hx
    simp only [List.mem_cons, List.not_mem_nil, or_false] at hx
    rcases hx with rfl | rfl <;> exact ⟨⟨by decide, by decide⟩, by decide +kernel⟩
  have hq : ∀ t u, listedQueries (dumpExample t u) dumpOptions = [] := fun _ _ => rfl
  have hne : keep (Event.query (L := DocBox Str UInt32)) (listedQueries (dumpExample
      "q d 0 0 1 1\nq d 0 0 5 1\n".toList "q d 0 0 5 1 2\n".toList) dumpOptions)
      [⟨['q'], ⟨⟨0, 0, 1, 1⟩, ['d']⟩⟩, ⟨['q'], ⟨⟨0, 0, 5, 1⟩, ['d']⟩⟩] ≠ [] := by
    rw [hq]
    decide +kernel
  have key := C132_box Rnd.exact S S rng rng _ _ dumpOptions _ _ _
    [⟨⟨['q'], ⟨⟨0, 0, 1, 1⟩, ['d']⟩⟩, .fin 1⟩]
    ⟨⟨_, dumpExample_file _ _, dumpExample_file _ _, y1⟩, ⟨_, if_pos rfl, y2⟩, ⟨_, if_pos rfl, y3⟩, rfl, rfl⟩
    h1 h2 (fun e => absurd e exact_ne_ieee) rfl rfl (.refl _) (by unfold ScoredBelow; decide +kernel)
    hne r r' 0 0 (Or.inl ⟨rfl, rfl⟩) (Or.inl ⟨rfl, rfl⟩) hr hr'
  rw [hq] at key
  have hk : (keep (Event.query (L := DocBox Str UInt32)) [] [⟨['q'], ⟨⟨0, 0, 1, 1⟩, ['d']⟩⟩,
      ⟨['q'], ⟨⟨0, 0, 5, 1⟩, ['d']⟩⟩]).toFinset.card = 2 := by decide +kernel
  dsimp only at key
  rw [hk, add_zero] at key
  obtain ⟨ms, _, ms', _, _, _, _, h⟩ := key
  exact ⟨r, r', hr, hr', _, _, h⟩

end Kws
