import Verif.Lemmas.Numbers
import Verif.Props.Tool
import Verif.Props.Ids
import Verif.Props.ToolMatching

/-!
# C65, C66, C67: the reported numbers

`Spec/Evaluation.lean` defines the numbers from the counts of hits and false positives with at least
a given score, without sorting, collapsing or matching.
-/

namespace Kws
open Spec

/-! ## C65 -/

section
variable {Q L : Type}

/-- C65: average precision and NDCG, with collapsing, of a list of hits, false positives and false
negatives in decreasing order of score. -/
theorem C65_measures (ms : List (KwsMatch Q L)) (h : ∀ m ∈ ms, HardMatch m)
    (hn : ∀ m ∈ ms, rank m ≠ .nan) (hs : ms.Pairwise (fun a b => Flt.lt (rank a) (rank b) = false))
    (interp trapezoid : Bool) :
    globalAP Rnd.exact ms true interp trapezoid =
      .ok ((tallyOf ms).ap interp trapezoid (descending (scoresIn ms))) ∧
    globalNDCG Rnd.exact ms true = (tallyOf ms).ndcg (descending (scoresIn ms)) := by
  classical
  obtain ⟨h1, h2⟩ := measures_tally ms h hn hs _ (scoresIn_thresholds ms hn)
  exact ⟨h1 interp trapezoid, h2⟩

/-- C65 in IEEE arithmetic: NDCG (whose logarithms are not rounded in this model) is the same, average
precision is off by at most `n (n + 4) / 2^52`. -/
theorem C65_measures_rounded (ms : List (KwsMatch Q L)) (h : ∀ m ∈ ms, HardMatch m)
    (hn : ∀ m ∈ ms, rank m ≠ .nan) (hs : ms.Pairwise (fun a b => Flt.lt (rank a) (rank b) = false))
    (interp trapezoid : Bool) (hl : ms.length ≤ 2 ^ 24) :
    (∃ v, globalAP Rnd.ieee ms true interp trapezoid = .ok v ∧
      |v - (tallyOf ms).ap interp trapezoid (descending (scoresIn ms))| ≤
        ms.length * (ms.length + 4) / 2 ^ 52) ∧
    globalNDCG Rnd.ieee ms true = (tallyOf ms).ndcg (descending (scoresIn ms)) := by
  classical
  obtain ⟨h1, h2⟩ := C65_measures ms h hn hs interp trapezoid
  refine ⟨?_, ?_⟩
  · obtain ⟨v, v', e1, e2, e3⟩ := C64_ap_hard ms true interp trapezoid
      (fun m hm => (h m hm).outcome) hl
    rw [h1] at e2
    injection e2 with e2
    exact ⟨v, e1, by rw [e2]; exact e3⟩
  · rw [ndcg_exact (Or.inr ⟨rfl, hl, rfl⟩ : Tolerance Rnd.ieee ms.length _) ms h le_rfl, h2]

/-- C65: the thresholds are the scores that occur, in decreasing order and each once. -/
theorem C65_thresholds (ms : List (KwsMatch Q L)) (hn : ∀ m ∈ ms, rank m ≠ .nan) :
    (descending (scoresIn ms)).Pairwise (fun a b => Flt.lt b a = true) ∧
    ∀ s, s ∈ descending (scoresIn ms) ↔ ∃ m ∈ ms, ∃ h, m.hyp = some h ∧ h.score = s := by
  classical
  have := scoresIn_thresholds ms hn
  exact ⟨this.sorted, this.mem⟩

/-- C65: lists of matches with the same counts above each score have the same measures. -/
theorem C65_same_counts {Q' L' : Type} (ms : List (KwsMatch Q L)) (ms' : List (KwsMatch Q' L'))
    (h : ∀ m ∈ ms, HardMatch m) (h' : ∀ m ∈ ms', HardMatch m)
    (hn : ∀ m ∈ ms, rank m ≠ .nan) (hn' : ∀ m ∈ ms', rank m ≠ .nan)
    (hs : ms.Pairwise (fun a b => Flt.lt (rank a) (rank b) = false))
    (hs' : ms'.Pairwise (fun a b => Flt.lt (rank a) (rank b) = false))
    (e1 : (tallyOf ms).hits = (tallyOf ms').hits) (e2 : (tallyOf ms).wrong = (tallyOf ms').wrong)
    (e3 : (tallyOf ms).refs = (tallyOf ms').refs) (e4 : ∀ s, s ∈ scoresIn ms ↔ s ∈ scoresIn ms')
    (interp trapezoid : Bool) :
    globalAP Rnd.exact ms true interp trapezoid = globalAP Rnd.exact ms' true interp trapezoid ∧
    globalNDCG Rnd.exact ms true = globalNDCG Rnd.exact ms' true := by
  classical
  have e : tallyOf ms = tallyOf ms' := by
    revert e1 e2 e3
    generalize tallyOf ms = a, tallyOf ms' = b
    cases a; cases b
    rintro rfl rfl rfl
    rfl
  have ed : descending (scoresIn ms) = descending (scoresIn ms') := by
    refine descending_congr (fun s hs => ?_) e4
    obtain ⟨m, hm, e⟩ := List.mem_filterMap.1 hs
    obtain ⟨x, hx, rfl⟩ := Option.map_eq_some_iff.1 e
    have := hn m hm
    rwa [rank_of_hyp hx] at this
  obtain ⟨a1, a2⟩ := C65_measures ms h hn hs interp trapezoid
  obtain ⟨b1, b2⟩ := C65_measures ms' h' hn' hs' interp trapezoid
  rw [a1, a2, b1, b2, e, ed]
  exact ⟨rfl, rfl⟩

end

/-- A hit and a false positive with score 2, a hit with score 1 and a reference that is missed: the
points are (1/2, 1/3) and (2/3, 2/3). -/
def tallyExample : List (KwsMatch Nat Nat) :=
  [⟨some ⟨1, 1⟩, some ⟨⟨1, 1⟩, .fin 2⟩, ⟨0, 0⟩⟩, ⟨none, some ⟨⟨1, 2⟩, .fin 2⟩, ⟨1, 0⟩⟩,
    ⟨some ⟨2, 1⟩, some ⟨⟨2, 1⟩, .fin 1⟩, ⟨0, 0⟩⟩, ⟨some ⟨2, 2⟩, none, ⟨0, 1⟩⟩]

example :
    (∀ m ∈ tallyExample, HardMatch m) ∧ (∀ m ∈ tallyExample, rank m ≠ .nan) ∧
    tallyExample.Pairwise (fun a b => Flt.lt (rank a) (rank b) = false) ∧
    descending (scoresIn tallyExample) = [.fin 2, .fin 1] ∧
    (descending (scoresIn tallyExample)).map (tallyOf tallyExample).point = [(1 / 2, 1 / 3), (2 / 3, 2 / 3)] ∧
    (tallyOf tallyExample).ap false false (descending (scoresIn tallyExample)) = 7 / 18 ∧
    (tallyOf tallyExample).ap true false (descending (scoresIn tallyExample)) = 4 / 9 := by
  refine ⟨?_, by decide +kernel, by decide +kernel, by decide +kernel, by decide +kernel,
    by decide +kernel, by decide +kernel⟩
  intro m hm
  simp only [tallyExample, List.mem_cons, List.not_mem_nil, or_false] at hm
  rcases hm with rfl | rfl | rfl | rfl <;> simp [HardMatch, Outcome.error]

/-! ## C66 -/

section
variable {G : Type}

/-- The numbers of the segmentation-based tool; the tolerance is 0 in exact arithmetic. -/
theorem segmentation_numbers (R : Rnd) (S : StdSort) (rng : Rng G) (qf : Bool) (w : World)
    (o : ToolOptions) (hV : (vocabulary w o).dedup.length ≤ 2 ^ 31) (t u : Str)
    (refs : List (Event Str Str)) (hyps : List (ScoredEvent Str Str))
    (ht : w.file o.refFilename = some t) (hu : hypText w o = some u)
    (hrefs : Yields StrEventText (lines t) refs)
    (hhyps : Yields (ScoredText R StrEventText) (lines u) hyps)
    (hd : o.sort = "desc".toList) (hc : o.collapse = true) (r : Report Nat Nat) (ε : ℚ)
    (hT : Tolerance R (refs.length + hyps.length) ε)
    (h : mainWith R S rng (simpleKit R qf) w o = .ok (.done r)) :
    Shows r (segNumbers (groupFor w o) o.interp o.trapezoid
      (keep (·.query) (listedQueries w o) refs) (keep (·.base.query) (listedQueries w o) hyps)) ε := by
  have hr : o.refFilename ≠ [] := by
    intro hr
    unfold mainWith at h
    rw [if_pos hr] at h
    cases h
  have v1 := yields_valid hrefs
  have v2 := yields_valid hhyps
  obtain ⟨f, N, hf, _, e⟩ := simple_good R S rng qf w o hV hr t u ht hu v1 v2
  rw [yields_events (Format.strRefs (R := R)) hrefs, yields_events Format.strHyps hhyps] at e
  rw [e] at h
  cases hq : readQueryMap (fun (m : Unit) q => (m, (.ok q : Cpp Str))) w o () with
  | error x => rw [hq] at h; cases h
  | ok x =>
    rw [hq] at h
    cases x with
    | none => cases h
    | some q2g =>
      obtain ⟨q1, q2⟩ := readQueryMap_spec w o q2g hq
      have hfin := (str_plain R).finite u v2
      rw [yields_events Format.strHyps hhyps] at hfin
      have := seg_numbers R S rng (simpleKit R qf) (simple_seg R qf) w o (q2g.map (Prod.map f f)) _ _ r
        _ ε hT (by rw [List.length_map, List.length_map]) (fun x hx => by
          obtain ⟨y, hy, rfl⟩ := List.mem_map.1 hx
          exact hfin y hy) hd hc h
      rw [usedRefs_rename f hf, usedHyps_rename f hf,
        segNumbers_rename hf hf (groupFor w o) _ (fun q => by rw [groupOf_rename hf, q2])] at this
      unfold usedRefs usedHyps at this
      rw [filter_keep _ _ q1, filter_keep _ _ q1] at this
      exact this

/-- C66: the segmentation-based tool, with its default sorting and collapsing, reports the specified
numbers: a reference counts as found at a threshold if one of its hypotheses has such a score, a
hypothesis that is no reference is a false positive, and the groups and the queries considered are
those of the query files. -/
theorem C66_segmentation (S : StdSort) (rng : Rng G) (qf : Bool) (w : World) (o : ToolOptions)
    (hV : (vocabulary w o).dedup.length ≤ 2 ^ 31) (t u : Str)
    (refs : List (Event Str Str)) (hyps : List (ScoredEvent Str Str))
    (ht : w.file o.refFilename = some t) (hu : hypText w o = some u)
    (hrefs : Yields StrEventText (lines t) refs)
    (hhyps : Yields (ScoredText Rnd.exact StrEventText) (lines u) hyps)
    (hd : o.sort = "desc".toList) (hc : o.collapse = true) (r : Report Nat Nat)
    (h : mainWith Rnd.exact S rng (simpleKit Rnd.exact qf) w o = .ok (.done r)) :
    let n := segNumbers (groupFor w o) o.interp o.trapezoid
      (keep (·.query) (listedQueries w o) refs) (keep (·.base.query) (listedQueries w o) hyps)
    r.gAP.value = n.gAP ∧ r.mAP.value = n.mAP ∧ r.gNDCG.value = n.gNDCG ∧
      r.mNDCG.value = n.mNDCG := by
  intro n
  have := segmentation_numbers Rnd.exact S rng qf w o hV t u refs hyps ht hu hrefs hhyps hd hc r 0
    (Or.inl ⟨rfl, rfl⟩) h
  exact ⟨sub_eq_zero.1 (abs_nonpos_iff.1 this.gAP), sub_eq_zero.1 (abs_nonpos_iff.1 this.mAP),
    this.gNDCG, this.mNDCG⟩

/-- C66 in IEEE arithmetic: up to `2^24` lines, the average precisions are off by at most
`(n + 3)^2 / 2^52`. -/
theorem C66_segmentation_rounded (S : StdSort) (rng : Rng G) (qf : Bool) (w : World) (o : ToolOptions)
    (hV : (vocabulary w o).dedup.length ≤ 2 ^ 31) (t u : Str)
    (refs : List (Event Str Str)) (hyps : List (ScoredEvent Str Str))
    (ht : w.file o.refFilename = some t) (hu : hypText w o = some u)
    (hrefs : Yields StrEventText (lines t) refs)
    (hhyps : Yields (ScoredText Rnd.ieee StrEventText) (lines u) hyps)
    (hl : refs.length + hyps.length ≤ 2 ^ 24)
    (hd : o.sort = "desc".toList) (hc : o.collapse = true) (r : Report Nat Nat)
    (h : mainWith Rnd.ieee S rng (simpleKit Rnd.ieee qf) w o = .ok (.done r)) :
    Shows r (segNumbers (groupFor w o) o.interp o.trapezoid
      (keep (·.query) (listedQueries w o) refs) (keep (·.base.query) (listedQueries w o) hyps))
      ((refs.length + hyps.length + 3) ^ 2 / 2 ^ 52) := by
  refine segmentation_numbers Rnd.ieee S rng qf w o hV t u refs hyps ht hu hrefs hhyps hd hc r _
    (Or.inr ⟨rfl, hl, ?_⟩) h
  push_cast
  rfl

end

theorem idsExample_yields :
    Yields StrEventText (lines "a l\nb l\nc l\n".toList)
      [⟨"a".toList, "l".toList⟩, ⟨"b".toList, "l".toList⟩, ⟨"c".toList, "l".toList⟩] ∧
    Yields (ScoredText Rnd.exact StrEventText)
      (lines "a l 1\nb l 1\nb m 1\nb n 1\nc l 1\nc m 1\nc n 1\n".toList)
      [⟨⟨"a".toList, "l".toList⟩, .fin 1⟩, ⟨⟨"b".toList, "l".toList⟩, .fin 1⟩,
        ⟨⟨"b".toList, "m".toList⟩, .fin 1⟩, ⟨⟨"b".toList, "n".toList⟩, .fin 1⟩,
        ⟨⟨"c".toList, "l".toList⟩, .fin 1⟩, ⟨⟨"c".toList, "m".toList⟩, .fin 1⟩,
        ⟨⟨"c".toList, "n".toList⟩, .fin 1⟩] :=
  ⟨(C48_accepts (Format.strRefs (R := Rnd.exact)) _ _).1 (by decide +kernel),
    (C48_accepts (Format.strHyps (R := Rnd.exact)) _ _).1 (by decide +kernel)⟩

/-- A run with three queries: all three references are hit, there are four false positives, all with
the same score; the queries have average precision 1, 1/3 and 1/3. -/
example {G : Type} (S : StdSort) (rng : Rng G) : ∃ r : Report Nat Nat,
    mainWith Rnd.exact S rng (simpleKit Rnd.exact true) (idsExample "a l\nb l\nc l\n".toList)
      idsOptions = .ok (.done r) ∧ r.gAP.value = 3 / 7 ∧ r.mAP.value = 5 / 9 := by
  obtain ⟨y1, y2⟩ := idsExample_yields
  obtain ⟨r, hr, _⟩ := (C62_segmentation_partial Rnd.exact S rng true
    (idsExample "a l\nb l\nc l\n".toList) idsOptions idsExample_vocabulary1
    (fun t t' h1 h2 => by
      refine ⟨fun h => by simp [idsOptions] at h, fun h => absurd rfl h, fun h => absurd rfl h,
        fun h => by simp [idsOptions] at h⟩)).1
    ⟨⟨by decide, ⟨_, idsExample_file _, yields_valid y1⟩, ⟨_, if_pos rfl, yields_valid y2⟩,
      fun h => absurd rfl h, fun h => absurd rfl h⟩, Or.inl rfl⟩
  obtain ⟨h1, h2, _, _⟩ := C66_segmentation S rng true (idsExample "a l\nb l\nc l\n".toList) idsOptions
    idsExample_vocabulary1 _ _ _ _ (idsExample_file _) (if_pos rfl) y1 y2 rfl rfl r hr
  refine ⟨r, hr, h1.trans ?_, h2.trans ?_⟩
  · have : listedQueries (idsExample "a l\nb l\nc l\n".toList) idsOptions = [] := rfl
    rw [this]
    unfold segNumbers Numbers.of
    decide +kernel
  · have : listedQueries (idsExample "a l\nb l\nc l\n".toList) idsOptions = [] := rfl
    rw [this]
    have : groupFor (idsExample "a l\nb l\nc l\n".toList) idsOptions = id := rfl
    rw [this]
    unfold segNumbers Numbers.of
    decide +kernel

/-! ## C67 -/

section
variable {G : Type}

/-- The numbers of the box tool; the tolerance is 0 in exact arithmetic. -/
theorem box_numbers (R : Rnd) (S : StdSort) (rng : Rng G) (w : World) (o : ToolOptions) (t u : Str)
    (refs : List (Event Str (DocBox Str UInt32))) (hyps : List (ScoredEvent Str (DocBox Str UInt32)))
    (ht : w.file o.refFilename = some t) (hu : hypText w o = some u)
    (hrefs : Yields BoxEventText (lines t) refs)
    (hhyps : Yields (ScoredText R BoxEventText) (lines u) hyps)
    (hr : ∀ r ∈ refs, EdgesOkU r.location.toBBox) (hh : ∀ h ∈ hyps, InRangeU h.base)
    (h24 : R = Rnd.ieee → ∀ h ∈ hyps, areaU h.base ≤ 2 ^ 24)
    (hd : o.sort = "desc".toList) (hc : o.collapse = true) (r : Report Str (DocBox Str UInt32)) (ε : ℚ)
    (hT : Tolerance R (refs.length + hyps.length) ε)
    (h : mainWith R S rng (icdarKit R S) w o = .ok (.done r)) :
    ∃ l ms rep,
      l.Perm (keep (·.base.query) (listedQueries w o) hyps) ∧
      l.Pairwise (fun a b => Flt.lt a.score b.score = false) ∧
      BoxMatching (keep (·.query) (listedQueries w o) refs) l ms rep ∧
      (o.dumpMatches ≠ [] → r.dump = some (ms, rep)) ∧
      Shows r (matchNumbers (groupFor w o) o.interp o.trapezoid ms) ε := by
  have hr0 : o.refFilename ≠ [] := by
    intro hr
    unfold mainWith at h
    rw [if_pos hr] at h
    cases h
  have v1 := yields_valid hrefs
  have v2 := yields_valid hhyps
  rw [(icdar_plain R S).main_good S rng w o hr0 t u ht hu v1 v2,
    yields_events (Format.boxRefs (R := R)) hrefs, yields_events Format.boxHyps hhyps,
    (icdar_plain R S).mapQuery] at h
  cases hq : readQueryMap (fun (m : Unit) q => (m, (.ok q : Cpp Str))) w o () with
  | error x => rw [hq] at h; cases h
  | ok x =>
    rw [hq] at h
    cases x with
    | none => cases h
    | some q2g =>
      obtain ⟨q1, q2⟩ := readQueryMap_spec w o q2g hq
      have hfin := (icdar_plain R S).finite u v2
      rw [yields_events Format.boxHyps hhyps] at hfin
      obtain ⟨l, s', ms, rep, e1, e2, e3, e4, e5, e6, e7⟩ := evaluate_numbers R S rng (icdarKit R S)
        (icdar_safe R S) (by
          intro a b e he hf
          obtain ⟨i, hi⟩ := inter_ok a b.base
          have := ioh_eq R (1 / 2) a b i hi
          rw [show (icdarKit R S).scorer a b = iohScorer R (1 / 2) a b from rfl, this] at he
          injection he with he
          subst he
          unfold verdict at hf ⊢
          split
          · rfl
          · rename_i hne; rw [if_neg hne] at hf; norm_num at hf) w o q2g refs hyps r _ ε hT le_rfl
        hfin hd hc h
      have k1 : usedRefs q2g refs = keep (·.query) (listedQueries w o) refs := by
        unfold usedRefs
        rw [filter_keep _ _ q1]
      have k2 : usedHyps q2g hyps = keep (·.base.query) (listedQueries w o) hyps := by
        unfold usedHyps
        rw [filter_keep _ _ q1]
      have hsub : ∀ x ∈ l, x ∈ hyps := fun x hx => usedHyps_mem q2g hyps x (e2.mem_iff.1 hx)
      have hsubr : ∀ x ∈ usedRefs q2g refs, x ∈ refs := by
        intro x hx
        rw [k1] at hx
        unfold keep at hx
        split at hx
        · exact hx
        · exact (List.mem_filter.1 hx).1
      rw [k2] at e2
      have hg : groupOf q2g = groupFor w o := funext q2
      rw [hg] at e7
      refine ⟨l, ms, rep, e2, e3, ?_, fun hne => by rw [e6, if_neg hne], e7⟩
      obtain ⟨s1, ms1, rep1, f1, f2⟩ := C17_box_matching R S DocEventSet.new (usedRefs q2g refs) l
        (fun x hx => hr x (hsubr x hx)) (fun x hx => hh x (hsub x hx)) (by
          rcases hT with ⟨rfl, _⟩ | ⟨rfl, _⟩
          · exact Or.inl rfl
          · exact Or.inr ⟨ieee_faithful, fun x hx => h24 rfl x (hsub x hx)⟩)
      rw [show SimpleMatcher.run (icdarKit R S).index (icdarKit R S).scorer (icdarKit R S).refsSet
        (usedRefs q2g refs) l = _ from f1, Except.ok.injEq, Prod.mk.injEq, Prod.mk.injEq] at e4
      obtain ⟨_, rfl, rfl⟩ := e4
      rw [← k1]
      exact f2

/-- C67: the box tool, with its default sorting and collapsing, processes the hypotheses in decreasing
order of score, gives each one a reference as `BoxMatching` says, and reports the numbers of these
matches. Areas are numbers of cells, without wrapping around. -/
theorem C67_box (S : StdSort) (rng : Rng G) (w : World) (o : ToolOptions) (t u : Str)
    (refs : List (Event Str (DocBox Str UInt32))) (hyps : List (ScoredEvent Str (DocBox Str UInt32)))
    (ht : w.file o.refFilename = some t) (hu : hypText w o = some u)
    (hrefs : Yields BoxEventText (lines t) refs)
    (hhyps : Yields (ScoredText Rnd.exact BoxEventText) (lines u) hyps)
    (hr : ∀ r ∈ refs, EdgesOkU r.location.toBBox) (hh : ∀ h ∈ hyps, InRangeU h.base)
    (hd : o.sort = "desc".toList) (hc : o.collapse = true) (r : Report Str (DocBox Str UInt32))
    (h : mainWith Rnd.exact S rng (icdarKit Rnd.exact S) w o = .ok (.done r)) :
    ∃ l ms rep,
      l.Perm (keep (·.base.query) (listedQueries w o) hyps) ∧
      l.Pairwise (fun a b => Flt.lt a.score b.score = false) ∧
      BoxMatching (keep (·.query) (listedQueries w o) refs) l ms rep ∧
      (o.dumpMatches ≠ [] → r.dump = some (ms, rep)) ∧
      let n := matchNumbers (groupFor w o) o.interp o.trapezoid ms
      r.gAP.value = n.gAP ∧ r.mAP.value = n.mAP ∧ r.gNDCG.value = n.gNDCG ∧
        r.mNDCG.value = n.mNDCG := by
  obtain ⟨l, ms, rep, h1, h2, h3, h4, h5⟩ := box_numbers Rnd.exact S rng w o t u refs hyps ht hu hrefs
    hhyps hr hh (fun h => by
      have := congrArg (fun R : Rnd => R.f64 (1 / 3)) h
      exact absurd this (by decide +kernel)) hd hc r 0 (Or.inl ⟨rfl, rfl⟩) h
  exact ⟨l, ms, rep, h1, h2, h3, h4, sub_eq_zero.1 (abs_nonpos_iff.1 h5.gAP),
    sub_eq_zero.1 (abs_nonpos_iff.1 h5.mAP), h5.gNDCG, h5.mNDCG⟩

/-- C67 in IEEE arithmetic: for areas of at most `2^24` the matching is the same, and up to `2^24`
lines the average precisions are off by at most `(n + 3)^2 / 2^52`. -/
theorem C67_box_rounded (S : StdSort) (rng : Rng G) (w : World) (o : ToolOptions) (t u : Str)
    (refs : List (Event Str (DocBox Str UInt32))) (hyps : List (ScoredEvent Str (DocBox Str UInt32)))
    (ht : w.file o.refFilename = some t) (hu : hypText w o = some u)
    (hrefs : Yields BoxEventText (lines t) refs)
    (hhyps : Yields (ScoredText Rnd.ieee BoxEventText) (lines u) hyps)
    (hr : ∀ r ∈ refs, EdgesOkU r.location.toBBox)
    (hh : ∀ h ∈ hyps, EdgesOkU h.base.location.toBBox ∧ areaU h.base ≤ 2 ^ 24)
    (hl : refs.length + hyps.length ≤ 2 ^ 24)
    (hd : o.sort = "desc".toList) (hc : o.collapse = true) (r : Report Str (DocBox Str UInt32))
    (h : mainWith Rnd.ieee S rng (icdarKit Rnd.ieee S) w o = .ok (.done r)) :
    ∃ l ms rep,
      l.Perm (keep (·.base.query) (listedQueries w o) hyps) ∧
      l.Pairwise (fun a b => Flt.lt a.score b.score = false) ∧
      BoxMatching (keep (·.query) (listedQueries w o) refs) l ms rep ∧
      (o.dumpMatches ≠ [] → r.dump = some (ms, rep)) ∧
      Shows r (matchNumbers (groupFor w o) o.interp o.trapezoid ms)
        ((refs.length + hyps.length + 3) ^ 2 / 2 ^ 52) := by
  refine box_numbers Rnd.ieee S rng w o t u refs hyps ht hu hrefs hhyps hr
    (fun x hx => ⟨(hh x hx).1, by have := (hh x hx).2; omega⟩) (fun _ x hx => (hh x hx).2) hd hc r _
    (Or.inr ⟨rfl, hl, ?_⟩) h
  push_cast
  rfl

end

theorem runExample_yields :
    Yields BoxEventText (lines "a d 0 0 2 2\nb d 0 0 2 2\n".toList)
      [⟨"a".toList, ⟨⟨0, 0, 2, 2⟩, "d".toList⟩⟩, ⟨"b".toList, ⟨⟨0, 0, 2, 2⟩, "d".toList⟩⟩] ∧
    Yields (ScoredText Rnd.exact BoxEventText)
      (lines "b d 0 0 2 2 0.5\n\n# x\na d 9 9 2 2 1.5\n".toList)
      [⟨⟨"b".toList, ⟨⟨0, 0, 2, 2⟩, "d".toList⟩⟩, .fin (1 / 2)⟩,
        ⟨⟨"a".toList, ⟨⟨9, 9, 2, 2⟩, "d".toList⟩⟩, .fin (3 / 2)⟩] :=
  ⟨(C48_accepts (Format.boxRefs (R := Rnd.exact)) _ _).1 (by decide +kernel),
    (C48_accepts (Format.boxHyps (R := Rnd.exact)) _ _).1 (by decide +kernel)⟩

/-- A run of the box tool that ends with a report, and to which C67 applies. -/
example {G : Type} (S : StdSort) (rng : Rng G) :
    let o : ToolOptions := { refFilename := "ref".toList, alpha := 1 / 20 }
    let refs : List (Event Str (DocBox Str UInt32)) :=
      [⟨"a".toList, ⟨⟨0, 0, 2, 2⟩, "d".toList⟩⟩, ⟨"b".toList, ⟨⟨0, 0, 2, 2⟩, "d".toList⟩⟩]
    let hyps : List (ScoredEvent Str (DocBox Str UInt32)) :=
      [⟨⟨"b".toList, ⟨⟨0, 0, 2, 2⟩, "d".toList⟩⟩, .fin (1 / 2)⟩,
        ⟨⟨"a".toList, ⟨⟨9, 9, 2, 2⟩, "d".toList⟩⟩, .fin (3 / 2)⟩]
    ∃ r, mainWith Rnd.exact S rng (icdarKit Rnd.exact S) runExample o = .ok (.done r) ∧
      ∃ l ms rep, l.Perm hyps ∧ l.Pairwise (fun a b => Flt.lt a.score b.score = false) ∧
        BoxMatching refs l ms rep ∧ r.gAP.value = (matchNumbers id o.interp o.trapezoid ms).gAP := by
  intro o refs hyps
  obtain ⟨y1, y2⟩ := runExample_yields
  obtain ⟨r, hr, _⟩ := (C62_box_partial Rnd.exact S rng runExample o (fun t t' _ _ =>
    ⟨fun h => by simp [o] at h, fun h => absurd rfl h, fun h => absurd rfl h,
      fun h => by simp [o] at h⟩)).1
    ⟨⟨by decide, ⟨_, runExample_file, yields_valid y1⟩, ⟨_, if_pos rfl, yields_valid y2⟩,
      fun h => absurd rfl h, fun h => absurd rfl h⟩, Or.inl rfl⟩
  obtain ⟨l, ms, rep, h1, h2, h3, _, h4, _⟩ := C67_box S rng runExample o _ _ _ _ runExample_file
    (if_pos rfl) y1 y2 (by
      intro r hr
      simp only [List.mem_cons, List.not_mem_nil, or_false] at hr
      rcases hr with rfl | rfl <;> exact ⟨by decide, by decide⟩) (by
      intro r hr
      simp only [List.mem_cons, List.not_mem_nil, or_false] at hr
      rcases hr with rfl | rfl <;> exact ⟨⟨by decide, by decide⟩, by decide +kernel⟩) rfl rfl r hr
  exact ⟨r, hr, l, ms, rep, h1, h2, h3, h4⟩

/-- References `r1` (columns 0 to 3) and `r2` (columns 2 to 5) in one row; the first hypothesis has two
columns in common with `r1` and three with `r2`; half of the second one is on `r2`, which is taken; the
third one has three columns on `r2` and one of four on `r1`; the last one is elsewhere. -/
example :
    let e (x w : UInt32) : Event Nat (DocBox Nat UInt32) := ⟨1, ⟨⟨x, 0, w, 1⟩, 1⟩⟩
    BoxMatching [e 0 4, e 2 4] [⟨e 2 3, .fin 3⟩, ⟨e 4 4, .fin 2⟩, ⟨e 3 4, .fin 1⟩, ⟨e 9 1, .fin 0⟩]
      [⟨some (e 2 4), some ⟨e 2 3, .fin 3⟩, ⟨0, 0⟩⟩, ⟨none, some ⟨e 9 1, .fin 0⟩, ⟨1, 0⟩⟩,
        ⟨some (e 0 4), none, ⟨0, 1⟩⟩]
      [⟨some (e 2 4), some ⟨e 4 4, .fin 2⟩, ⟨0, 0⟩⟩, ⟨some (e 2 4), some ⟨e 3 4, .fin 1⟩, ⟨0, 0⟩⟩] := by
  intro e
  refine ⟨fun h => if h = ⟨e 9 1, .fin 0⟩ then [] else if h = ⟨e 4 4, .fin 2⟩ then [e 2 4] else
    [e 2 4, e 0 4], [⟨some (e 2 4), some ⟨e 2 3, .fin 3⟩, ⟨0, 0⟩⟩, ⟨none, some ⟨e 9 1, .fin 0⟩, ⟨1, 0⟩⟩],
    [e 0 4], ?_, ?_, by decide, ?_, rfl⟩
  · intro h hh
    simp only [List.mem_cons, List.not_mem_nil, or_false] at hh
    have key : ∀ (ov refs : List (Event Nat (DocBox Nat UInt32))) (b : Event Nat (DocBox Nat UInt32)),
        (∀ r ∈ ov, r ∈ refs) → (∀ r ∈ refs, r ∈ ov ↔ r.query = b.query ∧ 0 < commonU r b) →
        ∀ r, r ∈ ov ↔ r ∈ refs ∧ r.query = b.query ∧ 0 < commonU r b := by
      intro ov refs b h1 h2 r
      exact ⟨fun h => ⟨h1 r h, (h2 r (h1 r h)).1 h⟩, fun h => (h2 r h.1).2 h.2⟩
    rcases hh with rfl | rfl | rfl | rfl <;>
      exact ⟨by decide +kernel, key _ _ _ (by decide +kernel) (by decide +kernel), by decide +kernel⟩
  · refine .cons _ _ _ [_] [] [_] _ (Or.inr (Or.inl ⟨[], e 2 4, [e 0 4], by decide +kernel,
      by decide +kernel, by simp [Taken], by simp, by decide +kernel⟩))
      ⟨[], [e 2 4, e 0 4], by decide +kernel, by simp, ?_, by simp⟩ ?_
    · intro r hr
      simp only [List.head?_cons, Option.some.injEq] at hr
      subst hr
      exact ⟨by decide +kernel, by simp [Taken]⟩
    refine .cons _ _ _ [] [_] [_] [_] (Or.inr (Or.inr ⟨by decide +kernel,
      by unfold Taken; decide +kernel, rfl⟩))
      ⟨[e 2 4], [], by decide +kernel, by unfold Taken; decide +kernel, by simp, by decide +kernel⟩ ?_
    refine .cons _ _ _ [] [_] [_] [] (Or.inr (Or.inr ⟨by decide +kernel,
      by unfold Taken; decide +kernel, rfl⟩))
      ⟨[e 2 4, e 0 4], [], by decide +kernel, by unfold Taken; decide +kernel, by simp,
        by decide +kernel⟩ ?_
    exact .cons _ _ _ [_] [] [] [] (Or.inl ⟨by decide +kernel, by decide +kernel⟩)
      ⟨[], [], by decide +kernel, by simp, by simp, by simp⟩ (.nil _)
  · intro r
    simp only [Taken, List.mem_cons, List.not_mem_nil, or_false, exists_eq_or_imp, exists_eq_left,
      Option.some.injEq, reduceCtorEq]
    constructor
    · rintro rfl
      decide +kernel
    · rintro ⟨rfl | rfl, h⟩
      · rfl
      · exact absurd rfl h

end Kws
