import Verif.Lemmas.Threshold
import Verif.Lemmas.Ids
import Verif.Props.Rounding

/-!
Facts about the numbers reported by a run, in terms of tallies.
-/

set_option linter.unusedSectionVars false

namespace Kws
open Spec

/-! ## Sorted scores -/

theorem insertDesc_mem (x s : Flt) (l : List Flt) : s ∈ insertDesc x l ↔ s = x ∨ s ∈ l := by
  induction l with
  | nil => simp [insertDesc]
  | cons y l ih =>
    unfold insertDesc
    split
    · simp
    · split
      · rename_i h; subst h; simp
      · simp [ih]; tauto

theorem Flt.lt_total {a b : Flt} (ha : a ≠ .nan) (hb : b ≠ .nan) (h : Flt.lt a b = false) (hne : a ≠ b) :
    Flt.lt b a = true := by
  cases a <;> cases b <;> simp_all [Flt.lt]
  exact lt_of_le_of_ne h (Ne.symm hne)

theorem Flt.lt_false_trans {a b s : Flt} (hb : b ≠ .nan) (h1 : Flt.lt a b = false)
    (h2 : Flt.lt b s = false) : Flt.lt a s = false := by
  cases a <;> cases b <;> cases s <;> simp_all [Flt.lt]
  exact h2.trans h1

theorem insertDesc_sorted (x : Flt) (hx : x ≠ .nan) (l : List Flt) (hn : ∀ y ∈ l, y ≠ .nan)
    (hs : l.Pairwise (fun a b => Flt.lt b a = true)) :
    (insertDesc x l).Pairwise (fun a b => Flt.lt b a = true) := by
  induction l with
  | nil => simp [insertDesc]
  | cons y l ih =>
    rw [List.pairwise_cons] at hs
    unfold insertDesc
    split
    · rename_i h
      refine List.pairwise_cons.2 ⟨?_, List.pairwise_cons.2 hs⟩
      intro z hz
      rcases List.mem_cons.1 hz with rfl | hz
      · exact h
      · exact Flt.lt_trans' _ _ _ (hs.1 z hz) h
    · rename_i h
      split
      · exact List.pairwise_cons.2 hs
      · rename_i hne
        refine List.pairwise_cons.2 ⟨?_, ih (fun z hz => hn z (by simp [hz])) hs.2⟩
        intro z hz
        rcases (insertDesc_mem x z l).1 hz with rfl | hz
        · exact Flt.lt_total (hn y (by simp)) hx (by simpa using h) (fun e => hne e.symm)
        · exact hs.1 z hz

theorem descending_thresholds (l : List Flt) (hn : ∀ s ∈ l, s ≠ .nan) :
    Thresholds (· ∈ l) (descending l) := by
  induction l with
  | nil => exact ⟨by simp [descending], by simp [descending]⟩
  | cons x l ih =>
    have h := ih (fun s hs => hn s (by simp [hs]))
    constructor
    · exact insertDesc_sorted x (hn x (by simp)) _ (fun y hy => hn y (by simp [(h.mem y).1 hy])) h.sorted
    · intro s
      show s ∈ insertDesc x (descending l) ↔ _
      rw [insertDesc_mem, h.mem, List.mem_cons]

theorem descending_congr {l l' : List Flt} (hn : ∀ s ∈ l, s ≠ .nan) (h : ∀ s, s ∈ l ↔ s ∈ l') :
    descending l = descending l' := by
  have h1 := descending_thresholds l hn
  have h2 := descending_thresholds l' (fun s hs => hn s ((h s).2 hs))
  exact gt_ext h1.sorted h2.sorted (fun s => by rw [h1.mem, h2.mem, h])

/-! ## The tally of the segmentation-based evaluation -/

section
variable {Q L : Type} [DecidableEq Q] [DecidableEq L]

/-- The references in `refs`, not in `seen`, with a hypothesis in `l` whose score satisfies `P`. -/
def hitSet (refs seen : List (Event Q L)) (l : List (ScoredEvent Q L)) (P : Flt → Bool) :
    Finset (Event Q L) :=
  refs.toFinset.filter (fun r => r ∉ seen ∧ ∃ h ∈ l, h.base = r ∧ P h.score = true)

theorem mem_hitSet {refs seen : List (Event Q L)} {l : List (ScoredEvent Q L)} {P : Flt → Bool}
    {r : Event Q L} : r ∈ hitSet refs seen l P ↔
      r ∈ refs ∧ r ∉ seen ∧ ∃ h ∈ l, h.base = r ∧ P h.score = true := by
  simp [hitSet]

theorem segEntries_count (refs : List (Event Q L)) (P : Flt → Bool) (l : List (ScoredEvent Q L)) :
    ∀ seen, l.Pairwise (fun a b => P b.score = true → P a.score = true) →
    (segEntries refs seen l).countP (fun m => m.ref.isSome && m.hyp.any (fun h => P h.score)) =
      (hitSet refs seen l P).card := by
  induction l with
  | nil => intro seen _; simp [segEntries, hitSet]
  | cons h l ih =>
    intro seen hp
    rw [List.pairwise_cons] at hp
    unfold segEntries
    rw [List.countP_append, ih _ hp.2]
    by_cases hr : h.base ∈ refs
    · rw [if_neg (not_not.2 hr)]
      by_cases hs : h.base ∈ seen
      · rw [if_pos hs, List.countP_nil, zero_add]
        congr 1
        ext r
        rw [mem_hitSet, mem_hitSet]
        simp only [List.mem_cons, exists_eq_or_imp, not_or]
        constructor
        · rintro ⟨a, ⟨b, c⟩, d⟩; exact ⟨a, c, Or.inr d⟩
        · rintro ⟨a, c, ⟨rfl, _⟩ | d⟩
          · exact absurd hs c
          · exact ⟨a, ⟨fun e => c (e ▸ hs), c⟩, d⟩
      · rw [if_neg hs]
        cases hP : P h.score with
        | true =>
          have e : hitSet refs seen (h :: l) P = insert h.base (hitSet refs (h.base :: seen) l P) := by
            ext r
            rw [Finset.mem_insert, mem_hitSet, mem_hitSet]
            simp only [List.mem_cons, exists_eq_or_imp, not_or]
            constructor
            · rintro ⟨a, c, ⟨rfl, _⟩ | d⟩
              · exact Or.inl rfl
              · by_cases hrb : r = h.base
                · exact Or.inl hrb
                · exact Or.inr ⟨a, ⟨hrb, c⟩, d⟩
            · rintro (rfl | ⟨a, ⟨b, c⟩, d⟩)
              · exact ⟨hr, hs, Or.inl ⟨rfl, hP⟩⟩
              · exact ⟨a, c, Or.inr d⟩
          rw [e, Finset.card_insert_of_notMem (by rw [mem_hitSet]; simp)]
          simp [hP]
          omega
        | false =>
          have hf : ∀ x ∈ l, P x.score = false := by
            intro x hx
            by_contra hc
            have := hp.1 x hx (by simpa using hc)
            rw [hP] at this
            exact absurd this (by decide)
          have e1 : hitSet refs (h.base :: seen) l P = ∅ := by
            ext r
            rw [mem_hitSet]
            simp only [Finset.notMem_empty, iff_false]
            rintro ⟨_, _, x, hx, _, hx'⟩
            rw [hf x hx] at hx'
            exact absurd hx' (by decide)
          have e2 : hitSet refs seen (h :: l) P = ∅ := by
            ext r
            rw [mem_hitSet]
            simp only [Finset.notMem_empty, iff_false]
            rintro ⟨_, _, x, hx, _, hx'⟩
            rcases List.mem_cons.1 hx with rfl | hx
            · rw [hP] at hx'; exact absurd hx' (by decide)
            · rw [hf x hx] at hx'
              exact absurd hx' (by decide)
          rw [e1, e2]
          simp [hP]
    · rw [if_pos hr]
      simp only [List.countP_singleton, Option.isSome_none, Bool.false_and, Bool.false_eq_true,
        if_false, zero_add]
      congr 1
      ext r
      rw [mem_hitSet, mem_hitSet]
      simp only [List.mem_cons, exists_eq_or_imp, not_or]
      constructor
      · rintro ⟨a, ⟨b, c⟩, d⟩; exact ⟨a, c, Or.inr d⟩
      · rintro ⟨a, c, ⟨rfl, _⟩ | d⟩
        · exact absurd a hr
        · exact ⟨a, ⟨fun e => hr (e ▸ a), c⟩, d⟩

theorem segEntries_wrong (refs : List (Event Q L)) (P : Flt → Bool) (l : List (ScoredEvent Q L)) :
    ∀ seen, (segEntries refs seen l).countP (fun m => m.ref.isNone && m.hyp.any (fun h => P h.score)) =
      l.countP (fun h => h.base ∉ refs ∧ P h.score = true) := by
  induction l with
  | nil => intro seen; rfl
  | cons h l ih =>
    intro seen
    unfold segEntries
    rw [List.countP_append, ih, List.countP_cons]
    by_cases hr : h.base ∈ refs
    · rw [if_neg (not_not.2 hr)]
      by_cases hs : h.base ∈ seen <;> simp [hr, hs]
    · rw [if_pos hr]
      simp [hr, List.countP_singleton]
      omega

/-- The matches of the segmentation-based evaluation. -/
def segMatches (refs missed : List (Event Q L)) (l : List (ScoredEvent Q L)) : List (KwsMatch Q L) :=
  segEntries refs [] l ++ missed.map (fun r => ⟨some r, none, ⟨0, 1⟩⟩)

/-- `missed` are the references without hypothesis. -/
structure Missed (refs missed : List (Event Q L)) (l : List (ScoredEvent Q L)) : Prop where
  nodup : missed.Nodup
  mem : ∀ r, r ∈ missed ↔ r ∈ refs ∧ ∀ h ∈ l, h.base ≠ r

theorem segMatches_tally (refs missed : List (Event Q L)) (l : List (ScoredEvent Q L))
    (hs : l.Pairwise (fun a b => Flt.lt a.score b.score = false)) (hn : ∀ h ∈ l, h.score ≠ .nan)
    (hm : Missed refs missed l) :
    (∀ s, (tallyOf (segMatches refs missed l)).hits s = (segTally refs l).hits s) ∧
    (∀ s, (tallyOf (segMatches refs missed l)).wrong s = (segTally refs l).wrong s) ∧
    (tallyOf (segMatches refs missed l)).refs = (segTally refs l).refs := by
  have h0 : ∀ p : KwsMatch Q L → Bool, (∀ r, p ⟨some r, none, ⟨0, 1⟩⟩ = false) →
      (missed.map (fun r => (⟨some r, none, ⟨0, 1⟩⟩ : KwsMatch Q L))).countP p = 0 := by
    intro p hp
    rw [List.countP_eq_zero]
    intro m hm
    obtain ⟨r, _, rfl⟩ := List.mem_map.1 hm
    simp [hp]
  refine ⟨fun s => ?_, fun s => ?_, ?_⟩
  · show List.countP _ _ =
      (refs.toFinset.filter (fun r => ∃ h ∈ l, h.base = r ∧ Flt.lt h.score s = false)).card
    unfold segMatches
    rw [List.countP_append, segEntries_count refs (fun x => !Flt.lt x s)]
    · rw [h0 _ (fun _ => rfl), add_zero]
      congr 1
      ext r
      rw [mem_hitSet]
      simp
    · refine List.Pairwise.imp_of_mem ?_ hs
      intro a b ha hb hab h
      rw [Bool.not_eq_true'] at h ⊢
      exact Flt.lt_false_trans (hn b hb) hab h
  · show List.countP _ _ = _
    unfold segMatches
    rw [List.countP_append, segEntries_wrong refs (fun x => !Flt.lt x s),
      h0 _ (fun _ => rfl), add_zero]
    simp [segTally]
  · show List.countP _ _ = refs.toFinset.card
    unfold segMatches
    rw [List.countP_append]
    have h1 := segEntries_count refs (fun _ => true) l [] (List.pairwise_of_forall (by simp))
    have h2 : (segEntries refs [] l).countP (fun m => m.ref.isSome) = (segEntries refs [] l).countP
        (fun m => m.ref.isSome && m.hyp.any (fun h => (fun _ => true) h.score)) := by
      refine List.countP_congr fun m hm => ?_
      constructor
      · intro h
        obtain ⟨x, rfl, _⟩ := (segEntries_hits refs l [] m).1 ⟨hm, h⟩
        simp
      · simp +contextual
    rw [h2, h1, List.countP_eq_length.2 (by simp), List.length_map,
      ← List.toFinset_card_of_nodup hm.nodup, ← Finset.card_union_of_disjoint]
    · congr 1
      ext r
      rw [Finset.mem_union, mem_hitSet, List.mem_toFinset, hm.mem, List.mem_toFinset]
      by_cases h : ∃ h ∈ l, h.base = r
      · simp only [List.not_mem_nil, not_false_eq_true, true_and, and_true]
        constructor
        · rintro (h | h) <;> exact h.1
        · intro hr; exact Or.inl ⟨hr, h⟩
      · push Not at h
        constructor
        · rintro (h | h) <;> exact h.1
        · intro hr; exact Or.inr ⟨hr, h⟩
    · rw [Finset.disjoint_left]
      intro r h1 h2
      rw [mem_hitSet] at h1
      rw [List.mem_toFinset, hm.mem] at h2
      obtain ⟨_, _, x, hx, hb, _⟩ := h1
      exact h2.2 x hx hb

theorem segMatches_tally_eq (refs missed : List (Event Q L)) (l : List (ScoredEvent Q L))
    (hs : l.Pairwise (fun a b => Flt.lt a.score b.score = false)) (hn : ∀ h ∈ l, h.score ≠ .nan)
    (hm : Missed refs missed l) : tallyOf (segMatches refs missed l) = segTally refs l := by
  obtain ⟨h1, h2, h3⟩ := segMatches_tally refs missed l hs hn hm
  have e1 := funext h1
  have e2 := funext h2
  revert e1 e2 h3
  generalize tallyOf (segMatches refs missed l) = a, segTally refs l = b
  cases a; cases b
  rintro rfl rfl rfl
  rfl

theorem segTally_congr (refs refs' : List (Event Q L)) (hyps hyps' : List (ScoredEvent Q L))
    (hr : ∀ r, r ∈ refs ↔ r ∈ refs') (hp : hyps.Perm hyps') :
    segTally refs hyps = segTally refs' hyps' := by
  have e : refs.toFinset = refs'.toFinset := by ext r; simp [hr]
  unfold segTally
  rw [e]
  congr 1
  · funext s
    congr 1
    ext r
    simp [hp.mem_iff]
  · funext s
    rw [hp.countP_eq]
    simp only [hr]

theorem segMatches_hard (refs missed : List (Event Q L)) (l : List (ScoredEvent Q L)) :
    ∀ m ∈ segMatches refs missed l, HardMatch m := by
  intro m hm
  rcases List.mem_append.1 hm with hm | hm
  · cases hr : m.ref.isSome with
    | true =>
      obtain ⟨x, rfl, _⟩ := (segEntries_hits refs l [] m).1 ⟨hm, hr⟩
      exact Or.inl ⟨rfl, rfl, rfl⟩
    | false =>
      have : m ∈ (segEntries refs [] l).filter (fun m => !m.ref.isSome) :=
        List.mem_filter.2 ⟨hm, by simp [hr]⟩
      rw [segEntries_fps] at this
      obtain ⟨x, _, rfl⟩ := List.mem_map.1 this
      exact Or.inr (Or.inl ⟨rfl, rfl, rfl⟩)
  · obtain ⟨r, _, rfl⟩ := List.mem_map.1 hm
    exact Or.inr (Or.inr ⟨rfl, rfl, rfl⟩)

theorem segEntries_scores (refs : List (Event Q L)) (l : List (ScoredEvent Q L)) :
    ∀ seen, ∀ m ∈ segEntries refs seen l, ∃ x ∈ l, m.hyp = some x := by
  induction l with
  | nil => intro seen m hm; simp [segEntries] at hm
  | cons h l ih =>
    intro seen m hm
    unfold segEntries at hm
    rcases List.mem_append.1 hm with hm | hm
    · refine ⟨h, by simp, ?_⟩
      split at hm
      · simp only [List.mem_singleton] at hm; rw [hm]
      · split at hm
        · simp at hm
        · simp only [List.mem_singleton] at hm; rw [hm]
    · obtain ⟨x, hx, e⟩ := ih _ m hm
      exact ⟨x, by simp [hx], e⟩

theorem segMatches_scores (refs missed : List (Event Q L)) (l : List (ScoredEvent Q L)) (s : Flt)
    (h : s ∈ scoresIn (segMatches refs missed l)) : s ∈ l.map (·.score) := by
  unfold scoresIn at h
  obtain ⟨m, hm, e⟩ := List.mem_filterMap.1 h
  rcases List.mem_append.1 hm with hm | hm
  · obtain ⟨x, hx, e'⟩ := segEntries_scores refs l [] m hm
    rw [e'] at e
    injection e with e
    exact List.mem_map.2 ⟨x, hx, e⟩
  · obtain ⟨r, _, rfl⟩ := List.mem_map.1 hm
    simp at e

theorem segMatches_first (refs missed : List (Event Q L)) (h : ScoredEvent Q L)
    (l : List (ScoredEvent Q L)) : h.score ∈ scoresIn (segMatches refs missed (h :: l)) := by
  unfold segMatches segEntries scoresIn
  by_cases hr : h.base ∈ refs <;> simp [hr]

theorem scoresIn_thresholds (ms : List (KwsMatch Q L)) (hn : NoNaN ms) :
    Thresholds (MatchScores ms) (descending (scoresIn ms)) := by
  have hmem : ∀ s, s ∈ scoresIn ms ↔ MatchScores ms s := by
    intro s
    simp [scoresIn, MatchScores]
  have := descending_thresholds (scoresIn ms) (by
    intro s hs
    obtain ⟨m, hm, x, hx, rfl⟩ := (hmem s).1 hs
    have := hn m hm
    rwa [rank_of_hyp hx] at this)
  exact ⟨this.sorted, fun s => by rw [this.mem, hmem]⟩

/-- The thresholds of the matches are among the scores of the hypotheses, and the first one is the
largest score. -/
theorem segMatches_thresholds (refs missed : List (Event Q L)) (l : List (ScoredEvent Q L))
    (hs : l.Pairwise (fun a b => Flt.lt a.score b.score = false)) (hn : ∀ h ∈ l, h.score ≠ .nan)
    (hnan : NoNaN (segMatches refs missed l)) :
    let ms := segMatches refs missed l
    (∀ s ∈ descending (scoresIn ms), s ∈ descending (l.map (·.score))) ∧
    ∀ s, (descending (l.map (·.score))).head? = some s → s ∈ descending (scoresIn ms) := by
  intro ms
  have hd := descending_thresholds (l.map (·.score)) (by
    intro s hs
    obtain ⟨x, hx, rfl⟩ := List.mem_map.1 hs
    exact hn x hx)
  have hsc := scoresIn_thresholds ms hnan
  have hmem : ∀ s, s ∈ descending (scoresIn ms) ↔ s ∈ scoresIn ms := by
    intro s
    rw [hsc.mem]
    simp [scoresIn, MatchScores]
  refine ⟨fun s h => (hd.mem s).2 (segMatches_scores refs missed l s ((hmem s).1 h)), ?_⟩
  intro s hh
  rw [hmem]
  cases l with
  | nil => simp [descending] at hh
  | cons x l =>
    suffices s = x.score from this ▸ segMatches_first refs missed x l
    have hx := (hd.mem x.score).2 (by simp)
    have hs' := (hd.mem s).1 (List.mem_of_head? hh)
    obtain ⟨y, hy, rfl⟩ := List.mem_map.1 hs'
    rcases List.mem_cons.1 hy with rfl | hy
    · rfl
    have hxy := (List.pairwise_cons.1 hs).1 y hy
    obtain ⟨tl, htl⟩ : ∃ tl, descending ((x :: l).map (·.score)) = y.score :: tl := by
      cases hq : descending ((x :: l).map (·.score)) with
      | nil => rw [hq] at hh; simp at hh
      | cons a tl => rw [hq] at hh; simp at hh; exact ⟨tl, by rw [hh]⟩
    have hso := hd.sorted
    rw [htl] at hx hso
    rcases List.mem_cons.1 hx with e | hx
    · exact e.symm
    · have := (List.pairwise_cons.1 hso).1 _ hx
      rw [hxy] at this
      exact absurd this (by decide)

/-- All scores of hypotheses may be taken as thresholds. -/
theorem segMatches_measures (refs missed : List (Event Q L)) (l : List (ScoredEvent Q L))
    (hs : l.Pairwise (fun a b => Flt.lt a.score b.score = false)) (hn : ∀ h ∈ l, h.score ≠ .nan)
    (hm : Missed refs missed l) (hnan : NoNaN (segMatches refs missed l)) :
    let ms := segMatches refs missed l
    (∀ interp t, (tallyOf ms).ap interp t (descending (scoresIn ms)) =
      (segTally refs l).ap interp t (descending (l.map (·.score)))) ∧
    (tallyOf ms).ndcg (descending (scoresIn ms)) =
      (segTally refs l).ndcg (descending (l.map (·.score))) := by
  intro ms
  have hd := descending_thresholds (l.map (·.score)) (by
    intro s hs
    obtain ⟨x, hx, rfl⟩ := List.mem_map.1 hs
    exact hn x hx)
  obtain ⟨t1, t2⟩ := segMatches_thresholds refs missed l hs hn hnan
  obtain ⟨h1, h2⟩ := tally_thresholds ms (descending (scoresIn ms)) (descending (l.map (·.score)))
    hd.sorted (scoresIn_thresholds ms hnan) t1 t2
  rw [← segMatches_tally_eq refs missed l hs hn hm]
  exact ⟨fun interp t => (h1 interp t).symm, h2.symm⟩

/-- The points at the scores of the hypotheses repeat those at the scores of the matches. -/
theorem segMatches_stutter (refs missed : List (Event Q L)) (l : List (ScoredEvent Q L))
    (hs : l.Pairwise (fun a b => Flt.lt a.score b.score = false)) (hn : ∀ h ∈ l, h.score ≠ .nan)
    (hm : Missed refs missed l) (hnan : NoNaN (segMatches refs missed l)) :
    let ms := segMatches refs missed l
    Stutter ((descending (scoresIn ms)).map (tallyOf ms).point)
      ((descending (l.map (·.score))).map (segTally refs l).point) := by
  intro ms
  have hd := descending_thresholds (l.map (·.score)) (by
    intro s hs
    obtain ⟨x, hx, rfl⟩ := List.mem_map.1 hs
    exact hn x hx)
  obtain ⟨t1, t2⟩ := segMatches_thresholds refs missed l hs hn hnan
  rw [← segMatches_tally_eq refs missed l hs hn hm]
  exact tally_stutter ms _ _ hd.sorted (scoresIn_thresholds ms hnan) t1 t2

/-! ## Groups -/

theorem segEntries_filter (refs : List (Event Q L)) (p : Event Q L → Bool) (l : List (ScoredEvent Q L)) :
    ∀ seen seen' : List (Event Q L), (∀ e, p e = true → (e ∈ seen ↔ e ∈ seen')) →
    (segEntries refs seen l).filter (fun m => (eventOf m).any p) =
      segEntries (refs.filter p) seen' (l.filter (fun h => p h.base)) := by
  induction l with
  | nil => intro seen seen' _; rfl
  | cons h l ih =>
    intro seen seen' hse
    conv_lhs => unfold segEntries
    rw [List.filter_append]
    cases hp : p h.base with
    | false =>
      rw [ih (h.base :: seen) seen' (by
        intro e he
        rw [← hse e he, List.mem_cons, or_iff_right]
        rintro rfl
        rw [hp] at he
        exact absurd he (by decide))]
      rw [List.filter_cons_of_neg (by simp [hp])]
      have : ∀ x : List (KwsMatch Q L), (∀ m ∈ x, (eventOf m).any p = false) →
          x.filter (fun m => (eventOf m).any p) = [] := by
        intro x hx
        rw [List.filter_eq_nil_iff]
        intro m hm
        simp [hx m hm]
      rw [this _ (by
        intro m hm
        split at hm
        · simp only [List.mem_singleton] at hm; rw [hm]; simp [eventOf, hp]
        · split at hm
          · simp at hm
          · simp only [List.mem_singleton] at hm; rw [hm]; simp [eventOf, hp]), List.nil_append]
    | true =>
      rw [List.filter_cons_of_pos (by simp [hp])]
      rw [ih (h.base :: seen) (h.base :: seen') (by
        intro e he
        rw [List.mem_cons, List.mem_cons, hse e he])]
      have e1 : h.base ∈ refs.filter p ↔ h.base ∈ refs := by simp [hp]
      have e2 := hse h.base hp
      conv_rhs => rw [segEntries]
      congr 1
      by_cases hr : h.base ∈ refs
      · rw [if_neg (not_not.2 hr), if_neg (not_not.2 (e1.2 hr))]
        by_cases hs : h.base ∈ seen
        · rw [if_pos hs, if_pos (e2.1 hs)]; rfl
        · rw [if_neg hs, if_neg (fun h => hs (e2.2 h))]
          simp [eventOf, hp]
      · rw [if_pos hr, if_pos (fun h => hr (e1.1 h))]
        simp [eventOf, hp]

theorem segMatches_filter (refs missed : List (Event Q L)) (p : Event Q L → Bool)
    (l : List (ScoredEvent Q L)) :
    (segMatches refs missed l).filter (fun m => (eventOf m).any p) =
      segMatches (refs.filter p) (missed.filter p) (l.filter (fun h => p h.base)) := by
  unfold segMatches
  rw [List.filter_append, segEntries_filter refs p l [] [] (fun _ _ => Iff.rfl), List.filter_map]
  congr 1

theorem Missed.filter {refs missed : List (Event Q L)} {l : List (ScoredEvent Q L)}
    (h : Missed refs missed l) (p : Event Q L → Bool) :
    Missed (refs.filter p) (missed.filter p) (l.filter (fun h => p h.base)) := by
  refine ⟨h.nodup.filter _, fun r => ?_⟩
  rw [List.mem_filter, List.mem_filter, h.mem]
  constructor
  · rintro ⟨⟨a, b⟩, c⟩
    exact ⟨⟨a, c⟩, fun x hx => b x (List.mem_filter.1 hx).1⟩
  · rintro ⟨⟨a, c⟩, b⟩
    refine ⟨⟨a, fun x hx e => ?_⟩, c⟩
    exact b x (List.mem_filter.2 ⟨hx, by rw [e]; exact c⟩) e

/-- The groups of the matches are those of the events. -/
theorem segMatches_events (refs missed : List (Event Q L)) (l : List (ScoredEvent Q L))
    (hm : Missed refs missed l) (e : Event Q L) :
    e ∈ (segMatches refs missed l).filterMap eventOf ↔ e ∈ refs ∨ ∃ h ∈ l, h.base = e := by
  rw [List.mem_filterMap]
  constructor
  · rintro ⟨m, hmm, he⟩
    rcases List.mem_append.1 hmm with hmm | hmm
    · cases hr : m.ref.isSome with
      | true =>
        obtain ⟨x, rfl, h1, _⟩ := (segEntries_hits refs l [] m).1 ⟨hmm, hr⟩
        simp [eventOf] at he
        exact Or.inl (he ▸ h1)
      | false =>
        obtain ⟨x, hx, e'⟩ := segEntries_scores refs l [] m hmm
        have : m.ref = none := by simpa using hr
        simp [eventOf, this, e'] at he
        exact Or.inr ⟨x, hx, he⟩
    · obtain ⟨r, hr, rfl⟩ := List.mem_map.1 hmm
      simp [eventOf] at he
      exact Or.inl (he ▸ ((hm.mem r).1 hr).1)
  · intro h
    by_cases hr : e ∈ refs
    · by_cases hh : ∃ h ∈ l, h.base = e
      · have : e ∈ hitSet refs [] l (fun _ => true) := by
          rw [mem_hitSet]
          obtain ⟨x, hx, hxe⟩ := hh
          exact ⟨hr, by simp, x, hx, hxe, rfl⟩
        obtain ⟨x, hx, hxe⟩ := hh
        obtain ⟨pre, y, post, hl, hy, hpre⟩ : ∃ pre y post, l = pre ++ y :: post ∧ y.base = e ∧
            ∀ z ∈ pre, z.base ≠ e := by
          clear this h hm
          induction l with
          | nil => simp at hx
          | cons a l ih =>
            by_cases ha : a.base = e
            · exact ⟨[], a, l, rfl, ha, by simp⟩
            · rcases List.mem_cons.1 hx with rfl | hx
              · exact absurd hxe ha
              · obtain ⟨pre, y, post, h1, h2, h3⟩ := ih hx
                refine ⟨a :: pre, y, post, by rw [h1]; rfl, h2, ?_⟩
                intro z hz
                rcases List.mem_cons.1 hz with rfl | hz
                · exact ha
                · exact h3 z hz
        have := (segEntries_hits refs l [] ⟨some y.base, some y, ⟨0, 0⟩⟩).2
          ⟨y, rfl, hy ▸ hr, by simp, pre, post, hl, by rw [hy]; exact hpre⟩
        exact ⟨_, List.mem_append_left _ this.1, by simp [eventOf, hy]⟩
      · push Not at hh
        exact ⟨⟨some e, none, ⟨0, 1⟩⟩, List.mem_append_right _
          (List.mem_map.2 ⟨e, (hm.mem e).2 ⟨hr, hh⟩, rfl⟩), by simp [eventOf]⟩
    · obtain ⟨x, hx, rfl⟩ := h.resolve_left hr
      have : (⟨none, some x, ⟨1, 0⟩⟩ : KwsMatch Q L) ∈
          (segEntries refs [] l).filter (fun m => !m.ref.isSome) := by
        rw [segEntries_fps]
        exact List.mem_map.2 ⟨x, List.mem_filter.2 ⟨hx, by simpa using hr⟩, rfl⟩
      exact ⟨_, List.mem_append_left _ (List.mem_filter.1 this).1, by simp [eventOf]⟩

end

end Kws
