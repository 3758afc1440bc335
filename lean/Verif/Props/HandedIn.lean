import Verif.Lemmas.NoWrong
import Verif.Lemmas.Greedy
import Verif.Props.AnyOrder
import Verif.Props.Hits
import Verif.Props.Dump
import Verif.Spec.HandedIn

/-!
# C109: handing in the references
-/

namespace Kws
open Spec

/-! ## Numbers without false positives -/

section
variable {Q L : Type}

theorem average_between {α : Type} [Field α] [LinearOrder α] [IsStrictOrderedRing α] (l : List α)
    (a b : α) (hne : l ≠ []) (h : ∀ x ∈ l, a ≤ x ∧ x ≤ b) : a ≤ average l ∧ average l ≤ b := by
  have hl : (0 : α) < l.length := by exact_mod_cast List.length_pos_iff.2 hne
  have h1 : (l.length : α) * a ≤ l.sum ∧ l.sum ≤ (l.length : α) * b := by
    clear hl hne
    induction l with
    | nil => simp
    | cons x l ih =>
      obtain ⟨h1, h2⟩ := ih (fun y hy => h y (by simp [hy]))
      obtain ⟨h3, h4⟩ := h x (by simp)
      rw [List.sum_cons, List.length_cons]
      push_cast
      constructor <;> linarith
  unfold average
  rw [le_div_iff₀ hl, div_le_iff₀ hl]
  constructor <;> linarith [h1.1, h1.2]

theorem gains_half (h n : ℕ) (hn : n ≤ 2 * h) (hh : h ≤ n) (h0 : n ≠ 0) :
    (1 / 2 : ℝ) ≤ (∑ k ∈ Finset.range h, 1 / Real.logb 2 (k + 2)) /
      (∑ k ∈ Finset.range n, 1 / Real.logb 2 (k + 2)) ∧
    (∑ k ∈ Finset.range h, 1 / Real.logb 2 (k + 2)) /
      (∑ k ∈ Finset.range n, 1 / Real.logb 2 (k + 2)) ≤ (1 : ℝ) := by
  have hpos : ∀ k : ℕ, (0 : ℝ) < Real.logb 2 (k + 2) := fun k =>
    Real.logb_pos (by norm_num) (by have : (0 : ℝ) ≤ k := Nat.cast_nonneg k; linarith)
  have hanti : ∀ a b : ℕ, a ≤ b → 1 / Real.logb 2 ((b : ℝ) + 2) ≤ 1 / Real.logb 2 ((a : ℝ) + 2) := by
    intro a b hab
    refine one_div_le_one_div_of_le (hpos a) ?_
    refine (Real.logb_le_logb (by norm_num) (by positivity) (by positivity)).2 ?_
    have : (a : ℝ) ≤ b := by exact_mod_cast hab
    linarith
  have hN : (0 : ℝ) < ∑ k ∈ Finset.range n, 1 / Real.logb 2 ((k : ℝ) + 2) :=
    Finset.sum_pos (fun k _ => one_div_pos.2 (hpos k)) (Finset.nonempty_range_iff.2 h0)
  have hsplit : ∑ k ∈ Finset.range n, 1 / Real.logb 2 ((k : ℝ) + 2) =
      ∑ k ∈ Finset.range h, 1 / Real.logb 2 ((k : ℝ) + 2) +
        ∑ k ∈ Finset.range (n - h), 1 / Real.logb 2 (((h + k : ℕ) : ℝ) + 2) := by
    conv_lhs => rw [show n = h + (n - h) by omega]
    rw [Finset.sum_range_add]
  have hle : ∑ k ∈ Finset.range (n - h), 1 / Real.logb 2 (((h + k : ℕ) : ℝ) + 2) ≤
      ∑ k ∈ Finset.range h, 1 / Real.logb 2 ((k : ℝ) + 2) := by
    refine (Finset.sum_le_sum (fun k _ => hanti k (h + k) (by omega))).trans ?_
    exact Finset.sum_le_sum_of_subset_of_nonneg (Finset.range_mono (by omega))
      (fun k _ _ => (one_div_pos.2 (hpos k)).le)
  have hge : (0 : ℝ) ≤ ∑ k ∈ Finset.range (n - h), 1 / Real.logb 2 (((h + k : ℕ) : ℝ) + 2) :=
    Finset.sum_nonneg (fun k _ => (one_div_pos.2 (hpos _)).le)
  rw [le_div_iff₀ hN, div_le_iff₀ hN]
  constructor <;> linarith

/-- All matches have a reference, and at least the share `a`, 1/2 or 1, of them a hypothesis. -/
def MostlyHits (a : ℚ) (ms : List (KwsMatch Q L)) : Prop :=
  (∀ m ∈ ms, m.ref.isSome = true) ∧ a * ms.length ≤ ms.countP IsHit

theorem MostlyHits.perm {a : ℚ} {ms l : List (KwsMatch Q L)} (h : MostlyHits a ms) (hp : l.Perm ms) :
    MostlyHits a l :=
  ⟨fun m hm => h.1 m (hp.mem_iff.1 hm), by rw [hp.length_eq, hp.countP_eq]; exact h.2⟩

theorem MostlyHits.numbers {a : ℚ} (ha : a = 1 / 2 ∨ a = 1) {ms : List (KwsMatch Q L)}
    (h : MostlyHits a ms) (h0 : ms ≠ []) (collapse interp trapezoid : Bool) :
    (a ≤ listAP collapse interp trapezoid ms ∧ listAP collapse interp trapezoid ms ≤ 1) ∧
    ((a : ℝ) ≤ listNDCG collapse ms ∧ listNDCG collapse ms ≤ 1) := by
  have hl : 0 < ms.length := List.length_pos_iff.2 h0
  have hc : ms.countP IsHit ≤ ms.length := List.countP_le_length
  rw [listAP_clean _ _ _ ms h.1 h0, listNDCG_clean _ ms h.1 h0, le_div_iff₀ (by exact_mod_cast hl),
    div_le_iff₀ (by exact_mod_cast hl), one_mul]
  refine ⟨⟨h.2, by exact_mod_cast hc⟩, ?_⟩
  have h2 := h.2
  rcases ha with rfl | rfl
  · have : ms.length ≤ 2 * ms.countP IsHit := by
      have : (ms.length : ℚ) ≤ 2 * ms.countP IsHit := by linarith
      exact_mod_cast this
    have := gains_half _ _ this hc hl.ne'
    push_cast
    exact this
  · have : ms.countP IsHit = ms.length := by
      refine le_antisymm hc ?_
      rw [one_mul] at h2
      exact_mod_cast h2
    have hg := gains_half ms.length ms.length (by omega) le_rfl hl.ne'
    have hne : (∑ k ∈ Finset.range ms.length, 1 / Real.logb 2 ((k : ℝ) + 2)) ≠ 0 := by
      intro h0
      rw [h0] at hg
      norm_num at hg
    rw [this, div_self hne]
    norm_num

theorem arranged_perm {b : Bool} {ms l : List (KwsMatch Q L)} (h : Arranged b ms l) : l.Perm ms := by
  unfold Arranged at h
  split at h
  · exact h.1
  · exact h ▸ .refl _

/-- The numbers of a report on matches of which each group has few misses and no false positives. -/
theorem showsList_between {Q' L' : Type} [DecidableEq Q] {a : ℚ} (ha : a = 1 / 2 ∨ a = 1) (grp : Q → Q)
    (o : ToolOptions) (r : Report Q' L') (ms : List (KwsMatch Q L)) (ε : ℚ) (h : ShowsList grp o r ms ε)
    (h0 : ms ≠ []) (hm : MostlyHits a ms) (hg : ∀ g, MostlyHits a (ms.filter (InGroup grp g))) :
    Between a r ε := by
  have hev : ∀ m ∈ ms, ∃ e, eventOf m = some e := by
    intro m hx
    have := hm.1 m hx
    obtain ⟨e, he⟩ := Option.isSome_iff_exists.1 this
    exact ⟨e, by unfold eventOf; rw [he]; rfl⟩
  have hgn : groupsIn grp ms ≠ [] := by
    obtain ⟨m, hx⟩ := List.exists_mem_of_ne_nil ms h0
    obtain ⟨e, he⟩ := hev m hx
    have : grp e.query ∈ groupsIn grp ms := by
      unfold groupsIn
      rw [List.mem_dedup, List.mem_map]
      exact ⟨e, List.mem_filterMap.2 ⟨m, hx, he⟩, rfl⟩
    exact List.ne_nil_of_mem this
  have hgf : ∀ g ∈ groupsIn grp ms, ms.filter (InGroup grp g) ≠ [] := by
    intro g hx
    unfold groupsIn at hx
    rw [List.mem_dedup, List.mem_map] at hx
    obtain ⟨e, he, rfl⟩ := hx
    obtain ⟨m, hm, he⟩ := List.mem_filterMap.1 he
    refine List.ne_nil_of_mem (List.mem_filter.2 ⟨hm, ?_⟩)
    unfold InGroup
    rw [he]
    simp
  have hne : ∀ {l l' : List (KwsMatch Q L)}, l.Perm l' → l' ≠ [] → l ≠ [] := by
    rintro l l' hp hl rfl
    exact hl (List.nil_perm.1 hp)
  obtain ⟨⟨l1, a1, b1⟩, ⟨l2, a2, b2⟩, ⟨l3, a3, b3⟩, ⟨l4, a4, b4⟩⟩ := h
  have p1 := arranged_perm a1
  have p3 := arranged_perm a3
  constructor
  · have := ((hm.perm p1).numbers ha (hne p1 h0) o.collapse o.interp o.trapezoid).1
    rw [abs_le] at b1
    constructor <;> linarith [b1.1, b1.2, this.1, this.2]
  · have := average_between ((groupsIn grp ms).map (fun g => listAP o.collapse o.interp o.trapezoid (l2 g)))
      a 1 (by simpa using hgn) (fun x hx => by
        obtain ⟨g, hg', rfl⟩ := List.mem_map.1 hx
        have p2 := arranged_perm (a2 g)
        exact (((hg g).perm p2).numbers ha (hne p2 (hgf g hg')) o.collapse o.interp o.trapezoid).1)
    rw [abs_le] at b2
    constructor <;> linarith [b2.1, b2.2, this.1, this.2]
  · rw [b3]
    exact ((hm.perm p3).numbers ha (hne p3 h0) o.collapse o.interp o.trapezoid).2
  · rw [b4]
    exact average_between _ _ _ (by simpa using hgn) (fun x hx => by
        obtain ⟨g, hg', rfl⟩ := List.mem_map.1 hx
        have p2 := arranged_perm (a4 g)
        exact (((hg g).perm p2).numbers ha (hne p2 (hgf g hg')) o.collapse o.interp o.trapezoid).2)

theorem between_one (r : Report Q L) (ε : ℚ) (h : Between 1 r ε) : Shows r ⟨1, 1, 1, 1⟩ ε := by
  obtain ⟨h1, h2, h3, h4⟩ := h
  refine ⟨abs_le.2 ⟨by linarith [h1.1], by linarith [h1.2]⟩,
    abs_le.2 ⟨by linarith [h2.1], by linarith [h2.2]⟩, le_antisymm h3.2 (by simpa using h3.1),
    le_antisymm h4.2 (by simpa using h4.1)⟩

end

/-! ## The segmentation-based tool -/

section
variable {Q L : Type}

theorem segEntries_handedIn [DecidableEq Q] [DecidableEq L] (refs : List (Event Q L))
    (l : List (ScoredEvent Q L)) : ∀ seen, (∀ h ∈ l, h.base ∈ refs) →
    ∀ m ∈ segEntries refs seen l, m.ref.isSome = true ∧ IsHit m = true := by
  induction l with
  | nil => intro seen _ m hm; simp [segEntries] at hm
  | cons h l ih =>
    intro seen hr m hm
    rw [segEntries, List.mem_append, if_neg (by simpa using hr h (by simp))] at hm
    rcases hm with hm | hm
    · split at hm
      · simp at hm
      · rw [List.mem_singleton] at hm
        subst hm
        exact ⟨rfl, rfl⟩
    · exact ih _ (fun x hx => hr x (by simp [hx])) m hm

theorem segEntries_ne_nil [DecidableEq Q] [DecidableEq L] (refs : List (Event Q L))
    (l : List (ScoredEvent Q L)) (h : l ≠ []) : segEntries refs [] l ≠ [] := by
  cases l with
  | nil => exact absurd rfl h
  | cons x l =>
    rw [segEntries]
    split <;> simp

theorem mostlyHits_filter {ms : List (KwsMatch Q L)} (h : ∀ m ∈ ms, m.ref.isSome = true ∧ IsHit m = true)
    (p : KwsMatch Q L → Bool) : MostlyHits 1 (ms.filter p) :=
  ⟨fun m hm => (h m (List.mem_filter.1 hm).1).1, by
    rw [List.countP_eq_length.2 (fun m hm => (h m (List.mem_filter.1 hm).1).2), one_mul]⟩

end

theorem inOrder_perm {Q L : Type} {sort : Str} {hyps l : List (ScoredEvent Q L)} (h : InOrder sort hyps l) :
    l.Perm hyps := by
  unfold InOrder at h
  split at h
  · exact h.1
  · split at h
    · exact h.1
    · exact h ▸ .refl _

theorem keep_handed {L : Type} (listed : List Str) (refs : List (Event Str L))
    (hyps : List (ScoredEvent Str L)) (h : ∀ e, e ∈ hyps.map (·.base) ↔ e ∈ refs) :
    ∀ e, e ∈ (keep (·.base.query) listed hyps).map (·.base) ↔ e ∈ keep (·.query) listed refs := by
  intro e
  unfold keep
  split
  · exact h e
  · rw [List.mem_filter, ← h, List.mem_map, List.mem_map]
    constructor
    · rintro ⟨x, hx, rfl⟩
      obtain ⟨h1, h2⟩ := List.mem_filter.1 hx
      exact ⟨⟨x, h1, rfl⟩, h2⟩
    · rintro ⟨⟨x, h1, rfl⟩, h2⟩
      exact ⟨x, List.mem_filter.2 ⟨h1, h2⟩, rfl⟩

theorem keep_once {L : Type} (listed : List Str) (hyps : List (ScoredEvent Str L))
    (h : (hyps.map (·.base)).Nodup) : ((keep (·.base.query) listed hyps).map (·.base)).Nodup := by
  unfold keep
  split
  · exact h
  · exact h.sublist (List.filter_sublist.map _)

section
variable {G : Type}

theorem segmentation_handedIn (R : Rnd) (S : StdSort) (rng : Rng G) (qf : Bool) (w : World)
    (o : ToolOptions) (hV : (vocabulary w o).dedup.length ≤ 2 ^ 31) (t u : Str)
    (refs : List (Event Str Str)) (hyps : List (ScoredEvent Str Str))
    (ht : w.file o.refFilename = some t) (hu : hypText w o = some u)
    (hrefs : Yields StrEventText (lines t) refs)
    (hhyps : Yields (ScoredText R StrEventText) (lines u) hyps)
    (hall : ∀ e, e ∈ hyps.map (·.base) ↔ e ∈ refs)
    (hne : keep (·.query) (listedQueries w o) refs ≠ []) (r : Report Nat Nat) (ε : ℚ)
    (hT : Tolerance R (refs.length + hyps.length) ε)
    (h : mainWith R S rng (simpleKit R qf) w o = .ok (.done r)) : Shows r ⟨1, 1, 1, 1⟩ ε := by
  obtain ⟨l, ms, h1, ⟨missed, _, h2, h3⟩, h4, _⟩ :=
    segmentation_list R S rng qf w o hV t u refs hyps ht hu hrefs hhyps r ε hT h
  have hp := inOrder_perm h1
  have hk := keep_handed (listedQueries w o) refs hyps hall
  have hm : missed = [] := by
    rw [List.eq_nil_iff_forall_not_mem]
    intro x hx
    obtain ⟨a, b⟩ := (h2 x).1 hx
    obtain ⟨y, hy, rfl⟩ := List.mem_map.1 ((hk x).2 a)
    exact b y (hp.mem_iff.2 hy) rfl
  subst hm
  rw [List.map_nil, List.append_nil] at h3
  have hhit := segEntries_handedIn (keep (·.query) (listedQueries w o) refs) l [] (fun x hx =>
    (hk _).1 (List.mem_map_of_mem (hp.mem_iff.1 hx)))
  rw [← h3] at hhit
  refine between_one _ _ (showsList_between (Or.inr rfl) (groupFor w o) o r ms ε h4 ?_ ?_
    (fun g => mostlyHits_filter hhit _))
  · rw [h3]
    refine segEntries_ne_nil _ _ ?_
    rintro rfl
    obtain ⟨e, he⟩ := List.exists_mem_of_ne_nil _ hne
    have := (hk e).2 he
    rw [List.nil_perm.1 hp] at this
    simp at this
  · have := mostlyHits_filter hhit (fun _ => true)
    rwa [List.filter_true] at this

/-- C109 for the segmentation-based tool: if the hypotheses are the references, in any order and with any
scores, all four numbers are 1. A reference may be listed more than once in both files. -/
theorem C109_segmentation (S : StdSort) (rng : Rng G) (qf : Bool) (w : World)
    (o : ToolOptions) (hV : (vocabulary w o).dedup.length ≤ 2 ^ 31) (t u : Str)
    (refs : List (Event Str Str)) (hyps : List (ScoredEvent Str Str))
    (ht : w.file o.refFilename = some t) (hu : hypText w o = some u)
    (hrefs : Yields StrEventText (lines t) refs)
    (hhyps : Yields (ScoredText Rnd.exact StrEventText) (lines u) hyps)
    (hall : ∀ e, e ∈ hyps.map (·.base) ↔ e ∈ refs)
    (hne : keep (·.query) (listedQueries w o) refs ≠ []) (r : Report Nat Nat)
    (h : mainWith Rnd.exact S rng (simpleKit Rnd.exact qf) w o = .ok (.done r)) :
    Shows r ⟨1, 1, 1, 1⟩ 0 :=
  segmentation_handedIn Rnd.exact S rng qf w o hV t u refs hyps ht hu hrefs hhyps hall hne r 0
    (Or.inl ⟨rfl, rfl⟩) h

/-- C109 for the segmentation-based tool in IEEE arithmetic. -/
theorem C109_segmentation_rounded (S : StdSort) (rng : Rng G) (qf : Bool) (w : World)
    (o : ToolOptions) (hV : (vocabulary w o).dedup.length ≤ 2 ^ 31) (t u : Str)
    (refs : List (Event Str Str)) (hyps : List (ScoredEvent Str Str))
    (ht : w.file o.refFilename = some t) (hu : hypText w o = some u)
    (hrefs : Yields StrEventText (lines t) refs)
    (hhyps : Yields (ScoredText Rnd.ieee StrEventText) (lines u) hyps)
    (hall : ∀ e, e ∈ hyps.map (·.base) ↔ e ∈ refs)
    (hne : keep (·.query) (listedQueries w o) refs ≠ [])
    (hl : refs.length + hyps.length ≤ 2 ^ 24) (r : Report Nat Nat)
    (h : mainWith Rnd.ieee S rng (simpleKit Rnd.ieee qf) w o = .ok (.done r)) :
    Shows r ⟨1, 1, 1, 1⟩ ((refs.length + hyps.length + 3) ^ 2 / 2 ^ 52) :=
  segmentation_handedIn Rnd.ieee S rng qf w o hV t u refs hyps ht hu hrefs hhyps hall hne r _
    (Or.inr ⟨rfl, hl, by push_cast; rfl⟩) h

end

/-! ## The box tool -/

section
variable {Q D : Type} [DecidableEq D]

theorem greedy_refs {RE HE : Type} {overl : HE → List RE} {score : RE → HE → MatchError}
    {earlier entries rep : List (Match RE HE)} {hs : List HE}
    (h : Greedy overl score earlier hs entries rep) :
    (entries.filterMap (·.ref)).Nodup ∧ ∀ r, Taken entries r → ¬ Taken earlier r := by
  induction h with
  | nil => simp [Taken]
  | cons earlier h hs entry repeats entries repeated d1 _ _ ih =>
    have ht : ∀ (a b : List (Match RE HE)) r, Taken (a ++ b) r ↔ Taken a r ∨ Taken b r := by
      intro a b r
      simp only [Taken, List.mem_append, or_and_right, exists_or]
    have he : (entry.filterMap (·.ref)).Nodup ∧ ∀ r, Taken entry r → ¬ Taken earlier r := by
      rcases d1 with ⟨_, rfl⟩ | ⟨l1, r, l2, e, _, d2, _, rfl⟩ | ⟨_, _, rfl⟩
      · simp [Taken]
      · refine ⟨by simp, ?_⟩
        rintro x ⟨m, hm, hx⟩
        rw [List.mem_singleton] at hm
        subst hm
        simp only [Option.some.injEq] at hx
        exact hx ▸ d2
      · simp [Taken]
    refine ⟨?_, ?_⟩
    · rw [List.filterMap_append, List.nodup_append]
      refine ⟨he.1, ih.1, ?_⟩
      rintro a ha b hb rfl
      obtain ⟨m, hm, hr⟩ := List.mem_filterMap.1 ha
      obtain ⟨m', hm', hr'⟩ := List.mem_filterMap.1 hb
      exact ih.2 a ⟨m', hm', hr'⟩ ((ht _ _ _).2 (Or.inr ⟨m, hm, hr⟩))
    · intro r hr
      rcases (ht _ _ _).1 hr with hr | hr
      · exact he.2 r hr
      · exact fun h' => ih.2 r hr ((ht _ _ _).2 (Or.inl h'))

theorem greedy_wrong {RE HE : Type} {overl : HE → List RE} {score : RE → HE → MatchError}
    {earlier entries rep : List (Match RE HE)} {hs : List HE}
    (h : Greedy overl score earlier hs entries rep) :
    ∀ m ∈ entries, m.ref = none → ∃ x ∈ hs, ∀ r ∈ overl x, 1 ≤ (score r x).fp := by
  induction h with
  | nil => simp
  | cons earlier h hs entry repeats entries repeated d1 _ _ ih =>
    intro m hm hr
    rcases List.mem_append.1 hm with hm | hm
    · rcases d1 with ⟨d1, rfl⟩ | ⟨l1, r, l2, e, _, d2, _, rfl⟩ | ⟨_, _, rfl⟩
      · exact ⟨h, by simp, d1⟩
      · rw [List.mem_singleton] at hm
        subst hm
        cases hr
      · simp at hm
    · obtain ⟨x, hx, h⟩ := ih m hm hr
      exact ⟨x, by simp [hx], h⟩

/-- Every reference occurs once. -/
theorem boxMatching_refs {refs : List (Event Q (DocBox D UInt32))}
    {l : List (ScoredEvent Q (DocBox D UInt32))} {ms rep : List (KwsMatch Q (DocBox D UInt32))}
    (h : BoxMatching refs l ms rep) :
    (ms.filterMap (·.ref)).Nodup ∧ ∀ r, r ∈ ms.filterMap (·.ref) ↔ r ∈ refs := by
  obtain ⟨overl, entries, missed, h1, h2, h3, h4, rfl⟩ := h
  obtain ⟨g1, _⟩ := greedy_refs h2
  have hmap : (missed.map (fun r => (⟨some r, none, Outcome.falseNeg.error⟩ :
      KwsMatch Q (DocBox D UInt32)))).filterMap (·.ref) = missed := by
    rw [List.filterMap_map]
    exact List.filterMap_some
  have hmem : ∀ r, r ∈ entries.filterMap (·.ref) ↔ Taken entries r := fun r => by
    rw [List.mem_filterMap]
    rfl
  rw [List.filterMap_append, hmap]
  refine ⟨?_, fun r => ?_⟩
  · rw [List.nodup_append]
    refine ⟨g1, h3, ?_⟩
    rintro a ha b hb rfl
    exact ((h4 a).1 hb).2 ((hmem a).1 ha)
  · rw [List.mem_append, h4, hmem]
    constructor
    · rintro (⟨m, hm, hr⟩ | h)
      · obtain ⟨x, hx, hr⟩ := h2.ref_mem m (Or.inl hm) r hr
        exact (((h1 x hx).2.1 r).1 hr).1
      · exact h.1
    · intro hr
      by_cases ht : Taken entries r
      · exact Or.inl ht
      · exact Or.inr ⟨hr, ht⟩

theorem common_self (e : Event Q (DocBox D UInt32)) : commonU e e = areaU e := by
  simp [commonU, areaU]

/-- If the hypotheses are the references there are no false positives. -/
theorem boxMatching_clean {refs : List (Event Q (DocBox D UInt32))}
    {l : List (ScoredEvent Q (DocBox D UInt32))} {ms rep : List (KwsMatch Q (DocBox D UInt32))}
    (h : BoxMatching refs l ms rep) (hl : ∀ x ∈ l, x.base ∈ refs) (ha : ∀ x ∈ l, 0 < areaU x.base) :
    ∀ m ∈ ms, m.ref.isSome = true := by
  obtain ⟨overl, entries, missed, h1, h2, h3, h4, rfl⟩ := h
  intro m hm
  rcases List.mem_append.1 hm with hm | hm
  · by_contra hr
    have hr : m.ref = none := by simpa using hr
    obtain ⟨x, hx1, hx2⟩ := greedy_wrong h2 m hm hr
    have hov : x.base ∈ overl x := ((h1 x hx1).2.1 _).2 ⟨hl x hx1, rfl, by
      rw [common_self]; exact ha x hx1⟩
    have := hx2 _ hov
    rw [common_self, verdict, if_pos (by omega)] at this
    norm_num at this
  · obtain ⟨r, _, rfl⟩ := List.mem_map.1 hm
    rfl

theorem filterMap_length {α β : Type} (f : α → Option β) (l : List α) (h : ∀ x ∈ l, (f x).isSome = true) :
    (l.filterMap f).length = l.length := by
  induction l with
  | nil => rfl
  | cons x l ih =>
    obtain ⟨y, hy⟩ := Option.isSome_iff_exists.1 (h x (by simp))
    rw [List.filterMap_cons_some hy, List.length_cons, List.length_cons,
      ih fun z hz => h z (by simp [hz])]

theorem boxMatching_length {refs : List (Event Q (DocBox D UInt32))}
    {l : List (ScoredEvent Q (DocBox D UInt32))} {ms rep : List (KwsMatch Q (DocBox D UInt32))}
    (h : BoxMatching refs l ms rep) (hl : HandedIn refs l) (ha : ∀ x ∈ l, 0 < areaU x.base) :
    ms.length = l.length := by
  obtain ⟨h1, h2⟩ := boxMatching_refs h
  have hc := boxMatching_clean h (fun x hx => (hl.all _).1 (List.mem_map_of_mem hx)) ha
  rw [← filterMap_length (·.ref) ms hc, ← List.length_map (f := ScoredEvent.base) (as := l)]
  refine List.Perm.length_eq ?_
  rw [List.perm_ext_iff_of_nodup h1 hl.once]
  intro r
  rw [h2, hl.all]

theorem boxMatching_picked {refs : List (Event Q (DocBox D UInt32))}
    {l : List (ScoredEvent Q (DocBox D UInt32))} {ms rep : List (KwsMatch Q (DocBox D UInt32))}
    (h : BoxMatching refs l ms rep) : ∃ pref : ScoredEvent Q (DocBox D UInt32) → _,
      (∀ h ∈ l, (∀ r, r ∈ pref h ↔ r ∈ refs ∧ r.query = h.base.query ∧ 0 < commonU r h.base ∧
          areaU h.base ≤ 2 * commonU r h.base) ∧
        (pref h).Pairwise (fun x y => commonU y h.base ≤ commonU x h.base)) ∧
      ms.countP IsHit = picked pref ∅ l := by
  obtain ⟨overl, entries, missed, h1, h2, h3, h4, rfl⟩ := h
  refine ⟨fun h => (overl h).filter
    (fun r => (verdict (areaU h.base ≤ 2 * commonU r h.base)).fp < 1),
    fun x hx => ⟨fun r => ?_, (h1 x hx).2.2.filter _⟩, ?_⟩
  · rw [List.mem_filter, decide_eq_true_eq, verdict_lt, (h1 x hx).2.1]
    tauto
  · rw [← taken_nil, ← h2.hits]
    exact hitCount_missed entries missed _

/-- If the hypotheses are the references, at least half of them are hits. -/
theorem boxMatching_half {refs : List (Event Q (DocBox D UInt32))}
    {l : List (ScoredEvent Q (DocBox D UInt32))} {ms rep : List (KwsMatch Q (DocBox D UInt32))}
    (h : BoxMatching refs l ms rep) (hl : HandedIn refs l) (ha : ∀ x ∈ l, 0 < areaU x.base) :
    MostlyHits (1 / 2) ms := by
  refine ⟨boxMatching_clean h (fun x hx => (hl.all _).1 (List.mem_map_of_mem hx)) ha, ?_⟩
  rw [boxMatching_length h hl ha]
  obtain ⟨pref, h1, h2⟩ := boxMatching_picked h
  have hred : (l.map (fun x => some x.base)).reduceOption = l.map (·.base) := by
    unfold List.reduceOption
    rw [List.filterMap_map]
    exact congrFun (List.filterMap_eq_map (f := ScoredEvent.base)) l
  have := picked_half pref l ∅ (l.map (fun x => some x.base)) ⟨by
    rw [List.forall₂_map_right_iff, List.forall₂_same]
    rintro x hx _ ⟨⟩
    exact ((h1 x hx).1 _).2 ⟨(hl.all _).1 (List.mem_map_of_mem hx), rfl, by
      rw [common_self]; exact ha x hx, by rw [common_self]; omega⟩, by rw [hred]; exact hl.once⟩
  rw [filter_freeOf_empty, hred, List.length_map] at this
  rw [h2]
  have : (l.length : ℚ) ≤ 2 * picked pref ∅ l := by exact_mod_cast this
  linarith

/-- If no reference lies within another one and the hypotheses are the references, all are hits. -/
theorem boxMatching_unnested {refs : List (Event Q (DocBox D UInt32))}
    {l : List (ScoredEvent Q (DocBox D UInt32))} {ms rep : List (KwsMatch Q (DocBox D UInt32))}
    (h : BoxMatching refs l ms rep) (hl : HandedIn refs l) (ha : ∀ x ∈ l, 0 < areaU x.base)
    (hn : Unnested refs) : MostlyHits 1 ms := by
  refine ⟨boxMatching_clean h (fun x hx => (hl.all _).1 (List.mem_map_of_mem hx)) ha, ?_⟩
  rw [boxMatching_length h hl ha]
  obtain ⟨pref, h1, h2⟩ := boxMatching_picked h
  have hmem : ∀ x ∈ l, x.base ∈ refs := fun x hx => (hl.all _).1 (List.mem_map_of_mem hx)
  have hfirst : ∀ x ∈ l, ∃ t, pref x = x.base :: t := by
    intro x hx
    obtain ⟨a, b⟩ := h1 x hx
    have hin : x.base ∈ pref x := (a _).2 ⟨hmem x hx, rfl, by
      rw [common_self]; exact ha x hx, by rw [common_self]; omega⟩
    cases hp : pref x with
    | nil => rw [hp] at hin; simp at hin
    | cons y t =>
      rw [hp] at b hin
      by_cases hy : y = x.base
      · exact ⟨t, by rw [hy]⟩
      · exfalso
        obtain ⟨y1, y2, _⟩ := (a y).1 (by rw [hp]; simp)
        have h3 := hn x.base (hmem x hx) y y1 (fun h => hy h.symm) y2.symm
        rcases List.mem_cons.1 hin with hin | hin
        · exact hy hin.symm
        · have := (List.pairwise_cons.1 b).1 _ hin
          rw [common_self] at this
          omega
  have key : ∀ (l : List (ScoredEvent Q (DocBox D UInt32))) (T : Set (Event Q (DocBox D UInt32))),
      (l.map (·.base)).Nodup → (∀ x ∈ l, ∃ t, pref x = x.base :: t) → (∀ x ∈ l, x.base ∉ T) →
      picked pref T l = l.length := by
    intro l
    induction l with
    | nil => intro T _ _ _; rfl
    | cons x l ih =>
      intro T hd hf hT
      rw [List.map_cons, List.nodup_cons] at hd
      obtain ⟨t, ht⟩ := hf x (by simp)
      have : (pref x).find? (freeOf T) = some x.base := by
        rw [ht, List.find?_cons_of_pos]
        rw [freeOf_iff]
        exact hT x (by simp)
      rw [picked_some this, List.length_cons, ih _ hd.2 (fun y hy => hf y (by simp [hy])) ?_]
      intro y hy hmem
      rcases hmem with h | h
      · exact hd.1 (h ▸ List.mem_map_of_mem hy)
      · exact hT y (by simp [hy]) h
  rw [h2, key l ∅ hl.once hfirst (fun _ _ => Set.notMem_empty _), one_mul]

end

section
variable {G : Type}

theorem handedIn_filter {Q L : Type} {refs : List (Event Q L)} {l : List (ScoredEvent Q L)}
    (h : HandedIn refs l) (P : Q → Bool) :
    HandedIn (refs.filter (fun r => P r.query)) (l.filter (fun x => P x.base.query)) := by
  refine ⟨h.once.sublist (List.filter_sublist.map _), fun e => ?_⟩
  rw [List.mem_filter, ← h.all, List.mem_map, List.mem_map]
  constructor
  · rintro ⟨x, hx, rfl⟩
    obtain ⟨h1, h2⟩ := List.mem_filter.1 hx
    exact ⟨⟨x, h1, rfl⟩, h2⟩
  · rintro ⟨⟨x, h1, rfl⟩, h2⟩
    exact ⟨x, List.mem_filter.2 ⟨h1, h2⟩, rfl⟩

theorem handedIn_perm {Q L : Type} {refs : List (Event Q L)} {hyps l : List (ScoredEvent Q L)}
    (h : HandedIn refs hyps) (hp : l.Perm hyps) : HandedIn refs l :=
  ⟨((hp.map _).nodup_iff).2 h.once, fun e => by rw [(hp.map _).mem_iff, h.all]⟩

theorem inGroup_about {Q L : Type} [DecidableEq Q] (grp : Q → Q) (g : Q) :
    (InGroup grp g : KwsMatch Q L → Bool) = about (fun q => decide (grp q = g)) := by
  funext m
  obtain ⟨r, h, e⟩ := m
  cases r <;> cases h <;> rfl

theorem unnested_filter {Q D : Type} [DecidableEq D] {es : List (Event Q (DocBox D UInt32))}
    (h : Unnested es) (p : Event Q (DocBox D UInt32) → Bool) : Unnested (es.filter p) :=
  fun a ha b hb => h a (List.mem_filter.1 ha).1 b (List.mem_filter.1 hb).1

theorem box_handedIn (R : Rnd) (S : StdSort) (rng : Rng G) (w : World) (o : ToolOptions) (t u : Str)
    (refs : List (Event Str (DocBox Str UInt32))) (hyps : List (ScoredEvent Str (DocBox Str UInt32)))
    (ht : w.file o.refFilename = some t) (hu : hypText w o = some u)
    (hrefs : Yields BoxEventText (lines t) refs)
    (hhyps : Yields (ScoredText R BoxEventText) (lines u) hyps)
    (hr : ∀ r ∈ refs, InRangeU r ∧ 0 < areaU r)
    (h24 : R = Rnd.ieee → ∀ r ∈ refs, areaU r ≤ 2 ^ 24) (hall : HandedIn refs hyps)
    (hne : keep (·.query) (listedQueries w o) refs ≠ [])
    (r : Report Str (DocBox Str UInt32)) (ε : ℚ)
    (hT : Tolerance R (refs.length + hyps.length) ε)
    (h : mainWith R S rng (icdarKit R S) w o = .ok (.done r)) :
    Between (1 / 2) r ε ∧ (Unnested (keep (·.query) (listedQueries w o) refs) → Shows r ⟨1, 1, 1, 1⟩ ε) := by
  have hm : ∀ h ∈ hyps, h.base ∈ refs := fun x hx => (hall.all _).1 (List.mem_map_of_mem hx)
  obtain ⟨l, ms, rep, h1, h2, _, h4, _⟩ := box_list R S rng w o t u refs hyps ht hu hrefs hhyps
    (fun x hx => (hr x hx).1.1) (fun x hx => (hr _ (hm x hx)).1) (fun e x hx => h24 e _ (hm x hx)) r ε hT h
  have hp := inOrder_perm h1
  have hk : HandedIn (keep (·.query) (listedQueries w o) refs)
      (keep (·.base.query) (listedQueries w o) hyps) :=
    ⟨keep_once _ _ hall.once, keep_handed _ _ _ hall.all⟩
  have hl := handedIn_perm hk hp
  have ha : ∀ x ∈ l, 0 < areaU x.base := fun x hx => (hr _ (hm x (keep_subset _ _ _ _ (hp.mem_iff.1 hx)))).2
  have h0 : ms ≠ [] := by
    intro h0
    have := boxMatching_length h2 hl ha
    rw [h0] at this
    have : l = [] := List.length_eq_zero_iff.1 this.symm
    obtain ⟨e, he⟩ := List.exists_mem_of_ne_nil _ hne
    have := (hl.all e).2 he
    simp_all
  have hg : ∀ g, BoxMatching _ _ (ms.filter (InGroup (groupFor w o) g)) _ := fun g => by
    have := boxMatching_filter _ _ _ _ h2 (fun q => decide (groupFor w o q = g))
    rw [← inGroup_about] at this
    exact this
  have hag : ∀ g, ∀ x ∈ l.filter (fun x => decide (groupFor w o x.base.query = g)), 0 < areaU x.base :=
    fun g x hx => ha x (List.mem_filter.1 hx).1
  refine ⟨showsList_between (Or.inl rfl) _ o r ms ε h4 h0 (boxMatching_half h2 hl ha)
    fun g => boxMatching_half (hg g) (handedIn_filter hl fun q => decide (groupFor w o q = g)) (hag g),
    fun hn => ?_⟩
  exact between_one _ _ (showsList_between (Or.inr rfl) _ o r ms ε h4 h0
    (boxMatching_unnested h2 hl ha hn) fun g => boxMatching_unnested (hg g)
      (handedIn_filter hl fun q => decide (groupFor w o q = g)) (hag g) (unnested_filter hn _))

/-- C109 for the box tool: if the hypotheses are the references, each once, and none lies within another
one of the same query, all four numbers are 1, whatever the scores and options. Without the last condition
they are at least 1/2. -/
theorem C109_box_partial (S : StdSort) (rng : Rng G) (w : World) (o : ToolOptions) (t u : Str)
    (refs : List (Event Str (DocBox Str UInt32))) (hyps : List (ScoredEvent Str (DocBox Str UInt32)))
    (ht : w.file o.refFilename = some t) (hu : hypText w o = some u)
    (hrefs : Yields BoxEventText (lines t) refs)
    (hhyps : Yields (ScoredText Rnd.exact BoxEventText) (lines u) hyps)
    (hr : ∀ r ∈ refs, InRangeU r ∧ 0 < areaU r) (hall : HandedIn refs hyps)
    (hne : keep (·.query) (listedQueries w o) refs ≠ []) (r : Report Str (DocBox Str UInt32))
    (h : mainWith Rnd.exact S rng (icdarKit Rnd.exact S) w o = .ok (.done r)) :
    Between (1 / 2) r 0 ∧ (Unnested (keep (·.query) (listedQueries w o) refs) → Shows r ⟨1, 1, 1, 1⟩ 0) :=
  box_handedIn Rnd.exact S rng w o t u refs hyps ht hu hrefs hhyps hr (fun h => absurd h exact_ne_ieee)
    hall hne r 0 (Or.inl ⟨rfl, rfl⟩) h

/-- C109 for the box tool in IEEE arithmetic. -/
theorem C109_box_rounded_partial (S : StdSort) (rng : Rng G) (w : World) (o : ToolOptions) (t u : Str)
    (refs : List (Event Str (DocBox Str UInt32))) (hyps : List (ScoredEvent Str (DocBox Str UInt32)))
    (ht : w.file o.refFilename = some t) (hu : hypText w o = some u)
    (hrefs : Yields BoxEventText (lines t) refs)
    (hhyps : Yields (ScoredText Rnd.ieee BoxEventText) (lines u) hyps)
    (hr : ∀ r ∈ refs, EdgesOkU r.location.toBBox ∧ areaU r ≤ 2 ^ 24 ∧ 0 < areaU r)
    (hall : HandedIn refs hyps) (hne : keep (·.query) (listedQueries w o) refs ≠ [])
    (hl : refs.length + hyps.length ≤ 2 ^ 24) (r : Report Str (DocBox Str UInt32))
    (h : mainWith Rnd.ieee S rng (icdarKit Rnd.ieee S) w o = .ok (.done r)) :
    Between (1 / 2) r ((refs.length + hyps.length + 3) ^ 2 / 2 ^ 52) ∧
    (Unnested (keep (·.query) (listedQueries w o) refs) →
      Shows r ⟨1, 1, 1, 1⟩ ((refs.length + hyps.length + 3) ^ 2 / 2 ^ 52)) :=
  box_handedIn Rnd.ieee S rng w o t u refs hyps ht hu hrefs hhyps
    (fun x hx => ⟨⟨(hr x hx).1, by have := (hr x hx).2.1; omega⟩, (hr x hx).2.2⟩)
    (fun _ x hx => (hr x hx).2.1) hall hne r _ (Or.inr ⟨rfl, hl, by push_cast; rfl⟩) h

end

/-! ## A reference within another one -/

/-- The smaller hypothesis takes the greater reference, of which it is a part. -/
theorem nested_matching :
    let e (w : UInt32) : Event Str (DocBox Str UInt32) := ⟨['q'], ⟨⟨0, 0, w, 1⟩, ['d']⟩⟩
    ExactBoxMatching [e 1, e 5] [⟨e 1, .fin 2⟩, ⟨e 5, .fin 1⟩]
      [⟨some (e 5), some ⟨e 1, .fin 2⟩, ⟨0, 0⟩⟩, ⟨some (e 1), none, ⟨0, 1⟩⟩]
      [⟨some (e 5), some ⟨e 5, .fin 1⟩, ⟨0, 0⟩⟩] := by
  intro e
  have hord : ∀ (b : Event Str (DocBox Str UInt32)), b = e 1 ∨ b = e 5 →
      [e 5, e 1].Pairwise (OverlapBefore (· < ·) BoxEventLt (commonU · b)) := by
    intro b hb
    simp only [List.pairwise_cons, List.mem_singleton, forall_eq, List.not_mem_nil, false_implies,
      implies_true, List.Pairwise.nil, and_true]
    rcases hb with rfl | rfl
    · refine Or.inr ⟨by decide +kernel, ?_⟩
      exact Or.inr ⟨rfl, Or.inr ⟨rfl, Or.inr ⟨rfl, Or.inr ⟨rfl, Or.inl (by decide)⟩⟩⟩⟩
    · exact Or.inl (by decide +kernel)
  have key : ∀ (b : Event Str (DocBox Str UInt32)),
      (∀ r ∈ [e 1, e 5], r.query = b.query ∧ 0 < commonU r b) →
      ∀ r, r ∈ [e 5, e 1] ↔ r ∈ [e 1, e 5] ∧ r.query = b.query ∧ 0 < commonU r b := by
    intro b h2 r
    constructor
    · intro h
      have : r ∈ [e 1, e 5] := by simpa [or_comm] using h
      exact ⟨this, h2 r this⟩
    · rintro ⟨h, _⟩
      simpa [or_comm] using h
  refine ⟨[⟨e 1, .fin 2⟩, ⟨e 5, .fin 1⟩], fun _ => [e 5, e 1],
    [⟨some (e 5), some ⟨e 1, .fin 2⟩, ⟨0, 0⟩⟩], [e 1],
    List.Perm.refl _, ?_, ?_, ?_, by simp, ?_, rfl⟩
  · simp only [List.pairwise_cons, List.mem_singleton, forall_eq, List.not_mem_nil, false_implies,
      implies_true, List.Pairwise.nil, and_true]
    exact Or.inl ((turnBefore_iff _ _ (by decide)).1 (by decide +kernel))
  · intro h hh
    simp only [List.mem_cons, List.not_mem_nil, or_false] at hh
    rcases hh with rfl | rfl
    · exact ⟨key _ (by decide +kernel), hord _ (Or.inl rfl)⟩
    · exact ⟨key _ (by decide +kernel), hord _ (Or.inr rfl)⟩
  · refine .cons _ _ _ [_] [] [] _ (Or.inr (Or.inl ⟨[], e 5, [e 1], by decide +kernel,
      by decide +kernel, by simp [Taken], by simp, by decide +kernel⟩))
      ⟨[], [e 5, e 1], by decide +kernel, by simp, ?_, by simp⟩ ?_
    · intro r hr
      simp only [List.head?_cons, Option.some.injEq] at hr
      subst hr
      exact ⟨by decide +kernel, by simp [Taken]⟩
    refine .cons _ _ _ [] [_] [] [] (Or.inr (Or.inr ⟨⟨e 5, by decide +kernel, by decide +kernel⟩,
      by unfold Taken; decide +kernel, rfl⟩))
      ⟨[e 5, e 1], [], by decide +kernel, by unfold Taken; decide +kernel, by simp, by decide +kernel⟩
      (.nil _)
  · intro r
    simp only [Taken, List.mem_cons, List.not_mem_nil, or_false, exists_eq_left, Option.some.injEq]
    constructor
    · rintro rfl
      exact ⟨Or.inl rfl, by decide +kernel⟩
    · rintro ⟨rfl | rfl, h⟩
      · rfl
      · exact absurd rfl h

/-- A run of the box tool with the given files. -/
theorem dump_run {G : Type} (S : StdSort) (rng : Rng G) (t u : Str)
    (refs : List (Event Str (DocBox Str UInt32))) (hyps : List (ScoredEvent Str (DocBox Str UInt32)))
    (y1 : Yields BoxEventText (lines t) refs)
    (y2 : Yields (ScoredText Rnd.exact BoxEventText) (lines u) hyps) :
    ∃ r, mainWith Rnd.exact S rng (icdarKit Rnd.exact S) (dumpExample t u) dumpOptions = .ok (.done r) := by
  obtain ⟨r, hr, _⟩ := (C62_box_partial Rnd.exact S rng (dumpExample t u) dumpOptions
    (fun t u _ _ => ⟨fun h => by simp [dumpOptions] at h, fun h => absurd rfl h,
      fun h => absurd rfl h, fun h => by simp [dumpOptions] at h⟩)).1
    ⟨⟨by decide, ⟨_, dumpExample_file _ _, yields_valid y1⟩, ⟨_, if_pos rfl, yields_valid y2⟩,
      fun h => absurd rfl h, fun h => absurd rfl h⟩, Or.inr rfl⟩
  exact ⟨r, hr⟩

/-- C109 is false for the box tool: there are references which, handed in as hypotheses, get an average
precision of 1/2, because one lies within the other. -/
theorem C109_box_refuted {G : Type} (S : StdSort) (rng : Rng G) : ∃ (w : World) (t u : Str)
    (refs : List (Event Str (DocBox Str UInt32))) (hyps : List (ScoredEvent Str (DocBox Str UInt32)))
    (r : Report Str (DocBox Str UInt32)),
    w.file dumpOptions.refFilename = some t ∧ hypText w dumpOptions = some u ∧
    Yields BoxEventText (lines t) refs ∧ Yields (ScoredText Rnd.exact BoxEventText) (lines u) hyps ∧
    (∀ r ∈ refs, InRangeU r ∧ 0 < areaU r) ∧ HandedIn refs hyps ∧
    keep (·.query) (listedQueries w dumpOptions) refs ≠ [] ∧
    mainWith Rnd.exact S rng (icdarKit Rnd.exact S) w dumpOptions = .ok (.done r) ∧
    r.gAP.value = 1 / 2 ∧ r.mAP.value = 1 / 2 := by
  have y1 : Yields BoxEventText (lines "q d 0 0 1 1\nq d 0 0 5 1\n".toList)
      [⟨['q'], ⟨⟨0, 0, 1, 1⟩, ['d']⟩⟩, ⟨['q'], ⟨⟨0, 0, 5, 1⟩, ['d']⟩⟩] :=
    (C48_accepts (Format.boxRefs (R := Rnd.exact)) _ _).1 (by decide +kernel)
  have y2 : Yields (ScoredText Rnd.exact BoxEventText) (lines "q d 0 0 1 1 2\nq d 0 0 5 1 1\n".toList)
      [⟨⟨['q'], ⟨⟨0, 0, 1, 1⟩, ['d']⟩⟩, .fin 2⟩, ⟨⟨['q'], ⟨⟨0, 0, 5, 1⟩, ['d']⟩⟩, .fin 1⟩] :=
    (C48_accepts (Format.boxHyps (R := Rnd.exact)) _ _).1 (by decide +kernel)
  obtain ⟨r, hr⟩ := dump_run S rng _ _ _ _ y1 y2
  have hr1 : ∀ r ∈ ([⟨['q'], ⟨⟨0, 0, 1, 1⟩, ['d']⟩⟩, ⟨['q'], ⟨⟨0, 0, 5, 1⟩, ['d']⟩⟩] :
      List (Event Str (DocBox Str UInt32))), InRangeU r ∧ 0 < areaU r := by
    intro r hr
    simp only [List.mem_cons, List.not_mem_nil, or_false] at hr
    rcases hr with rfl | rfl <;> exact ⟨⟨⟨by decide, by decide⟩, by decide +kernel⟩, by decide +kernel⟩
  have hall : HandedIn ([⟨['q'], ⟨⟨0, 0, 1, 1⟩, ['d']⟩⟩, ⟨['q'], ⟨⟨0, 0, 5, 1⟩, ['d']⟩⟩] :
      List (Event Str (DocBox Str UInt32)))
      [⟨⟨['q'], ⟨⟨0, 0, 1, 1⟩, ['d']⟩⟩, .fin 2⟩, ⟨⟨['q'], ⟨⟨0, 0, 5, 1⟩, ['d']⟩⟩, .fin 1⟩] :=
    ⟨by decide +kernel, fun e => Iff.rfl⟩
  obtain ⟨ms, rep, h1, _, h2, h3, _⟩ := C88_box S rng _ dumpOptions _ _ _ _ (dumpExample_file _ _)
    (if_pos rfl) y1 y2 (fun r hx => (hr1 r hx).1.1)
    (fun x hx => (hr1 _ ((hall.all _).1 (List.mem_map_of_mem hx))).1) rfl rfl r hr
  have hl : ∀ a b, listedQueries (dumpExample a b) dumpOptions = [] := fun _ _ => rfl
  rw [hl] at h1
  obtain ⟨rfl, rfl⟩ := C88_determined _ _ _ _ _ _ _ _ (fun _ => Iff.rfl) (.refl _)
    (by simp [keep]) h1 nested_matching
  refine ⟨_, _, _, _, _, r, dumpExample_file _ _, if_pos rfl, y1, y2, hr1, hall, ?_, hr,
    h2.trans ?_, h3.trans ?_⟩
  · rw [hl]; decide
  · unfold matchNumbers Numbers.of
    decide +kernel
  · unfold matchNumbers Numbers.of
    decide +kernel

/-- A run to which C109 applies: two overlapping references, handed in with increasing scores. -/
example {G : Type} (S : StdSort) (rng : Rng G) : ∃ r : Report Str (DocBox Str UInt32),
    mainWith Rnd.exact S rng (icdarKit Rnd.exact S) (dumpExample "q d 0 0 5 1\nq d 3 0 5 1\n".toList
      "q d 0 0 5 1 1\nq d 3 0 5 1 2\n".toList) dumpOptions = .ok (.done r) ∧ Shows r ⟨1, 1, 1, 1⟩ 0 := by
  have y1 : Yields BoxEventText (lines "q d 0 0 5 1\nq d 3 0 5 1\n".toList)
      [⟨['q'], ⟨⟨0, 0, 5, 1⟩, ['d']⟩⟩, ⟨['q'], ⟨⟨3, 0, 5, 1⟩, ['d']⟩⟩] :=
    (C48_accepts (Format.boxRefs (R := Rnd.exact)) _ _).1 (by decide +kernel)
  have y2 : Yields (ScoredText Rnd.exact BoxEventText) (lines "q d 0 0 5 1 1\nq d 3 0 5 1 2\n".toList)
      [⟨⟨['q'], ⟨⟨0, 0, 5, 1⟩, ['d']⟩⟩, .fin 1⟩, ⟨⟨['q'], ⟨⟨3, 0, 5, 1⟩, ['d']⟩⟩, .fin 2⟩] :=
    (C48_accepts (Format.boxHyps (R := Rnd.exact)) _ _).1 (by decide +kernel)
  obtain ⟨r, hr⟩ := dump_run S rng _ _ _ _ y1 y2
  refine ⟨r, hr, (C109_box_partial S rng _ dumpOptions _ _ _ _ (dumpExample_file _ _) (if_pos rfl) y1 y2 ?_
    ⟨by decide +kernel, fun e => Iff.rfl⟩ (by decide) r hr).2 ?_⟩
  · intro r hr
    simp only [List.mem_cons, List.not_mem_nil, or_false] at hr
    rcases hr with rfl | rfl <;> exact ⟨⟨⟨by decide, by decide⟩, by decide +kernel⟩, by decide +kernel⟩
  · unfold Unnested
    decide +kernel

/-- A run of the segmentation-based tool to which C109 applies; one reference is listed twice. -/
example {G : Type} (S : StdSort) (rng : Rng G) : ∃ r : Report Nat Nat,
    mainWith Rnd.exact S rng (simpleKit Rnd.exact true)
      (idsExample "c n\nb l\na l\nb m\nb n\nc l\nc m\na l\n".toList) idsOptions = .ok (.done r) ∧
    Shows r ⟨1, 1, 1, 1⟩ 0 := by
  have y2 := idsExample_yields.2
  have y1 : Yields StrEventText (lines "c n\nb l\na l\nb m\nb n\nc l\nc m\na l\n".toList)
      [⟨"c".toList, "n".toList⟩, ⟨"b".toList, "l".toList⟩, ⟨"a".toList, "l".toList⟩,
        ⟨"b".toList, "m".toList⟩, ⟨"b".toList, "n".toList⟩, ⟨"c".toList, "l".toList⟩,
        ⟨"c".toList, "m".toList⟩, ⟨"a".toList, "l".toList⟩] :=
    (C48_accepts (Format.strRefs (R := Rnd.exact)) _ _).1 (by decide +kernel)
  have hV : (vocabulary (idsExample "c n\nb l\na l\nb m\nb n\nc l\nc m\na l\n".toList)
      idsOptions).dedup.length ≤ 2 ^ 31 := idsExample_vocabulary _ (by decide +kernel)
  obtain ⟨r, hr, _⟩ := (C62_segmentation_partial Rnd.exact S rng true
    (idsExample "c n\nb l\na l\nb m\nb n\nc l\nc m\na l\n".toList) idsOptions hV
    (fun t t' h1 h2 => by
      refine ⟨fun h => by simp [idsOptions] at h, fun h => absurd rfl h, fun h => absurd rfl h,
        fun h => by simp [idsOptions] at h⟩)).1
    ⟨⟨by decide, ⟨_, idsExample_file _, yields_valid y1⟩, ⟨_, if_pos rfl, yields_valid y2⟩,
      fun h => absurd rfl h, fun h => absurd rfl h⟩, Or.inl rfl⟩
  refine ⟨r, hr, C109_segmentation S rng true _ _ hV _ _ _ _ (idsExample_file _) (if_pos rfl) y1 y2 ?_
    ?_ r hr⟩
  · refine fun e => ⟨fun h => ?_, fun h => ?_⟩
    · revert h
      revert e
      decide +kernel
    · revert h
      revert e
      decide +kernel
  · rw [show listedQueries _ idsOptions = [] from rfl]
    decide

end Kws
