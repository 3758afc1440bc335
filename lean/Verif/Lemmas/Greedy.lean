import Verif.Lemmas.Matcher
import Verif.Lemmas.Numbers
import Verif.Lemmas.SegTally

/-!
# Greedy matching by parts, and under renaming
-/

namespace Kws
open Spec

section
variable {RE HE RE' HE' : Type}

/-- Entries have a hypothesis, whose part contains their reference. -/
def InParts (p : HE → Bool) (pr : RE → Bool) (ms : List (Match RE HE)) : Prop :=
  ∀ m ∈ ms, ∃ h, m.hyp = some h ∧ ∀ r, m.ref = some r → pr r = p h

theorem taken_part {p : HE → Bool} {pr : RE → Bool} {ms : List (Match RE HE)} (hi : InParts p pr ms)
    {r : RE} (hr : pr r = true) : Taken (ms.filter (fun m => m.hyp.any p)) r ↔ Taken ms r := by
  constructor
  · rintro ⟨m, hm, e⟩
    exact ⟨m, (List.mem_filter.1 hm).1, e⟩
  · rintro ⟨m, hm, e⟩
    obtain ⟨h, h1, h2⟩ := hi m hm
    refine ⟨m, List.mem_filter.2 ⟨hm, ?_⟩, e⟩
    rw [h1, Option.any_some, ← h2 r e, hr]

theorem deserves_ref {earlier : List (Match RE HE)} {os : List RE} {score : RE → MatchError}
    {h : HE} {entry : List (Match RE HE)} (hd : Deserves earlier os score h entry) :
    ∀ m ∈ entry, m.hyp = some h ∧ ∀ r, m.ref = some r → r ∈ os := by
  rcases hd with ⟨_, rfl⟩ | ⟨l1, r, l2, e, _, _, _, rfl⟩ | ⟨_, _, rfl⟩
  · simp
  · intro m hm
    rw [List.mem_singleton] at hm
    subst hm
    refine ⟨rfl, fun r' hr' => ?_⟩
    simp only [Option.some.injEq] at hr'
    subst hr'
    simp [e]
  · simp

theorem deservesRepeated_hyp {earlier : List (Match RE HE)} {os : List RE} {score : RE → MatchError}
    {h : HE} {rep : List (Match RE HE)} (hd : DeservesRepeated earlier os score h rep) :
    ∀ m ∈ rep, m.hyp = some h := by
  obtain ⟨l1, l2, _, _, _, rfl⟩ := hd
  intro m hm
  obtain ⟨r, _, rfl⟩ := List.mem_map.1 hm
  rfl

theorem Spec.Greedy.rep_hyp {overl : HE → List RE} {score : RE → HE → MatchError}
    {earlier : List (Match RE HE)} {hyps : List HE} {e r : List (Match RE HE)}
    (h : Greedy overl score earlier hyps e r) : ∀ m ∈ r, ∃ x ∈ hyps, m.hyp = some x := by
  induction h with
  | nil => simp
  | cons _ x _ _ _ _ _ _ h2 _ ih =>
    intro m hm
    rcases List.mem_append.1 hm with hm | hm
    · exact ⟨x, List.mem_cons_self, deservesRepeated_hyp h2 m hm⟩
    · obtain ⟨y, hy, hy'⟩ := ih m hm
      exact ⟨y, List.mem_cons_of_mem _ hy, hy'⟩

theorem Spec.Greedy.ref_mem {overl : HE → List RE} {score : RE → HE → MatchError}
    {earlier : List (Match RE HE)} {hyps : List HE} {e r : List (Match RE HE)}
    (h : Greedy overl score earlier hyps e r) :
    ∀ m, m ∈ e ∨ m ∈ r → ∀ y, m.ref = some y → ∃ x ∈ hyps, y ∈ overl x := by
  induction h with
  | nil => simp
  | cons _ x xs _ _ _ _ h1 h2 _ ih =>
    intro m hm y hy
    have key : (∃ z ∈ xs, y ∈ overl z) → ∃ z ∈ x :: xs, y ∈ overl z :=
      fun ⟨z, a, b⟩ => ⟨z, List.mem_cons_of_mem _ a, b⟩
    rcases hm with hm | hm <;> rcases List.mem_append.1 hm with hm | hm
    · exact ⟨x, List.mem_cons_self, (deserves_ref h1 m hm).2 y hy⟩
    · exact key (ih m (.inl hm) y hy)
    · obtain ⟨l1, l2, e, _, _, rfl⟩ := h2
      obtain ⟨z, hz, rfl⟩ := List.mem_map.1 hm
      simp only [Option.some.injEq] at hy
      subst hy
      exact ⟨x, List.mem_cons_self, by rw [e]; simp [(List.mem_filter.1 hz).1]⟩
    · exact key (ih m (.inr hm) y hy)

theorem deserves_congr {earlier earlier' : List (Match RE HE)} {os : List RE} {score : RE → MatchError}
    {h : HE} {entry : List (Match RE HE)} (hd : Deserves earlier os score h entry)
    (ht : ∀ r ∈ os, Taken earlier' r ↔ Taken earlier r) : Deserves earlier' os score h entry := by
  rcases hd with h1 | ⟨l1, r, l2, e, h1, h2, h3, h4⟩ | ⟨h1, h2, h3⟩
  · exact .inl h1
  · refine .inr (.inl ⟨l1, r, l2, e, h1, fun h => h2 ((ht r (by simp [e])).1 h), fun r' hr' hs => ?_, h4⟩)
    exact (ht r' (by simp [e, hr'])).2 (h3 r' hr' hs)
  · exact .inr (.inr ⟨h1, fun r hr hs => (ht r hr).2 (h2 r hr hs), h3⟩)

theorem deservesRepeated_congr {earlier earlier' : List (Match RE HE)} {os : List RE}
    {score : RE → MatchError} {h : HE} {rep : List (Match RE HE)}
    (hd : DeservesRepeated earlier os score h rep)
    (ht : ∀ r ∈ os, Taken earlier' r ↔ Taken earlier r) :
    DeservesRepeated earlier' os score h rep := by
  obtain ⟨l1, l2, e, h1, h2, h3⟩ := hd
  refine ⟨l1, l2, e, fun r hr hs => (ht r (by simp [e, hr])).2 (h1 r hr hs), fun r hr => ?_, h3⟩
  obtain ⟨a, b⟩ := h2 r hr
  exact ⟨a, fun h => b ((ht r (by simp [e, List.mem_of_mem_head? hr])).1 h)⟩

/-- If overlapping references are in the part of the hypothesis, the parts do not interact. -/
theorem Spec.Greedy.part {overl : HE → List RE} {score : RE → HE → MatchError}
    {earlier : List (Match RE HE)} {l : List HE} {e r : List (Match RE HE)} (p : HE → Bool)
    (pr : RE → Bool) (h : Greedy overl score earlier l e r)
    (ho : ∀ x ∈ l, ∀ y ∈ overl x, pr y = p x) (hi : InParts p pr earlier) :
    Greedy overl score (earlier.filter (fun m => m.hyp.any p)) (l.filter p)
      (e.filter (fun m => m.hyp.any p)) (r.filter (fun m => m.hyp.any p)) := by
  induction h with
  | nil earlier => exact .nil _
  | cons earlier h hs entry repeats entries repeated h1 h2 _ ih =>
    have hsh := deserves_ref h1
    have hrp := deservesRepeated_hyp h2
    have hi' : InParts p pr (earlier ++ entry) := by
      intro m hm
      rcases List.mem_append.1 hm with hm | hm
      · exact hi m hm
      · obtain ⟨a, b⟩ := hsh m hm
        exact ⟨h, a, fun r hr => ho h (by simp) r (b r hr)⟩
    have ih := ih (fun x hx => ho x (by simp [hx])) hi'
    rw [List.filter_append] at ih
    rw [List.filter_append, List.filter_append, List.filter_cons]
    by_cases hp : p h = true
    · have e1 : entry.filter (fun m => m.hyp.any p) = entry :=
        List.filter_eq_self.2 fun m hm => by rw [(hsh m hm).1]; exact hp
      have e2 : repeats.filter (fun m => m.hyp.any p) = repeats :=
        List.filter_eq_self.2 fun m hm => by rw [hrp m hm]; exact hp
      rw [e1] at ih
      rw [e1, e2, if_pos hp]
      have ht : ∀ r ∈ overl h, Taken (earlier.filter (fun m => m.hyp.any p)) r ↔ Taken earlier r :=
        fun r hr => taken_part hi ((ho h (by simp) r hr).trans hp)
      exact .cons _ _ _ _ _ _ _ (deserves_congr h1 ht) (deservesRepeated_congr h2 ht) ih
    · have e1 : entry.filter (fun m => m.hyp.any p) = [] :=
        List.filter_eq_nil_iff.2 fun m hm => by rw [(hsh m hm).1]; exact hp
      have e2 : repeats.filter (fun m => m.hyp.any p) = [] :=
        List.filter_eq_nil_iff.2 fun m hm => by rw [hrp m hm]; exact hp
      rw [e1, List.append_nil] at ih
      rw [e1, e2, if_neg hp]
      exact ih

/-- The match with other events. -/
def mapMatch (f : RE → RE') (g : HE → HE') (m : Match RE HE) : Match RE' HE' :=
  ⟨m.ref.map f, m.hyp.map g, m.error⟩

theorem taken_map {f : RE → RE'} (g : HE → HE') {A : Set RE} (hf : Set.InjOn f A)
    {ms : List (Match RE HE)} (hA : ∀ m ∈ ms, ∀ r, m.ref = some r → r ∈ A) {r : RE} (hr : r ∈ A) :
    Taken (ms.map (mapMatch f g)) (f r) ↔ Taken ms r := by
  unfold Taken
  simp only [List.mem_map, exists_exists_and_eq_and, mapMatch, Option.map_eq_some_iff]
  refine exists_congr fun m => and_congr_right fun hm => ?_
  constructor
  · rintro ⟨a, h1, h2⟩
    rw [h1, hf (hA m hm a h1) hr h2]
  · intro h
    exact ⟨r, h, rfl⟩

theorem deserves_map {f : RE → RE'} (g : HE → HE') {os : List RE} {earlier : List (Match RE HE)}
    (ht : ∀ r ∈ os, Taken (earlier.map (mapMatch f g)) (f r) ↔ Taken earlier r)
    {score : RE → MatchError} {score' : RE' → MatchError}
    {h : HE} {entry : List (Match RE HE)} (hd : Deserves earlier os score h entry)
    (hs : ∀ r ∈ os, score' (f r) = score r) :
    Deserves (earlier.map (mapMatch f g)) (os.map f) score' (g h) (entry.map (mapMatch f g)) := by
  rcases hd with ⟨h1, rfl⟩ | ⟨l1, r, l2, rfl, h1, h2, h3, rfl⟩ | ⟨⟨r, h1, h2⟩, h3, rfl⟩
  · refine .inl ⟨?_, rfl⟩
    intro r' hr'
    obtain ⟨r, hr, rfl⟩ := List.mem_map.1 hr'
    rw [hs r hr]
    exact h1 r hr
  · refine .inr (.inl ⟨l1.map f, f r, l2.map f, by simp, ?_, ?_, ?_, ?_⟩)
    · rw [hs r (by simp)]; exact h1
    · rw [ht r (by simp)]; exact h2
    · intro r' hr' hs'
      obtain ⟨x, hx, rfl⟩ := List.mem_map.1 hr'
      rw [hs x (by simp [hx])] at hs'
      exact (ht x (by simp [hx])).2 (h3 x hx hs')
    · simp [mapMatch, hs r (by simp)]
  · refine .inr (.inr ⟨⟨f r, List.mem_map_of_mem h1, by rw [hs r h1]; exact h2⟩, ?_, rfl⟩)
    intro r' hr' hs'
    obtain ⟨x, hx, rfl⟩ := List.mem_map.1 hr'
    rw [hs x hx] at hs'
    exact (ht x hx).2 (h3 x hx hs')

theorem deservesRepeated_map {f : RE → RE'} (g : HE → HE') {os : List RE} {earlier : List (Match RE HE)}
    (ht : ∀ r ∈ os, Taken (earlier.map (mapMatch f g)) (f r) ↔ Taken earlier r)
    {score : RE → MatchError} {score' : RE' → MatchError}
    {h : HE} {rep : List (Match RE HE)} (hd : DeservesRepeated earlier os score h rep)
    (hs : ∀ r ∈ os, score' (f r) = score r) :
    DeservesRepeated (earlier.map (mapMatch f g)) (os.map f) score' (g h) (rep.map (mapMatch f g)) := by
  obtain ⟨l1, l2, rfl, h1, h2, rfl⟩ := hd
  refine ⟨l1.map f, l2.map f, by simp, ?_, ?_, ?_⟩
  · intro r' hr' hs'
    obtain ⟨x, hx, rfl⟩ := List.mem_map.1 hr'
    rw [hs x (by simp [hx])] at hs'
    exact (ht x (by simp [hx])).2 (h1 x hx hs')
  · intro r' hr'
    rw [List.head?_map, Option.map_eq_some_iff] at hr'
    obtain ⟨x, hx, rfl⟩ := hr'
    obtain ⟨a, b⟩ := h2 x hx
    rw [hs x (by simp [List.mem_of_mem_head? hx]), ht x (by simp [List.mem_of_mem_head? hx])]
    exact ⟨a, b⟩
  · rw [List.filter_map, List.map_map, List.map_map]
    have : l1.filter ((fun r => decide ((score' r).fp < 1)) ∘ f) =
        l1.filter (fun r => decide ((score r).fp < 1)) :=
      List.filter_congr fun x hx => by simp [hs x (by simp [hx])]
    rw [this]
    refine List.map_congr_left fun x hx => ?_
    simp [mapMatch, hs x (by simp [(List.mem_filter.1 hx).1])]

/-- Greedy matching of renamed events. -/
theorem Spec.Greedy.map {f : RE → RE'} (g : HE → HE') {A : Set RE} (hf : Set.InjOn f A)
    {overl : HE → List RE} {score : RE → HE → MatchError} {overl' : HE' → List RE'}
    {score' : RE' → HE' → MatchError} {earlier : List (Match RE HE)} {l : List HE}
    {e r : List (Match RE HE)} (h : Greedy overl score earlier l e r)
    (hA : ∀ m ∈ earlier, ∀ r, m.ref = some r → r ∈ A) (hl : ∀ x ∈ l, ∀ y ∈ overl x, y ∈ A)
    (ho : ∀ x ∈ l, overl' (g x) = (overl x).map f)
    (hs : ∀ x ∈ l, ∀ y ∈ overl x, score' (f y) (g x) = score y x) :
    Greedy overl' score' (earlier.map (mapMatch f g)) (l.map g) (e.map (mapMatch f g))
      (r.map (mapMatch f g)) := by
  induction h with
  | nil earlier => exact .nil _
  | cons earlier h hs' entry repeats entries repeated h1 h2 _ ih =>
    have hA' : ∀ m ∈ earlier ++ entry, ∀ r, m.ref = some r → r ∈ A := by
      intro m hm r hr
      rcases List.mem_append.1 hm with hm | hm
      · exact hA m hm r hr
      · rcases h1 with ⟨_, rfl⟩ | ⟨l1, r', l2, ho, _, _, _, rfl⟩ | ⟨_, _, rfl⟩
        · rw [List.mem_singleton.1 hm] at hr
          cases hr
        · rw [List.mem_singleton.1 hm, Option.some.injEq] at hr
          subst hr
          exact hl h (by simp) _ (by rw [ho]; simp)
        · cases hm
    have ih := ih hA' (fun x hx => hl x (by simp [hx])) (fun x hx => ho x (by simp [hx]))
      (fun x hx => hs x (by simp [hx]))
    have ht : ∀ r ∈ overl h, Taken (earlier.map (mapMatch f g)) (f r) ↔ Taken earlier r :=
      fun r hr => taken_map g hf hA (hl h (by simp) r hr)
    rw [List.map_append] at ih
    rw [List.map_append, List.map_append, List.map_cons]
    refine .cons _ _ _ _ _ _ _ ?_ ?_ ih
    · rw [ho h (by simp)]
      exact deserves_map g ht h1 (hs h (by simp))
    · rw [ho h (by simp)]
      exact deservesRepeated_map g ht h2 (hs h (by simp))

end

/-- Lists whose parts are equal are permutations. -/
theorem perm_of_parts {α κ : Type} [DecidableEq κ] (key : α → κ) {xs ys : List α}
    (h : ∀ a, a ∈ xs ∨ a ∈ ys → xs.filter (fun x => key x = key a) = ys.filter (fun x => key x = key a)) :
    xs.Perm ys := by
  classical
  refine List.perm_iff_count.2 fun a => ?_
  by_cases ha : a ∈ xs ∨ a ∈ ys
  · have := congrArg (List.count a) (h a ha)
    rwa [List.count_filter (by simp), List.count_filter (by simp)] at this
  · rw [not_or] at ha
    rw [List.count_eq_zero_of_not_mem ha.1, List.count_eq_zero_of_not_mem ha.2]

/-! ## The numbers -/

section
variable {Q L Q' L' : Type}

theorem tallyOf_perm {ms ms' : List (Match (Event Q L) (ScoredEvent Q L))} (h : ms.Perm ms') :
    tallyOf ms = tallyOf ms' := by
  unfold tallyOf
  congr 1
  · funext s; exact h.countP_eq _
  · funext s; exact h.countP_eq _
  · exact h.countP_eq _

/-- The numbers do not depend on the order of the matches. -/
theorem matchNumbers_perm [DecidableEq Q] (grp : Q → Q) (interp trapezoid : Bool)
    {ms ms' : List (Match (Event Q L) (ScoredEvent Q L))} (h : ms.Perm ms')
    (hn : ∀ s ∈ scoresIn ms, s ≠ .nan) :
    matchNumbers grp interp trapezoid ms = matchNumbers grp interp trapezoid ms' := by
  have hsc : ∀ {l l' : List (Match (Event Q L) (ScoredEvent Q L))}, l.Perm l' →
      (∀ s ∈ scoresIn l, s ≠ .nan) → descending (scoresIn l) = descending (scoresIn l') :=
    fun hp hl => descending_congr hl fun s => (hp.filterMap _).mem_iff
  have hsub : ∀ g, ∀ s ∈ scoresIn (ms.filter (InGroup grp g)), s ≠ .nan := by
    intro g s hs
    obtain ⟨m, hm, e⟩ := List.mem_filterMap.1 hs
    exact hn s (List.mem_filterMap.2 ⟨m, (List.mem_filter.1 hm).1, e⟩)
  have hg : ∀ g, (tallyOf (ms.filter (InGroup grp g)) = tallyOf (ms'.filter (InGroup grp g))) ∧
      descending (scoresIn (ms.filter (InGroup grp g))) =
        descending (scoresIn (ms'.filter (InGroup grp g))) := fun g =>
    ⟨tallyOf_perm (h.filter _), hsc (h.filter _) (hsub g)⟩
  have hd : (((ms.filterMap eventOf).map (grp ·.query)).dedup).Perm
      (((ms'.filterMap eventOf).map (grp ·.query)).dedup) := ((h.filterMap _).map _).dedup
  unfold matchNumbers Numbers.of
  rw [tallyOf_perm h, hsc h hn]
  congr 1
  · rw [List.map_map, List.map_map]
    refine average_perm ?_
    have : ∀ g, ((fun g => g.1.ap interp trapezoid (descending g.2)) ∘ fun g =>
        (tallyOf (ms.filter (InGroup grp g)), scoresIn (ms.filter (InGroup grp g)))) g =
        ((fun g => g.1.ap interp trapezoid (descending g.2)) ∘ fun g =>
        (tallyOf (ms'.filter (InGroup grp g)), scoresIn (ms'.filter (InGroup grp g)))) g := by
      intro g
      simp only [Function.comp]
      rw [(hg g).1, (hg g).2]
    rw [funext this]
    exact hd.map _
  · rw [List.map_map, List.map_map]
    refine average_perm ?_
    have : ∀ g, ((fun g => g.1.ndcg (descending g.2)) ∘ fun g =>
        (tallyOf (ms.filter (InGroup grp g)), scoresIn (ms.filter (InGroup grp g)))) g =
        ((fun g => g.1.ndcg (descending g.2)) ∘ fun g =>
        (tallyOf (ms'.filter (InGroup grp g)), scoresIn (ms'.filter (InGroup grp g)))) g := by
      intro g
      simp only [Function.comp]
      rw [(hg g).1, (hg g).2]
    rw [funext this]
    exact hd.map _

theorem tallyOf_map (f : Event Q L → Event Q' L') (g : ScoredEvent Q L → ScoredEvent Q' L')
    (hg : ∀ h, (g h).score = h.score) (ms : List (Match (Event Q L) (ScoredEvent Q L))) :
    tallyOf (ms.map (mapMatch f g)) = tallyOf ms := by
  unfold tallyOf
  congr 1
  · funext s
    rw [List.countP_map]
    refine List.countP_congr fun m _ => ?_
    simp [mapMatch, Option.any_map, hg]
  · funext s
    rw [List.countP_map]
    refine List.countP_congr fun m _ => ?_
    simp [mapMatch, Option.any_map, hg]
  · rw [List.countP_map]
    refine List.countP_congr fun m _ => ?_
    simp [mapMatch]

theorem scoresIn_map (f : Event Q L → Event Q' L') (g : ScoredEvent Q L → ScoredEvent Q' L')
    (hg : ∀ h, (g h).score = h.score) (ms : List (Match (Event Q L) (ScoredEvent Q L))) :
    scoresIn (ms.map (mapMatch f g)) = scoresIn ms := by
  unfold scoresIn
  rw [List.filterMap_map]
  congr 1
  funext m
  simp [mapMatch, Option.map_map, Function.comp_def, hg]

/-- The numbers do not depend on the names of queries and groups, nor on the locations. -/
theorem matchNumbers_map [DecidableEq Q] [DecidableEq Q'] (f : Event Q L → Event Q' L')
    (g : ScoredEvent Q L → ScoredEvent Q' L') (hg : ∀ h, (g h).score = h.score)
    (hgf : ∀ h, (g h).base = f h.base) (grp : Q → Q) (grp' : Q' → Q') (γ : Q → Q')
    (hγ : Function.Injective γ) (interp trapezoid : Bool)
    (ms : List (Match (Event Q L) (ScoredEvent Q L)))
    (hgrp : ∀ m ∈ ms, ∀ e, eventOf m = some e → grp' (f e).query = γ (grp e.query)) :
    matchNumbers grp' interp trapezoid (ms.map (mapMatch f g)) =
      matchNumbers grp interp trapezoid ms := by
  have hev : ∀ m : Match (Event Q L) (ScoredEvent Q L),
      eventOf (mapMatch f g m) = (eventOf m).map f := by
    intro m
    unfold eventOf mapMatch
    cases m.ref <;> cases m.hyp <;> simp [hgf]
  have hfl : ∀ q, (ms.map (mapMatch f g)).filter (InGroup grp' (γ q)) =
      (ms.filter (InGroup grp q)).map (mapMatch f g) := by
    intro q
    rw [List.filter_map]
    congr 1
    refine List.filter_congr fun m hm => ?_
    unfold InGroup
    rw [Function.comp, hev]
    cases he : eventOf m with
    | none => rfl
    | some e => simp [hgrp m hm e he, hγ.eq_iff]
  have hdd : (((ms.map (mapMatch f g)).filterMap eventOf).map (grp' ·.query)).dedup =
      (((ms.filterMap eventOf).map (grp ·.query)).dedup).map γ := by
    rw [← List.dedup_map_of_injective hγ, List.filterMap_map]
    congr 1
    rw [show (eventOf ∘ mapMatch f g : Match (Event Q L) (ScoredEvent Q L) → _) =
      fun m => (eventOf m).map f from funext hev, List.map_map, List.map_filterMap, List.map_filterMap]
    refine List.filterMap_congr fun m hm => ?_
    cases he : eventOf m with
    | none => rfl
    | some e => simp [hgrp m hm e he]
  unfold matchNumbers
  rw [tallyOf_map f g hg, scoresIn_map f g hg, hdd, List.map_map]
  congr 1
  refine List.map_congr_left fun q _ => ?_
  simp only [Function.comp]
  rw [hfl, tallyOf_map f g hg, scoresIn_map f g hg]

end

end Kws
