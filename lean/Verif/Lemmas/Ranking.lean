import Verif.Lemmas.Monotone

/-! Average precision and NDCG without collapsing, from the positions of the hits -/

set_option linter.unusedSectionVars false

namespace Kws
open Spec

/-! ## Lists of hits and false positives -/

theorem stutter_tail {α : Type} (l : List α) (x : α) (n : ℕ) (h : l.getLast? = some x) :
    Stutter l (l ++ List.replicate n x) := by
  induction l with
  | nil => simp at h
  | cons a l ih =>
    cases l with
    | nil =>
      have : a = x := by simpa using h
      subst this
      clear ih h
      induction n with
      | zero => exact Stutter.refl _
      | succ n ih =>
        rw [List.replicate_succ]
        exact .dup _ _ _ ih
    | cons b l =>
      rw [List.getLast?_cons_cons] at h
      exact .cons _ _ _ (ih h)

/-- The counts after each of the first outcomes. -/
def rankCounts (os : List Outcome) : List (ℕ × ℕ) :=
  (List.range os.length).map (fun k => (among .hit (k + 1) os, among .falsePos (k + 1) os))

theorem rank_points (os : List Outcome) (T : ℕ) (hT : os.count .hit + os.count .falseNeg = T) (h0 : T ≠ 0) :
    prLoop Rnd.exact (numTotalReferences (os.map Outcome.error)) {} (os.map Outcome.error) =
      (rankCounts os).map (fun c => (precOf c, (c.1 : ℚ) / T)) := by
  have e := computePR_points Rnd.exact (os.map Outcome.error) false
  simp only [Bool.false_eq_true, if_false] at e
  refine List.ext_getElem? fun k => ?_
  by_cases hk : k < os.length
  · obtain ⟨h1, h2⟩ := C26_textbook os k hk
    rw [e] at h1 h2
    simp only [List.getElem?_map, Option.map_eq_some_iff] at h1 h2
    obtain ⟨p, hp, h1⟩ := h1
    obtain ⟨p', hp', h2⟩ := h2
    rw [hp] at hp'
    injection hp' with hp'
    subst hp'
    rw [hp]
    unfold rankCounts
    rw [List.map_map, List.getElem?_map, List.getElem?_range hk]
    simp only [Option.map_some, Function.comp_apply, Option.some.injEq]
    refine Prod.ext_iff.2 ⟨?_, ?_⟩
    · rw [h1]; rfl
    · rw [h2, hT, if_neg h0]
      simp only
      rw [← hT]
      push_cast
      rfl
  · rw [List.getElem?_eq_none (by rw [prLoop_length]; simpa using hk),
      List.getElem?_eq_none (by simpa [rankCounts] using hk)]

theorem among_append (o : Outcome) (k : ℕ) (bs tl : List Outcome) (hk : k ≤ bs.length) :
    among o k (bs ++ tl) = among o k bs := by
  unfold among
  rw [List.take_append_of_le_length hk]

theorem rankCounts_missed (bs : List Outcome) (n : ℕ) (hne : bs ≠ []) :
    Stutter (rankCounts bs) (rankCounts (bs ++ List.replicate n Outcome.falseNeg)) := by
  have e : rankCounts (bs ++ List.replicate n Outcome.falseNeg) = rankCounts bs ++
      List.replicate n (bs.count .hit, bs.count .falsePos) := by
    unfold rankCounts
    rw [List.length_append, List.length_replicate, List.range_add, List.map_append]
    congr 1
    · refine List.map_congr_left fun k hk => ?_
      rw [List.mem_range] at hk
      rw [among_append _ _ _ _ hk, among_append _ _ _ _ hk]
    · rw [List.map_map]
      refine List.eq_replicate_iff.2 ⟨by simp, ?_⟩
      intro c hc
      obtain ⟨k, _, rfl⟩ := List.mem_map.1 hc
      simp only [Function.comp_apply, among]
      rw [List.take_append, List.take_of_length_le (by omega)]
      simp [List.count_append, List.count_replicate, List.take_replicate]
  rw [e]
  refine stutter_tail _ _ _ ?_
  unfold rankCounts
  rw [List.getLast?_map]
  have : (List.range bs.length).getLast? = some (bs.length - 1) := by
    have := List.length_pos_of_ne_nil hne
    rw [List.getLast?_range, if_neg (by omega)]
  rw [this]
  have := List.length_pos_of_ne_nil hne
  simp [among, show bs.length - 1 + 1 = bs.length by omega]

theorem Stutter.map {α β : Type} {l l' : List α} (h : Stutter l l') (f : α → β) :
    Stutter (l.map f) (l'.map f) := by
  induction h with
  | nil => exact .nil
  | cons x l l' _ ih => exact .cons _ _ _ ih
  | dup x l l' _ ih => exact .dup _ _ _ ih

theorem rankCounts_sorted (bs : List Outcome) : (rankCounts bs).Pairwise (fun a b => a.1 ≤ b.1) := by
  unfold rankCounts
  rw [List.pairwise_map]
  refine (List.pairwise_lt_range).imp fun {a b} hab => ?_
  exact List.Sublist.count_le _ (List.take_sublist_take_left (by omega))

theorem rankCounts_le (bs : List Outcome) : ∀ c ∈ rankCounts bs, c.1 ≤ bs.count .hit := by
  intro c hc
  obtain ⟨k, _, rfl⟩ := List.mem_map.1 hc
  exact List.Sublist.count_le _ (List.take_sublist _ _)

/-- Average precision of a ranked list of hits and false positives, followed by missed references. -/
theorem ranked_ap (bs : List Outcome) (n : ℕ) (hb : Outcome.falseNeg ∉ bs) (interp t : Bool) :
    let c := computePR Rnd.exact ((bs ++ List.replicate n Outcome.falseNeg).map Outcome.error) interp
    areaUnder t c.1 c.2 = (∑ i ∈ Finset.range (bs.count .hit + n),
      atHit (hts t none (hitCurve interp (rankCounts bs))) i) / (bs.count .hit + n : ℕ) := by
  intro c
  have hz : bs.count .falseNeg = 0 := List.count_eq_zero.2 hb
  have hT : (bs ++ List.replicate n Outcome.falseNeg).count Outcome.hit +
      (bs ++ List.replicate n Outcome.falseNeg).count Outcome.falseNeg = bs.count .hit + n := by
    simp [List.count_append, List.count_replicate, hz]
  by_cases h0 : bs.count .hit + n = 0
  · rw [h0]
    simp only [Finset.range_zero, Finset.sum_empty, Nat.cast_zero, div_zero]
    refine areaUnder_zero _ _ _ (Or.inl ?_)
    have hn : n = 0 := by omega
    subst hn
    have hfp : ∀ o ∈ bs, o = Outcome.falsePos := by
      intro o ho
      cases o with
      | hit => exact absurd (List.count_pos_iff.2 ho) (by omega)
      | falsePos => rfl
      | falseNeg => exact absurd ho hb
    intro x hx
    have hx' : x ∈ (computePR Rnd.exact ((bs ++ List.replicate 0 Outcome.falseNeg).map Outcome.error) false).1 :=
      computePR_pr_mem _ _ _ _ hx
    obtain ⟨k, hk, e⟩ := List.mem_iff_getElem.1 hx'
    have hk' : k < bs.length := by
      have := (computePR_lengths Rnd.exact ((bs ++ List.replicate 0 Outcome.falseNeg).map Outcome.error) false).1
      rw [this] at hk
      simpa using hk
    have := (C26_textbook (bs ++ List.replicate 0 Outcome.falseNeg) k (by simpa using hk')).1
    rw [List.getElem?_eq_getElem hk, e] at this
    have a1 : among .hit (k + 1) (bs ++ List.replicate 0 Outcome.falseNeg) = 0 := by
      unfold among
      refine List.count_eq_zero.2 fun hm => ?_
      have := hfp _ (by simpa using List.mem_of_mem_take hm)
      cases this
    have a2 : 0 < among .falsePos (k + 1) (bs ++ List.replicate 0 Outcome.falseNeg) := by
      unfold among
      refine List.count_pos_iff.2 ?_
      have hm : bs[0] ∈ (bs ++ List.replicate 0 Outcome.falseNeg).take (k + 1) := by
        rw [List.mem_take_iff_getElem]
        exact ⟨0, by simp; omega, by simp⟩
      rw [hfp bs[0] (List.getElem_mem _)] at hm
      exact hm
    rw [a1] at this
    injection this with this
    rw [this, if_neg (by omega)]
    simp
  · by_cases hne : bs = []
    · subst hne
      have hr : ∑ i ∈ Finset.range (([] : List Outcome).count .hit + n),
          atHit (hts t none (hitCurve interp (rankCounts []))) i = 0 := by
        refine Finset.sum_eq_zero fun i _ => ?_
        simp [rankCounts, hitCurve, hts, atHit]
      rw [hr, zero_div]
      refine areaUnder_zero _ _ _ (Or.inr ?_)
      intro x hx
      have e2 := (computePR_interp Rnd.exact (([] ++ List.replicate n Outcome.falseNeg).map Outcome.error)).2
      have hx' : x ∈ (computePR Rnd.exact (([] ++ List.replicate n Outcome.falseNeg).map Outcome.error) false).2 := by
        cases interp
        · exact hx
        · rw [← e2]; exact hx
      obtain ⟨k, hk, e⟩ := List.mem_iff_getElem.1 hx'
      have hk' : k < n := by
        have := (computePR_lengths Rnd.exact (([] ++ List.replicate n Outcome.falseNeg).map Outcome.error) false).2
        rw [this] at hk
        simpa using hk
      have := (C26_textbook ([] ++ List.replicate n Outcome.falseNeg) k (by simpa using hk')).2
      rw [List.getElem?_eq_getElem hk, e, hT, if_neg h0] at this
      injection this with this
      rw [this]
      simp [among, List.take_replicate, List.count_replicate]
    · have e := computePR_points Rnd.exact ((bs ++ List.replicate n Outcome.falseNeg).map Outcome.error) interp
      simp only at e
      rw [rank_points _ _ hT h0] at e
      have e2 : areaUnder t c.1 c.2 = curveArea interp t ((rankCounts (bs ++ List.replicate n Outcome.falseNeg)).map
          (fun c => (precOf c, (c.1 : ℚ) / (bs.count .hit + n : ℕ)))) := by
        show areaUnder t (computePR _ _ _).1 (computePR _ _ _).2 = _
        rw [e]
        rfl
      rw [e2, ← ((rankCounts_missed bs n hne).map _).curveArea]
      exact curveArea_hits interp t _ _ _ (fun c hc => (rankCounts_le bs c hc).trans (by omega))
        (rankCounts_sorted bs)

/-! ## Better rankings -/

theorem among_split (bs : List Outcome) (hb : Outcome.falseNeg ∉ bs) (n : ℕ) (hn : n ≤ bs.length) :
    among .hit n bs + among .falsePos n bs = n := by
  unfold among
  have : ∀ l : List Outcome, Outcome.falseNeg ∉ l → l.count .hit + l.count .falsePos = l.length := by
    intro l
    induction l with
    | nil => simp
    | cons o l ih =>
      intro hl
      have := ih (fun hm => hl (by simp [hm]))
      cases o with
      | hit => simp [← this]; omega
      | falsePos => simp [← this]; omega
      | falseNeg => simp at hl
  rw [this _ (fun hm => hb (List.mem_of_mem_take hm)), List.length_take, min_eq_left hn]

theorem among_le (bs : List Outcome) (o : Outcome) {m n : ℕ} (h : m ≤ n) : among o m bs ≤ among o n bs :=
  List.Sublist.count_le _ (List.take_sublist_take_left h)

theorem among_succ (bs : List Outcome) (o : Outcome) (n : ℕ) : among o (n + 1) bs ≤ among o n bs + 1 := by
  unfold among
  rw [List.take_add_one, List.count_append]
  cases bs[n]? <;> simp [List.count_singleton]
  split <;> omega

theorem among_zero (bs : List Outcome) (o : Outcome) : among o 0 bs = 0 := by simp [among]

theorem among_min (bs : List Outcome) (o : Outcome) (n : ℕ) : among o (min n bs.length) bs = among o n bs := by
  unfold among
  rcases Nat.le_total n bs.length with h | h
  · rw [min_eq_left h]
  · rw [min_eq_right h, List.take_of_length_le (le_refl _), List.take_of_length_le h]

/-- Entries of the list of counts, by position. -/
theorem rankCounts_split {bs : List Outcome} {pre post : List (ℕ × ℕ)} {c : ℕ × ℕ}
    (h : rankCounts bs = pre ++ c :: post) :
    pre.length < bs.length ∧ c = (among .hit (pre.length + 1) bs, among .falsePos (pre.length + 1) bs) ∧
      pre.getLast? = if pre.length = 0 then none else
        some (among .hit pre.length bs, among .falsePos pre.length bs) := by
  have hl : pre.length < bs.length := by
    have := congrArg List.length h
    simp [rankCounts] at this
    omega
  have get : ∀ k, k < bs.length → (rankCounts bs)[k]? =
      some (among .hit (k + 1) bs, among .falsePos (k + 1) bs) := by
    intro k hk
    unfold rankCounts
    rw [List.getElem?_map, List.getElem?_range hk]
    rfl
  refine ⟨hl, ?_, ?_⟩
  · have := get _ hl
    rw [h, List.getElem?_append_right (le_refl _), Nat.sub_self, List.getElem?_cons_zero] at this
    injection this
  · split
    · rename_i h0
      rw [List.length_eq_zero_iff.1 h0]
      rfl
    · rename_i h0
      have := get (pre.length - 1) (by omega)
      rw [h, List.getElem?_append_left (by omega), show pre.length - 1 + 1 = pre.length by omega] at this
      rw [List.getLast?_eq_getElem?, this]

/-- The first position with more than `i` hits. -/
theorem rankCounts_first {bs : List Outcome} {pre post : List (ℕ × ℕ)} {c : ℕ × ℕ} {i : ℕ}
    (h : rankCounts bs = pre ++ c :: post) (hpre : ∀ q ∈ pre, q.1 ≤ i) (hc : i < c.1) :
    among .hit pre.length bs = i ∧ among .hit (pre.length + 1) bs = i + 1 := by
  obtain ⟨hl, e, el⟩ := rankCounts_split h
  have h1 : among .hit pre.length bs ≤ i := by
    by_cases h0 : pre.length = 0
    · rw [h0, among_zero]; omega
    · rw [if_neg h0] at el
      exact hpre _ (List.mem_of_getLast? el)
  have h2 := among_succ bs .hit pre.length
  rw [e] at hc
  simp only at hc
  omega

theorem rank_precision (bs : List Outcome) (hb : Outcome.falseNeg ∉ bs) (n : ℕ) (h0 : 0 < n)
    (hn : n ≤ bs.length) :
    precOf (among .hit n bs, among .falsePos n bs) = (among .hit n bs : ℚ) / n := by
  have := among_split bs hb n hn
  unfold precOf
  simp only
  rw [if_neg (by omega)]
  congr 1
  exact_mod_cast this

/-- The heights grow if hits move up. -/
theorem ranked_mono (bs bs' : List Outcome) (hb : Outcome.falseNeg ∉ bs) (hb' : Outcome.falseNeg ∉ bs')
    (h : ∀ n, among .hit n bs ≤ among .hit n bs') (interp t : Bool) (i : ℕ) :
    atHit (hts t none (hitCurve interp (rankCounts bs))) i ≤
      atHit (hts t none (hitCurve interp (rankCounts bs'))) i := by
  cases interp with
  | true =>
    refine atHit_mono t _ _ ?_ (rankCounts_sorted _) (rankCounts_sorted _) ?_ ?_ i
    · intro c hc
      obtain ⟨k, hk, rfl⟩ := List.mem_map.1 hc
      have := among_split bs hb (k + 1) (by simpa using hk)
      simp only
      omega
    · intro c hc
      obtain ⟨k, hk, rfl⟩ := List.mem_map.1 hc
      rw [List.mem_range] at hk
      simp only
      have hk1 := h (k + 1)
      by_cases hz : among .hit (k + 1) bs = 0
      · exact Or.inl hz
      right
      have hne : bs'.length ≠ 0 := by
        intro h0
        rw [List.length_eq_zero_iff] at h0
        subst h0
        simp [among] at hk1
        unfold among at hz
        exact hz hk1
      refine ⟨_, List.mem_map.2 ⟨min k (bs'.length - 1), List.mem_range.2 (by omega), rfl⟩, ?_, ?_⟩
      · have := among_min bs' .hit (k + 1)
        rw [show min (k + 1) bs'.length = min k (bs'.length - 1) + 1 by omega] at this
        simp only
        omega
      · have e := among_min bs' .hit (k + 1)
        rw [show min (k + 1) bs'.length = min k (bs'.length - 1) + 1 by omega] at e
        have s1 := among_split bs' hb' (min k (bs'.length - 1) + 1) (by omega)
        have s2 := among_split bs hb (k + 1) (by omega)
        simp only
        omega
    · intro pre a b post e d hd
      obtain ⟨k', hk', rfl⟩ := List.mem_map.1 hd
      rw [List.mem_range] at hk'
      obtain ⟨l1, ea, _⟩ := rankCounts_split e
      obtain ⟨l2, eb, _⟩ := rankCounts_split (pre := pre ++ [a]) (c := b) (post := post) (by simpa using e)
      rw [List.length_append, List.length_singleton] at l2 eb
      rw [ea, eb]
      simp only
      rcases Nat.lt_or_ge k' (pre.length + 1) with hlt | hge
      · left
        have s1 := among_split bs' hb' (k' + 1) (by omega)
        have s2 := among_split bs hb (pre.length + 1) (by omega)
        have s3 := among_split bs hb (k' + 1) (by omega)
        have g1 := h (k' + 1)
        have g2 := among_le bs .falsePos (show k' + 1 ≤ pre.length + 1 by omega)
        omega
      · right
        exact (h _).trans (among_le bs' .hit (by omega))
  | false =>
    rcases split_hit (rankCounts bs) Prod.fst i with hn | ⟨pre, c, post, e, h1, h2⟩
    · rw [atHit_nothing _ _ _ _ hn]
      exact atHit_nonneg _ _ _ _
    obtain ⟨f1, f2⟩ := rankCounts_first e h1 h2
    obtain ⟨l1, ec, el⟩ := rankCounts_split e
    rcases split_hit (rankCounts bs') Prod.fst i with hn | ⟨pre', c', post', e', h1', h2'⟩
    · exfalso
      have g := h (pre.length + 1)
      rw [← among_min bs' .hit (pre.length + 1)] at g
      by_cases h0 : bs'.length = 0
      · rw [h0, Nat.min_zero, among_zero] at g
        omega
      · have := hn _ (List.mem_map.2 ⟨min pre.length (bs'.length - 1), List.mem_range.2 (by omega), rfl⟩)
        rw [show min (pre.length + 1) bs'.length = min pre.length (bs'.length - 1) + 1 by omega] at g
        simp only at this
        omega
    obtain ⟨f1', f2'⟩ := rankCounts_first e' h1' h2'
    obtain ⟨l1', ec', el'⟩ := rankCounts_split e'
    have hk : pre'.length ≤ pre.length := by
      by_contra hlt
      have := h (pre.length + 1)
      have := among_le bs' .hit (show pre.length + 1 ≤ pre'.length by omega)
      omega
    rw [e, e', atHit_curve false t pre post c i h1 h2, atHit_curve false t pre' post' c' i h1' h2']
    rw [el, el']
    have p1 : precOf c = ((i + 1 : ℕ) : ℚ) / (pre.length + 1 : ℕ) := by
      rw [ec, rank_precision bs hb _ (by omega) (by omega), f2]
    have p1' : precOf c' = ((i + 1 : ℕ) : ℚ) / (pre'.length + 1 : ℕ) := by
      rw [ec', rank_precision bs' hb' _ (by omega) (by omega), f2']
    have hcc : precOf c ≤ precOf c' := by
      rw [p1, p1']
      refine div_le_div_of_nonneg_left (by positivity) (by positivity) ?_
      exact_mod_cast Nat.succ_le_succ hk
    simp only [Bool.false_eq_true, if_false]
    by_cases z : pre.length = 0
    · have z' : pre'.length = 0 := by omega
      rw [if_pos z, if_pos z']
      exact hcc
    · have hle : i ≤ pre.length := by
        have := among_split bs hb pre.length (by omega)
        omega
      have p2 : precOf (among .hit pre.length bs, among .falsePos pre.length bs) = (i : ℚ) / pre.length := by
        rw [rank_precision bs hb _ (by omega) (by omega), f1]
      rw [if_neg z]
      simp only [p2]
      have hpos : (0 : ℚ) < pre.length := by exact_mod_cast Nat.pos_of_ne_zero z
      by_cases z' : pre'.length = 0
      · rw [if_pos z']
        simp only
        cases t
        · exact hcc
        · simp only [if_true]
          have : (i : ℚ) / pre.length ≤ precOf c' := by
            have : (i : ℚ) / pre.length ≤ 1 := by
              rw [div_le_one hpos]; exact_mod_cast hle
            have h1 : (1 : ℚ) ≤ precOf c' := by
              rw [p1', z', Nat.zero_add, Nat.cast_one, div_one]
              exact_mod_cast (by omega)
            linarith
          linarith
      · have p2' : precOf (among .hit pre'.length bs', among .falsePos pre'.length bs') =
            (i : ℚ) / pre'.length := by
          rw [rank_precision bs' hb' _ (by omega) (by omega), f1']
        rw [if_neg z']
        simp only [p2']
        have : (i : ℚ) / pre.length ≤ (i : ℚ) / pre'.length := by
          refine div_le_div_of_nonneg_left (by positivity) ?_ (by exact_mod_cast hk)
          exact_mod_cast Nat.pos_of_ne_zero z'
        cases t
        · exact hcc
        · simp only [if_true]
          linarith

/-! ## Matches -/

section
variable {Q L : Type}

/-- The outcome of a match. -/
def outcomeOf (m : KwsMatch Q L) : Outcome :=
  if m.ref.isSome then if m.hyp.isSome then .hit else .falseNeg else .falsePos

theorem Spec.HardMatch.error_eq {m : KwsMatch Q L} (h : HardMatch m) :
    m.error = (outcomeOf m).error := by
  unfold outcomeOf
  rcases h with ⟨h1, h2, h3⟩ | ⟨h1, h2, h3⟩ | ⟨h1, h2, h3⟩
  · rw [if_pos h1, if_pos h2, h3]
  · rw [h1, if_neg (by simp), h3]
  · rw [h2, if_pos h1, if_neg (by simp), h3]

theorem errors_outcomes (ms : List (KwsMatch Q L)) (h : ∀ m ∈ ms, HardMatch m) :
    getMatchErrors ms = (ms.map outcomeOf).map Outcome.error := by
  unfold getMatchErrors
  rw [List.map_map]
  exact List.map_congr_left fun m hm => (h m hm).error_eq

/-- If the missed references come last, they are all at the end. -/
theorem outcomes_split (ms : List (KwsMatch Q L)) (h : ∀ m ∈ ms, HardMatch m)
    (hl : ms.Pairwise (fun a b => a.hyp = none → b.hyp = none)) :
    ∃ bs n, ms.map outcomeOf = bs ++ List.replicate n Outcome.falseNeg ∧ Outcome.falseNeg ∉ bs := by
  induction ms with
  | nil => exact ⟨[], 0, rfl, by simp⟩
  | cons m ms ih =>
    rw [List.pairwise_cons] at hl
    by_cases hm : m.hyp = none
    · refine ⟨[], ms.length + 1, ?_, by simp⟩
      rw [List.nil_append, List.eq_replicate_iff]
      refine ⟨by simp, ?_⟩
      intro o ho
      obtain ⟨x, hx, rfl⟩ := List.mem_map.1 ho
      have hxn : x.hyp = none := by
        rcases List.mem_cons.1 hx with rfl | hx
        · exact hm
        · exact hl.1 x hx hm
      rcases h x hx with ⟨_, h2, _⟩ | ⟨_, h2, _⟩ | ⟨h1, _, _⟩
      · rw [hxn] at h2; cases h2
      · rw [hxn] at h2; cases h2
      · unfold outcomeOf
        rw [if_pos h1, hxn, if_neg (by simp)]
    · obtain ⟨bs, n, e, hb⟩ := ih (fun x hx => h x (by simp [hx])) hl.2
      refine ⟨outcomeOf m :: bs, n, by rw [List.map_cons, e]; rfl, ?_⟩
      have : outcomeOf m ≠ .falseNeg := by
        unfold outcomeOf
        have : m.hyp.isSome = true := Option.isSome_iff_ne_none.2 hm
        rw [this]
        split <;> simp
      simpa [this.symm] using hb

theorem among_outcomes (ms : List (KwsMatch Q L)) (n : ℕ) :
    among .hit n (ms.map outcomeOf) = (ms.take n).countP (fun m => m.ref.isSome && m.hyp.isSome) := by
  unfold among
  rw [← List.map_take, List.count, List.countP_map]
  refine List.countP_congr fun m _ => ?_
  simp only [Function.comp_apply, outcomeOf]
  cases m.ref.isSome <;> cases m.hyp.isSome <;> decide

theorem refs_outcomes (ms : List (KwsMatch Q L)) : (ms.map outcomeOf).count .hit + (ms.map outcomeOf).count .falseNeg =
    ms.countP (fun m => m.ref.isSome) := by
  induction ms with
  | nil => rfl
  | cons m ms ih =>
    rw [List.map_cons, List.count_cons, List.count_cons, List.countP_cons, ← ih]
    unfold outcomeOf
    cases m.ref.isSome <;> cases m.hyp.isSome <;> simp <;> omega

end

/-! ## NDCG -/

theorem abel (g g' d : ℕ → ℝ) (hd : ∀ n, 0 ≤ d n) (ha : ∀ n, d (n + 1) ≤ d n)
    (h : ∀ n, ∑ k ∈ Finset.range n, g k ≤ ∑ k ∈ Finset.range n, g' k) (n : ℕ) :
    ∑ k ∈ Finset.range n, g k * d k ≤ ∑ k ∈ Finset.range n, g' k * d k := by
  have key : ∀ n, (∑ k ∈ Finset.range (n + 1), g' k - ∑ k ∈ Finset.range (n + 1), g k) * d n ≤
      ∑ k ∈ Finset.range (n + 1), g' k * d k - ∑ k ∈ Finset.range (n + 1), g k * d k := by
    intro n
    induction n with
    | zero => simp [sub_mul]
    | succ n ih =>
      rw [Finset.sum_range_succ g', Finset.sum_range_succ g, Finset.sum_range_succ (fun k => g' k * d k),
        Finset.sum_range_succ (fun k => g k * d k)]
      have h1 := mul_le_mul_of_nonneg_left (ha n) (sub_nonneg.2 (h (n + 1)))
      nlinarith
  cases n with
  | zero => simp
  | succ n =>
    have h1 := mul_nonneg (sub_nonneg.2 (h (n + 1))) (hd n)
    have h2 := key n
    linarith

/-- The gains of hits and false positives. -/
noncomputable def hitGains (bs : List Outcome) : List ℝ := bs.map (fun o => if o = .hit then 1 else 0)

theorem gains_ranked (bs : List Outcome) (n : ℕ) (hb : Outcome.falseNeg ∉ bs) :
    gains ((bs ++ List.replicate n Outcome.falseNeg).map Outcome.error) = hitGains bs := by
  unfold gains
  rw [List.map_append, List.flatMap_append]
  have e2 : ((List.replicate n Outcome.falseNeg).map Outcome.error).flatMap (fun e => List.replicate (IsError.nh e)
      ((2 : ℝ) ^ (1 - (IsError.fp e : ℝ) / (IsError.nh e : ℝ)) - 1)) = [] := by
    rw [List.flatMap_eq_nil_iff]
    intro e he
    obtain ⟨o, ho, rfl⟩ := List.mem_map.1 he
    rw [List.eq_of_mem_replicate ho]
    simp [IsError.nh, Outcome.error, MatchError.nh]
  rw [e2, List.append_nil]
  induction bs with
  | nil => rfl
  | cons o bs ih =>
    rw [List.map_cons, List.flatMap_cons, ih (fun hm => hb (by simp [hm]))]
    cases o with
    | hit => simp [hitGains, IsError.nh, IsError.fp, Outcome.error, MatchError.nh]; norm_num
    | falsePos => simp [hitGains, IsError.nh, IsError.fp, Outcome.error, MatchError.nh]
    | falseNeg => simp at hb

theorem hitGains_sum (bs : List Outcome) (n : ℕ) :
    ∑ k ∈ Finset.range n, (hitGains bs).getD k 0 = (among .hit n bs : ℝ) := by
  induction n with
  | zero => simp [among]
  | succ n ih =>
    rw [Finset.sum_range_succ, ih]
    unfold among hitGains
    rw [List.take_add_one, List.count_append, List.getD_eq_getElem?_getD, List.getElem?_map]
    cases bs[n]? with
    | none => simp
    | some o => cases o <;> simp

theorem dsum_hits_mono (bs bs' : List Outcome) (h : ∀ n, among .hit n bs ≤ among .hit n bs') :
    dsum 1 (hitGains bs) ≤ dsum 1 (hitGains bs') := by
  have l : ∀ l : List Outcome, (hitGains l).length = l.length := fun l => by simp [hitGains]
  rw [dsum_extend _ 1 (max bs.length bs'.length) (by rw [l]; omega),
    dsum_extend (hitGains bs') 1 (max bs.length bs'.length) (by rw [l]; omega)]
  refine abel _ _ (fun k => disc (1 + k)) (fun k => (disc_pos _ (by omega)).le)
    (fun k => disc_anti _ _ (by omega) (by omega)) (fun n => ?_) _
  rw [hitGains_sum, hitGains_sum]
  exact_mod_cast h n

/-! ## What follows the last hit -/

theorem atHit_tail (interp t : Bool) (cs ds : List (ℕ × ℕ)) (N : ℕ) (hcs : ∀ c ∈ cs, c.1 ≤ N)
    (hds : ∀ d ∈ ds, d.1 = N) (hlast : N = 0 ∨ ∃ c ∈ cs, c.1 = N ∧ ∀ d ∈ ds, c.2 ≤ d.2) (i : ℕ) :
    atHit (hts t none (hitCurve interp (cs ++ ds))) i = atHit (hts t none (hitCurve interp cs)) i := by
  rcases split_hit cs Prod.fst i with h | ⟨pre, a, post, rfl, h1, h2⟩
  · have hN : N ≤ i := by
      rcases hlast with h0 | ⟨c, hc, e, _⟩
      · omega
      · rw [← e]; exact h c hc
    rw [atHit_nothing _ _ _ _ h, atHit_nothing]
    intro q hq
    rcases List.mem_append.1 hq with hq | hq
    · exact h q hq
    · rw [hds q hq]; exact hN
  · have hN : i < N := lt_of_lt_of_le h2 (hcs a (by simp))
    obtain ⟨c, hc, e, hcd⟩ := hlast.resolve_left (by omega)
    have hc' : c ∈ a :: post := by
      rcases List.mem_append.1 hc with hp | hp
      · have := h1 c hp
        omega
      · exact hp
    have key : ∀ b l, c ∈ b :: l → bestFrom b (l ++ ds) = bestFrom b l := by
      intro b l hm
      refine le_antisymm ((bestFrom_le _ _ _).2 ?_) ((bestFrom_le _ _ _).2 ?_)
      · intro d hd
        rw [← List.cons_append, List.mem_append] at hd
        rcases hd with hd | hd
        · exact le_bestFrom hd
        · refine le_trans ?_ (le_bestFrom hm)
          have hpos : 0 < d.1 + d.2 := by rw [hds d hd]; omega
          exact precOf_mono hpos (by rw [hds d hd, e]) (hcd d hd)
      · intro d hd
        exact le_bestFrom (by rw [← List.cons_append]; exact List.mem_append_left _ hd)
    rw [List.append_assoc, List.cons_append, atHit_curve interp t pre (post ++ ds) a i h1 h2,
      atHit_curve interp t pre post a i h1 h2, key a post hc']
    cases hl : pre.getLast? with
    | none => rfl
    | some b =>
      have := key b (a :: post) (List.mem_cons_of_mem _ hc')
      rw [List.cons_append] at this
      simp only [this]

theorem gain_none (c : Tally) (X : List Flt) : ∀ h w, (∀ x ∈ X, c.hits x = h) → c.gain h w X = 0 := by
  induction X with
  | nil => intro h w _; rfl
  | cons x X ih =>
    intro h w hX
    have hx : c.hits x = h := hX x (by simp)
    unfold Tally.gain
    rw [ih _ _ (fun y hy => by rw [hX y (by simp [hy]), hx]), add_zero]
    refine Finset.sum_eq_zero fun k _ => ?_
    rw [hx]
    simp

theorem gain_tail (c : Tally) (X : List Flt) (N : ℕ) (hX : ∀ x ∈ X, c.hits x = N) (S : List Flt) :
    ∀ h w, S.getLast?.elim h c.hits = N → c.gain h w (S ++ X) = c.gain h w S := by
  induction S with
  | nil =>
    intro h w hl
    have hl : h = N := hl
    rw [List.nil_append, gain_none c X h w (by rw [hl]; exact hX)]
    rfl
  | cons s S ih =>
    intro h w hl
    rw [List.cons_append, Tally.gain, Tally.gain, ih]
    cases S with
    | nil => simpa using hl
    | cons a S =>
      rw [List.getLast?_cons_cons] at hl
      rw [List.getLast?_cons] at hl ⊢
      exact hl

theorem gain_congr (c c' : Tally) (S : List Flt) : ∀ h w,
    (∀ s ∈ S, c.hits s = c'.hits s ∧ c.wrong s = c'.wrong s) → c.gain h w S = c'.gain h w S := by
  induction S with
  | nil => intro h w _; rfl
  | cons s S ih =>
    intro h w hS
    obtain ⟨e1, e2⟩ := hS s (by simp)
    rw [Tally.gain, Tally.gain, e1, e2, ih _ _ (fun x hx => hS x (by simp [hx]))]

/-- The measures do not depend on what follows the last hit. -/
theorem tally_tail (c c' : Tally) (S X X' : List Flt) (N : ℕ) (h : CountsAt c (S ++ X))
    (h' : CountsAt c' (S ++ X')) (hS : ∀ s ∈ S, c.hits s = c'.hits s ∧ c.wrong s = c'.wrong s)
    (hN : ∀ s ∈ S, c.hits s ≤ N) (hX : ∀ x ∈ X, c.hits x = N) (hX' : ∀ x ∈ X', c'.hits x = N)
    (hlast : S.getLast?.elim 0 c.hits = N) (hr : c.refs = c'.refs) :
    (∀ interp t, c.ap interp t (S ++ X) = c'.ap interp t (S ++ X')) ∧
    c.ndcg (S ++ X) = c'.ndcg (S ++ X') := by
  have ecs : c.counts S = c'.counts S := by
    unfold Tally.counts
    exact List.map_congr_left fun s hs => by rw [(hS s hs).1, (hS s hs).2]
  have strip : ∀ (c : Tally) (X : List Flt), CountsAt c (S ++ X) → (∀ s ∈ S, c.hits s ≤ N) →
      (∀ x ∈ X, c.hits x = N) → S.getLast?.elim 0 c.hits = N → ∀ interp t i,
      atHit (hts t none (hitCurve interp (c.counts (S ++ X)))) i =
        atHit (hts t none (hitCurve interp (c.counts S))) i := by
    intro c X h hN hX hlast interp t i
    unfold Tally.counts
    rw [List.map_append]
    refine atHit_tail interp t _ _ N ?_ ?_ ?_ i
    · intro x hx
      obtain ⟨s, hs, rfl⟩ := List.mem_map.1 hx
      exact hN s hs
    · intro x hx
      obtain ⟨s, hs, rfl⟩ := List.mem_map.1 hx
      exact hX s hs
    · cases e : S.getLast? with
      | none => rw [e] at hlast; exact Or.inl hlast.symm
      | some s =>
        rw [e] at hlast
        have hs := List.mem_of_getLast? e
        refine Or.inr ⟨_, List.mem_map_of_mem hs, hlast, ?_⟩
        intro d hd
        obtain ⟨x, hx, rfl⟩ := List.mem_map.1 hd
        have hsx := (List.pairwise_append.1 h.sorted).2.2 s hs x hx
        exact (h.mono s x (h.nan s (by simp [hs])) (Flt.lt_asymm' _ _ hsx)).2
  have hlast' : S.getLast?.elim 0 c'.hits = N := by
    rw [← hlast]
    cases e : S.getLast? with
    | none => rfl
    | some s => exact ((hS s (List.mem_of_getLast? e)).1).symm
  constructor
  · intro interp t
    rw [h.ap_hits, h'.ap_hits, hr]
    congr 1
    refine Finset.sum_congr rfl fun i _ => ?_
    rw [strip c X h hN hX hlast, strip c' X' h' (fun s hs => by rw [← (hS s hs).1]; exact hN s hs) hX' hlast',
      ecs]
  · unfold Tally.ndcg
    rw [hr, gain_tail c X N hX S 0 0 hlast, gain_tail c' X' N hX' S 0 0 hlast', gain_congr c c' S 0 0 hS]

theorem filter_split {α : Type} (r : α → α → Prop) (p : α → Bool) (hp : ∀ a b, r a b → p b = true → p a = true)
    (l : List α) (h : l.Pairwise r) : l = l.filter p ++ l.filter (fun a => !p a) := by
  induction l with
  | nil => rfl
  | cons a l ih =>
    rw [List.pairwise_cons] at h
    by_cases ha : p a = true
    · rw [List.filter_cons_of_pos ha, List.filter_cons_of_neg (by simp [ha]), List.cons_append, ← ih h.2]
    · have : l.filter p = [] := by
        rw [List.filter_eq_nil_iff]
        exact fun b hb hpb => ha (hp a b (h.1 b hb) hpb)
      have h2 : l.filter (fun a => !p a) = l := by
        rw [List.filter_eq_self]
        intro b hb
        simp only [Bool.not_eq_true']
        exact Bool.eq_false_iff.2 fun hpb => ha (hp a b (h.1 b hb) hpb)
      rw [List.filter_cons_of_neg ha, List.filter_cons_of_pos (by simp [ha]), this, h2, List.nil_append]

section
variable {Q L : Type}

/-- False positives after the last hit do not matter, with collapsing. -/
theorem collapsed_tail (A F M : List (KwsMatch Q L))
    (hF : ∀ f ∈ F, f.ref = none) (hM : ∀ m ∈ M, m.hyp = none)
    (hn : NoNaN (A ++ F ++ M))
    (hlate : ∀ a ∈ A, a.ref.isSome = true → a.hyp.isSome = true → ∀ f ∈ F, Flt.lt (rank f) (rank a) = true)
    (scores scores' : List Flt) (hs : Thresholds (MatchScores (A ++ M)) scores)
    (hs' : Thresholds (MatchScores (A ++ F ++ M)) scores') :
    (∀ interp t, (tallyOf (A ++ M)).ap interp t scores = (tallyOf (A ++ F ++ M)).ap interp t scores') ∧
    (tallyOf (A ++ M)).ndcg scores = (tallyOf (A ++ F ++ M)).ndcg scores' := by
  have hn0 : NoNaN (A ++ M) := fun m hm => hn m (by
    rcases List.mem_append.1 hm with h | h <;> simp [h])
  have c := tallyOf_counts (A ++ M) hn0 scores hs
  have c' := tallyOf_counts (A ++ F ++ M) hn scores' hs'
  -- thresholds not below all hits
  let p : Flt → Bool := fun s => A.any (fun a => a.ref.isSome && a.hyp.isSome && !Flt.lt s (rank a))
  have hpi : ∀ s, p s = true ↔ ∃ a ∈ A, a.ref.isSome = true ∧ a.hyp.isSome = true ∧ Flt.lt s (rank a) = false := by
    intro s
    simp only [p, List.any_eq_true, Bool.and_eq_true, Bool.not_eq_true', and_assoc]
  have hmono : ∀ a b, Flt.lt b a = true → p b = true → p a = true := by
    intro a b hab hb
    obtain ⟨m, hm, h1, h2, h3⟩ := (hpi b).1 hb
    refine (hpi a).2 ⟨m, hm, h1, h2, ?_⟩
    have hbn : b ≠ .nan := by intro e; rw [e] at hab; cases a <;> simp [Flt.lt] at hab
    exact Flt.lt_false_trans hbn (Flt.lt_asymm' _ _ hab) h3
  have split1 := filter_split _ p hmono scores hs.sorted
  have split2 := filter_split _ p hmono scores' hs'.sorted
  -- members
  have score_rank : ∀ {m : KwsMatch Q L} {x}, m.hyp = some x → rank m = x.score := fun h => rank_of_hyp h
  have eS : scores.filter p = scores'.filter p := by
    refine gt_ext (hs.sorted.filter _) (hs'.sorted.filter _) fun s => ?_
    rw [List.mem_filter, List.mem_filter, hs.mem, hs'.mem]
    refine and_congr_left fun hp => ⟨?_, ?_⟩
    · rintro ⟨m, hm, x, hx, e⟩
      exact ⟨m, by rcases List.mem_append.1 hm with h | h <;> simp [h], x, hx, e⟩
    · rintro ⟨m, hm, x, hx, e⟩
      refine ⟨m, ?_, x, hx, e⟩
      simp only [List.mem_append] at hm ⊢
      rcases hm with (h | h) | h
      · exact Or.inl h
      · exfalso
        obtain ⟨a, ha, h1, h2, h3⟩ := (hpi s).1 hp
        have := hlate a ha h1 h2 m h
        rw [score_rank hx, e, h3] at this
        cases this
      · exact Or.inr h
  -- counts
  have hits_eq : ∀ s, (tallyOf (A ++ F ++ M)).hits s = (tallyOf (A ++ M)).hits s := by
    intro s
    show List.countP _ _ = List.countP _ _
    rw [List.countP_append, List.countP_append, List.countP_append]
    have : F.countP (fun m => m.ref.isSome && m.hyp.any (fun h => !Flt.lt h.score s)) = 0 := by
      rw [List.countP_eq_zero]
      intro f hf
      simp [hF f hf]
    rw [this, Nat.add_zero]
  have wrong_eq : ∀ s, s ≠ .nan → p s = true → (tallyOf (A ++ F ++ M)).wrong s = (tallyOf (A ++ M)).wrong s := by
    intro s hsn hp
    obtain ⟨a, ha, h1, h2, h3⟩ := (hpi s).1 hp
    show List.countP _ _ = List.countP _ _
    rw [List.countP_append, List.countP_append, List.countP_append]
    have : F.countP (fun m => m.ref.isNone && m.hyp.any (fun h => !Flt.lt h.score s)) = 0 := by
      rw [List.countP_eq_zero]
      intro f hf
      simp only [Bool.and_eq_true, not_and, Option.any_eq_true, not_exists]
      intro _ x hx
      have := hlate a ha h1 h2 f hf
      rw [score_rank hx] at this
      simp only [Bool.not_eq_true', Bool.not_eq_false]
      by_contra hc
      rw [Flt.lt_false_trans hsn (by simpa using hc) h3] at this
      cases this
    rw [this, Nat.add_zero]
  have refs_eq : (tallyOf (A ++ M)).refs = (tallyOf (A ++ F ++ M)).refs := by
    show List.countP _ _ = List.countP _ _
    rw [List.countP_append, List.countP_append, List.countP_append]
    have : F.countP (fun m => m.ref.isSome) = 0 := by
      rw [List.countP_eq_zero]
      intro f hf
      simp [hF f hf]
    rw [this, Nat.add_zero]
  let N := (A ++ M).countP (fun m => m.ref.isSome && m.hyp.isSome)
  have all : ∀ s, (∀ a ∈ A, a.ref.isSome = true → a.hyp.isSome = true → Flt.lt (rank a) s = false) →
      (tallyOf (A ++ M)).hits s = N := by
    intro s h
    show List.countP _ _ = List.countP _ _
    refine List.countP_congr fun m hm => ?_
    cases hx : m.hyp with
    | none => simp
    | some x =>
      rcases List.mem_append.1 hm with hm | hm
      · by_cases hr : m.ref.isSome = true
        · have := h m hm hr (by simp [hx])
          rw [score_rank hx] at this
          simp [hr, this]
        · simp [hr]
      · rw [hM m hm] at hx; cases hx
  have le : ∀ s, (tallyOf (A ++ M)).hits s ≤ N := by
    intro s
    refine List.countP_mono_left fun m _ h => ?_
    simp only [Bool.and_eq_true] at h ⊢
    refine ⟨h.1, ?_⟩
    cases hx : m.hyp with
    | none => rw [hx] at h; simp at h
    | some x => rfl
  have low : ∀ s, p s = false → (tallyOf (A ++ M)).hits s = N := by
    intro s hp
    refine all s fun a ha h1 h2 => ?_
    refine Flt.lt_asymm' _ _ ?_
    by_contra hc
    exact absurd ((hpi s).2 ⟨a, ha, h1, h2, by simpa using hc⟩) (by simp [hp])
  rw [split1] at c ⊢
  rw [split2, ← eS] at c' ⊢
  refine tally_tail _ _ _ _ _ N c c' ?_ (fun s _ => le s) ?_ ?_ ?_ refs_eq
  · intro s hs1
    exact ⟨(hits_eq s).symm, (wrong_eq s (c.nan s (by rw [← split1]; exact List.mem_of_mem_filter hs1)) (List.mem_filter.1 hs1).2).symm⟩
  · intro x hx
    exact low x (by simpa using (List.mem_filter.1 hx).2)
  · intro x hx
    rw [hits_eq]
    exact low x (by simpa using (List.mem_filter.1 hx).2)
  · cases e : (scores.filter p).getLast? with
    | none =>
      rw [List.getLast?_eq_none_iff] at e
      show 0 = N
      symm
      rw [List.countP_eq_zero]
      intro m hm hc
      simp only [Bool.and_eq_true] at hc
      rcases List.mem_append.1 hm with h | h
      · cases hx : m.hyp with
        | none => rw [hx] at hc; simp at hc
        | some x =>
          have : x.score ∈ scores.filter p := List.mem_filter.2 ⟨(hs.mem _).2 ⟨m, hm, x, hx, rfl⟩,
            (hpi _).2 ⟨m, h, hc.1, hc.2, by rw [score_rank hx]; exact Flt.lt_irrefl' _⟩⟩
          rw [e] at this
          simp at this
      · rw [hM m h] at hc; simp at hc
    | some y =>
      show (tallyOf (A ++ M)).hits y = N
      refine all y fun a ha h1 h2 => ?_
      obtain ⟨x, hx⟩ := Option.isSome_iff_exists.1 h2
      rw [score_rank hx]
      have hm : x.score ∈ scores.filter p := List.mem_filter.2 ⟨(hs.mem _).2 ⟨a, by simp [ha], x, hx, rfl⟩,
        (hpi _).2 ⟨a, ha, h1, h2, by rw [score_rank hx]; exact Flt.lt_irrefl' _⟩⟩
      obtain ⟨pre, e2⟩ : ∃ pre, scores.filter p = pre ++ [y] := by
        have hne : scores.filter p ≠ [] := List.ne_nil_of_mem hm
        refine ⟨(scores.filter p).dropLast, ?_⟩
        rw [List.getLast?_eq_some_getLast hne] at e
        injection e with e
        rw [← e, List.dropLast_append_getLast hne]
      have hsrt := hs.sorted.filter p
      rw [e2] at hm hsrt
      rcases List.mem_append.1 hm with h | h
      · exact Flt.lt_asymm' _ _ ((List.pairwise_append.1 hsrt).2.2 _ h y (by simp))
      · rw [List.mem_singleton] at h
        rw [h]
        exact Flt.lt_irrefl' _

end

end Kws
