import Verif.Spec.Copies
import Verif.Lemmas.Dilution
import Verif.Lemmas.BoxImproved
import Verif.Props.Moved

/-! # Copies of a collection -/

set_option linter.unusedSectionVars false

namespace Kws
open Spec

/-- Everything counted `k` times. -/
def Tally.times (k : ℕ) (c : Tally) : Tally := ⟨fun s => k * c.hits s, fun s => k * c.wrong s, k * c.refs⟩

theorem times_ap {k : ℕ} (hk : k ≠ 0) (c : Tally) (i t : Bool) (scores : List Flt) :
    (Tally.times k c).ap i t scores = c.ap i t scores := by
  have hk' : (k : ℚ) ≠ 0 := by exact_mod_cast hk
  unfold Tally.ap
  congr 2
  funext s
  unfold Tally.point Tally.times
  simp only [Nat.mul_eq_zero, hk, false_or, Nat.cast_mul, ← mul_add, mul_div_mul_left _ _ hk']

/-- The numbers of `k` times the same groups. -/
theorem numbers_times {Q Q' : Type} {k : ℕ} (hk : k ≠ 0) (i t : Bool) (all all' : Tally × List Flt) (gs : List Q)
    (gs' : List Q') (f : Q → Tally × List Flt) (f' : Q' → Tally × List Flt) (γ : Fin k → Q → Q')
    (hall : all'.1 = Tally.times k all.1) (hs : descending all'.2 = descending all.2)
    (hp : gs'.Perm ((List.finRange k).flatMap fun j => gs.map (γ j)))
    (hf : ∀ j, ∀ g ∈ gs, (f' (γ j g)).1 = (f g).1 ∧ descending (f' (γ j g)).2 = descending (f g).2) :
    (Numbers.of i t all' (gs'.map f')).gAP = (Numbers.of i t all (gs.map f)).gAP ∧
    (Numbers.of i t all' (gs'.map f')).mAP = (Numbers.of i t all (gs.map f)).mAP ∧
    (Numbers.of i t all' (gs'.map f')).mNDCG = (Numbers.of i t all (gs.map f)).mNDCG := by
  have key : ∀ {α : Type} [Field α] [CharZero α] (v : Q → α) (v' : Q' → α),
      (∀ j, ∀ g ∈ gs, v' (γ j g) = v g) → average (gs'.map v') = average (gs.map v) := by
    intro α _ _ v v' h
    have e : ∀ l : List (Fin k), (((l.flatMap fun j => gs.map (γ j)).map v').sum = l.length * (gs.map v).sum) ∧
        (l.flatMap fun j => gs.map (γ j)).length = l.length * gs.length := by
      intro l
      induction l with
      | nil => simp
      | cons j l ih =>
        rw [List.flatMap_cons, List.map_append, List.sum_append, ih.1, List.length_append, ih.2,
          List.length_map, List.map_map]
        have : gs.map (v' ∘ γ j) = gs.map v := List.map_congr_left fun g hg => h j g hg
        rw [this, List.length_cons]
        constructor
        · push_cast; ring
        · ring
    have hk' : (k : α) ≠ 0 := by exact_mod_cast hk
    unfold average
    rw [(hp.map v').sum_eq, List.length_map, hp.length_eq, (e _).1, (e _).2, List.length_finRange, List.length_map]
    push_cast
    rw [mul_div_mul_left _ _ hk']
  refine ⟨?_, ?_, ?_⟩
  · unfold Numbers.of
    simp only [hall, hs, times_ap hk]
  · unfold Numbers.of
    simp only [List.map_map]
    exact key _ _ fun j g hg => by simp only [Function.comp_apply, hf j g hg]
  · unfold Numbers.of
    simp only [List.map_map]
    exact key _ _ fun j g hg => by simp only [Function.comp_apply, hf j g hg]

section
variable {Q L : Type} [DecidableEq Q] [DecidableEq L] {k : ℕ} {ρ : Fin k → Q → Q} {refs refs' : List (Event Q L)}
  {hyps hyps' : List (ScoredEvent Q L)}

theorem byName_inj {i j : Fin k} {e e' : Event Q L} {s : List Q} (hρ : ApartOn s ρ) (h1 : e.query ∈ s)
    (h2 : e'.query ∈ s) (h : byName (ρ i) e = byName (ρ j) e') : i = j ∧ e = e' := by
  unfold byName at h
  obtain ⟨h3, h4⟩ := Event.mk.inj h
  obtain ⟨h5, h6⟩ := hρ _ _ _ h1 _ h2 h3
  cases e; cases e'
  simp_all

theorem countP_copies (p p' : ScoredEvent Q L → Bool)
    (hp : hyps'.Perm ((List.finRange k).flatMap fun i => hyps.map (scoredByName (ρ i))))
    (h : ∀ i, ∀ x ∈ hyps, p' (scoredByName (ρ i) x) = p x) : hyps'.countP p' = k * hyps.countP p := by
  rw [hp.countP_eq]
  have : ∀ l : List (Fin k), (l.flatMap fun i => hyps.map (scoredByName (ρ i))).countP p' =
      l.length * hyps.countP p := by
    intro l
    induction l with
    | nil => simp
    | cons i l ih =>
      rw [List.flatMap_cons, List.countP_append, ih, List.countP_map, List.length_cons, Nat.succ_mul, Nat.add_comm]
      congr 1
      exact List.countP_congr fun x hx => by rw [Function.comp_apply, h i x hx]
  rw [this, List.length_finRange]

theorem Spec.Copies.mem_hyps (h : Copies ρ refs refs' hyps hyps') (x : ScoredEvent Q L) :
    x ∈ hyps' ↔ ∃ i, ∃ x₀ ∈ hyps, x = scoredByName (ρ i) x₀ := by
  rw [h.hyps.mem_iff]
  simp only [List.mem_flatMap, List.mem_finRange, true_and, List.mem_map, eq_comm]

/-- Everything is counted in every copy. -/
theorem Spec.Copies.tally (h : Copies ρ refs refs' hyps hyps') :
    segTally refs' hyps' = Tally.times k (segTally refs hyps) := by
  have card : ∀ (p p' : Event Q L → Prop) [DecidablePred p] [DecidablePred p'],
      (∀ i, ∀ r ∈ refs, p' (byName (ρ i) r) ↔ p r) →
      (refs'.toFinset.filter p').card = k * (refs.toFinset.filter p).card := by
    intro p p' _ _ hpp
    have e : refs'.toFinset.filter p' = ((Finset.univ : Finset (Fin k)) ×ˢ refs.toFinset.filter p).image
        (fun x => byName (ρ x.1) x.2) := by
      ext r
      simp only [Finset.mem_filter, List.mem_toFinset, Finset.mem_image, Finset.mem_product, Finset.mem_univ,
        true_and, Prod.exists, h.refs]
      constructor
      · rintro ⟨⟨i, r₀, hr, rfl⟩, hp⟩
        exact ⟨i, r₀, ⟨hr, (hpp i r₀ hr).1 hp⟩, rfl⟩
      · rintro ⟨i, r₀, ⟨hr, hp⟩, rfl⟩
        exact ⟨⟨i, r₀, hr, rfl⟩, (hpp i r₀ hr).2 hp⟩
    rw [e, Finset.card_image_of_injOn, Finset.card_product, Finset.card_univ, Fintype.card_fin]
    rintro ⟨i, a⟩ ha ⟨j, b⟩ hb hab
    simp only [Finset.coe_product, Set.mem_prod, Finset.mem_coe, Finset.mem_filter, List.mem_toFinset] at ha hb
    obtain ⟨rfl, rfl⟩ := byName_inj h.apart (mem_queriesOf_ref ha.2.1) (mem_queriesOf_ref hb.2.1) hab
    rfl
  have base : ∀ i j, ∀ x ∈ hyps, ∀ r ∈ refs, (scoredByName (ρ j) x).base = byName (ρ i) r ↔ j = i ∧ x.base = r := by
    intro i j x hx r hr
    constructor
    · exact fun e => byName_inj h.apart (mem_queriesOf_hyp hx) (mem_queriesOf_ref hr) e
    · rintro ⟨rfl, rfl⟩
      rfl
  unfold segTally Tally.times
  congr 1
  · funext s
    refine card _ _ fun i r hr => ?_
    constructor
    · rintro ⟨x, hx, e, hs⟩
      obtain ⟨j, x₀, hx₀, rfl⟩ := (h.mem_hyps x).1 hx
      exact ⟨x₀, hx₀, ((base _ _ _ hx₀ _ hr).1 e).2, hs⟩
    · rintro ⟨x, hx, e, hs⟩
      exact ⟨_, (h.mem_hyps _).2 ⟨i, x, hx, rfl⟩, (base _ _ _ hx _ hr).2 ⟨rfl, e⟩, hs⟩
  · funext s
    refine countP_copies _ _ h.hyps fun i x hx => ?_
    have : (scoredByName (ρ i) x).base ∈ refs' ↔ x.base ∈ refs := by
      rw [h.refs]
      constructor
      · rintro ⟨j, r, hr, e⟩
        rw [((base _ _ _ hx _ hr).1 e).2]
        exact hr
      · exact fun hr => ⟨i, _, hr, rfl⟩
    simp only [this]
    rfl
  · have := card (fun _ => True) (fun _ => True) (fun _ _ _ => Iff.rfl)
    simpa using this

theorem Spec.Copies.scores (h : Copies ρ refs refs' hyps hyps') (hk : k ≠ 0) (hn : ∀ x ∈ hyps', x.score ≠ .nan) :
    descending (hyps'.map (·.score)) = descending (hyps.map (·.score)) := by
  refine descending_congr (fun s hs => ?_) fun s => ?_
  · obtain ⟨x, hx, rfl⟩ := List.mem_map.1 hs
    exact hn x hx
  · rw [List.mem_map, List.mem_map]
    constructor
    · rintro ⟨x, hx, rfl⟩
      obtain ⟨i, x₀, hx₀, rfl⟩ := (h.mem_hyps x).1 hx
      exact ⟨x₀, hx₀, rfl⟩
    · rintro ⟨x, hx, rfl⟩
      exact ⟨_, (h.mem_hyps _).2 ⟨⟨0, Nat.pos_of_ne_zero hk⟩, x, hx, rfl⟩, rfl⟩

theorem flatMap_filter_one {α β : Type} [DecidableEq α] (l : List α) (hl : l.Nodup) (f : α → List β) (p : β → Bool) (a : α)
    (ha : a ∈ l) (h : ∀ b ∈ l, b ≠ a → (f b).filter p = []) : (l.flatMap f).filter p = (f a).filter p := by
  induction l with
  | nil => cases ha
  | cons b l ih =>
    rw [List.flatMap_cons, List.filter_append]
    rw [List.nodup_cons] at hl
    by_cases hb : b = a
    · subst hb
      have : (l.flatMap f).filter p = [] := by
        rw [List.filter_eq_nil_iff]
        intro x hx
        obtain ⟨c, hc, hx⟩ := List.mem_flatMap.1 hx
        have := h c (by simp [hc]) (by rintro rfl; exact hl.1 hc)
        exact List.filter_eq_nil_iff.1 this x hx
      rw [this, List.append_nil]
    · rw [h b (by simp) hb, List.nil_append]
      exact ih hl.2 ((List.mem_cons.1 ha).resolve_left (Ne.symm hb)) fun c hc => h c (by simp [hc])

/-- A group of a copy is a copy of the group. -/
theorem Spec.Copies.group (h : Copies ρ refs refs' hyps hyps') {γ : Fin k → Q → Q} {grp grp' : Q → Q} {gs : List Q}
    (hγ : ApartOn gs γ) (hgs : ∀ q ∈ queriesOf refs hyps, grp q ∈ gs)
    (hg : ∀ i, ∀ q ∈ queriesOf refs hyps, grp' (ρ i q) = γ i (grp q)) (i : Fin k) (g : Q) (hgm : g ∈ gs) :
    Copies (fun _ : Fin 1 => ρ i) (refs.filter (grp ·.query = g)) (refs'.filter (grp' ·.query = γ i g))
      (hyps.filter (grp ·.base.query = g)) (hyps'.filter (grp' ·.base.query = γ i g)) := by
  refine ⟨fun a b q hq q' hq' e => ⟨Subsingleton.elim _ _, ?_⟩, ?_, ?_⟩
  rotate_left
  · intro r
    simp only [List.mem_filter, h.refs, decide_eq_true_eq]
    constructor
    · rintro ⟨⟨j, r₀, hr, rfl⟩, e⟩
      have e' : γ j (grp r₀.query) = γ i g := (hg j _ (mem_queriesOf_ref hr)).symm.trans e
      obtain ⟨rfl, rfl⟩ := hγ _ _ _ (hgs _ (mem_queriesOf_ref hr)) _ hgm e'
      exact ⟨0, r₀, ⟨hr, rfl⟩, rfl⟩
    · rintro ⟨_, r₀, ⟨hr, rfl⟩, rfl⟩
      exact ⟨⟨i, r₀, hr, rfl⟩, hg i _ (mem_queriesOf_ref hr)⟩
  · have e : (List.finRange 1).flatMap (fun _ => (hyps.filter (grp ·.base.query = g)).map (scoredByName (ρ i))) =
        (hyps.filter (grp ·.base.query = g)).map (scoredByName (ρ i)) := by
      simp [List.finRange_succ]
    rw [e]
    refine (h.hyps.filter _).trans (List.Perm.of_eq ?_)
    rw [flatMap_filter_one _ (List.nodup_finRange k) _ _ i (List.mem_finRange i)]
    · rw [List.filter_map]
      congr 1
      refine List.filter_congr fun x hx => ?_
      have := hg i _ (mem_queriesOf_hyp hx)
      simp only [Function.comp_apply, scoredByName, byName, this, decide_eq_decide]
      exact ⟨fun e => (hγ _ _ _ (hgs _ (mem_queriesOf_hyp hx)) _ hgm e).2, fun e => by rw [e]⟩
    · intro j _ hj
      rw [List.filter_eq_nil_iff]
      intro x hx
      obtain ⟨y, hy, rfl⟩ := List.mem_map.1 hx
      have := hg j _ (mem_queriesOf_hyp hy)
      simp only [scoredByName, byName, this, decide_eq_true_eq]
      exact fun e => hj (hγ _ _ _ (hgs _ (mem_queriesOf_hyp hy)) _ hgm e).1
  · have sub : ∀ q, q ∈ queriesOf (refs.filter (grp ·.query = g)) (hyps.filter (grp ·.base.query = g)) →
        q ∈ queriesOf refs hyps := by
      intro q hq
      rcases List.mem_append.1 hq with hq | hq <;> obtain ⟨x, hx, rfl⟩ := List.mem_map.1 hq
      · exact mem_queriesOf_ref (List.mem_of_mem_filter hx)
      · exact mem_queriesOf_hyp (List.mem_of_mem_filter hx)
    exact (h.apart _ _ _ (sub _ hq) _ (sub _ hq') e).2

open Classical in
/-- Names of the groups of the copies. -/
theorem group_names (s : List Q) {grp grp' : Q → Q}
    (hg : ∀ i j, ∀ q ∈ s, ∀ q' ∈ s, grp' (ρ i q) = grp' (ρ j q') ↔ i = j ∧ grp q = grp q') :
    ∃ γ : Fin k → Q → Q, ApartOn (s.map grp) γ ∧ ∀ i, ∀ q ∈ s, grp' (ρ i q) = γ i (grp q) := by
  refine ⟨fun i g => if h : ∃ q ∈ s, grp q = g then grp' (ρ i h.choose) else g, ?_, ?_⟩
  · intro i j g hg1 g' hg2 e
    have h1 : ∃ q ∈ s, grp q = g := List.mem_map.1 hg1
    have h2 : ∃ q ∈ s, grp q = g' := List.mem_map.1 hg2
    simp only [dif_pos h1, dif_pos h2] at e
    obtain ⟨a, b⟩ := (hg i j _ h1.choose_spec.1 _ h2.choose_spec.1).1 e
    exact ⟨a, h1.choose_spec.2.symm.trans (b.trans h2.choose_spec.2)⟩
  · intro i q hq
    have h1 : ∃ q' ∈ s, grp q' = grp q := ⟨q, hq, rfl⟩
    simp only [dif_pos h1]
    exact (hg i i _ hq _ h1.choose_spec.1).2 ⟨rfl, h1.choose_spec.2.symm⟩

/-- The names of copies of groups. -/
theorem groups_copies {γ : Fin k → Q → Q} {gs gs' : List Q} (hγ : ApartOn gs γ) (hn : gs.Nodup) (hn' : gs'.Nodup)
    (h : ∀ g, g ∈ gs' ↔ ∃ i, ∃ g₀ ∈ gs, g = γ i g₀) :
    gs'.Perm ((List.finRange k).flatMap fun i => gs.map (γ i)) := by
  refine (List.perm_ext_iff_of_nodup hn' ?_).2 fun g => ?_
  · rw [List.nodup_flatMap]
    refine ⟨fun i _ => hn.map_on fun a ha b hb e => (hγ _ _ _ ha _ hb e).2, (List.nodup_finRange k).imp ?_⟩
    intro i j hij x hx hy
    obtain ⟨a, ha, rfl⟩ := List.mem_map.1 hx
    obtain ⟨b, hb, e⟩ := List.mem_map.1 hy
    exact hij (hγ _ _ _ hb _ ha e).1.symm
  · rw [h]
    simp only [List.mem_flatMap, List.mem_finRange, true_and, List.mem_map, eq_comm]

/-- The numbers of the segmentation-based evaluation of copies. -/
theorem segNumbers_copies (h : Copies ρ refs refs' hyps hyps') (hk : k ≠ 0) {grp grp' : Q → Q}
    (hg : ∀ i j, ∀ q ∈ queriesOf refs hyps, ∀ q' ∈ queriesOf refs hyps,
      grp' (ρ i q) = grp' (ρ j q') ↔ i = j ∧ grp q = grp q')
    (hn : ∀ x ∈ hyps', x.score ≠ .nan) (i t : Bool) :
    (segNumbers grp' i t refs' hyps').gAP = (segNumbers grp i t refs hyps).gAP ∧
    (segNumbers grp' i t refs' hyps').mAP = (segNumbers grp i t refs hyps).mAP ∧
    (segNumbers grp' i t refs' hyps').mNDCG = (segNumbers grp i t refs hyps).mNDCG := by
  obtain ⟨γ, hγ, hg⟩ := group_names _ hg
  have hmg : ∀ g ∈ (refs.map (grp ·.query) ++ hyps.map (grp ·.base.query)).dedup, g ∈ (queriesOf refs hyps).map grp :=
    fun g hg => List.mem_map.2 ((mem_groupList _ _ _ _).1 hg)
  have hγ' : ApartOn (refs.map (grp ·.query) ++ hyps.map (grp ·.base.query)).dedup γ :=
    fun i j q hq q' hq' => hγ i j q (hmg q hq) q' (hmg q' hq')
  refine numbers_times hk i t _ _ _ _ _ _ γ h.tally (h.scores hk hn)
    (groups_copies hγ' (List.nodup_dedup _) (List.nodup_dedup _) fun g => ?_) fun j g hgm => ?_
  · rw [mem_groupList]
    simp only [mem_groupList]
    constructor
    · rintro ⟨q, hq, rfl⟩
      have : ∃ i, ∃ q₀ ∈ queriesOf refs hyps, q = ρ i q₀ := by
        rcases List.mem_append.1 hq with hq | hq <;> obtain ⟨x, hx, rfl⟩ := List.mem_map.1 hq
        · obtain ⟨i, r, hr, rfl⟩ := (h.refs x).1 hx
          exact ⟨i, _, mem_queriesOf_ref hr, rfl⟩
        · obtain ⟨i, y, hy, rfl⟩ := (h.mem_hyps x).1 hx
          exact ⟨i, _, mem_queriesOf_hyp hy, rfl⟩
      obtain ⟨i, q₀, hq₀, rfl⟩ := this
      exact ⟨i, _, ⟨q₀, hq₀, rfl⟩, hg i q₀ hq₀⟩
    · rintro ⟨i, _, ⟨q, hq, rfl⟩, rfl⟩
      refine ⟨ρ i q, ?_, hg i q hq⟩
      rcases List.mem_append.1 hq with hq | hq <;> obtain ⟨x, hx, rfl⟩ := List.mem_map.1 hq
      · exact mem_queriesOf_ref ((h.refs _).2 ⟨i, x, hx, rfl⟩)
      · exact mem_queriesOf_hyp ((h.mem_hyps _).2 ⟨i, x, hx, rfl⟩)
  · have hc := h.group hγ (fun q hq => List.mem_map_of_mem hq) hg j g (hmg g hgm)
    refine ⟨hc.tally.trans ?_, hc.scores one_ne_zero fun x hx => hn x (List.mem_of_mem_filter hx)⟩
    simp [Tally.times]

theorem queries_filter {p : Q → Bool} {q : Q} (hq : q ∈ queriesOf (refs.filter (fun r => p r.query))
    (hyps.filter (fun x => p x.base.query))) : q ∈ queriesOf refs hyps ∧ p q = true := by
  rcases List.mem_append.1 hq with hq | hq <;> obtain ⟨x, hx, rfl⟩ := List.mem_map.1 hq
  · exact ⟨mem_queriesOf_ref (List.mem_of_mem_filter hx), (List.mem_filter.1 hx).2⟩
  · exact ⟨mem_queriesOf_hyp (List.mem_of_mem_filter hx), (List.mem_filter.1 hx).2⟩

/-- Copies of the events that are kept. -/
theorem Spec.Copies.filter (h : Copies ρ refs refs' hyps hyps') (p p' : Q → Bool)
    (hp : ∀ i, ∀ q ∈ queriesOf refs hyps, p' (ρ i q) = p q) :
    Copies ρ (refs.filter (fun r => p r.query)) (refs'.filter (fun r => p' r.query))
      (hyps.filter (fun x => p x.base.query)) (hyps'.filter (fun x => p' x.base.query)) := by
  refine ⟨fun i j q hq q' hq' => h.apart i j q (queries_filter hq).1 q' (queries_filter hq').1, ?_, ?_⟩
  · intro r
    simp only [List.mem_filter, h.refs]
    constructor
    · rintro ⟨⟨i, r₀, hr, rfl⟩, e⟩
      exact ⟨i, r₀, ⟨hr, (hp i _ (mem_queriesOf_ref hr)).symm.trans e⟩, rfl⟩
    · rintro ⟨i, r₀, ⟨hr, e⟩, rfl⟩
      exact ⟨⟨i, r₀, hr, rfl⟩, (hp i _ (mem_queriesOf_ref hr)).trans e⟩
  · refine (h.hyps.filter _).trans (List.Perm.of_eq ?_)
    rw [List.filter_flatMap]
    congr 1
    funext i
    rw [List.filter_map]
    congr 1
    exact List.filter_congr fun x hx => hp i _ (mem_queriesOf_hyp hx)

/-! ## Matches -/

/-- The match with another name of the query. -/
def matchByName (ρ : Q → Q) : KwsMatch Q L → KwsMatch Q L := mapMatch (byName ρ) (scoredByName ρ)

theorem matchByName_event (ρ : Q → Q) (m : KwsMatch Q L) : eventOf (matchByName ρ m) = (eventOf m).map (byName ρ) := by
  obtain ⟨r, x, e⟩ := m
  cases r <;> cases x <;> rfl

variable {ms ms' : List (KwsMatch Q L)}

theorem tallyOf_copies (hp : ms'.Perm ((List.finRange k).flatMap fun i => ms.map (matchByName (ρ i)))) :
    tallyOf ms' = Tally.times k (tallyOf ms) := by
  have key : ∀ p : KwsMatch Q L → Bool, (∀ i m, p (matchByName (ρ i) m) = p m) → ms'.countP p = k * ms.countP p := by
    intro p h
    rw [hp.countP_eq]
    have : ∀ l : List (Fin k), (l.flatMap fun i => ms.map (matchByName (ρ i))).countP p =
        l.length * ms.countP p := by
      intro l
      induction l with
      | nil => simp
      | cons i l ih =>
        rw [List.flatMap_cons, List.countP_append, ih, List.countP_map, List.length_cons, Nat.succ_mul, Nat.add_comm]
        congr 1
        exact List.countP_congr fun x _ => by rw [Function.comp_apply, h i x]
    rw [this, List.length_finRange]
  unfold tallyOf Tally.times
  congr 1
  · funext s
    exact key _ fun i m => by obtain ⟨r, x, e⟩ := m; cases r <;> cases x <;> rfl
  · funext s
    exact key _ fun i m => by obtain ⟨r, x, e⟩ := m; cases r <;> cases x <;> rfl
  · exact key _ fun i m => by obtain ⟨r, x, e⟩ := m; cases r <;> rfl

theorem scoresIn_copies (hk : k ≠ 0)
    (hp : ms'.Perm ((List.finRange k).flatMap fun i => ms.map (matchByName (ρ i))))
    (hn : ∀ s ∈ scoresIn ms', s ≠ .nan) : descending (scoresIn ms') = descending (scoresIn ms) := by
  refine descending_congr hn fun s => ?_
  unfold scoresIn
  rw [(hp.filterMap _).mem_iff]
  simp only [List.mem_filterMap, List.mem_flatMap, List.mem_finRange, true_and, List.mem_map]
  have e : ∀ i (m : KwsMatch Q L), (matchByName (ρ i) m).hyp.map (·.score) = m.hyp.map (·.score) := by
    intro i m
    obtain ⟨r, x, e⟩ := m
    cases x <;> rfl
  constructor
  · rintro ⟨_, ⟨i, m, hm, rfl⟩, h⟩
    exact ⟨m, hm, (e i m).symm.trans h⟩
  · rintro ⟨m, hm, h⟩
    exact ⟨_, ⟨⟨0, Nat.pos_of_ne_zero hk⟩, m, hm, rfl⟩, (e _ m).trans h⟩

/-- The numbers of copies of matches. -/
theorem matchNumbers_copies (hk : k ≠ 0) {γ : Fin k → Q → Q} {grp grp' : Q → Q} (hγ : ApartOn (groupsIn grp ms) γ)
    (hp : ms'.Perm ((List.finRange k).flatMap fun i => ms.map (matchByName (ρ i))))
    (hg : ∀ i, ∀ m ∈ ms, ∀ e, eventOf m = some e → grp' (ρ i e.query) = γ i (grp e.query))
    (hn : ∀ s ∈ scoresIn ms', s ≠ .nan) (i t : Bool) :
    (matchNumbers grp' i t ms').gAP = (matchNumbers grp i t ms).gAP ∧
    (matchNumbers grp' i t ms').mAP = (matchNumbers grp i t ms).mAP ∧
    (matchNumbers grp' i t ms').mNDCG = (matchNumbers grp i t ms).mNDCG := by
  have hmem : ∀ m, m ∈ ms' ↔ ∃ i, ∃ m₀ ∈ ms, matchByName (ρ i) m₀ = m := by
    intro m
    rw [hp.mem_iff]
    simp only [List.mem_flatMap, List.mem_finRange, true_and, List.mem_map]
  refine numbers_times hk i t _ _ _ _ _ _ γ (tallyOf_copies hp) (scoresIn_copies hk hp hn)
    (groups_copies hγ (List.nodup_dedup _) (List.nodup_dedup _) fun g => ?_) fun j g hgm => ?_
  · rw [show ∀ (grp : Q → Q) (l : List (KwsMatch Q L)), ((l.filterMap eventOf).map (grp ·.query)).dedup =
      groupsIn grp l from fun _ _ => rfl]
    simp only [show ∀ (grp : Q → Q) (l : List (KwsMatch Q L)), ((l.filterMap eventOf).map (grp ·.query)).dedup =
      groupsIn grp l from fun _ _ => rfl, mem_groupsIn]
    constructor
    · rintro ⟨m, hm, e, he, rfl⟩
      obtain ⟨i, m₀, hm₀, rfl⟩ := (hmem m).1 hm
      rw [matchByName_event, Option.map_eq_some_iff] at he
      obtain ⟨e₀, he₀, rfl⟩ := he
      exact ⟨i, _, ⟨m₀, hm₀, e₀, he₀, rfl⟩, hg i m₀ hm₀ e₀ he₀⟩
    · rintro ⟨i, _, ⟨m, hm, e, he, rfl⟩, rfl⟩
      exact ⟨_, (hmem _).2 ⟨i, m, hm, rfl⟩, byName (ρ i) e, by rw [matchByName_event, he]; rfl, hg i m hm e he⟩
  · have hin : ∀ j', ∀ m ∈ ms, InGroup grp' (γ j g) (matchByName (ρ j') m) = (decide (j' = j) && InGroup grp g m) := by
      intro j' m hm
      unfold InGroup
      rw [matchByName_event]
      cases he : eventOf m with
      | none => simp
      | some e =>
        have := hg j' m hm e he
        simp only [Option.map_some, Option.any_some, byName, this, ← Bool.decide_and, decide_eq_decide]
        exact ⟨hγ _ _ _ ((mem_groupsIn _ _ _).2 ⟨m, hm, e, he, rfl⟩) _ hgm, fun ⟨a, b⟩ => by rw [a, b]⟩
    have hq : (ms'.filter (InGroup grp' (γ j g))).Perm
        ((List.finRange 1).flatMap fun _ => (ms.filter (InGroup grp g)).map (matchByName (ρ j))) := by
      have e : (List.finRange 1).flatMap (fun _ => (ms.filter (InGroup grp g)).map (matchByName (ρ j))) =
          (ms.filter (InGroup grp g)).map (matchByName (ρ j)) := by
        simp [List.finRange_succ]
      rw [e]
      refine (hp.filter _).trans (List.Perm.of_eq ?_)
      rw [flatMap_filter_one _ (List.nodup_finRange k) _ _ j (List.mem_finRange j)]
      · rw [List.filter_map]
        congr 1
        exact List.filter_congr fun m hm => by simp [hin j m hm]
      · intro j' _ hj
        rw [List.filter_eq_nil_iff]
        intro x hx
        obtain ⟨y, hy, rfl⟩ := List.mem_map.1 hx
        simp [hin j' y hy, hj]
    refine ⟨(tallyOf_copies (ρ := fun _ : Fin 1 => ρ j) hq).trans (by simp [Tally.times]),
      scoresIn_copies (ρ := fun _ : Fin 1 => ρ j) one_ne_zero hq fun s hs => ?_⟩
    obtain ⟨m, hm, e⟩ := List.mem_filterMap.1 hs
    exact hn s (List.mem_filterMap.2 ⟨m, List.mem_of_mem_filter hm, e⟩)

end

/-! ## The matching of boxes -/

section
variable {k : ℕ} {ρ : Fin k → Str → Str} {refs refs' : List (Event Str (DocBox Str UInt32))}
  {hyps hyps' : List (ScoredEvent Str (DocBox Str UInt32))} {ms rep ms' rep' : List (KwsMatch Str (DocBox Str UInt32))}

theorem exactBoxMatching_congr (h : ExactBoxMatching refs hyps ms rep) (hr : ∀ r, r ∈ refs' ↔ r ∈ refs)
    (hh : hyps.Perm hyps') : ExactBoxMatching refs' hyps' ms rep := by
  obtain ⟨l, overl, entries, missed, h1, h2, h3, h4, h5, h6, rfl⟩ := h
  refine ⟨l, overl, entries, missed, h1.trans hh, h2, ?_, h4, h5, ?_, rfl⟩
  · simpa only [hr] using h3
  · simpa only [hr] using h6

theorem perm_parts {α : Type} (p : Fin k → α → Bool) (l : List α)
    (h : ∀ m ∈ l, ∃ i, p i m = true ∧ ∀ j, p j m = true → j = i) :
    l.Perm ((List.finRange k).flatMap fun i => l.filter (p i)) := by
  classical
  rw [List.perm_iff_count]
  intro a
  rw [List.count_flatMap]
  by_cases ha : a ∈ l
  · obtain ⟨i, hi, hu⟩ := h a ha
    have : (List.finRange k).map (List.count a ∘ fun i => l.filter (p i)) =
        (List.finRange k).map (fun j => if j = i then l.count a else 0) := by
      refine List.map_congr_left fun j _ => ?_
      rw [Function.comp_apply]
      by_cases hj : j = i
      · subst hj
        rw [if_pos rfl, List.count_filter hi]
      · rw [if_neg hj, List.count_eq_zero]
        exact fun hm => hj (hu j (List.mem_filter.1 hm).2)
    rw [this, ← List.ofFn_eq_map, List.sum_ofFn]
    simp
  · rw [List.count_eq_zero_of_not_mem ha, eq_comm, List.sum_eq_zero_iff]
    intro n hn
    obtain ⟨i, _, rfl⟩ := List.mem_map.1 hn
    exact List.count_eq_zero_of_not_mem fun hm => ha (List.mem_of_mem_filter hm)

theorem byName_placed (σ : Str → Str) (e : Event Str (DocBox Str UInt32)) :
    Placed σ id (fun _ => (1, 1)) (fun _ => (0, 0)) e (byName σ e) := by
  constructor <;> simp [byName]

/-- Names of some queries as names of all queries. -/
theorem injective_names (s : List Str) (σ : Str → Str) (h : ∀ q ∈ s, ∀ q' ∈ s, σ q = σ q' → q = q') :
    ∃ σ' : Str → Str, Function.Injective σ' ∧ ∀ q ∈ s, σ' q = σ q := by
  obtain ⟨n, hn⟩ : ∃ n, ∀ q ∈ s, (σ q).length < n := by
    refine ⟨((s.map fun q => (σ q).length).foldr max 0) + 1, fun q hq => Nat.lt_succ_of_le ?_⟩
    clear h
    induction s with
    | nil => cases hq
    | cons a s ih =>
      rcases List.mem_cons.1 hq with rfl | hq
      · exact le_max_left _ _
      · exact (ih hq).trans (le_max_right _ _)
  refine ⟨fun q => if q ∈ s then σ q else List.replicate n ' ' ++ q, fun a b e => ?_, fun q hq => if_pos hq⟩
  dsimp only at e
  by_cases ha : a ∈ s <;> by_cases hb : b ∈ s
  · rw [if_pos ha, if_pos hb] at e
    exact h a ha b hb e
  · rw [if_pos ha, if_neg hb] at e
    have := hn a ha
    rw [e, List.length_append, List.length_replicate] at this
    omega
  · rw [if_neg ha, if_pos hb] at e
    have := hn b hb
    rw [← e, List.length_append, List.length_replicate] at this
    omega
  · rw [if_neg ha, if_neg hb] at e
    exact List.append_cancel_left e

open Classical in
/-- The matching of copies consists of copies of the matching. -/
theorem matching_copies (h : Copies ρ refs refs' hyps hyps')
    (hm : ExactBoxMatching refs hyps ms rep) (hm' : ExactBoxMatching refs' hyps' ms' rep')
    (hn : ∀ x ∈ hyps, x.score ≠ .nan) :
    ms'.Perm ((List.finRange k).flatMap fun i => ms.map (matchByName (ρ i))) ∧
    rep'.Perm ((List.finRange k).flatMap fun i => rep.map (matchByName (ρ i))) := by
  let P : Fin k → Str → Bool := fun i q => decide (∃ q₀ ∈ queriesOf refs hyps, q = ρ i q₀)
  have hP : ∀ i j, ∀ q ∈ queriesOf refs hyps, P j (ρ i q) = decide (i = j) := by
    intro i j q hq
    simp only [P, decide_eq_decide]
    exact ⟨fun ⟨q₀, h₀, e⟩ => (h.apart _ _ _ hq _ h₀ e).1, fun e => ⟨q, hq, by rw [e]⟩⟩
  have e1 : ∀ σ : Str → Str, placeE σ id (fun _ => (1, 1)) (fun _ => (0, 0)) = byName σ :=
    fun σ => funext fun e => (byName_placed σ e).eq.symm
  have e2 : ∀ σ : Str → Str, placeS σ id (fun _ => (1, 1)) (fun _ => (0, 0)) = scoredByName σ := by
    intro σ
    funext x
    unfold placeS scoredByName
    rw [e1]
  have part : ∀ i, (ms'.filter (about (P i))).Perm (ms.map (matchByName (ρ i))) ∧
      (rep'.filter (about (P i))).Perm (rep.map (matchByName (ρ i))) := by
    intro i
    have hf := exactBoxMatching_filter hm' (P i)
    have hf' : ExactBoxMatching (refs.map (byName (ρ i))) (hyps.map (scoredByName (ρ i)))
        (ms'.filter (about (P i))) (rep'.filter (about (P i))) := by
      refine exactBoxMatching_congr hf (fun r => ?_) ?_
      · rw [List.mem_filter, h.refs, List.mem_map]
        constructor
        · rintro ⟨r₀, hr, rfl⟩
          exact ⟨⟨i, r₀, hr, rfl⟩, (hP i i _ (mem_queriesOf_ref hr)).trans (by simp)⟩
        · rintro ⟨⟨j, r₀, hr, rfl⟩, e⟩
          have : j = i := by simpa using (hP j i _ (mem_queriesOf_ref hr)).symm.trans e
          subst this
          exact ⟨r₀, hr, rfl⟩
      · refine (h.hyps.filter _).trans (List.Perm.of_eq ?_)
        rw [flatMap_filter_one _ (List.nodup_finRange k) _ _ i (List.mem_finRange i)]
        · rw [List.filter_eq_self]
          intro x hx
          obtain ⟨y, hy, rfl⟩ := List.mem_map.1 hx
          exact (hP i i _ (mem_queriesOf_hyp hy)).trans (by simp)
        · intro j _ hj
          rw [List.filter_eq_nil_iff]
          intro x hx
          obtain ⟨y, hy, rfl⟩ := List.mem_map.1 hx
          rw [show P i (scoredByName (ρ j) y).base.query = _ from hP j i _ (mem_queriesOf_hyp hy)]
          simpa using hj
    obtain ⟨σ, hσ, hs⟩ := injective_names (queriesOf refs hyps) (ρ i) fun q hq q' hq' e => (h.apart _ _ _ hq _ hq' e).2
    have s1 : ∀ r ∈ refs, byName σ r = byName (ρ i) r := fun r hr => by
      unfold byName
      rw [hs _ (mem_queriesOf_ref hr)]
    have s2 : ∀ x ∈ hyps, scoredByName σ x = scoredByName (ρ i) x := fun x hx => by
      unfold scoredByName byName
      rw [hs _ (mem_queriesOf_hyp hx)]
    have := matching_placed (ρ := σ) (δ := id) (κ := fun _ => (1, 1)) (τ := fun _ => (0, 0))
      hσ Function.injective_id (fun _ => ⟨one_pos, one_pos⟩)
      (refs := refs) (hyps := hyps) (ms := ms) (rep := rep) (ms' := ms'.filter (about (P i)))
      (rep' := rep'.filter (about (P i)))
      (fun r _ => by rw [e1]; exact byName_placed _ r)
      (fun x _ => by rw [e2]; exact ⟨byName_placed _ x.base, rfl⟩) hn hm (by
        rw [e1, e2, List.map_congr_left s1, List.map_congr_left s2]
        exact hf')
    rw [e1, e2] at this
    have hmap : ∀ m, m ∈ ms ∨ m ∈ rep → mapMatch (byName σ) (scoredByName σ) m = matchByName (ρ i) m := by
      intro m hmm
      obtain ⟨a, b⟩ := exactBoxMatching_mem hm m hmm
      obtain ⟨r, x, e⟩ := m
      unfold matchByName mapMatch
      congr 1
      · cases r with
        | none => rfl
        | some r => exact congrArg some (s1 r (a r rfl))
      · cases x with
        | none => rfl
        | some x => exact congrArg some (s2 x (b x rfl))
    rw [List.map_congr_left fun m hmm => hmap m (.inl hmm), List.map_congr_left fun m hmm => hmap m (.inr hmm)] at this
    exact this
  have all : ∀ m, m ∈ ms' ∨ m ∈ rep' → ∃ i, about (P i) m = true ∧ ∀ j, about (P j) m = true → j = i := by
    intro m hmm
    obtain ⟨a, b⟩ := exactBoxMatching_mem hm' m hmm
    have hs : (eventOf m).isSome = true := by
      obtain ⟨l, overl, entries, missed, h1, h2, h3, h4, h5, h6, rfl⟩ := hm'
      have hy : (∃ x ∈ l, m.hyp = some x) → (eventOf m).isSome = true := by
        rintro ⟨x, _, e⟩
        unfold eventOf
        rw [e]
        cases m.ref <;> rfl
      rcases hmm with hmm | hmm
      · rcases List.mem_append.1 hmm with hmm | hmm
        · exact hy (h4.hyp_mem m hmm)
        · obtain ⟨r, _, rfl⟩ := List.mem_map.1 hmm
          rfl
      · exact hy (h4.rep_hyp m hmm)
    obtain ⟨e, he⟩ := Option.isSome_iff_exists.1 hs
    have : ∃ i e₀, e₀.query ∈ queriesOf refs hyps ∧ e = byName (ρ i) e₀ := by
      unfold eventOf at he
      cases hr : m.ref with
      | some r =>
        rw [hr] at he
        cases he
        obtain ⟨i, r₀, h₀, e⟩ := (h.refs _).1 (a _ hr)
        exact ⟨i, r₀, mem_queriesOf_ref h₀, e⟩
      | none =>
        rw [hr] at he
        obtain ⟨x, hx, rfl⟩ := Option.map_eq_some_iff.1 he
        obtain ⟨i, x₀, h₀, e⟩ := (h.mem_hyps x).1 (b x hx)
        exact ⟨i, x₀.base, mem_queriesOf_hyp h₀, by rw [e]; rfl⟩
    obtain ⟨i, e₀, h₀, rfl⟩ := this
    simp only [eventOf_about m he]
    refine ⟨i, (hP i i _ h₀).trans (by simp), fun j hj => ?_⟩
    have := (hP i j _ h₀).symm.trans hj
    simpa [eq_comm] using this
  have fin : ∀ l l₀ : List (KwsMatch Str (DocBox Str UInt32)), (∀ m ∈ l, m ∈ ms' ∨ m ∈ rep') →
      (∀ i, (l.filter (about (P i))).Perm (l₀.map (matchByName (ρ i)))) →
      l.Perm ((List.finRange k).flatMap fun i => l₀.map (matchByName (ρ i))) := by
    intro l l₀ hl hp
    refine (perm_parts (fun i => about (P i)) l fun m hm => all m (hl m hm)).trans ?_
    exact List.Perm.flatMap_left _ fun i _ => hp i
  exact ⟨fin _ _ (fun m hm => .inl hm) fun i => (part i).1, fin _ _ (fun m hm => .inr hm) fun i => (part i).2⟩

end

end Kws
