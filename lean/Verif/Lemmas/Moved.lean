import Verif.Spec.Moved
import Verif.Lemmas.Greedy
import Verif.Props.Ties

/-!
# Lemmas on renamed, scaled and moved box events
-/

namespace Kws
open Spec

section
variable {ρ δ : Str → Str} {κ : Str → ℕ × ℕ} {τ : Str → ℤ × ℤ}

/-- A number modulo 2^32. -/
def wrapped (z : ℤ) : UInt32 := UInt32.ofNat (z % 2 ^ 32).toNat

theorem eq_wrapped {x : UInt32} {z : ℤ} (h : (x.toNat : ℤ) = z) : x = wrapped z := by
  rw [← UInt32.toNat_inj, wrapped, UInt32.toNat_ofNat']
  have := x.toNat_lt
  omega

variable (ρ δ κ τ) in
/-- Renaming, scaling and moving as a function. -/
def placeE (e : Event Str (DocBox Str UInt32)) : Event Str (DocBox Str UInt32) :=
  ⟨ρ e.query, ⟨⟨wrapped ((κ e.location.document).1 * e.location.x.toNat + (τ e.location.document).1),
    wrapped ((κ e.location.document).2 * e.location.y.toNat + (τ e.location.document).2),
    wrapped ((κ e.location.document).1 * e.location.w.toNat),
    wrapped ((κ e.location.document).2 * e.location.h.toNat)⟩, δ e.location.document⟩⟩

variable (ρ δ κ τ) in
def placeS (h : ScoredEvent Str (DocBox Str UInt32)) : ScoredEvent Str (DocBox Str UInt32) :=
  ⟨placeE ρ δ κ τ h.base, h.score⟩

theorem Spec.Placed.eq {e e' : Event Str (DocBox Str UInt32)} (h : Placed ρ δ κ τ e e') :
    e' = placeE ρ δ κ τ e := by
  obtain ⟨h1, h2, h3, h4, h5, h6⟩ := h
  have h3 := eq_wrapped h3
  have h4 := eq_wrapped h4
  have h5 := eq_wrapped (congrArg (fun n : ℕ => (n : ℤ)) h5)
  have h6 := eq_wrapped (congrArg (fun n : ℕ => (n : ℤ)) h6)
  push_cast at h5 h6
  obtain ⟨q, ⟨⟨x, y, w, hh⟩, d⟩⟩ := e
  obtain ⟨q', ⟨⟨x', y', w', hh'⟩, d'⟩⟩ := e'
  simp only at *
  subst h1 h2 h3 h4 h5 h6
  simp [placeE]

/-- Where placing does not leave the range it is injective. -/
theorem placeE_inj (hρ : Function.Injective ρ) (hδ : Function.Injective δ)
    (hκ : ∀ d, 0 < (κ d).1 ∧ 0 < (κ d).2) :
    Set.InjOn (placeE ρ δ κ τ) {e | Placed ρ δ κ τ e (placeE ρ δ κ τ e)} := by
  intro e he f hf h
  have he : Placed ρ δ κ τ e (placeE ρ δ κ τ e) := he
  have hf : Placed ρ δ κ τ f (placeE ρ δ κ τ f) := hf
  rw [h] at he
  obtain ⟨h1, h2, h3, h4, h5, h6⟩ := he
  obtain ⟨k1, k2, k3, k4, k5, k6⟩ := hf
  have hd := hδ (h2.symm.trans k2)
  obtain ⟨c1, c2⟩ := hκ e.location.document
  rw [← hd] at k3 k4 k5 k6
  have e1 := hρ (h1.symm.trans k1)
  have e3 : e.location.x = f.location.x := by
    rw [← UInt32.toNat_inj]
    refine Nat.eq_of_mul_eq_mul_left c1 ?_
    zify
    omega
  have e4 : e.location.y = f.location.y := by
    rw [← UInt32.toNat_inj]
    refine Nat.eq_of_mul_eq_mul_left c2 ?_
    zify
    omega
  have e5 : e.location.w = f.location.w := by
    rw [← UInt32.toNat_inj]
    exact Nat.eq_of_mul_eq_mul_left c1 (h5.symm.trans k5)
  have e6 : e.location.h = f.location.h := by
    rw [← UInt32.toNat_inj]
    exact Nat.eq_of_mul_eq_mul_left c2 (h6.symm.trans k6)
  obtain ⟨q, ⟨⟨x, y, w, hh⟩, d⟩⟩ := e
  obtain ⟨q', ⟨⟨x', y', w', hh'⟩, d'⟩⟩ := f
  simp only at *
  rw [e1, e3, e4, e5, e6, hd]

/-- The common part of two intervals grows with the scale. -/
theorem common_scaled {k x w u v x' w' u' v' : ℕ} {t : ℤ} (hx : (x' : ℤ) = k * x + t) (hw : w' = k * w)
    (hu : (u' : ℤ) = k * u + t) (hv : v' = k * v) :
    min (x' + w') (u' + v') - max x' u' = k * (min (x + w) (u + v) - max x u) := by
  subst hw hv
  rw [Nat.mul_sub, Nat.mul_min_mul_left .. |>.symm, Nat.mul_max_mul_left .. |>.symm, Nat.mul_add, Nat.mul_add]
  zify at *
  omega

theorem Spec.Placed.common (hδ : Function.Injective δ) {e e' f f' : Event Str (DocBox Str UInt32)}
    (h : Placed ρ δ κ τ e e') (k : Placed ρ δ κ τ f f') :
    commonU e' f' = (κ f.location.document).1 * (κ f.location.document).2 * commonU e f := by
  unfold commonU
  rw [h.document, k.document]
  by_cases hd : e.location.document = f.location.document
  · rw [if_pos hd, if_pos (by rw [hd])]
    unfold cellsU
    simp only [Finset.product_inter_product, Finset.Ico_inter_Ico, Finset.card_product, Nat.card_Ico]
    have hx := h.x
    have hy := h.y
    have hw := h.w
    have hh := h.h
    rw [hd] at hx hy hw hh
    have c1 := common_scaled hx hw k.x k.w
    have c2 := common_scaled hy hh k.y k.h
    rw [c1, c2]
    ring
  · rw [if_neg hd, if_neg (fun h => hd (hδ h)), Nat.mul_zero]

theorem Spec.Placed.area {e e' : Event Str (DocBox Str UInt32)} (h : Placed ρ δ κ τ e e') :
    areaU e' = (κ e.location.document).1 * (κ e.location.document).2 * areaU e := by
  unfold areaU
  rw [cellsU_card, cellsU_card, h.w, h.h]
  ring

theorem Spec.Placed.lt (hκ : ∀ d, 0 < (κ d).1 ∧ 0 < (κ d).2) {e e' f f' : Event Str (DocBox Str UInt32)}
    (h : Placed ρ δ κ τ e e') (k : Placed ρ δ κ τ f f') (hq : e.query = f.query)
    (hd : e.location.document = f.location.document) : BoxEventLt e' f' ↔ BoxEventLt e f := by
  unfold BoxEventLt EventLt DocBoxLt BoxLt
  obtain ⟨c1, c2⟩ := hκ f.location.document
  have hx := h.x
  have hy := h.y
  have kx := k.x
  have ky := k.y
  have hw := h.w
  have hh := h.h
  rw [hd] at hx hy hw hh
  have key : ∀ {c a b : ℕ} {a' b' : ℕ} {t : ℤ}, 0 < c → (a' : ℤ) = c * a + t → (b' : ℤ) = c * b + t →
      (a' < b' ↔ a < b) ∧ (a' = b' ↔ a = b) := by
    intro c a b a' b' t hc h1 h2
    constructor
    · rw [← Nat.mul_lt_mul_left hc (b := a)]
      zify
      omega
    · rw [← Nat.mul_right_inj (Nat.pos_iff_ne_zero.1 hc) (b := a)]
      zify
      omega
  have x1 := key c1 hx kx
  have y1 := key c2 hy ky
  have w1 := key (a' := e'.location.w.toNat) (b' := f'.location.w.toNat) (a := e.location.w.toNat)
    (b := f.location.w.toNat) (t := 0) c1 (by rw [hw]; push_cast; ring) (by rw [k.w]; push_cast; ring)
  have h1 := key (a' := e'.location.h.toNat) (b' := f'.location.h.toNat) (a := e.location.h.toNat)
    (b := f.location.h.toNat) (t := 0) c2 (by rw [hh]; push_cast; ring) (by rw [k.h]; push_cast; ring)
  rw [h.query, k.query, h.document, k.document, hq, hd]
  have irr : ∀ s : Str, ¬ s < s := fun s => lt_irrefl s
  simp only [irr, false_or, true_and, UInt32.lt_iff_toNat_lt, ← UInt32.toNat_inj, x1, y1, w1, h1]

theorem Spec.Placed.turn (hκ : ∀ d, 0 < (κ d).1 ∧ 0 < (κ d).2)
    {a b a' b' : ScoredEvent Str (DocBox Str UInt32)}
    (h : PlacedScored ρ δ κ τ a a') (k : PlacedScored ρ δ κ τ b b') (hq : a.base.query = b.base.query)
    (hd : a.base.location.document = b.base.location.document) :
    TurnBefore a' b' ↔ TurnBefore a b := by
  unfold TurnBefore ScoredLt
  have := k.base.lt hκ h.base hq.symm hd.symm
  unfold BoxEventLt at this
  rw [this, h.score, k.score]

theorem Spec.PlacedScored.eq {e e' : ScoredEvent Str (DocBox Str UInt32)}
    (h : PlacedScored ρ δ κ τ e e') : e' = placeS ρ δ κ τ e := by
  obtain ⟨h1, h2⟩ := h
  obtain ⟨b, s⟩ := e'
  have := h1.eq
  simp only at this h2
  rw [this, h2]
  rfl

theorem map_of_forall₂ {α β : Type} {R : α → β → Prop} {f : α → β} (hf : ∀ a b, R a b → b = f a)
    {l : List α} {l' : List β} (h : List.Forall₂ R l l') : l' = l.map f ∧ ∀ a ∈ l, R a (f a) := by
  induction h with
  | nil => simp
  | cons hab _ ih =>
    have := hf _ _ hab
    subst this
    refine ⟨by rw [ih.1]; simp, ?_⟩
    simpa using ⟨hab, ih.2⟩

/-- Query and document of an event. -/
def keyOf (e : Event Str (DocBox Str UInt32)) : Str × Str := (e.query, e.location.document)

theorem keyOf_place (hρ : Function.Injective ρ) (hδ : Function.Injective δ)
    (a b : Event Str (DocBox Str UInt32)) :
    keyOf (placeE ρ δ κ τ a) = keyOf (placeE ρ δ κ τ b) ↔ keyOf a = keyOf b := by
  simp [keyOf, placeE, hρ.eq_iff, hδ.eq_iff]

theorem commonU_pos_document {r h : Event Str (DocBox Str UInt32)} (hc : 0 < commonU r h) :
    r.location.document = h.location.document := by
  unfold commonU at hc
  split at hc
  · assumption
  · omega

/-- The turns of the hypotheses of one query and document. -/
theorem turns_placed (hρ : Function.Injective ρ) (hδ : Function.Injective δ)
    (hκ : ∀ d, 0 < (κ d).1 ∧ 0 < (κ d).2)
    {hyps l l' : List (ScoredEvent Str (DocBox Str UInt32))}
    (hh : ∀ h ∈ hyps, PlacedScored ρ δ κ τ h (placeS ρ δ κ τ h)) (hn : ∀ h ∈ hyps, h.score ≠ .nan)
    (p : l.Perm hyps) (s : l.Pairwise (fun a b => TurnBefore a b ∨ a = b))
    (p' : l'.Perm (hyps.map (placeS ρ δ κ τ))) (s' : l'.Pairwise (fun a b => TurnBefore a b ∨ a = b))
    (k : Event Str (DocBox Str UInt32)) :
    l'.filter (fun h => keyOf h.base = keyOf (placeE ρ δ κ τ k)) =
      (l.filter (fun h => keyOf h.base = keyOf k)).map (placeS ρ δ κ τ) := by
  have hm : (l.map (placeS ρ δ κ τ)).filter (fun h => keyOf h.base = keyOf (placeE ρ δ κ τ k)) =
      (l.filter (fun h => keyOf h.base = keyOf k)).map (placeS ρ δ κ τ) := by
    rw [List.filter_map]
    congr 1
    refine List.filter_congr fun x _ => ?_
    simp only [Function.comp, decide_eq_decide]
    exact keyOf_place hρ hδ x.base k
  have hp : l'.Perm (l.map (placeS ρ δ κ τ)) := p'.trans (p.map _).symm
  have hp' := hp.filter (fun h => decide (keyOf h.base = keyOf (placeE ρ δ κ τ k)))
  rw [hm] at hp'
  refine hp'.eq_of_pairwise ?_ (s'.sublist List.filter_sublist) ?_
  · intro a b ha hb hab hba
    rcases hab with hab | rfl
    · rcases hba with hba | rfl
      · have na : ∀ c ∈ l', c.score ≠ .nan := by
          intro c hc
          obtain ⟨x, hx, rfl⟩ := List.mem_map.1 (p'.mem_iff.1 hc)
          exact hn x hx
        exact absurd hba (turnBefore_asymm (na a (List.mem_filter.1 ha).1)
          (na b (List.mem_filter.1 (hp'.mem_iff.2 hb)).1) hab)
      · rfl
    · rfl
  · rw [List.pairwise_map]
    refine (s.sublist List.filter_sublist).imp_of_mem ?_
    intro a b ha hb hab
    obtain ⟨ha1, ha2⟩ := List.mem_filter.1 ha
    obtain ⟨hb1, hb2⟩ := List.mem_filter.1 hb
    rcases hab with hab | rfl
    · left
      have hk : keyOf a.base = keyOf b.base := by
        rw [of_decide_eq_true ha2, of_decide_eq_true hb2]
      simp only [keyOf, Prod.mk.injEq] at hk
      exact (Placed.turn hκ (hh a (p.mem_iff.1 ha1)) (hh b (p.mem_iff.1 hb1)) hk.1 hk.2).2 hab
    · exact Or.inr rfl

/-- The matching of moved events is the moved matching, in another order. -/
theorem matching_placed (hρ : Function.Injective ρ) (hδ : Function.Injective δ)
    (hκ : ∀ d, 0 < (κ d).1 ∧ 0 < (κ d).2)
    {refs : List (Event Str (DocBox Str UInt32))} {hyps : List (ScoredEvent Str (DocBox Str UInt32))}
    {ms rep ms' rep' : List (Match (Event Str (DocBox Str UInt32)) (ScoredEvent Str (DocBox Str UInt32)))}
    (hr : ∀ r ∈ refs, Placed ρ δ κ τ r (placeE ρ δ κ τ r))
    (hh : ∀ h ∈ hyps, PlacedScored ρ δ κ τ h (placeS ρ δ κ τ h)) (hn : ∀ h ∈ hyps, h.score ≠ .nan)
    (h : ExactBoxMatching refs hyps ms rep)
    (h' : ExactBoxMatching (refs.map (placeE ρ δ κ τ)) (hyps.map (placeS ρ δ κ τ)) ms' rep') :
    ms'.Perm (ms.map (mapMatch (placeE ρ δ κ τ) (placeS ρ δ κ τ))) ∧
      rep'.Perm (rep.map (mapMatch (placeE ρ δ κ τ) (placeS ρ δ κ τ))) := by
  have hF := placeE_inj (τ := τ) hρ hδ hκ
  obtain ⟨l, ov, en, mi, a1, a2, a3, a4, a5, a6, rfl⟩ := h
  obtain ⟨l', ov', en', mi', b1, b2, b3, b4, b5, b6, rfl⟩ := h'
  have hl' : ∀ x ∈ l, placeS ρ δ κ τ x ∈ l' := fun x hx =>
    b1.mem_iff.2 (List.mem_map_of_mem (a1.mem_iff.1 hx))
  have hc : ∀ x : ScoredEvent Str (DocBox Str UInt32),
      0 < (κ x.base.location.document).1 * (κ x.base.location.document).2 :=
    fun x => Nat.mul_pos (hκ _).1 (hκ _).2
  -- overlapping references
  have hov : ∀ x ∈ l, ov' (placeS ρ δ κ τ x) = (ov x).map (placeE ρ δ κ τ) := by
    intro x hx
    have hxm := hh x (a1.mem_iff.1 hx)
    refine eq_of_strict (overlapBefore_irrefl (placeS ρ δ κ τ x).base)
      (overlapBefore_asymm (placeS ρ δ κ τ x).base) (b3 _ (hl' x hx)).2 ?_ fun r => ?_
    · rw [List.pairwise_map]
      refine (a3 x hx).2.imp_of_mem ?_
      intro a b ha hb hab
      obtain ⟨ha1, ha2, ha3⟩ := ((a3 x hx).1 a).1 ha
      obtain ⟨hb1, hb2, hb3⟩ := ((a3 x hx).1 b).1 hb
      have ca := (hr a ha1).common hδ hxm.base
      have cb := (hr b hb1).common hδ hxm.base
      have lt := (hr b hb1).lt hκ (hr a ha1) (hb2.trans ha2.symm)
        ((commonU_pos_document hb3).trans (commonU_pos_document ha3).symm)
      rcases hab with hab | ⟨h1, h2⟩
      · left
        change commonU _ _ < commonU _ _
        rw [ca, cb]
        exact Nat.mul_lt_mul_of_pos_left hab (hc x)
      · right
        change commonU _ _ = commonU _ _ ∧ _
        rw [ca, cb]
        exact ⟨congrArg _ h1, lt.2 h2⟩
    · rw [(b3 _ (hl' x hx)).1, List.mem_map, List.mem_map]
      constructor
      · rintro ⟨⟨r, h1, rfl⟩, h2, h3⟩
        refine ⟨r, ((a3 x hx).1 r).2 ⟨h1, hρ h2, ?_⟩, rfl⟩
        rw [(hr r h1).common hδ hxm.base] at h3
        exact Nat.pos_of_mul_pos_left h3
      · rintro ⟨r, h1, rfl⟩
        obtain ⟨h2, h3, h4⟩ := ((a3 x hx).1 r).1 h1
        refine ⟨⟨r, h2, rfl⟩, congrArg ρ h3, ?_⟩
        rw [(hr r h2).common hδ hxm.base]
        exact Nat.mul_pos (hc x) h4
  have hsc : ∀ x ∈ l, ∀ y ∈ ov x,
      verdict (areaU (placeS ρ δ κ τ x).base ≤ 2 * commonU (placeE ρ δ κ τ y) (placeS ρ δ κ τ x).base) =
        verdict (areaU x.base ≤ 2 * commonU y x.base) := by
    intro x hx y hy
    have hxm := hh x (a1.mem_iff.1 hx)
    have hy1 := (((a3 x hx).1 y).1 hy).1
    have e1 := (hr y hy1).common hδ hxm.base
    have e2 := hxm.base.area
    have e3 : areaU (placeS ρ δ κ τ x).base ≤ 2 * commonU (placeE ρ δ κ τ y) (placeS ρ δ κ τ x).base ↔
        areaU x.base ≤ 2 * commonU y x.base := by
      rw [e1, e2, Nat.mul_left_comm]
      exact Nat.mul_le_mul_left_iff (hc x)
    unfold verdict
    simp only [e3]
  have hpart : ∀ (k : Event Str (DocBox Str UInt32)), ∀ x ∈ l, ∀ y ∈ ov x,
      decide (keyOf y = keyOf k) = decide (keyOf x.base = keyOf k) := by
    intro k x hx y hy
    obtain ⟨_, h1, h2⟩ := ((a3 x hx).1 y).1 hy
    simp [keyOf, h1, commonU_pos_document h2]
  have hpart' : ∀ (k : Event Str (DocBox Str UInt32)), ∀ x ∈ l', ∀ y ∈ ov' x,
      decide (keyOf y = keyOf k) = decide (keyOf x.base = keyOf k) := by
    intro k x hx y hy
    obtain ⟨_, h1, h2⟩ := ((b3 x hx).1 y).1 hy
    simp [keyOf, h1, commonU_pos_document h2]
  -- the parts
  have hg : ∀ k : Event Str (DocBox Str UInt32),
      en'.filter (fun m => m.hyp.any (fun h => keyOf h.base = keyOf (placeE ρ δ κ τ k))) =
        (en.filter (fun m => m.hyp.any (fun h => keyOf h.base = keyOf k))).map
          (mapMatch (placeE ρ δ κ τ) (placeS ρ δ κ τ)) ∧
      rep'.filter (fun m => m.hyp.any (fun h => keyOf h.base = keyOf (placeE ρ δ κ τ k))) =
        (rep.filter (fun m => m.hyp.any (fun h => keyOf h.base = keyOf k))).map
          (mapMatch (placeE ρ δ κ τ) (placeS ρ δ κ τ)) := by
    intro k
    have g1 := a4.part (fun h => decide (keyOf h.base = keyOf k)) (fun r => decide (keyOf r = keyOf k))
      (hpart k) (by intro m hm; cases hm)
    have g2 := b4.part (fun h => decide (keyOf h.base = keyOf (placeE ρ δ κ τ k)))
      (fun r => decide (keyOf r = keyOf (placeE ρ δ κ τ k))) (hpart' _) (by intro m hm; cases hm)
    rw [turns_placed hρ hδ hκ hh hn a1 a2 b1 b2 k] at g2
    have g3 := g1.map (overl' := ov')
      (score' := fun r h => verdict (areaU h.base ≤ 2 * commonU r h.base)) (placeS ρ δ κ τ) hF
      (by simp) (fun x hx y hy => hr y (((a3 x (List.mem_filter.1 hx).1).1 y).1 hy).1)
      (fun x hx => hov x (List.mem_filter.1 hx).1) (fun x hx => hsc x (List.mem_filter.1 hx).1)
    exact g2.unique g3
  -- put together
  have hmk : ∀ (k : Event Str (DocBox Str UInt32)) (xs : List (Match (Event Str (DocBox Str UInt32))
      (ScoredEvent Str (DocBox Str UInt32)))),
      (xs.map (mapMatch (placeE ρ δ κ τ) (placeS ρ δ κ τ))).filter
        (fun m => m.hyp.any (fun h => keyOf h.base = keyOf (placeE ρ δ κ τ k))) =
      (xs.filter (fun m => m.hyp.any (fun h => keyOf h.base = keyOf k))).map
        (mapMatch (placeE ρ δ κ τ) (placeS ρ δ κ τ)) := by
    intro k xs
    rw [List.filter_map]
    congr 1
    refine List.filter_congr fun m _ => ?_
    simp only [Function.comp, mapMatch, Option.any_map]
    congr 1
    funext x
    simp only [decide_eq_decide]
    exact keyOf_place hρ hδ x.base k
  have hperm : ∀ xs xs' : List (Match (Event Str (DocBox Str UInt32))
      (ScoredEvent Str (DocBox Str UInt32))),
      (∀ m ∈ xs, ∃ x ∈ l, m.hyp = some x) → (∀ m ∈ xs', ∃ x ∈ l', m.hyp = some x) →
      (∀ k, xs'.filter (fun m => m.hyp.any (fun h => keyOf h.base = keyOf (placeE ρ δ κ τ k))) =
        (xs.filter (fun m => m.hyp.any (fun h => keyOf h.base = keyOf k))).map
          (mapMatch (placeE ρ δ κ τ) (placeS ρ δ κ τ))) →
      xs'.Perm (xs.map (mapMatch (placeE ρ δ κ τ) (placeS ρ δ κ τ))) := by
    intro xs xs' hx hx' hk
    refine perm_of_parts (fun m => m.hyp.map (fun h => keyOf h.base)) fun a ha => ?_
    have : ∃ x ∈ l, a.hyp = some (placeS ρ δ κ τ x) := by
      rcases ha with ha | ha
      · obtain ⟨x, h1, h2⟩ := hx' a ha
        obtain ⟨y, hy, rfl⟩ := List.mem_map.1 (b1.mem_iff.1 h1)
        exact ⟨y, a1.mem_iff.2 hy, h2⟩
      · obtain ⟨m, hm, rfl⟩ := List.mem_map.1 ha
        obtain ⟨x, h1, h2⟩ := hx m hm
        exact ⟨x, h1, by simp [mapMatch, h2]⟩
    obtain ⟨x, _, e⟩ := this
    have hconv : ∀ m : Match (Event Str (DocBox Str UInt32)) (ScoredEvent Str (DocBox Str UInt32)),
        decide (m.hyp.map (fun h => keyOf h.base) = a.hyp.map (fun h => keyOf h.base)) =
          m.hyp.any (fun h => keyOf h.base = keyOf (placeE ρ δ κ τ x.base)) := by
      intro m
      rw [e]
      cases m.hyp <;> simp [placeS]
    rw [List.filter_congr (fun m _ => hconv m), List.filter_congr (fun m _ => hconv m), hk, hmk]
  have pe := hperm en en' a4.hyp_mem b4.hyp_mem fun k => (hg k).1
  refine ⟨?_, hperm rep rep' a4.rep_hyp b4.rep_hyp fun k => (hg k).2⟩
  rw [List.map_append]
  refine pe.append ?_
  -- missed references
  have nd : ∀ {k : List (Event Str (DocBox Str UInt32))}, k.Pairwise BoxEventLt → k.Nodup := fun hk =>
    hk.imp fun {a b} hab (e : a = b) => boxEventLt_irrefl a (by rw [← e] at hab; exact hab)
  have hA : ∀ m ∈ en, ∀ r, m.ref = some r → r ∈ {e | Placed ρ δ κ τ e (placeE ρ δ κ τ e)} := by
    intro m hm r e
    obtain ⟨x, hx, hy⟩ := a4.ref_mem m (.inl hm) r e
    exact hr r (((a3 x hx).1 r).1 hy).1
  have pm : mi'.Perm (mi.map (placeE ρ δ κ τ)) := by
    refine (List.perm_ext_iff_of_nodup (nd b5) ((nd a5).map_on fun a ha b hb e =>
      hF (hr a ((a6 a).1 ha).1) (hr b ((a6 b).1 hb).1) e)).2 fun r => ?_
    have ht : ∀ r, Taken en' r ↔ Taken (en.map (mapMatch (placeE ρ δ κ τ) (placeS ρ δ κ τ))) r := by
      intro r
      unfold Taken
      exact exists_congr fun m => and_congr_left fun _ => pe.mem_iff
    rw [b6, List.mem_map, List.mem_map]
    constructor
    · rintro ⟨⟨r, h1, rfl⟩, h2⟩
      rw [ht, taken_map _ hF hA (hr r h1)] at h2
      exact ⟨r, (a6 r).2 ⟨h1, h2⟩, rfl⟩
    · rintro ⟨r, h1, rfl⟩
      obtain ⟨h2, h3⟩ := (a6 r).1 h1
      refine ⟨⟨r, h2, rfl⟩, ?_⟩
      rwa [ht, taken_map _ hF hA (hr r h2)]
  rw [List.map_map]
  have := pm.map (fun r => (⟨some r, none, Outcome.falseNeg.error⟩ :
    Match (Event Str (DocBox Str UInt32)) (ScoredEvent Str (DocBox Str UInt32))))
  rw [List.map_map] at this
  exact this

end

end Kws
