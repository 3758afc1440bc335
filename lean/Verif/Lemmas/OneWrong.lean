import Verif.Lemmas.Bounds
import Verif.Lemmas.SegTally
import Mathlib.Analysis.MeanInequalities

/-! What one more false positive costs -/

namespace Kws
open Spec

/-! ## Areas -/

/-- The same recall, and a precision that is lower by at most `δ`. -/
def Lower (δ : ℚ) (p p' : ℚ × ℚ) : Prop := p'.2 = p.2 ∧ p'.1 ≤ p.1 ∧ p.1 ≤ p'.1 + δ

theorem areaRec_lower (t : Bool) {δ : ℚ} {l l' : List (ℚ × ℚ)} (h : List.Forall₂ (Lower δ) l l') :
    ∀ q q', Lower δ q q' → Ascending (q :: l) →
      areaRec t (some q') l' ≤ areaRec t (some q) l ∧
      areaRec t (some q) l ≤ areaRec t (some q') l' + δ * ((l.getLast?.getD q).2 - q.2) := by
  induction h with
  | nil => intro q q' _ _; simp [areaRec]
  | @cons p p' l l' hp _ ih =>
    intro q q' hq ha
    obtain ⟨a1, a2⟩ := List.pairwise_cons.1 ha
    obtain ⟨i1, i2⟩ := ih p p' hp a2
    rw [getLast_cons, areaRec, areaRec]
    have hd : 0 ≤ p.2 - q.2 := sub_nonneg.2 (a1 p (by simp))
    rw [hp.1, hq.1]
    obtain ⟨_, p1, p2⟩ := hp
    obtain ⟨_, q1, q2⟩ := hq
    have k1 : (if t = true then (p'.1 + q'.1) / 2 else p'.1) ≤ (if t = true then (p.1 + q.1) / 2 else p.1) := by
      split <;> linarith
    have k2 : (if t = true then (p.1 + q.1) / 2 else p.1) ≤ (if t = true then (p'.1 + q'.1) / 2 else p'.1) + δ := by
      split <;> linarith
    have m1 := mul_le_mul_of_nonneg_right k1 hd
    have m2 := mul_le_mul_of_nonneg_right k2 hd
    constructor
    · linarith
    · have : δ * ((l.getLast?.getD p).2 - q.2) = δ * ((l.getLast?.getD p).2 - p.2) + δ * (p.2 - q.2) := by ring
      rw [this]
      linarith

theorem forall₂_snd {δ : ℚ} {l l' : List (ℚ × ℚ)} (h : List.Forall₂ (Lower δ) l l') :
    l'.map Prod.snd = l.map Prod.snd := by
  induction h with
  | nil => rfl
  | cons hp _ ih => simp [hp.1, ih]

theorem maxFst_lower {δ : ℚ} {l l' : List (ℚ × ℚ)} (h : List.Forall₂ (Lower δ) l l') :
    ∀ m m', m' ≤ m → m ≤ m' + δ → maxFst m' l' ≤ maxFst m l ∧ maxFst m l ≤ maxFst m' l' + δ := by
  induction h with
  | nil => intro m m' a b; exact ⟨a, b⟩
  | @cons p p' l l' hp _ ih =>
    intro m m' a b
    obtain ⟨c, d⟩ := ih m m' a b
    have e : maxFst m (p :: l) = max p.1 (maxFst m l) := rfl
    have e' : maxFst m' (p' :: l') = max p'.1 (maxFst m' l') := rfl
    rw [e, e']
    obtain ⟨_, p1, p2⟩ := hp
    refine ⟨max_le_max p1 c, max_le ?_ ?_⟩
    · exact p2.trans (by gcongr; exact le_max_left _ _)
    · exact d.trans (by gcongr; exact le_max_right _ _)

theorem topped_lower {δ : ℚ} {l l' : List (ℚ × ℚ)} (h : List.Forall₂ (Lower δ) l l') :
    List.Forall₂ (Lower δ) (topped l) (topped l') := by
  induction h with
  | nil => exact .nil
  | cons hp hl ih =>
    rw [topped_cons, topped_cons]
    exact .cons ⟨hp.1, maxFst_lower hl _ _ hp.2.1 hp.2.2⟩ ih

theorem curveArea_lower (interp t : Bool) {δ : ℚ} {l l' : List (ℚ × ℚ)} (h : List.Forall₂ (Lower δ) l l')
    (hδ : 0 ≤ δ) (h0 : ∀ p ∈ l, 0 ≤ p.2 ∧ p.2 ≤ 1) (ha : Ascending l) :
    curveArea interp t l' ≤ curveArea interp t l ∧ curveArea interp t l ≤ curveArea interp t l' + δ := by
  rw [curveArea_rec, curveArea_rec]
  have hc : List.Forall₂ (Lower δ) (curveOf interp l) (curveOf interp l') := by
    unfold curveOf
    cases interp
    · exact h
    · exact topped_lower h
  have hs := curveOf_snd interp l
  have ha' := (ascending_map hs).2 ha
  have h0' : ∀ p ∈ curveOf interp l, 0 ≤ p.2 ∧ p.2 ≤ 1 := by
    intro p hp
    have : p.2 ∈ (curveOf interp l).map Prod.snd := List.mem_map_of_mem hp
    rw [hs] at this
    obtain ⟨q, hq, e⟩ := List.mem_map.1 this
    exact e ▸ h0 q hq
  revert hc ha' h0'
  generalize curveOf interp l = c
  generalize curveOf interp l' = c'
  intro hc ha' h0'
  cases hc with
  | nil => simp [areaRec, hδ]
  | @cons p p' l l' hp hl =>
    rw [areaRec_none, areaRec_none]
    obtain ⟨a, b⟩ := areaRec_lower t (List.Forall₂.cons hp hl) (p.1, 0) (p'.1, 0) ⟨rfl, hp.2⟩
      (List.pairwise_cons.2 ⟨fun x hx => (h0' x hx).1, ha'⟩)
    refine ⟨a, b.trans ?_⟩
    have : (((p :: l).getLast?.getD (p.1, 0)).2 - 0 : ℚ) ≤ 1 := by
      cases hx : (p :: l).getLast? with
      | none => simp
      | some x => simpa using (h0' x (List.mem_of_getLast? hx)).2
    have := mul_le_mul_of_nonneg_left this hδ
    simp only at this ⊢
    linarith

/-- A point at recall 0 before all others, with the precision of the first. -/
theorem curveArea_front (interp t : Bool) (p : ℚ × ℚ) (l : List (ℚ × ℚ)) :
    curveArea interp t ((p.1, 0) :: p :: l) = curveArea interp t (p :: l) := by
  rw [curveArea_rec, curveArea_rec]
  unfold curveOf
  cases interp
  · simp only [Bool.false_eq_true, if_false]
    rw [areaRec_none t p l, areaRec]
    ring
  · simp only [if_true]
    rw [topped_cons, topped_cons]
    have e : maxFst (p.1, (0 : ℚ)).1 (p :: l) = maxFst p.1 l :=
      maxFst_congr _ _ _ _ fun b => by simp
    rw [e, areaRec_none t (maxFst p.1 l, p.2), areaRec]
    ring

theorem curveArea_zero (interp t : Bool) (l : List (ℚ × ℚ)) (h : ∀ p ∈ l, p.1 = 0) : curveArea interp t l = 0 := by
  rw [curveArea_rec]
  have h' : ∀ p ∈ curveOf interp l, p.1 = 0 := by
    intro p hp
    obtain ⟨q, hq, e⟩ := curveOf_mem hp
    rw [← e]
    exact h q hq
  revert h'
  generalize curveOf interp l = c
  intro h'
  have key : ∀ (c : List (ℚ × ℚ)) (q : ℚ × ℚ), q.1 = 0 → (∀ p ∈ c, p.1 = 0) → areaRec t (some q) c = 0 := by
    intro c
    induction c with
    | nil => intro q _ _; rfl
    | cons p c ih =>
      intro q hq hc
      rw [areaRec, ih p (hc p (by simp)) (fun x hx => hc x (by simp [hx])), hc p (by simp), hq]
      simp
  cases c with
  | nil => rfl
  | cons p c =>
    rw [areaRec, key c p (h' p (by simp)) (fun x hx => h' x (by simp [hx])), h' p (by simp)]
    simp

/-! ## Points -/

/-- One more false positive. -/
def incWrong (c : ℕ × ℕ) : ℕ × ℕ := (c.1, c.2 + 1)

/-- The points with one more false positive, before which there are at least `n` hypotheses. Its score may be
`shared` with others; if not, there is a point for it. -/
inductive Burdened : Bool → ℕ → List (ℕ × ℕ) → List (ℕ × ℕ) → Prop
  | shared (n : ℕ) (a b) : (∀ c ∈ b, n ≤ c.1 + c.2) → Burdened true n (a ++ b) (a ++ b.map incWrong)
  | own (n : ℕ) (a c b) : n ≤ c.1 + c.2 → (∀ d ∈ b, n ≤ d.1 + d.2) →
      Burdened false n (a ++ c :: b) (a ++ c :: incWrong c :: b.map incWrong)
  | first (b) : Burdened false 0 b (incWrong (0, 0) :: b.map incWrong)

theorem cutPoint_lower (N n : ℕ) (c : ℕ × ℕ) (h : n ≤ c.1 + c.2) :
    Lower (1 / (n + 1)) (cutPoint N c) (cutPoint N (incWrong c)) := by
  rw [cutPoint_eq, cutPoint_eq]
  refine ⟨rfl, ?_⟩
  have e : precOf (incWrong c) = (c.1 : ℚ) / (c.1 + ((c.2 : ℚ) + 1)) := by
    unfold precOf incWrong
    rw [if_neg (by simp)]
    push_cast
    rfl
  simp only
  rw [e]
  unfold precOf
  have hn : (0 : ℚ) < (n : ℚ) + 1 := by positivity
  split
  · rename_i h0
    have h1 : c.1 = 0 := by omega
    have h2 : n = 0 := by omega
    rw [h1, h2]
    norm_num
  · rename_i h0
    have hp : (0 : ℚ) < (c.1 : ℚ) + c.2 := by exact_mod_cast Nat.pos_of_ne_zero h0
    have hc : (0 : ℚ) ≤ c.1 := Nat.cast_nonneg _
    have hw : (0 : ℚ) ≤ c.2 := Nat.cast_nonneg _
    have hN : (n : ℚ) ≤ c.1 + c.2 := by exact_mod_cast h
    constructor
    · exact div_le_div_of_nonneg_left hc hp (by linarith)
    · have h1 : (1 : ℚ) / (c.1 + c.2 + 1) ≤ 1 / (n + 1) := one_div_le_one_div_of_le hn (by linarith)
      have h2 : (c.1 : ℚ) / (c.1 + c.2) ≤ c.1 / (c.1 + (c.2 + 1)) + 1 / (c.1 + c.2 + 1) := by
        rw [← add_assoc, ← add_div, div_le_div_iff₀ hp (by linarith)]
        nlinarith
      linarith

theorem stutter_mid {α : Type} (a : List α) (c : α) (b : List α) : Stutter (a ++ c :: b) (a ++ c :: c :: b) := by
  induction a with
  | nil => exact .dup _ _ _ (Stutter.refl _)
  | cons x a ih => exact .cons _ _ _ ih

theorem lower_refl {δ : ℚ} (hδ : 0 ≤ δ) (l : List (ℚ × ℚ)) : List.Forall₂ (Lower δ) l l := by
  induction l with
  | nil => exact .nil
  | cons p l ih => exact .cons ⟨rfl, le_rfl, by linarith⟩ ih

theorem lower_append {δ : ℚ} {a b b' : List (ℚ × ℚ)} (hδ : 0 ≤ δ) (h : List.Forall₂ (Lower δ) b b') :
    List.Forall₂ (Lower δ) (a ++ b) (a ++ b') := by
  induction a with
  | nil => exact h
  | cons p a ih => exact .cons ⟨rfl, le_rfl, by linarith⟩ ih

theorem lower_map (N n : ℕ) (b : List (ℕ × ℕ)) (h : ∀ c ∈ b, n ≤ c.1 + c.2) :
    List.Forall₂ (Lower (1 / (n + 1))) (b.map (cutPoint N)) ((b.map incWrong).map (cutPoint N)) := by
  induction b with
  | nil => exact .nil
  | cons c b ih => exact .cons (cutPoint_lower N n c (h c (by simp))) (ih fun d hd => h d (by simp [hd]))

/-- One more false positive costs at most one divided by its rank. -/
theorem burdened_area (interp t : Bool) {N n : ℕ} {s : Bool} {cs cs' : List (ℕ × ℕ)} (h : Burdened s n cs cs')
    (hg : Growing 0 0 cs) (hN : ∀ c ∈ cs, c.1 ≤ N) (hw : ∀ c ∈ cs, 0 < c.1 + c.2) :
    curveArea interp t (cs'.map (cutPoint N)) ≤ curveArea interp t (cs.map (cutPoint N)) ∧
    curveArea interp t (cs.map (cutPoint N)) ≤ curveArea interp t (cs'.map (cutPoint N)) + 1 / (n + 1) := by
  have hδ : (0 : ℚ) ≤ 1 / (n + 1) := by positivity
  rcases Nat.eq_zero_or_pos N with rfl | hN0
  · have z : ∀ c : ℕ × ℕ, c.1 = 0 → 0 < c.1 + c.2 → (cutPoint 0 c).1 = 0 := by
      intro c h1 h2
      rw [cutPoint_eq]
      simp only [precOf]
      rw [if_neg (by omega), h1]
      simp
    have z1 : ∀ p ∈ cs.map (cutPoint 0), p.1 = 0 := by
      intro p hp
      obtain ⟨c, hc, rfl⟩ := List.mem_map.1 hp
      exact z c (Nat.le_zero.1 (hN c hc)) (hw c hc)
    have z2 : ∀ p ∈ cs'.map (cutPoint 0), p.1 = 0 := by
      have zi : ∀ c ∈ cs, (cutPoint 0 (incWrong c)).1 = 0 := fun c hc =>
        z _ (Nat.le_zero.1 (hN c hc)) (by simp [incWrong])
      have za : ∀ c ∈ cs, (cutPoint 0 c).1 = 0 := fun c hc => z1 _ (List.mem_map_of_mem hc)
      intro p hp
      obtain ⟨c, hc, rfl⟩ := List.mem_map.1 hp
      cases h with
      | shared _ a b _ =>
        rcases List.mem_append.1 hc with hc | hc
        · exact za c (by simp [hc])
        · obtain ⟨d, hd, rfl⟩ := List.mem_map.1 hc
          exact zi d (by simp [hd])
      | own _ a c0 b _ _ =>
        rcases List.mem_append.1 hc with hc | hc
        · exact za c (by simp [hc])
        · rcases List.mem_cons.1 hc with rfl | hc
          · exact za c (by simp)
          · rcases List.mem_cons.1 hc with rfl | hc
            · exact zi c0 (by simp)
            · obtain ⟨d, hd, rfl⟩ := List.mem_map.1 hc
              exact zi d (by simp [hd])
      | first =>
        rcases List.mem_cons.1 hc with rfl | hc
        · exact z _ rfl (by simp [incWrong])
        · obtain ⟨d, hd, rfl⟩ := List.mem_map.1 hc
          exact zi d hd
    rw [curveArea_zero _ _ _ z1, curveArea_zero _ _ _ z2]
    exact ⟨le_rfl, by linarith⟩
  have hu : ∀ p ∈ cs.map (cutPoint N), 0 ≤ p.2 ∧ p.2 ≤ 1 := by
    intro p hp
    obtain ⟨c, hc, rfl⟩ := List.mem_map.1 hp
    rw [cutPoint_eq]
    simp only
    rw [if_neg hN0.ne']
    exact ⟨by positivity, div_le_one_of_le₀ (by exact_mod_cast hN c hc) (by positivity)⟩
  have ha : Ascending (cs.map (cutPoint N)) := ascending_points N hg
  cases h with
  | shared _ a b hb =>
    refine curveArea_lower interp t ?_ hδ hu ha
    rw [List.map_append, List.map_append]
    exact lower_append hδ (lower_map N n b hb)
  | own _ a c b hc hb =>
    have st := stutter_mid (a.map (cutPoint N)) (cutPoint N c) (b.map (cutPoint N))
    rw [show (a ++ c :: b).map (cutPoint N) = a.map (cutPoint N) ++ cutPoint N c :: b.map (cutPoint N) by simp] at hu ha ⊢
    rw [st.curveArea]
    refine curveArea_lower interp t ?_ hδ (fun p hp => hu p ((st.mem p).2 hp)) ?_
    · rw [List.map_append, List.map_cons, List.map_cons]
      exact lower_append hδ (.cons ⟨rfl, le_rfl, by linarith⟩ (.cons (cutPoint_lower N n c hc) (lower_map N n b hb)))
    · unfold Ascending at ha ⊢
      rw [List.pairwise_append] at ha ⊢
      obtain ⟨a1, a2, a3⟩ := ha
      have a4 := List.pairwise_cons.1 a2
      refine ⟨a1, List.pairwise_cons.2 ⟨?_, a2⟩, ?_⟩
      · intro p hp
        rcases List.mem_cons.1 hp with rfl | hp
        · exact le_rfl
        · exact a4.1 p hp
      · intro p hp q hq
        refine a3 p hp q ?_
        rcases List.mem_cons.1 hq with rfl | hq
        · exact List.mem_cons_self
        · exact hq
  | first =>
    cases cs with
    | nil =>
      have : curveArea interp t ([] : List (ℚ × ℚ)) = 0 := curveArea_zero _ _ _ (by simp)
      simp only [List.map_nil, List.map_cons]
      rw [this, curveArea_zero _ _ _ (by simp [cutPoint_eq, precOf, incWrong])]
      norm_num
    | cons c cs =>
      rw [show (c :: cs).map (cutPoint N) = cutPoint N c :: cs.map (cutPoint N) from rfl] at hu ha ⊢
      rw [← curveArea_front interp t (cutPoint N c)]
      refine curveArea_lower interp t ?_ hδ ?_ ?_
      · rw [List.map_cons]
        refine .cons ?_ (lower_map N 0 (c :: cs) (by simp))
        refine ⟨?_, ?_, ?_⟩
        · simp [cutPoint_eq, incWrong, hN0.ne']
        · simp only [cutPoint_eq, precOf, incWrong]
          norm_num
          split
          · norm_num
          · positivity
        · have e : (cutPoint N (incWrong (0, 0))).1 = 0 := by simp [cutPoint_eq, precOf, incWrong]
          rw [e]
          rw [cutPoint_eq]
          simpa using precOf_le_one c
      · intro p hp
        rcases List.mem_cons.1 hp with rfl | hp
        · exact ⟨le_rfl, by norm_num⟩
        · exact hu p hp
      · exact List.pairwise_cons.2 ⟨fun p hp => (hu p hp).1, ha⟩

/-! ## Gains -/

theorem dsum_shift (g : List ℝ) : ∀ i, 1 ≤ i → (∀ x ∈ g, 0 ≤ x ∧ x ≤ 1) →
    dsum (i + 1) g ≤ dsum i g ∧ dsum i g ≤ dsum (i + 1) g + disc i := by
  induction g with
  | nil =>
    intro i hi _
    have := disc_pos i hi
    have z : ∀ j, dsum j [] = 0 := fun j => by simp [dsum]
    rw [z, z]
    exact ⟨le_rfl, by linarith⟩
  | cons x g ih =>
    intro i hi hg
    obtain ⟨a, b⟩ := ih (i + 1) (by omega) fun y hy => hg y (by simp [hy])
    rw [dsum_cons, dsum_cons]
    have h := disc_anti i (i + 1) hi (by omega)
    obtain ⟨x0, x1⟩ := hg x (by simp)
    constructor <;> nlinarith

theorem cutGains_inc (b : List (ℕ × ℕ)) : ∀ h w, cutGains h (w + 1) (b.map incWrong) = cutGains h w b := by
  induction b with
  | nil => intro h w; rfl
  | cons c b ih =>
    intro h w
    rw [List.map_cons, cutGains, cutGains]
    simp only [incWrong]
    rw [ih, show c.1 + (c.2 + 1) - (h + (w + 1)) = c.1 + c.2 - (h + w) by omega]
    push_cast
    rw [show ((c.2 : ℝ) + 1 - (w + 1)) = (c.2 : ℝ) - w by ring]

theorem block_gain (i m k : ℕ) (hi : 1 ≤ i) (hk : k ≤ m) :
    dsum i (List.replicate (m + 1) ((2 : ℝ) ^ ((k : ℝ) / (m + 1)) - 1)) ≤
      dsum i (List.replicate m ((2 : ℝ) ^ ((k : ℝ) / m) - 1)) := by
  rw [dsum_replicate, dsum_replicate, ← Finset.mul_sum, ← Finset.mul_sum, Finset.sum_range_succ]
  rcases Nat.eq_zero_or_pos m with rfl | hm
  · have : k = 0 := by omega
    subst this
    simp
  set D := ∑ j ∈ Finset.range m, disc (i + j)
  have hD : (m : ℝ) * disc (i + m) ≤ D := by
    have : ∑ j ∈ Finset.range m, disc (i + m) ≤ D :=
      Finset.sum_le_sum fun j hj => disc_anti _ _ (by omega) (by have := Finset.mem_range.1 hj; omega)
    simpa using this
  have hmR : (0 : ℝ) < m := by exact_mod_cast hm
  have hm1 : (0 : ℝ) < (m : ℝ) + 1 := by linarith
  have hd := disc_pos (i + m) (by omega)
  have hD0 : 0 ≤ D := by nlinarith
  set g := (2 : ℝ) ^ ((k : ℝ) / m) - 1
  set g' := (2 : ℝ) ^ ((k : ℝ) / (m + 1)) - 1
  have hg' : 0 ≤ g' := sub_nonneg.2 (Real.one_le_rpow (by norm_num) (by positivity))
  have conv : ((m : ℝ) + 1) * g' ≤ m * g := by
    have := Real.geom_mean_le_arith_mean2_weighted (w₁ := (m : ℝ) / (m + 1)) (w₂ := 1 / ((m : ℝ) + 1))
      (p₁ := (2 : ℝ) ^ ((k : ℝ) / m)) (p₂ := 1) (by positivity) (by positivity) (by positivity) (by norm_num)
      (by field_simp)
    rw [← Real.rpow_mul (by norm_num), Real.one_rpow, mul_one] at this
    have e : (k : ℝ) / m * (m / (m + 1)) = k / (m + 1) := by field_simp
    rw [e] at this
    have h2 := mul_le_mul_of_nonneg_left this hm1.le
    have e2 : ((m : ℝ) + 1) * (m / (m + 1) * 2 ^ ((k : ℝ) / m) + 1 / (m + 1) * 1) = m * 2 ^ ((k : ℝ) / m) + 1 := by
      field_simp
    rw [e2] at h2
    simp only [g, g']
    linarith
  have : (m : ℝ) * (g' * (D + disc (i + m))) ≤ m * (g * D) := by
    have h1 : (m : ℝ) * (g' * (D + disc (i + m))) ≤ ((m : ℝ) + 1) * g' * D := by nlinarith
    have h2 := mul_le_mul_of_nonneg_right conv hD0
    linarith
  exact le_of_mul_le_mul_left this hmR

theorem burdened_gain {n : ℕ} {s : Bool} {cs cs' : List (ℕ × ℕ)} (h : Burdened s n cs cs') (hg : Growing 0 0 cs) :
    dsum 1 (cutGains 0 0 cs') ≤ dsum 1 (cutGains 0 0 cs) ∧
    (s = false → dsum 1 (cutGains 0 0 cs) ≤ dsum 1 (cutGains 0 0 cs') + disc (n + 1)) := by
  have zero : ∀ h w : ℕ, cutGains h w [incWrong (h, w)] = [0] := by
    intro h w
    rw [cutGains, cutGains]
    simp only [incWrong]
    rw [show h + (w + 1) - (h + w) = 1 by omega]
    simp
  have ins : ∀ (h w : ℕ) (b : List (ℕ × ℕ)), Growing h w b →
      dsum (h + w + 1) (cutGains h w (incWrong (h, w) :: b.map incWrong)) ≤ dsum (h + w + 1) (cutGains h w b) ∧
      dsum (h + w + 1) (cutGains h w b) ≤
        dsum (h + w + 1) (cutGains h w (incWrong (h, w) :: b.map incWrong)) + disc (h + w + 1) := by
    intro h w b hb
    have e : cutGains h w (incWrong (h, w) :: b.map incWrong) = 0 :: cutGains h w b := by
      have := zero h w
      rw [cutGains, cutGains, List.append_nil] at this
      rw [cutGains, this]
      show [0] ++ cutGains h (w + 1) (b.map incWrong) = _
      rw [cutGains_inc]
      rfl
    rw [e, dsum_cons, zero_mul, zero_add]
    exact dsum_shift _ _ (by omega) (cutGains_unit b h w hb)
  cases h with
  | shared _ a b hb =>
    refine ⟨?_, by simp⟩
    have key : ∀ (a : List (ℕ × ℕ)) (h w : ℕ), Growing h w (a ++ b) →
        dsum (h + w + 1) (cutGains h w (a ++ b.map incWrong)) ≤ dsum (h + w + 1) (cutGains h w (a ++ b)) := by
      intro a
      induction a with
      | nil =>
        intro h w hg
        simp only [List.nil_append] at hg ⊢
        cases b with
        | nil => exact le_rfl
        | cons c b =>
          have h1 := hg.1
          have h2 := hg.2.1
          rw [List.map_cons, cutGains, cutGains]
          rw [show cutGains (incWrong c).1 (incWrong c).2 (b.map incWrong) = cutGains c.1 c.2 b from cutGains_inc b c.1 c.2]
          rw [dsum_append, dsum_append, List.length_replicate, List.length_replicate]
          simp only [incWrong]
          obtain ⟨m, hm⟩ : ∃ m, c.1 + c.2 - (h + w) = m := ⟨_, rfl⟩
          obtain ⟨k, hk⟩ : ∃ k, c.1 - h = k := ⟨_, rfl⟩
          have hkR : (c.1 : ℝ) - h = k := by rw [← hk, Nat.cast_sub h1]
          have hmR : (c.1 : ℝ) - h + ((c.2 : ℝ) - w) = m := by
            rw [← hm, Nat.cast_sub (by omega)]
            push_cast
            ring
          have hmR' : (c.1 : ℝ) - h + (((c.2 + 1 : ℕ) : ℝ) - w) = m + 1 := by
            push_cast
            linarith
          rw [show c.1 + (c.2 + 1) - (h + w) = m + 1 by omega, hm, hmR, hmR', hkR]
          have i1 := block_gain (h + w + 1) m k (by omega) (by omega)
          have i2 := (dsum_shift (cutGains c.1 c.2 b) (h + w + 1 + m) (by omega) (cutGains_unit b _ _ hg.2.2)).1
          rw [show h + w + 1 + (m + 1) = h + w + 1 + m + 1 by omega]
          linarith
      | cons c a ih =>
        intro h w hg
        rw [List.cons_append, List.cons_append, cutGains, cutGains, dsum_append, dsum_append, List.length_replicate]
        have h1 := hg.1
        have h2 := hg.2.1
        have := ih c.1 c.2 hg.2.2
        rw [show h + w + 1 + (c.1 + c.2 - (h + w)) = c.1 + c.2 + 1 by omega]
        linarith
    simpa using key a 0 0 hg
  | own _ a c b hc hb =>
    have key : ∀ (a : List (ℕ × ℕ)) (h w : ℕ), Growing h w (a ++ c :: b) →
        dsum (h + w + 1) (cutGains h w (a ++ c :: incWrong c :: b.map incWrong)) ≤
          dsum (h + w + 1) (cutGains h w (a ++ c :: b)) ∧
        dsum (h + w + 1) (cutGains h w (a ++ c :: b)) ≤
          dsum (h + w + 1) (cutGains h w (a ++ c :: incWrong c :: b.map incWrong)) + disc (n + 1) := by
      intro a
      induction a with
      | nil =>
        intro h w hg
        simp only [List.nil_append] at hg ⊢
        have h1 := hg.1
        have h2 := hg.2.1
        have st : ∀ l, dsum (h + w + 1) (cutGains h w (c :: l)) = dsum (h + w + 1)
            (List.replicate (c.1 + c.2 - (h + w))
              ((2 : ℝ) ^ (((c.1 : ℝ) - h) / (((c.1 : ℝ) - h) + ((c.2 : ℝ) - w))) - 1)) +
            dsum (c.1 + c.2 + 1) (cutGains c.1 c.2 l) := by
          intro l
          rw [cutGains, dsum_append, List.length_replicate,
            show h + w + 1 + (c.1 + c.2 - (h + w)) = c.1 + c.2 + 1 by omega]
        rw [st, st]
        obtain ⟨i1, i2⟩ := ins c.1 c.2 b hg.2.2
        have := disc_anti (n + 1) (c.1 + c.2 + 1) (by omega) (by omega)
        constructor <;> linarith
      | cons d a ih =>
        intro h w hg
        rw [List.cons_append, List.cons_append, cutGains, cutGains, dsum_append, dsum_append, List.length_replicate]
        have h1 := hg.1
        have h2 := hg.2.1
        obtain ⟨i1, i2⟩ := ih d.1 d.2 hg.2.2
        rw [show h + w + 1 + (d.1 + d.2 - (h + w)) = d.1 + d.2 + 1 by omega]
        constructor <;> linarith
    have := key a 0 0 hg
    simp only [Nat.zero_add] at this
    exact ⟨this.1, fun _ => this.2⟩
  | first =>
    have := ins 0 0 cs hg
    simp only [Nat.zero_add] at this ⊢
    exact ⟨this.1, fun _ => this.2⟩

/-! ## Tallies -/

theorem gain_cuts (c : Tally) (scores : List Flt) : ∀ h w,
    c.gain h w scores = cutGain h w (scores.map fun s => (c.hits s, c.wrong s)) := by
  induction scores with
  | nil => intro h w; rfl
  | cons s scores ih => intro h w; rw [Tally.gain, List.map_cons, cutGain, ih]

theorem insertDesc_split (s : Flt) (hs : s ≠ .nan) (l : List Flt) (hn : ∀ y ∈ l, y ≠ .nan)
    (hp : l.Pairwise (fun a b => Flt.lt b a = true)) :
    ∃ a b, l = a ++ b ∧ (∀ u ∈ a, Flt.lt s u = true) ∧ (∀ u ∈ b, Flt.lt s u = false) ∧
      ((s ∈ b ∧ insertDesc s l = l) ∨ ((∀ u ∈ b, Flt.lt u s = true) ∧ insertDesc s l = a ++ s :: b)) := by
  induction l with
  | nil => exact ⟨[], [], rfl, by simp, by simp, Or.inr ⟨by simp, rfl⟩⟩
  | cons y l ih =>
    rw [List.pairwise_cons] at hp
    unfold insertDesc
    split
    · rename_i h
      have h' : ∀ u ∈ y :: l, Flt.lt u s = true := by
        intro u hu
        rcases List.mem_cons.1 hu with rfl | hu
        · exact h
        · exact Flt.lt_trans' _ _ _ (hp.1 u hu) h
      refine ⟨[], y :: l, rfl, by simp, fun u hu => ?_, Or.inr ⟨h', rfl⟩⟩
      exact Flt.lt_asymm' _ _ (h' u hu)
    · rename_i h
      split
      · rename_i e
        subst e
        refine ⟨[], s :: l, rfl, by simp, fun u hu => ?_, Or.inl ⟨by simp, rfl⟩⟩
        rcases List.mem_cons.1 hu with rfl | hu
        · exact Flt.lt_irrefl' _
        · exact Flt.lt_asymm' _ _ (hp.1 u hu)
      · rename_i hne
        obtain ⟨a, b, e, h1, h2, h3⟩ := ih (fun z hz => hn z (by simp [hz])) hp.2
        refine ⟨y :: a, b, by rw [e]; rfl, ?_, h2, ?_⟩
        · intro u hu
          rcases List.mem_cons.1 hu with rfl | hu
          · exact Flt.lt_total (hn u (by simp)) hs (by simpa using h) (fun e => hne e.symm)
          · exact h1 u hu
        · rcases h3 with ⟨h3, h4⟩ | ⟨h3, h4⟩
          · exact Or.inl ⟨h3, by rw [h4]⟩
          · exact Or.inr ⟨h3, by rw [h4]; rfl⟩

/-- The tally `c'` has one more false positive, of score `s`, than `c`, which is a tally of hypotheses with the
scores `S`. -/
structure AddsWrong (s : Flt) (S : List Flt) (c c' : Tally) : Prop where
  refs : c'.refs = c.refs
  hits : ∀ t, t ≠ .nan → c'.hits t = c.hits t
  wrong : ∀ t, t ≠ .nan → c'.wrong t = c.wrong t + if Flt.lt s t = true then 0 else 1
  mono : ∀ t u, t ≠ .nan → u ≠ .nan → Flt.lt u t = false → c.hits u ≤ c.hits t ∧ c.wrong u ≤ c.wrong t
  same : ∀ t u, (∀ x ∈ S, Flt.lt x t = Flt.lt x u) → c.hits t = c.hits u ∧ c.wrong t = c.wrong u
  none : ∀ t, (∀ x ∈ S, Flt.lt x t = true) → c.hits t = 0 ∧ c.wrong t = 0
  le : ∀ t, c.hits t ≤ c.refs
  pos : ∀ t ∈ S, 0 < c.hits t + c.wrong t

/-- The numbers of hits and false positives for some thresholds. -/
def countsAt (c : Tally) (s : Flt) : ℕ × ℕ := (c.hits s, c.wrong s)

section
variable {s : Flt} {S : List Flt} {c c' : Tally}

theorem AddsWrong.growing (h : AddsWrong s S c c') (hS : ∀ x ∈ S, x ≠ .nan) :
    Growing 0 0 ((descending S).map (countsAt c)) := by
  have hd := descending_thresholds S hS
  have key : ∀ (l : List Flt) (a b : ℕ), (∀ x ∈ l, x ≠ .nan ∧ a ≤ c.hits x ∧ b ≤ c.wrong x) →
      l.Pairwise (fun a b => Flt.lt b a = true) → Growing a b (l.map (countsAt c)) := by
    intro l
    induction l with
    | nil => intro a b _ _; trivial
    | cons y l ih =>
      intro a b hl hp
      rw [List.pairwise_cons] at hp
      have hy := hl y (by simp)
      refine ⟨hy.2.1, hy.2.2, ih _ _ (fun x hx => ?_) hp.2⟩
      have hx' := hl x (by simp [hx])
      exact ⟨hx'.1, h.mono x y hx'.1 hy.1 (Flt.lt_asymm' _ _ (hp.1 x hx))⟩
  exact key _ 0 0 (fun x hx => ⟨hS x ((hd.mem x).1 hx), Nat.zero_le _, Nat.zero_le _⟩) hd.sorted

theorem AddsWrong.burdened (h : AddsWrong s S c c') (hs : s ≠ .nan) (hS : ∀ x ∈ S, x ≠ .nan) :
    ∃ b, (s ∉ S → b = false) ∧ Burdened b (c.hits s + c.wrong s) ((descending S).map (countsAt c))
      ((descending (s :: S)).map (countsAt c')) := by
  have hd := descending_thresholds S hS
  have hn : ∀ x ∈ descending S, x ≠ .nan := fun x hx => hS x ((hd.mem x).1 hx)
  obtain ⟨a, b, e, h1, h2, h3⟩ := insertDesc_split s hs (descending S) hn hd.sorted
  have e' : descending (s :: S) = insertDesc s (descending S) := rfl
  have fa : a.map (countsAt c') = a.map (countsAt c) := by
    refine List.map_congr_left fun u hu => ?_
    have hu' := hn u (by rw [e]; simp [hu])
    simp [countsAt, h.hits u hu', h.wrong u hu', h1 u hu]
  have fu : ∀ u, u ≠ .nan → Flt.lt s u = false → countsAt c' u = incWrong (countsAt c u) := by
    intro u hu hl
    simp [countsAt, incWrong, h.hits u hu, h.wrong u hu, hl]
  have fb : b.map (countsAt c') = (b.map (countsAt c)).map incWrong := by
    rw [List.map_map]
    exact List.map_congr_left fun u hu => fu u (hn u (by rw [e]; simp [hu])) (h2 u hu)
  have hb : ∀ d ∈ b.map (countsAt c), c.hits s + c.wrong s ≤ d.1 + d.2 := by
    intro d hd
    obtain ⟨u, hu, rfl⟩ := List.mem_map.1 hd
    obtain ⟨m1, m2⟩ := h.mono u s (hn u (by rw [e]; simp [hu])) hs (h2 u hu)
    exact Nat.add_le_add m1 m2
  rw [e']
  rcases h3 with ⟨h3, h4⟩ | ⟨h3, h4⟩
  · refine ⟨true, fun hx => absurd ((hd.mem s).1 (by rw [e]; simp [h3])) hx, ?_⟩
    rw [h4, e, List.map_append, List.map_append, fa, fb]
    exact .shared _ _ _ hb
  · refine ⟨false, fun _ => rfl, ?_⟩
    rw [h4, e, List.map_append, List.map_append, List.map_cons, fa, fb, fu s hs (Flt.lt_irrefl' _)]
    rcases List.eq_nil_or_concat a with rfl | ⟨a', y, rfl⟩
    · have h0 := h.none s fun x hx => by
        have : x ∈ descending S := (hd.mem x).2 hx
        rw [e] at this
        exact h3 x (by simpa using this)
      have : countsAt c s = (0, 0) := by simp [countsAt, h0]
      rw [this, h0.1, h0.2]
      exact .first _
    · rw [List.concat_eq_append] at e h1 ⊢
      have hy := h1 y (by simp)
      have hys : c.hits s = c.hits y ∧ c.wrong s = c.wrong y := h.same s y fun x hx => by
        have hx' : x ∈ descending S := (hd.mem x).2 hx
        have hp := hd.sorted
        rw [e] at hp hx'
        rcases List.mem_append.1 hx' with hx' | hx'
        · have a1 : Flt.lt x y = false := by
            rcases List.mem_append.1 hx' with hx' | hx'
            · exact Flt.lt_asymm' _ _ ((List.pairwise_append.1 (List.pairwise_append.1 hp).1).2.2 x hx' y (by simp))
            · rw [List.mem_singleton] at hx'
              subst hx'
              exact Flt.lt_irrefl' _
          have a2 : Flt.lt x s = false := Flt.lt_asymm' _ _ (h1 x hx')
          rw [a1, a2]
        · rw [h3 x hx', Flt.lt_trans' _ _ _ (h3 x hx') hy]
      have ey : countsAt c s = countsAt c y := by simp [countsAt, hys]
      have eN : c.hits s + c.wrong s = (countsAt c y).1 + (countsAt c y).2 := by simp [countsAt, hys]
      rw [ey, List.map_append, List.map_singleton, List.append_assoc, List.append_assoc]
      exact .own _ _ _ _ eN.le hb

theorem AddsWrong.ap (h : AddsWrong s S c c') (hs : s ≠ .nan) (hS : ∀ x ∈ S, x ≠ .nan) (interp t : Bool) :
    c'.ap interp t (descending (s :: S)) ≤ c.ap interp t (descending S) ∧
    c.ap interp t (descending S) ≤ c'.ap interp t (descending (s :: S)) + 1 / (c.hits s + c.wrong s + 1) := by
  obtain ⟨b, _, hb⟩ := h.burdened hs hS
  have := burdened_area interp t (N := c.refs) hb (h.growing hS) (fun d hd => by
    obtain ⟨u, _, rfl⟩ := List.mem_map.1 hd
    exact h.le u) (fun d hd => by
    obtain ⟨u, hu, rfl⟩ := List.mem_map.1 hd
    exact h.pos u (((descending_thresholds S hS).mem u).1 hu))
  rw [List.map_map, List.map_map] at this
  unfold Tally.ap
  have e1 : cutPoint c.refs ∘ countsAt c = c.point := rfl
  have e2 : cutPoint c.refs ∘ countsAt c' = c'.point := by
    rw [← h.refs]
    rfl
  rw [e1, e2] at this
  push_cast at this
  exact this

theorem AddsWrong.ndcg (h : AddsWrong s S c c') (hs : s ≠ .nan) (hS : ∀ x ∈ S, x ≠ .nan) (hr : c.refs ≠ 0) :
    c'.ndcg (descending (s :: S)) ≤ c.ndcg (descending S) ∧
    (s ∉ S → c.ndcg (descending S) ≤ c'.ndcg (descending (s :: S)) +
      1 / (Real.logb 2 (c.hits s + c.wrong s + 2) * idealGain c.refs)) := by
  obtain ⟨b, hb0, hb⟩ := h.burdened hs hS
  have hg := h.growing hS
  obtain ⟨i1, i2⟩ := burdened_gain hb hg
  have hg' : Growing 0 0 ((descending (s :: S)).map (countsAt c')) := by
    have inc : ∀ (l : List (ℕ × ℕ)) (h w : ℕ), Growing h w l → Growing h (w + 1) (l.map incWrong) := by
      intro l
      induction l with
      | nil => intro h w _; trivial
      | cons d l ih => intro h w hl; exact ⟨hl.1, by simpa [incWrong] using hl.2.1, ih _ _ hl.2.2⟩
    have app : ∀ (a b b' : List (ℕ × ℕ)), (∀ h w, Growing h w b → Growing h w b') →
        ∀ h w, Growing h w (a ++ b) → Growing h w (a ++ b') := by
      intro a b b' hbb
      induction a with
      | nil => exact hbb
      | cons d a ih => intro h w hl; exact ⟨hl.1, hl.2.1, ih _ _ hl.2.2⟩
    have up : ∀ (l : List (ℕ × ℕ)) (h w : ℕ), Growing h w l → Growing h w (l.map incWrong) := fun l h w hl =>
      (inc l h w hl).from_le le_rfl (by omega)
    clear i1 i2
    revert hg hb
    generalize (descending S).map (countsAt c) = l
    generalize (descending (s :: S)).map (countsAt c') = l'
    generalize c.hits s + c.wrong s = n
    intro hb
    cases hb with
    | shared _ a b _ => exact app a b _ (up b) 0 0
    | own _ a d b _ _ =>
      exact app a (d :: b) (d :: incWrong d :: b.map incWrong) (fun h w hl => ⟨hl.1, hl.2.1, le_rfl, by simp [incWrong], inc _ _ _ hl.2.2⟩) 0 0
    | first => exact fun hl => ⟨le_rfl, Nat.zero_le _, inc _ _ _ hl⟩
  unfold Tally.ndcg
  rw [if_neg hr, if_neg (by rw [h.refs]; exact hr), gain_cuts, gain_cuts, h.refs]
  rw [show (fun s => (c.hits s, c.wrong s)) = countsAt c from rfl, show (fun s => (c'.hits s, c'.wrong s)) = countsAt c' from rfl]
  rw [cutGain_dsum _ _ _ hg, cutGain_dsum _ _ _ hg']
  have hz : (0 : ℝ) < ∑ k ∈ Finset.range c.refs, 1 / Real.logb 2 (k + 2) := by
    refine Finset.sum_pos (fun k _ => ?_) ⟨0, by simp; omega⟩
    exact one_div_pos.2 (Real.logb_pos (by norm_num) (by have : (0 : ℝ) ≤ k := Nat.cast_nonneg k; linarith))
  simp only [Nat.zero_add]
  refine ⟨div_le_div_of_nonneg_right i1 hz.le, fun hn => ?_⟩
  have := i2 (hb0 hn)
  rw [← div_div]
  unfold idealGain
  rw [← add_div]
  refine div_le_div_of_nonneg_right (this.trans (le_of_eq ?_)) hz.le
  congr 1
  unfold disc
  push_cast
  congr 2
  ring

end

end Kws
