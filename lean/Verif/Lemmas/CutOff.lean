import Verif.Lemmas.Tail

/-! # Lemmas about what is gained at the end of a ranking -/

namespace Kws
open Spec

/-! ## Areas -/

/-- The same recall, and a precision that is not much higher. -/
def Lifted (δ : ℚ) (p p' : ℚ × ℚ) : Prop := p'.2 = p.2 ∧ p'.1 ≤ p.1 + δ

theorem areaRec_cap (t : Bool) (P M : ℚ) (hP : 0 ≤ P) (l : List (ℚ × ℚ)) : ∀ q : ℚ × ℚ, q.1 ≤ P →
    (∀ p ∈ l, p.1 ≤ P) → (∀ p ∈ q :: l, p.2 ≤ M) → Ascending (q :: l) →
    areaRec t (some q) l ≤ P * (M - q.2) := by
  induction l with
  | nil =>
    intro q _ _ hM _
    rw [areaRec]
    exact mul_nonneg hP (sub_nonneg.2 (hM q (by simp)))
  | cons p l ih =>
    intro q hq hl hM ha
    obtain ⟨a1, a2⟩ := List.pairwise_cons.1 ha
    have hp := hl p (by simp)
    have i := ih p hp (fun x hx => hl x (by simp [hx])) (fun x hx => hM x (by simp at hx ⊢; tauto)) a2
    have hd : 0 ≤ p.2 - q.2 := sub_nonneg.2 (a1 p (by simp))
    have k : (if t = true then (p.1 + q.1) / 2 else p.1) ≤ P := by split <;> linarith
    rw [areaRec]
    have := mul_le_mul_of_nonneg_right k hd
    nlinarith

theorem areaRec_lift (t : Bool) (δ P M : ℚ) (hP : 0 ≤ P) {z z' : ℚ × ℚ}
    (hz : Lifted δ z z') (hzP : z'.1 ≤ P) (b : List (ℚ × ℚ)) (hb : ∀ p ∈ b, p.1 ≤ P)
    {l l' : List (ℚ × ℚ)} (h : List.Forall₂ (Lifted δ) l l') :
    ∀ q q', Lifted δ q q' → (∀ p ∈ q' :: (l' ++ z' :: b), p.2 ≤ M) →
      Ascending (q' :: (l' ++ z' :: b)) →
      areaRec t (some q') (l' ++ z' :: b) ≤ areaRec t (some q) (l ++ [z]) + δ * (z.2 - q.2) + P * (M - z.2) := by
  induction h with
  | nil =>
    intro q q' hq hM ha
    simp only [List.nil_append] at hM ha ⊢
    obtain ⟨a1, a2⟩ := List.pairwise_cons.1 ha
    have i := areaRec_cap t P M hP b z' hzP hb (fun x hx => hM x (by simp at hx ⊢; tauto)) a2
    have hd : 0 ≤ z'.2 - q'.2 := sub_nonneg.2 (a1 z' (by simp))
    have k : (if t = true then (z'.1 + q'.1) / 2 else z'.1) ≤ (if t = true then (z.1 + q.1) / 2 else z.1) + δ := by
      have := hz.2
      have := hq.2
      split <;> linarith
    rw [areaRec, areaRec, areaRec]
    have := mul_le_mul_of_nonneg_right k hd
    rw [hz.1, hq.1] at *
    linarith
  | @cons p p' l l' hp _ ih =>
    intro q q' hq hM ha
    rw [List.cons_append] at hM ha
    obtain ⟨a1, a2⟩ := List.pairwise_cons.1 ha
    have i := ih p p' hp (fun x hx => hM x (List.mem_cons_of_mem _ hx)) a2
    have hd : 0 ≤ p'.2 - q'.2 := sub_nonneg.2 (a1 p' (by simp))
    have k : (if t = true then (p'.1 + q'.1) / 2 else p'.1) ≤ (if t = true then (p.1 + q.1) / 2 else p.1) + δ := by
      have := hp.2
      have := hq.2
      split <;> linarith
    rw [List.cons_append, List.cons_append, areaRec, areaRec]
    have := mul_le_mul_of_nonneg_right k hd
    rw [hp.1, hq.1] at *
    linarith

theorem topped_lift (P : ℚ) (z : ℚ × ℚ) (b : List (ℚ × ℚ)) (hz : z.1 ≤ P) (hb : ∀ p ∈ b, p.1 ≤ P)
    (a : List (ℚ × ℚ)) : ∃ A A' v, topped (a ++ [z]) = A ++ [z] ∧
      topped (a ++ z :: b) = A' ++ (v, z.2) :: topped b ∧ List.Forall₂ (Lifted (P - z.1)) A A' ∧ v ≤ P := by
  induction a with
  | nil =>
    refine ⟨[], [], maxFst z.1 b, by simp [topped], by rw [List.nil_append, topped_cons]; rfl, .nil, ?_⟩
    exact (maxFst_le _ _ _).2 ⟨hz, hb⟩
  | cons p a ih =>
    obtain ⟨A, A', v, h1, h2, h3, h4⟩ := ih
    refine ⟨(maxFst p.1 (a ++ [z]), p.2) :: A, (maxFst p.1 (a ++ z :: b), p.2) :: A', v, ?_, ?_, .cons ⟨rfl, ?_⟩ h3, h4⟩
    · rw [List.cons_append, topped_cons, h1]; rfl
    · rw [List.cons_append, topped_cons, h2]; rfl
    · obtain ⟨m1, m2⟩ := (maxFst_le p.1 (a ++ [z]) _).1 le_rfl
      have mz := m2 z (by simp)
      refine (maxFst_le _ _ _).2 ⟨?_, fun x hx => ?_⟩
      · show p.1 ≤ maxFst p.1 (a ++ [z]) + (P - z.1)
        linarith
      · show x.1 ≤ maxFst p.1 (a ++ [z]) + (P - z.1)
        rcases List.mem_append.1 hx with hx | hx
        · have := m2 x (by simp [hx])
          linarith
        · rcases List.mem_cons.1 hx with rfl | hx
          · linarith
          · have := hb x hx
            linarith

/-- What more points at the end add to an area. -/
theorem curveArea_more (interp t : Bool) (P M : ℚ) (hP : 0 ≤ P) (a : List (ℚ × ℚ)) (z : ℚ × ℚ)
    (b : List (ℚ × ℚ)) (hz : z.1 ≤ P) (hb : ∀ p ∈ b, p.1 ≤ P) (h0 : ∀ p ∈ a ++ z :: b, 0 ≤ p.2 ∧ p.2 ≤ M)
    (ha : Ascending (a ++ z :: b)) :
    curveArea interp t (a ++ z :: b) ≤
      curveArea interp t (a ++ [z]) + (if interp then P - z.1 else 0) * z.2 + P * (M - z.2) := by
  have hz2 := h0 z (by simp)
  have hM : 0 ≤ M := hz2.1.trans hz2.2
  have key : ∀ (δ : ℚ) (A A' : List (ℚ × ℚ)) (z' : ℚ × ℚ) (B : List (ℚ × ℚ)), List.Forall₂ (Lifted δ) A A' →
      Lifted δ z z' → z'.1 ≤ P → (∀ p ∈ B, p.1 ≤ P) →
      (A' ++ z' :: B).map Prod.snd = (a ++ z :: b).map Prod.snd →
      areaRec t none (A' ++ z' :: B) ≤ areaRec t none (A ++ [z]) + δ * z.2 + P * (M - z.2) := by
    intro δ A A' z' B hA hzz hzP hB hs
    have ha' := (ascending_map hs).2 ha
    have h2 : ∀ p ∈ A' ++ z' :: B, 0 ≤ p.2 ∧ p.2 ≤ M := by
      intro p hp
      have : p.2 ∈ (A' ++ z' :: B).map Prod.snd := List.mem_map_of_mem hp
      rw [hs] at this
      obtain ⟨q, hq, e⟩ := List.mem_map.1 this
      exact e ▸ h0 q hq
    have fin : ∀ q q' : ℚ × ℚ, Lifted δ q q' → areaRec t (some (q'.1, 0)) (A' ++ z' :: B) ≤
        areaRec t (some (q.1, 0)) (A ++ [z]) + δ * z.2 + P * (M - z.2) := by
      intro q q' hq
      have := areaRec_lift t δ P M hP hzz hzP B hB hA (q.1, 0) (q'.1, 0) ⟨rfl, hq.2⟩
        (fun p hp => by
          rcases List.mem_cons.1 hp with rfl | hp
          · exact hM
          · exact (h2 p hp).2)
        (List.pairwise_cons.2 ⟨fun p hp => (h2 p hp).1, ha'⟩)
      simpa using this
    cases hA with
    | nil =>
      rw [List.nil_append, List.nil_append, areaRec_none, areaRec_none]
      exact fin z z' hzz
    | @cons p p' l l' hp hl =>
      rw [List.cons_append, List.cons_append, areaRec_none, areaRec_none]
      exact fin p p' hp
  rw [curveArea_rec, curveArea_rec]
  have hs := curveOf_snd interp (a ++ z :: b)
  cases interp with
  | true =>
    obtain ⟨A, A', v, h1, h2, h3, h4⟩ := topped_lift P z b hz hb a
    have e1 : curveOf true (a ++ [z]) = A ++ [z] := h1
    have e2 : curveOf true (a ++ z :: b) = A' ++ (v, z.2) :: topped b := h2
    rw [e2] at hs
    rw [e1, e2, if_pos rfl]
    refine key (P - z.1) A A' (v, z.2) (topped b) h3 ⟨rfl, ?_⟩ h4 (fun p hp => ?_) hs
    · show v ≤ z.1 + (P - z.1)
      linarith
    · obtain ⟨q, hq, e⟩ := curveOf_mem (interp := true) hp
      exact e ▸ hb q hq
  | false =>
    have e : ∀ l, curveOf false l = l := fun l => rfl
    rw [e] at hs
    rw [e, e]
    simp only [Bool.false_eq_true, if_false]
    exact key 0 a a z b (List.forall₂_same.2 fun _ _ => ⟨rfl, by simp⟩) ⟨rfl, by simp⟩ hz hb rfl

theorem curveArea_most (interp t : Bool) (M : ℚ) (b : List (ℚ × ℚ)) (hM : 0 ≤ M)
    (hb : ∀ p ∈ b, p.1 ≤ 1 ∧ 0 ≤ p.2 ∧ p.2 ≤ M) (ha : Ascending b) : curveArea interp t b ≤ M := by
  rw [curveArea_rec]
  have hs := curveOf_snd interp b
  have ha' := (ascending_map hs).2 ha
  have h1 : ∀ p ∈ curveOf interp b, p.1 ≤ 1 := by
    intro p hp
    obtain ⟨q, hq, e⟩ := curveOf_mem hp
    exact e ▸ (hb q hq).1
  have h2 : ∀ p ∈ curveOf interp b, 0 ≤ p.2 ∧ p.2 ≤ M := by
    intro p hp
    have : p.2 ∈ (curveOf interp b).map Prod.snd := List.mem_map_of_mem hp
    rw [hs] at this
    obtain ⟨q, hq, e⟩ := List.mem_map.1 this
    exact e ▸ (hb q hq).2
  revert ha' h1 h2
  generalize curveOf interp b = d
  intro h2 h1 ha'
  cases d with
  | nil => simpa [areaRec] using hM
  | cons p d =>
    rw [areaRec_none]
    have := areaRec_cap t 1 M (by norm_num) (p :: d) (p.1, 0) (h1 p (by simp)) h1
      (fun x hx => by
        rcases List.mem_cons.1 hx with rfl | hx
        · exact hM
        · exact (ha' x hx).2)
      (List.pairwise_cons.2 ⟨fun x hx => (ha' x hx).1, h2⟩)
    simpa using this

/-! ## Counts -/

theorem precision_gain {f v g w F : ℕ} (h1 : f ≤ g) (h2 : v ≤ w) (h3 : g ≤ F) (h4 : 0 < g + w) :
    (g : ℚ) / (g + w) * F - (if f + v = 0 then 1 else (f : ℚ) / (f + v)) * f ≤ F - f := by
  have e1 : (f : ℚ) ≤ g := by exact_mod_cast h1
  have e2 : (v : ℚ) ≤ w := by exact_mod_cast h2
  have e3 : (g : ℚ) ≤ F := by exact_mod_cast h3
  have e4 : (0 : ℚ) < g + w := by exact_mod_cast h4
  have f0 : (0 : ℚ) ≤ f := by positivity
  have v0 : (0 : ℚ) ≤ v := by positivity
  have a1 : (g : ℚ) / (g + w) * F - F = -(F * (w / (g + w))) := by field_simp; ring
  have w0 : (0 : ℚ) ≤ (w : ℚ) / (g + w) := by positivity
  have a2 : (g : ℚ) * (w / (g + w)) ≤ F * (w / (g + w)) := mul_le_mul_of_nonneg_right e3 w0
  by_cases hz : f + v = 0
  · have : (f : ℚ) = 0 := by exact_mod_cast (by omega : f = 0)
    rw [if_pos hz, this]
    have : 0 ≤ (F : ℚ) * (w / (g + w)) := by positivity
    linarith
  · rw [if_neg hz]
    have e5 : (0 : ℚ) < f + v := by
      have : 0 < f + v := by omega
      exact_mod_cast this
    have a3 : (f : ℚ) - f / (f + v) * f = f * (v / (f + v)) := by field_simp; ring
    have a4 : (f : ℚ) * (v / (f + v)) ≤ g * (w / (g + w)) := by
      rw [mul_div_assoc', mul_div_assoc', div_le_div_iff₀ e5 e4]
      have b1 : (f : ℚ) * v * g ≤ g * w * f := by
        have := mul_le_mul_of_nonneg_left e2 (mul_nonneg f0 (f0.trans e1))
        linarith
      have b2 : (f : ℚ) * v * w ≤ g * w * v := by
        have := mul_le_mul_of_nonneg_right e1 (mul_nonneg v0 (v0.trans e2))
        linarith
      linarith
    linarith

theorem Growing.tail {h w : ℕ} {a : List (ℕ × ℕ)} {z : ℕ × ℕ} {b : List (ℕ × ℕ)} (hg : Growing h w (a ++ z :: b)) :
    Growing z.1 z.2 b := by
  induction a generalizing h w with
  | nil => exact hg.2.2
  | cons d a ih => exact ih hg.2.2

/-- Average precision with more points at the end: at most the recall that is gained. -/
theorem cutArea_more (interp t : Bool) (N : ℕ) (hN : N ≠ 0) (F : ℕ) (a : List (ℕ × ℕ)) (z : ℕ × ℕ)
    (b : List (ℕ × ℕ)) (hg : Growing 0 0 (a ++ z :: b)) (hF : ∀ c ∈ a ++ z :: b, c.1 ≤ F) :
    curveArea interp t ((a ++ z :: b).map (cutPoint N)) ≤
      curveArea interp t ((a ++ [z]).map (cutPoint N)) + ((F : ℚ) - z.1) / N := by
  have hNq : (0 : ℚ) < N := by exact_mod_cast Nat.pos_of_ne_zero hN
  have le1 : ∀ c : ℕ × ℕ, 0 ≤ (cutPoint N c).1 ∧ (cutPoint N c).1 ≤ 1 := by
    intro c
    unfold cutPoint
    dsimp only
    split
    · norm_num
    · have : (0 : ℚ) < c.1 + c.2 := by
        have : 0 < c.1 + c.2 := by omega
        exact_mod_cast this
      exact ⟨by positivity, (div_le_one this).2 (by simp)⟩
  have recall : ∀ c : ℕ × ℕ, (cutPoint N c).2 = (c.1 : ℚ) / N := fun c => by
    unfold cutPoint
    rw [if_neg hN]
  have asc := ascending_points N hg
  have bd : ∀ p ∈ (a ++ z :: b).map (cutPoint N), 0 ≤ p.2 ∧ p.2 ≤ (F : ℚ) / N := by
    intro p hp
    obtain ⟨c, hc, rfl⟩ := List.mem_map.1 hp
    rw [recall]
    refine ⟨by positivity, div_le_div_of_nonneg_right ?_ hNq.le⟩
    exact_mod_cast hF c hc
  have use : ∀ P : ℚ, 0 ≤ P → (cutPoint N z).1 ≤ P → (∀ c ∈ b, (cutPoint N c).1 ≤ P) →
      P * F - (if interp = true then (cutPoint N z).1 else P) * z.1 ≤ F - z.1 →
      curveArea interp t ((a ++ z :: b).map (cutPoint N)) ≤
        curveArea interp t ((a ++ [z]).map (cutPoint N)) + ((F : ℚ) - z.1) / N := by
    intro P hP hz hb hk
    rw [List.map_append, List.map_cons] at asc bd ⊢
    rw [List.map_append, List.map_cons, List.map_nil]
    have := curveArea_more interp t P ((F : ℚ) / N) hP (a.map (cutPoint N)) (cutPoint N z) (b.map (cutPoint N)) hz
      (fun p hp => by
        obtain ⟨c, hc, rfl⟩ := List.mem_map.1 hp
        exact hb c hc) bd asc
    rw [recall] at this
    have hk' := div_le_div_of_nonneg_right hk hNq.le
    refine this.trans ?_
    have e : (if interp = true then P - (cutPoint N z).1 else 0) * ((z.1 : ℚ) / N) + P * ((F : ℚ) / N - (z.1 : ℚ) / N) =
        (P * F - (if interp = true then (cutPoint N z).1 else P) * z.1) / N := by
      split <;> ring
    rw [add_assoc, e]
    linarith
  have zF : (z.1 : ℚ) ≤ F := by exact_mod_cast hF z (by simp)
  cases interp with
  | false =>
    refine use 1 (by norm_num) (le1 z).2 (fun c _ => (le1 c).2) ?_
    simp
  | true =>
    by_cases hm : ∀ c ∈ b, (cutPoint N c).1 ≤ (cutPoint N z).1
    · refine use (cutPoint N z).1 (le1 z).1 le_rfl hm ?_
      rw [if_pos rfl, ← mul_sub]
      have := mul_le_mul_of_nonneg_right (le1 z).2 (sub_nonneg.2 zF)
      linarith
    · push Not at hm
      obtain ⟨x, hx, hxz⟩ := hm
      -- the point with the highest precision
      obtain ⟨m, hm, hmax⟩ : ∃ m ∈ b, ∀ c ∈ b, (cutPoint N c).1 ≤ (cutPoint N m).1 := by
        obtain ⟨m, h1, h2⟩ := b.toFinset.exists_max_image (fun c => (cutPoint N c).1) ⟨x, by simpa using hx⟩
        exact ⟨m, by simpa using h1, fun c hc => h2 c (by simpa using hc)⟩
      have hzm : (cutPoint N z).1 ≤ (cutPoint N m).1 := hxz.le.trans (hmax x hx)
      refine use (cutPoint N m).1 (le1 m).1 hzm hmax ?_
      rw [if_pos rfl]
      have hg' := hg.tail.mem m hm
      have hlt : (cutPoint N z).1 < 1 := hxz.trans_le (le1 x).2
      have hz0 : z.1 + z.2 ≠ 0 := by
        intro h0
        unfold cutPoint at hlt
        simp [h0] at hlt
      have hpos : 0 < m.1 + m.2 := by omega
      have := precision_gain hg'.1 hg'.2 (hF m (by simp [hm])) hpos
      unfold cutPoint
      dsimp only
      rw [if_neg (by omega : ¬ m.1 + m.2 = 0)]
      exact this

theorem cutArea_most (interp t : Bool) (N : ℕ) (hN : N ≠ 0) (F : ℕ) (b : List (ℕ × ℕ)) (hg : Growing 0 0 b)
    (hF : ∀ c ∈ b, c.1 ≤ F) : curveArea interp t (b.map (cutPoint N)) ≤ (F : ℚ) / N := by
  refine curveArea_most interp t _ _ (by positivity) (fun p hp => ?_) (ascending_points N hg)
  obtain ⟨c, hc, rfl⟩ := List.mem_map.1 hp
  have hc' : (c.1 : ℚ) ≤ F := by exact_mod_cast hF c hc
  unfold cutPoint
  dsimp only
  rw [if_neg hN]
  refine ⟨?_, by positivity, div_le_div_of_nonneg_right hc' (by positivity)⟩
  split
  · exact le_rfl
  · have : (0 : ℚ) < c.1 + c.2 := by
      have : 0 < c.1 + c.2 := by omega
      exact_mod_cast this
    exact (div_le_one this).2 (by simp)

/-- The gain of some hits after the rank `h + w`. -/
theorem cutGain_most (F : ℕ) (cs : List (ℕ × ℕ)) : ∀ h w, Growing h w cs → h ≤ F → (∀ c ∈ cs, c.1 ≤ F) →
    cutGain h w cs ≤ ((F : ℝ) - h) / Real.logb 2 ((h + w : ℕ) + 2) := by
  have lpos : ∀ n : ℕ, 0 < Real.logb 2 ((n : ℝ) + 2) := fun n =>
    Real.logb_pos (by norm_num) (by have : (0 : ℝ) ≤ n := Nat.cast_nonneg n; linarith)
  have lmono : ∀ m n : ℕ, m ≤ n → Real.logb 2 ((m : ℝ) + 2) ≤ Real.logb 2 ((n : ℝ) + 2) := by
    intro m n h
    have : (m : ℝ) ≤ n := by exact_mod_cast h
    refine Real.logb_le_logb_of_le (by norm_num) ?_ (by linarith)
    have : (0 : ℝ) ≤ m := Nat.cast_nonneg m
    linarith
  induction cs with
  | nil =>
    intro h w _ hF _
    rw [cutGain]
    have : (h : ℝ) ≤ F := by exact_mod_cast hF
    exact div_nonneg (by linarith) (lpos _).le
  | cons c cs ih =>
    intro h w hg hF hc
    obtain ⟨g1, g2, g3⟩ := hg
    have cF := hc c (by simp)
    have i := ih c.1 c.2 g3 cF (fun x hx => hc x (by simp [hx]))
    have i' : ((F : ℝ) - c.1) / Real.logb 2 ((c.1 + c.2 : ℕ) + 2) ≤ ((F : ℝ) - c.1) / Real.logb 2 ((h + w : ℕ) + 2) := by
      have : (c.1 : ℝ) ≤ F := by exact_mod_cast cF
      exact div_le_div_of_nonneg_left (by linarith) (lpos _) (lmono _ _ (by omega))
    rw [cutGain]
    have r1 : (h : ℝ) ≤ c.1 := by exact_mod_cast g1
    have r2 : (w : ℝ) ≤ c.2 := by exact_mod_cast g2
    set d : ℝ := (c.1 : ℝ) - h with hd
    set e : ℝ := (c.2 : ℝ) - w with he
    have d0 : 0 ≤ d := by rw [hd]; linarith
    have e0 : 0 ≤ e := by rw [he]; linarith
    have s : (∑ k ∈ Finset.Ico (h + w) (c.1 + c.2), ((2 : ℝ) ^ (d / (d + e)) - 1) / Real.logb 2 (k + 2)) ≤
        d / Real.logb 2 ((h + w : ℕ) + 2) := by
      have x0 : 0 ≤ d / (d + e) := by positivity
      have x1 : d / (d + e) ≤ 1 := div_le_one_of_le₀ (by linarith) (by linarith)
      have b1 : (2 : ℝ) ^ (d / (d + e)) - 1 ≤ d / (d + e) := two_rpow_le _ x0 x1
      have b2 : ∀ k ∈ Finset.Ico (h + w) (c.1 + c.2), ((2 : ℝ) ^ (d / (d + e)) - 1) / Real.logb 2 (k + 2) ≤
          d / (d + e) / Real.logb 2 ((h + w : ℕ) + 2) := by
        intro k hk
        refine (div_le_div_of_nonneg_right b1 (lpos k).le).trans ?_
        exact div_le_div_of_nonneg_left x0 (lpos _) (lmono _ _ (Finset.mem_Ico.1 hk).1)
      refine (Finset.sum_le_card_nsmul _ _ _ b2).trans ?_
      rw [Nat.card_Ico, nsmul_eq_mul]
      have hcard : ((c.1 + c.2 - (h + w) : ℕ) : ℝ) = d + e := by
        rw [Nat.cast_sub (by omega), hd, he]
        push_cast
        ring
      rw [hcard]
      by_cases hz : d + e = 0
      · rw [hz, zero_mul]
        exact div_nonneg d0 (lpos _).le
      · rw [mul_div_assoc', mul_div_cancel₀ _ hz]
    have fin : d / Real.logb 2 ((h + w : ℕ) + 2) + ((F : ℝ) - c.1) / Real.logb 2 ((h + w : ℕ) + 2) =
        ((F : ℝ) - h) / Real.logb 2 ((h + w : ℕ) + 2) := by
      rw [← add_div, hd]
      ring
    linarith

theorem cutGain_more (F : ℕ) (z : ℕ × ℕ) (b a : List (ℕ × ℕ)) : ∀ h w, Growing h w (a ++ z :: b) →
    (∀ c ∈ a ++ z :: b, c.1 ≤ F) →
    cutGain h w (a ++ z :: b) ≤ cutGain h w (a ++ [z]) + ((F : ℝ) - z.1) / Real.logb 2 ((z.1 + z.2 : ℕ) + 2) := by
  induction a with
  | nil =>
    intro h w hg hF
    have := cutGain_most F b z.1 z.2 hg.2.2 (hF z (by simp)) (fun c hc => hF c (by simp [hc]))
    simp only [List.nil_append, cutGain]
    linarith
  | cons c a ih =>
    intro h w hg hF
    have := ih c.1 c.2 hg.2.2 (fun x hx => hF x (by simp at hx ⊢; tauto))
    simp only [List.cons_append, cutGain]
    linarith

/-! ## Tallies -/

/-- The counts at the lowest of some scores: nothing, if there are none. -/
def Lowest (S : List Flt) (c : Tally) (f v : ℕ) : Prop :=
  S = [] ∧ f = 0 ∧ v = 0 ∨
    ∃ s ∈ S, (∀ y ∈ S, Flt.lt y s = false) ∧ c.hits s = f ∧ c.wrong s = v

theorem descending_last {S : List Flt} (hn : ∀ s ∈ S, s ≠ .nan) {s : Flt} (hs : s ∈ S)
    (hl : ∀ y ∈ S, Flt.lt y s = false) : ∃ l, descending S = l ++ [s] := by
  have t := descending_thresholds S hn
  have hm := (t.mem s).2 hs
  obtain ⟨l, r, e⟩ := List.append_of_mem hm
  cases r with
  | nil => exact ⟨l, e⟩
  | cons y r =>
    exfalso
    have hy : y ∈ S := (t.mem y).1 (by rw [e]; simp)
    have hp := t.sorted
    rw [e, List.pairwise_append, List.pairwise_cons] at hp
    have := hp.2.1.1 y (by simp)
    rw [hl y hy] at this
    cases this

theorem Prolongs.cuts {S S' : List Flt} {c c' : Tally} (h : Prolongs S S' c c') {f v : ℕ} (hl : Lowest S c f v) :
    (Spec.descending S = [] ∧ f = 0 ∧ v = 0) ∨
      ∃ l b, (Spec.descending S).map (countsAt c) = l ++ [(f, v)] ∧
        (Spec.descending S').map (countsAt c') = l ++ (f, v) :: b := by
  rcases hl with ⟨rfl, h1, h2⟩ | ⟨s, hs, h1, h2, h3⟩
  · exact .inl ⟨rfl, h1, h2⟩
  · right
    obtain ⟨b, e, hm⟩ := h.descending
    obtain ⟨l, e'⟩ := descending_last (fun s hs => h.num s (h.sub s hs)) hs h1
    have eS : (Spec.descending S).map (countsAt c) = (Spec.descending S).map (countsAt c') :=
      List.map_congr_left fun s hs => by
        unfold countsAt
        rw [(h.same s (hm s hs)).1, (h.same s (hm s hs)).2]
    refine ⟨l.map (countsAt c'), b.map (countsAt c'), ?_, ?_⟩
    · rw [eS, e', List.map_append, List.map_cons, List.map_nil]
      congr 2
      unfold countsAt
      rw [(h.same s hs).1, (h.same s hs).2, h2, h3]
    · rw [e, e', List.append_assoc, List.map_append, List.map_append, List.map_cons, List.map_nil,
        List.singleton_append]
      congr 2
      unfold countsAt
      rw [(h.same s hs).1, (h.same s hs).2, h2, h3]

theorem Prolongs.ap_gain {S S' : List Flt} {c c' : Tally} (h : Prolongs S S' c c') {f v F : ℕ}
    (hl : Lowest S c f v) (hF : ∀ s ∈ S', c'.hits s ≤ F) (hN : c.refs ≠ 0) (interp t : Bool) :
    c'.ap interp t (Spec.descending S') ≤ c.ap interp t (Spec.descending S) + ((F : ℚ) - f) / c.refs := by
  have t' := descending_thresholds S' h.num
  have hg := h.growing
  have hF' : ∀ x ∈ (Spec.descending S').map (countsAt c'), x.1 ≤ F := by
    intro x hx
    obtain ⟨s, hs, rfl⟩ := List.mem_map.1 hx
    exact hF s ((t'.mem s).1 hs)
  have pts : ∀ (d : Tally) (l : List Flt), l.map d.point = (l.map (countsAt d)).map (cutPoint d.refs) := by
    intro d l
    rw [List.map_map]
    rfl
  unfold Tally.ap
  rw [pts, pts, h.refs]
  rcases h.cuts hl with ⟨e, rfl, rfl⟩ | ⟨l, b, e1, e2⟩
  · have := cutArea_most interp t c.refs hN F _ hg hF'
    rw [e]
    have z : curveArea interp t (([].map (countsAt c)).map (cutPoint c.refs)) = 0 := by
      rw [curveArea_rec]
      cases interp <;> rfl
    rw [z]
    simpa using this
  · rw [e1, e2]
    rw [e2] at hg hF'
    exact cutArea_more interp t c.refs hN F l (f, v) b hg hF'

theorem Prolongs.ndcg_gain {S S' : List Flt} {c c' : Tally} (h : Prolongs S S' c c') {f v F : ℕ}
    (hl : Lowest S c f v) (hF : ∀ s ∈ S', c'.hits s ≤ F) (hN : c.refs ≠ 0) :
    c'.ndcg (Spec.descending S') ≤ c.ndcg (Spec.descending S) +
      ((F : ℝ) - f) / (Real.logb 2 ((f + v : ℕ) + 2) * idealGain c.refs) := by
  have t' := descending_thresholds S' h.num
  have hg := h.growing
  have hF' : ∀ x ∈ (Spec.descending S').map (countsAt c'), x.1 ≤ F := by
    intro x hx
    obtain ⟨s, hs, rfl⟩ := List.mem_map.1 hx
    exact hF s ((t'.mem s).1 hs)
  have ig : 0 ≤ idealGain c.refs := by
    rw [idealGain_disc]
    exact Finset.sum_nonneg fun k _ => (disc_pos _ (by omega)).le
  have fin : cutGain 0 0 ((Spec.descending S').map (countsAt c')) ≤
      cutGain 0 0 ((Spec.descending S).map (countsAt c)) + ((F : ℝ) - f) / Real.logb 2 ((f + v : ℕ) + 2) := by
    rcases h.cuts hl with ⟨e, rfl, rfl⟩ | ⟨l, b, e1, e2⟩
    · rw [e]
      have := cutGain_most F _ 0 0 hg (Nat.zero_le _) hF'
      simpa [cutGain] using this
    · rw [e1, e2]
      rw [e2] at hg hF'
      exact cutGain_more F (f, v) b l 0 0 hg hF'
  unfold Tally.ndcg
  rw [h.refs, if_neg hN, if_neg hN, gain_cuts, gain_cuts]
  have := div_le_div_of_nonneg_right fin ig
  rw [add_div, div_div] at this
  exact this

end Kws
