import Verif.Lemmas.Cuts
import Verif.Lemmas.Monotone
import Verif.Lemmas.Dilution
import Verif.Spec.Bounds

/-! Bounds of average precision and NDCG -/

namespace Kws
open Spec

/-! ## Areas -/

/-- Recalls do not fall. -/
abbrev Ascending (l : List (ℚ × ℚ)) : Prop := l.Pairwise (fun p q => p.2 ≤ q.2)

theorem ascending_last {q : ℚ × ℚ} {l : List (ℚ × ℚ)} (h : Ascending (q :: l)) :
    q.2 ≤ (l.getLast?.getD q).2 := by
  rcases List.eq_nil_or_concat l with rfl | ⟨a, p, rfl⟩
  · simp
  · simp only [List.concat_eq_append, List.getLast?_append, List.getLast?_singleton] at h ⊢
    exact (List.pairwise_cons.1 h).1 p (by simp)

theorem getLast_cons (q p : ℚ × ℚ) (l : List (ℚ × ℚ)) :
    (p :: l).getLast?.getD q = l.getLast?.getD p := by
  rcases List.eq_nil_or_concat l with rfl | ⟨a, x, rfl⟩
  · simp
  · simp [List.getLast?_cons]

theorem areaRec_le (t : Bool) (l : List (ℚ × ℚ)) : ∀ q : ℚ × ℚ, q.1 ≤ 1 → (∀ p ∈ l, p.1 ≤ 1) →
    Ascending (q :: l) → areaRec t (some q) l ≤ (l.getLast?.getD q).2 - q.2 := by
  induction l with
  | nil => intro q _ _ _; simp [areaRec]
  | cons p l ih =>
    intro q hq hl ha
    have h1 := ih p (hl p (by simp)) (fun x hx => hl x (by simp [hx])) (List.pairwise_cons.1 ha).2
    have h2 : q.2 ≤ p.2 := (List.pairwise_cons.1 ha).1 p (by simp)
    have h3 : (if t = true then (p.1 + q.1) / 2 else p.1) ≤ 1 := by
      have := hl p (by simp)
      split <;> linarith
    rw [areaRec, getLast_cons]
    have := mul_le_mul_of_nonneg_right h3 (sub_nonneg.2 h2)
    linarith

theorem areaRec_tight (t : Bool) (l : List (ℚ × ℚ)) : ∀ q : ℚ × ℚ, q.1 ≤ 1 → (∀ p ∈ l, p.1 ≤ 1) →
    Ascending (q :: l) → areaRec t (some q) l = (l.getLast?.getD q).2 - q.2 →
    ∀ a p b, l = a ++ p :: b → (a.getLast?.getD q).2 < p.2 → p.1 = 1 := by
  induction l with
  | nil => intro q _ _ _ _ a p b h; simp at h
  | cons p l ih =>
    intro q hq hl ha he
    have hp := hl p (by simp)
    have hl' : ∀ x ∈ l, x.1 ≤ 1 := fun x hx => hl x (by simp [hx])
    have h1 := areaRec_le t l p hp hl' (List.pairwise_cons.1 ha).2
    have h2 : q.2 ≤ p.2 := (List.pairwise_cons.1 ha).1 p (by simp)
    have h3 : (if t = true then (p.1 + q.1) / 2 else p.1) ≤ 1 := by split <;> linarith
    rw [areaRec, getLast_cons] at he
    have h4 := mul_le_mul_of_nonneg_right h3 (sub_nonneg.2 h2)
    intro a x b hx hlt
    cases a with
    | nil =>
      simp only [List.nil_append, List.cons.injEq] at hx
      obtain ⟨rfl, rfl⟩ := hx
      simp only [List.getLast?_nil, Option.getD_none] at hlt
      have h5 : (if t = true then (p.1 + q.1) / 2 else p.1) * (p.2 - q.2) = 1 * (p.2 - q.2) := by linarith
      have h6 := mul_right_cancel₀ (sub_ne_zero.2 hlt.ne') h5
      split at h6 <;> linarith
    | cons y a =>
      simp only [List.cons_append, List.cons.injEq] at hx
      obtain ⟨rfl, rfl⟩ := hx
      rw [getLast_cons] at hlt
      exact ih p hp hl' (List.pairwise_cons.1 ha).2 (by linarith) a x b rfl hlt

/-- The height where the recall grows is at least `c`. -/
theorem areaRec_ge (t : Bool) (c : ℚ) (l : List (ℚ × ℚ)) : ∀ q : ℚ × ℚ,
    Ascending (q :: l) → (∀ a x p b, q :: l = a ++ x :: p :: b → x.2 < p.2 →
      c ≤ if t = true then (p.1 + x.1) / 2 else p.1) →
    c * ((l.getLast?.getD q).2 - q.2) ≤ areaRec t (some q) l := by
  induction l with
  | nil => intro q _ _; simp [areaRec]
  | cons p l ih =>
    intro q ha hc
    have h1 := ih p (List.pairwise_cons.1 ha).2 (fun a x y b e hxy => hc (q :: a) x y b (by rw [e]; rfl) hxy)
    have h2 : q.2 ≤ p.2 := (List.pairwise_cons.1 ha).1 p (by simp)
    rw [areaRec, getLast_cons]
    rcases h2.eq_or_lt with h | h
    · rw [h, sub_self, mul_zero, zero_add]
      rw [← h] at h1 ⊢
      exact h1
    · have h3 := mul_le_mul_of_nonneg_right (hc [] q p l rfl h) (sub_nonneg.2 h2)
      linarith

theorem areaRec_none (t : Bool) (p : ℚ × ℚ) (l : List (ℚ × ℚ)) :
    areaRec t none (p :: l) = areaRec t (some (p.1, 0)) (p :: l) := by
  rw [areaRec, areaRec]
  congr 1
  split <;> simp

/-! ## Cuts -/

section
variable {Q L : Type}

/-- Neither number falls. -/
def Growing : ℕ → ℕ → List (ℕ × ℕ) → Prop
  | _, _, [] => True
  | h, w, c :: cs => h ≤ c.1 ∧ w ≤ c.2 ∧ Growing c.1 c.2 cs

theorem Growing.from_le {h w h' w' : ℕ} {cs : List (ℕ × ℕ)} (hg : Growing h' w' cs) (h1 : h ≤ h') (h2 : w ≤ w') :
    Growing h w cs := by
  cases cs with
  | nil => trivial
  | cons c cs => exact ⟨h1.trans hg.1, h2.trans hg.2.1, hg.2.2⟩

theorem Growing.mem {h w : ℕ} {cs : List (ℕ × ℕ)} (hg : Growing h w cs) : ∀ c ∈ cs, h ≤ c.1 ∧ w ≤ c.2 := by
  induction cs generalizing h w with
  | nil => intro c hc; simp at hc
  | cons x cs ih =>
    intro c hc
    rcases List.mem_cons.1 hc with rfl | hc
    · exact ⟨hg.1, hg.2.1⟩
    · have := ih hg.2.2 c hc
      exact ⟨hg.1.trans this.1, hg.2.1.trans this.2⟩

theorem Growing.pairwise {h w : ℕ} {cs : List (ℕ × ℕ)} (hg : Growing h w cs) :
    cs.Pairwise (fun c d => c.1 ≤ d.1 ∧ c.2 ≤ d.2) := by
  induction cs generalizing h w with
  | nil => exact .nil
  | cons x cs ih => exact List.pairwise_cons.2 ⟨fun d hd => hg.2.2.mem d hd, ih hg.2.2⟩

theorem cutsFrom_growing (collapse : Bool) (ms : List (KwsMatch Q L)) : ∀ h w,
    Growing h w (cutsFrom collapse h w ms) := by
  induction ms with
  | nil => intro h w; trivial
  | cons m ms ih =>
    intro h w
    rw [cutsFrom_cons]
    split
    · exact (ih _ _).from_le (by omega) (by omega)
    · exact ⟨by simp, by simp, ih _ _⟩

theorem cutsFrom_last (collapse : Bool) (ms : List (KwsMatch Q L)) : ∀ h w, ms ≠ [] →
    (cutsFrom collapse h w ms).getLast? = some (h + hitCount ms, w + wrongCount ms) := by
  induction ms with
  | nil => intro h w hn; exact absurd rfl hn
  | cons m ms ih =>
    intro h w _
    have e1 : hitCount (m :: ms) = (cell m).1 + hitCount ms := by
      unfold hitCount
      rw [List.countP_cons, add_comm]
      rfl
    have e2 : wrongCount (m :: ms) = (cell m).2.1 + wrongCount ms := by
      unfold wrongCount
      rw [List.countP_cons, add_comm]
      rfl
    rw [cutsFrom_cons, e1, e2]
    by_cases hm : ms = []
    · subst hm
      simp [cutsFrom, hitCount, wrongCount]
    · rw [List.getLast?_append, ih _ _ hm]
      simp [add_assoc]

theorem cuts_growing (collapse : Bool) (ms : List (KwsMatch Q L)) : Growing 0 0 (cuts collapse ms) := by
  rw [← cutsFrom_zero]
  exact cutsFrom_growing _ _ _ _

theorem cuts_getLast (collapse : Bool) (ms : List (KwsMatch Q L)) (h : ms ≠ []) :
    (cuts collapse ms).getLast? = some (hitCount ms, wrongCount ms) := by
  rw [← cutsFrom_zero, cutsFrom_last _ _ _ _ h, zero_add, zero_add]

theorem cuts_le (collapse : Bool) (ms : List (KwsMatch Q L)) : ∀ c ∈ cuts collapse ms,
    c.1 ≤ hitCount ms ∧ c.2 ≤ wrongCount ms := by
  intro c hc
  obtain ⟨k, _, rfl⟩ := List.mem_map.1 hc
  exact ⟨List.Sublist.countP_le (List.take_sublist _ _), List.Sublist.countP_le (List.take_sublist _ _)⟩

theorem hits_le_refs (ms : List (KwsMatch Q L)) : hitCount ms ≤ references ms := by
  refine List.countP_mono_left fun m _ h => ?_
  simp only [Bool.and_eq_true] at h
  exact h.1

/-! ## Average precision -/

theorem topped_le {l : List (ℚ × ℚ)} {b : ℚ} (h : ∀ p ∈ l, p.1 ≤ b) : ∀ p ∈ topped l, p.1 ≤ b := by
  intro p hp
  obtain ⟨q, hq, e⟩ := topped_mem hp
  exact e ▸ h q hq

theorem topped_ge {l : List (ℚ × ℚ)} {b : ℚ} {q : ℚ × ℚ} (hq : l.getLast? = some q) (hb : b ≤ q.1) :
    ∀ p ∈ topped l, b ≤ p.1 := by
  induction l with
  | nil => simp at hq
  | cons x l ih =>
    intro p hp
    rw [topped_cons, List.mem_cons] at hp
    have hmem : q ∈ x :: l := List.mem_of_getLast? hq
    rcases hp with rfl | hp
    · have := (maxFst_le x.1 l (maxFst x.1 l)).1 le_rfl
      rcases List.mem_cons.1 hmem with rfl | hm
      · exact hb.trans this.1
      · exact hb.trans (this.2 q hm)
    · cases l with
      | nil => simp [topped] at hp
      | cons y l => exact ih (by rwa [List.getLast?_cons_cons] at hq) p hp

theorem ascending_map {l l' : List (ℚ × ℚ)} (h : l.map Prod.snd = l'.map Prod.snd) :
    Ascending l ↔ Ascending l' := by
  unfold Ascending
  rw [← List.pairwise_map (f := Prod.snd) (R := fun x y => x ≤ y), h, List.pairwise_map]

theorem cutPoint_eq (N : ℕ) (c : ℕ × ℕ) : cutPoint N c = (precOf c, if N = 0 then 1 else (c.1 : ℚ) / N) := rfl

theorem ascending_points (N : ℕ) {h w : ℕ} {cs : List (ℕ × ℕ)} (hg : Growing h w cs) :
    Ascending (cs.map (cutPoint N)) := by
  unfold Ascending
  rw [List.pairwise_map]
  refine hg.pairwise.imp fun {c d} hcd => ?_
  rw [cutPoint_eq, cutPoint_eq]
  simp only
  split
  · exact le_rfl
  · exact div_le_div_of_nonneg_right (by exact_mod_cast hcd.1) (Nat.cast_nonneg _)

/-- The curve after interpolation, if any. -/
def curveOf (interp : Bool) (pts : List (ℚ × ℚ)) : List (ℚ × ℚ) := if interp then topped pts else pts

theorem curveOf_snd (interp : Bool) (pts : List (ℚ × ℚ)) : (curveOf interp pts).map Prod.snd = pts.map Prod.snd := by
  unfold curveOf
  split
  · exact topped_snd _
  · rfl

theorem curveOf_mem {interp : Bool} {pts : List (ℚ × ℚ)} {p : ℚ × ℚ} (h : p ∈ curveOf interp pts) :
    ∃ q ∈ pts, q.1 = p.1 := by
  unfold curveOf at h
  split at h
  · exact topped_mem h
  · exact ⟨p, h, rfl⟩

theorem curveArea_rec (interp t : Bool) (pts : List (ℚ × ℚ)) :
    curveArea interp t pts = areaRec t none (curveOf interp pts) := by
  unfold curveArea curveOf
  exact areaUnder_rec _ _

theorem curveOf_append (interp : Bool) (a b : List (ℚ × ℚ)) :
    ∃ a', a'.map Prod.snd = a.map Prod.snd ∧ curveOf interp (a ++ b) = a' ++ curveOf interp b := by
  unfold curveOf
  cases interp with
  | false => exact ⟨a, rfl, rfl⟩
  | true =>
    simp only [if_true]
    induction a with
    | nil => exact ⟨[], rfl, rfl⟩
    | cons x a ih =>
      obtain ⟨a', h1, h2⟩ := ih
      refine ⟨(maxFst x.1 (a ++ b), x.2) :: a', by simp [h1], ?_⟩
      rw [List.cons_append, topped_cons, h2, List.cons_append]

/-- Facts about a curve that starts at recall 0. -/
theorem area_start (interp t : Bool) (pts : List (ℚ × ℚ)) (hne : pts ≠ []) (h1 : ∀ p ∈ pts, p.1 ≤ 1)
    (h0 : ∀ p ∈ pts, 0 ≤ p.2) (ha : Ascending pts) :
    ∃ q : ℚ × ℚ, q.2 = 0 ∧ q.1 ≤ 1 ∧ (∀ b, (∀ p ∈ curveOf interp pts, b ≤ p.1) → b ≤ q.1) ∧
      (∀ p ∈ (curveOf interp pts).head?, q.1 = p.1) ∧ Ascending (q :: curveOf interp pts) ∧
      (∀ p ∈ curveOf interp pts, p.1 ≤ 1) ∧
      (((curveOf interp pts).getLast?.getD q).2 = ((pts.map Prod.snd).getLast?.getD 0)) ∧
      curveArea interp t pts = areaRec t (some q) (curveOf interp pts) := by
  have hs := curveOf_snd interp pts
  have hle : ∀ p ∈ curveOf interp pts, p.1 ≤ 1 := fun p hp => by
    obtain ⟨q, hq, e⟩ := curveOf_mem hp
    exact e ▸ h1 q hq
  have hasc : Ascending (curveOf interp pts) := (ascending_map hs).2 ha
  have hnn : ∀ p ∈ curveOf interp pts, 0 ≤ p.2 := fun p hp => by
    have : p.2 ∈ (curveOf interp pts).map Prod.snd := List.mem_map_of_mem hp
    rw [hs] at this
    obtain ⟨q, hq, e⟩ := List.mem_map.1 this
    exact e ▸ h0 q hq
  rw [curveArea_rec]
  cases hc : curveOf interp pts with
  | nil =>
    rw [hc] at hs
    cases pts with
    | nil => exact absurd rfl hne
    | cons x l => simp at hs
  | cons p l =>
    rw [hc] at hs hle hasc hnn
    refine ⟨(p.1, 0), rfl, hle p (by simp), fun b hb => hb p (by simp), by simp,
      List.pairwise_cons.2 ⟨fun x hx => hnn x hx, hasc⟩, hle, ?_, areaRec_none t p l⟩
    rw [← hs, List.getLast?_map]
    cases h : (p :: l).getLast? with
    | none => simp at h
    | some x => simp

theorem precOf_le_one (c : ℕ × ℕ) : precOf c ≤ 1 := by
  unfold precOf
  split
  · exact le_rfl
  · rename_i h
    rw [div_le_one (by have : (0:ℚ) < ((c.1 + c.2 : ℕ) : ℚ) := by exact_mod_cast Nat.pos_of_ne_zero h
                       push_cast at this; exact this)]
    exact le_add_of_nonneg_right (Nat.cast_nonneg _)

variable (collapse interp t : Bool) (ms : List (KwsMatch Q L))

theorem listAP_empty : listAP collapse interp t ([] : List (KwsMatch Q L)) = 0 := by
  cases collapse <;> cases interp <;> cases t <;> rfl

/-- Facts about the curve of a list of matches. -/
theorem listAP_start (hne : ms ≠ []) :
    ∃ q : ℚ × ℚ, q.2 = 0 ∧ q.1 ≤ 1 ∧
      let c := curveOf interp ((cuts collapse ms).map (cutPoint (references ms)))
      (∀ b, (∀ p ∈ c, b ≤ p.1) → b ≤ q.1) ∧ (∀ p ∈ c.head?, q.1 = p.1) ∧ Ascending (q :: c) ∧
      (∀ p ∈ c, p.1 ≤ 1) ∧ (c.getLast?.getD q).2 = recallOf ms ∧
      listAP collapse interp t ms = areaRec t (some q) c := by
  have hl := cuts_getLast collapse ms hne
  have hc : cuts collapse ms ≠ [] := by
    intro h
    rw [h] at hl
    simp at hl
  obtain ⟨q, h1, h2, h3, h4, h5, h6, h7, h8⟩ := area_start interp t
    ((cuts collapse ms).map (cutPoint (references ms))) (by simpa using hc) (by
      intro p hp
      obtain ⟨c, _, rfl⟩ := List.mem_map.1 hp
      exact precOf_le_one c) (by
      intro p hp
      obtain ⟨c, _, rfl⟩ := List.mem_map.1 hp
      rw [cutPoint_eq]
      simp only
      split <;> positivity) (ascending_points _ (cuts_growing collapse ms))
  refine ⟨q, h1, h2, h3, h4, h5, h6, ?_, h8⟩
  rw [h7, List.map_map, List.getLast?_map, hl]
  rfl

/-- Average precision is at most the recall. -/
theorem listAP_le_recall : listAP collapse interp t ms ≤ recallOf ms := by
  by_cases hne : ms = []
  · subst hne
    rw [listAP_empty]
    unfold recallOf
    split <;> positivity
  · obtain ⟨q, h1, h2, h3, h4, h5, h6, h7, h8⟩ := listAP_start collapse interp t ms hne
    rw [h8]
    refine (areaRec_le t _ q h2 h6 h5).trans ?_
    rw [h7, h1, sub_zero]

theorem recallOf_nonneg : 0 ≤ recallOf ms := by
  unfold recallOf
  split <;> positivity

/-- With interpolation, average precision is at least the product of precision and recall. -/
theorem listAP_ge_product (hne : ms ≠ []) : precisionOf ms * recallOf ms ≤ listAP collapse true t ms := by
  obtain ⟨q, h1, h2, h3, h4, h5, h6, h7, h8⟩ := listAP_start collapse true t ms hne
  have hl : ((cuts collapse ms).map (cutPoint (references ms))).getLast? =
      some (cutPoint (references ms) (hitCount ms, wrongCount ms)) := by
    rw [List.getLast?_map, cuts_getLast collapse ms hne]
    rfl
  have hge : ∀ p ∈ curveOf true ((cuts collapse ms).map (cutPoint (references ms))), precisionOf ms ≤ p.1 :=
    topped_ge hl le_rfl
  rw [h8]
  have := areaRec_ge t (precisionOf ms) _ q h5 (by
    intro a x p b e _
    have hall : ∀ y ∈ q :: curveOf true ((cuts collapse ms).map (cutPoint (references ms))),
        precisionOf ms ≤ y.1 := by
      intro y hy
      rcases List.mem_cons.1 hy with rfl | hy
      · exact h3 _ hge
      · exact hge y hy
    have hx := hall x (by rw [e]; simp)
    have hp := hall p (by rw [e]; simp)
    split <;> linarith)
  rw [h7, h1, sub_zero] at this
  exact this

/-- The precision at a point with hits. -/
theorem precOf_pos_ge {c : ℕ × ℕ} {n : ℕ} (hc : 0 < c.1) (hn : c.1 + c.2 ≤ n) : (1 : ℚ) / n ≤ precOf c := by
  unfold precOf
  rw [if_neg (by omega)]
  have h1 : (0 : ℚ) < (c.1 : ℚ) + c.2 := by
    have : (0 : ℚ) < c.1 := by exact_mod_cast hc
    positivity
  have h2 : (c.1 : ℚ) + c.2 ≤ n := by exact_mod_cast hn
  have h3 : (1 : ℚ) ≤ c.1 := by exact_mod_cast hc
  exact div_le_div₀ (by positivity) h3 h1 h2

theorem curveOf_zip {cs : List (ℕ × ℕ)} {N : ℕ} {h w : ℕ} (hg : Growing h w cs) :
    ∀ p ∈ curveOf interp (cs.map (cutPoint N)), ∃ c ∈ cs, ∃ d ∈ cs, c.1 ≤ d.1 ∧ p.1 = precOf d ∧
      p.2 = if N = 0 then 1 else (c.1 : ℚ) / N := by
  intro p hp
  induction cs generalizing h w with
  | nil => simp [curveOf, topped] at hp
  | cons c cs ih =>
    have hcase : (∃ d ∈ c :: cs, c.1 ≤ d.1 ∧ p.1 = precOf d ∧ p.2 = if N = 0 then 1 else (c.1 : ℚ) / N) ∨
        p ∈ curveOf interp (cs.map (cutPoint N)) := by
      unfold curveOf at hp ⊢
      cases interp with
      | false =>
        simp only [Bool.false_eq_true, if_false, List.map_cons, List.mem_cons] at hp ⊢
        rcases hp with rfl | hp
        · exact Or.inl ⟨c, Or.inl rfl, le_rfl, rfl, rfl⟩
        · exact Or.inr hp
      | true =>
        simp only [if_true] at hp ⊢
        rw [List.map_cons] at hp
        have hx := topped_mem (l := cutPoint N c :: cs.map (cutPoint N))
          (p := (maxFst (cutPoint N c).1 (cs.map (cutPoint N)), (cutPoint N c).2)) (by rw [topped_cons]; simp)
        rw [topped_cons, List.mem_cons] at hp
        rcases hp with rfl | hp
        · obtain ⟨x, hx, e⟩ := hx
          rw [← List.map_cons] at hx
          obtain ⟨d, hd, rfl⟩ := List.mem_map.1 hx
          refine Or.inl ⟨d, hd, ?_, e.symm, rfl⟩
          rcases List.mem_cons.1 hd with rfl | hd
          · exact le_rfl
          · exact (hg.2.2.mem d hd).1
        · exact Or.inr hp
    rcases hcase with ⟨d, hd, h1⟩ | hp
    · exact ⟨c, by simp, d, hd, h1⟩
    · obtain ⟨x, hx, d, hd, h1⟩ := ih hg.2.2 hp
      exact ⟨x, by simp [hx], d, by simp [hd], h1⟩

/-- Average precision is positive if there is a hit. -/
theorem listAP_pos (h : 0 < hitCount ms) : 0 < listAP collapse interp t ms := by
  have hr : 0 < references ms := h.trans_le (hits_le_refs ms)
  have hne : ms ≠ [] := by
    rintro rfl
    simp [hitCount] at h
  obtain ⟨q, h1, h2, h3, h4, h5, h6, h7, h8⟩ := listAP_start collapse interp t ms hne
  have hz := curveOf_zip interp (N := references ms) (cuts_growing collapse ms)
  have hn : ∀ p ∈ curveOf interp ((cuts collapse ms).map (cutPoint (references ms))), 0 ≤ p.1 := by
    intro p hp
    obtain ⟨c, _, d, _, _, e, _⟩ := hz p hp
    rw [e]
    exact precOf_nonneg d
  have hx : ∀ p ∈ curveOf interp ((cuts collapse ms).map (cutPoint (references ms))), 0 < p.2 →
      (1 : ℚ) / (hitCount ms + wrongCount ms : ℕ) ≤ p.1 := by
    intro p hp h0
    obtain ⟨c, hc, d, hd, hcd, e, e2⟩ := hz p hp
    rw [e2, if_neg hr.ne'] at h0
    have hc0 : 0 < c.1 := by
      rcases Nat.eq_zero_or_pos c.1 with h | h
      · rw [h] at h0
        simp at h0
      · exact h
    rw [e]
    have := cuts_le collapse ms d hd
    exact precOf_pos_ge (by omega) (by omega)
  have hall : ∀ y ∈ q :: curveOf interp ((cuts collapse ms).map (cutPoint (references ms))), 0 ≤ y.1 ∧ 0 ≤ y.2 := by
    intro y hy
    rcases List.mem_cons.1 hy with rfl | hy
    · exact ⟨h3 0 hn, h1.ge⟩
    · exact ⟨hn y hy, h1 ▸ (List.pairwise_cons.1 h5).1 y hy⟩
  rw [h8]
  have hge := areaRec_ge t ((1 : ℚ) / (hitCount ms + wrongCount ms : ℕ) / 2) _ q h5 (by
    intro a x p b e hxp
    have hx0 := hall x (by rw [e]; simp)
    have hpm : p ∈ curveOf interp ((cuts collapse ms).map (cutPoint (references ms))) := by
      cases a with
      | nil =>
        simp only [List.nil_append, List.cons.injEq] at e
        rw [e.2]
        simp
      | cons y a =>
        simp only [List.cons_append, List.cons.injEq] at e
        rw [e.2]
        simp
    have hp := hx p hpm (hx0.2.trans_lt hxp)
    have hp0 := hn p hpm
    split <;> linarith [hx0.1])
  rw [h7, h1, sub_zero] at hge
  refine lt_of_lt_of_le (mul_pos ?_ ?_) hge
  · have : (0 : ℚ) < ((hitCount ms + wrongCount ms : ℕ) : ℚ) := by exact_mod_cast Nat.add_pos_left h _
    positivity
  · unfold recallOf
    rw [if_neg hr.ne']
    have h1 : (0 : ℚ) < hitCount ms := by exact_mod_cast h
    have h2 : (0 : ℚ) < references ms := by exact_mod_cast hr
    positivity

/-- Average precision is 0 if nothing is found. -/
theorem listAP_none (hm : ∀ m ∈ ms, m.ref.isSome = true ∨ m.hyp.isSome = true) (h : hitCount ms = 0) :
    listAP collapse interp t ms = 0 := by
  by_cases hne : ms = []
  · subst hne
    exact listAP_empty _ _ _
  have h0 : ∀ c ∈ cuts collapse ms, c.1 = 0 := fun c hc => by
    have := cuts_le collapse ms c hc
    omega
  unfold listAP curveArea
  simp only
  refine areaUnder_zero _ _ _ ?_
  by_cases hr : references ms = 0
  · refine Or.inl fun x hx => ?_
    obtain ⟨p, hp, rfl⟩ := List.mem_map.1 hx
    obtain ⟨y, hy, e⟩ := curveOf_mem hp
    obtain ⟨c, hc, rfl⟩ := List.mem_map.1 hy
    rw [← e]
    have hw : ∀ m ∈ ms, IsWrong m = true := by
      intro m hm'
      have h1 : ¬ m.ref.isSome = true := List.countP_eq_zero.1 hr m hm'
      have h2 := (hm m hm').resolve_left h1
      unfold IsWrong
      rw [h2, Bool.and_true]
      cases hr' : m.ref <;> simp_all
    refine precOf_zero (h0 c hc) ?_
    obtain ⟨k, hk, rfl⟩ := List.mem_map.1 hc
    have hk := List.mem_range.1 (List.mem_filter.1 hk).1
    have : (ms.take (k + 1)).countP IsWrong = (ms.take (k + 1)).length :=
      List.countP_eq_length.2 fun m hm' => hw m (List.mem_of_mem_take hm')
    rw [this, List.length_take]
    omega
  · refine Or.inr fun x hx => ?_
    rw [show (if interp = true then topped _ else _ : List (ℚ × ℚ)) = curveOf interp
      ((cuts collapse ms).map (cutPoint (references ms))) from rfl, curveOf_snd] at hx
    obtain ⟨p, hp, rfl⟩ := List.mem_map.1 hx
    obtain ⟨c, hc, rfl⟩ := List.mem_map.1 hp
    rw [cutPoint_eq]
    simp [hr, h0 c hc]

theorem listAP_eq_zero (hm : ∀ m ∈ ms, m.ref.isSome = true ∨ m.hyp.isSome = true) :
    listAP collapse interp t ms = 0 ↔ hitCount ms = 0 := by
  refine ⟨fun h => ?_, listAP_none collapse interp t ms hm⟩
  by_contra h0
  exact absurd h (listAP_pos collapse interp t ms (Nat.pos_of_ne_zero h0)).ne'

theorem precOf_one {c : ℕ × ℕ} (hc : 0 < c.1) (h : precOf c = 1) : c.2 = 0 := by
  unfold precOf at h
  rw [if_neg (by omega)] at h
  have h1 : (0 : ℚ) < c.1 := by exact_mod_cast hc
  rw [div_eq_one_iff_eq (by positivity)] at h
  have : (c.2 : ℚ) = 0 := by linarith
  exact_mod_cast this

theorem precOf_clean (h : ℕ) : precOf (h, 0) = 1 := by
  unfold precOf
  split
  · rfl
  · rename_i h0
    have : (h : ℚ) ≠ 0 := by
      intro e
      apply h0
      simpa using e
    simp [this]

/-- The first cut that has all hits. -/
theorem split_first {cs : List (ℕ × ℕ)} {H W : ℕ} (h : cs.getLast? = some (H, W)) :
    ∃ a c b, cs = a ++ c :: b ∧ c.1 = H ∧ ∀ x ∈ a, x.1 ≠ H := by
  induction cs with
  | nil => simp at h
  | cons c cs ih =>
    by_cases hc : c.1 = H
    · exact ⟨[], c, cs, rfl, hc, by simp⟩
    · cases cs with
      | nil =>
        simp only [List.getLast?_singleton, Option.some.injEq] at h
        subst h
        exact absurd rfl hc
      | cons d cs =>
        obtain ⟨a, x, b, h1, h2, h3⟩ := ih (by rwa [List.getLast?_cons_cons] at h)
        refine ⟨c :: a, x, b, by rw [h1]; rfl, h2, ?_⟩
        intro y hy
        rcases List.mem_cons.1 hy with rfl | hy
        · exact hc
        · exact h3 y hy

theorem curveOf_own (interp : Bool) (N : ℕ) (hN : N ≠ 0) (cs : List (ℕ × ℕ)) :
    List.Forall₂ (fun p c => precOf c ≤ p.1 ∧ p.2 = (c.1 : ℚ) / N) (curveOf interp (cs.map (cutPoint N))) cs := by
  cases interp with
  | false =>
    unfold curveOf
    simp only [Bool.false_eq_true, if_false]
    induction cs with
    | nil => exact .nil
    | cons c cs ih => exact .cons ⟨le_rfl, by rw [cutPoint_eq]; simp [hN]⟩ ih
  | true =>
    unfold curveOf
    simp only [if_true]
    induction cs with
    | nil => exact .nil
    | cons c cs ih =>
      rw [List.map_cons, topped_cons]
      refine .cons ⟨((maxFst_le _ _ _).1 le_rfl).1, ?_⟩ ih
      rw [cutPoint_eq]
      simp [hN]

/-- Average precision is the recall if and only if no false positive comes before or together with the last hit. -/
theorem listAP_eq_recall (h : 0 < hitCount ms) :
    listAP collapse interp t ms = recallOf ms ↔ (hitCount ms, 0) ∈ cuts collapse ms := by
  have hr : 0 < references ms := h.trans_le (hits_le_refs ms)
  have hrq : (0 : ℚ) < references ms := by exact_mod_cast hr
  have hne : ms ≠ [] := by
    rintro rfl
    simp [hitCount] at h
  obtain ⟨q, h1, h2, h3, h4, h5, h6, h7, h8⟩ := listAP_start collapse interp t ms hne
  have hg := cuts_growing collapse ms
  have hle := cuts_le collapse ms
  rw [h8]
  constructor
  · intro he
    obtain ⟨a, c, b, e1, e2, e3⟩ := split_first (cuts_getLast collapse ms hne)
    obtain ⟨a', f1, f2⟩ := curveOf_append interp (a.map (cutPoint (references ms)))
      ((c :: b).map (cutPoint (references ms)))
    rw [← List.map_append, ← e1] at f2
    have hgb : Growing c.1 c.2 b := by
      have : ∀ (a : List (ℕ × ℕ)) (h w : ℕ), Growing h w (a ++ c :: b) → Growing c.1 c.2 b := by
        intro a
        induction a with
        | nil => intro h w hg; exact hg.2.2
        | cons x a ih => intro h w hg; exact ih _ _ hg.2.2
      exact this a 0 0 (e1 ▸ hg)
    -- the point of the first cut with all hits
    have hp : ∃ p l, curveOf interp ((c :: b).map (cutPoint (references ms))) = p :: l ∧
        p.2 = (c.1 : ℚ) / references ms ∧ ∃ d ∈ c :: b, p.1 = precOf d := by
      cases hcv : curveOf interp ((c :: b).map (cutPoint (references ms))) with
      | nil =>
        have := congrArg List.length (curveOf_snd interp ((c :: b).map (cutPoint (references ms))))
        rw [hcv] at this
        simp at this
      | cons p l =>
        refine ⟨p, l, rfl, ?_, ?_⟩
        · have := curveOf_snd interp ((c :: b).map (cutPoint (references ms)))
          rw [hcv] at this
          simp only [List.map_cons, List.cons.injEq] at this
          rw [this.1, cutPoint_eq]
          simp [hr.ne']
        · obtain ⟨x, hx, e⟩ := curveOf_mem (interp := interp)
            (pts := (c :: b).map (cutPoint (references ms))) (p := p) (by rw [hcv]; simp)
          obtain ⟨d, hd, rfl⟩ := List.mem_map.1 hx
          exact ⟨d, hd, e.symm⟩
    obtain ⟨p, l, g1, g2, d, hd, g3⟩ := hp
    rw [g1] at f2
    have hlast : (a'.getLast?.getD q).2 < p.2 := by
      rw [g2, e2]
      rcases List.eq_nil_or_concat a' with rfl | ⟨a1, x, rfl⟩
      · simp only [List.getLast?_nil, Option.getD_none, h1]
        have : (0 : ℚ) < hitCount ms := by exact_mod_cast h
        positivity
      · simp only [List.concat_eq_append, List.getLast?_append, List.getLast?_singleton]
        have hx : x.2 ∈ (a.map (cutPoint (references ms))).map Prod.snd := by
          rw [← f1]
          simp
        obtain ⟨y, hy, e⟩ := List.mem_map.1 hx
        obtain ⟨z, hz, rfl⟩ := List.mem_map.1 hy
        have hzlt : z.1 < hitCount ms := by
          have := hle z (by rw [e1]; simp [hz])
          have := e3 z hz
          omega
        simp only [Option.some_or, Option.getD_some]
        rw [← e, cutPoint_eq]
        simp only [hr.ne', if_false]
        exact div_lt_div_of_pos_right (by exact_mod_cast hzlt) hrq
    have hone := areaRec_tight t _ q h2 h6 h5 (by rw [he, h7, h1, sub_zero]) a' p l f2 hlast
    rw [g3] at hone
    have hd1 : d.1 = hitCount ms := by
      have hm : d ∈ cuts collapse ms := by rw [e1]; simp only [List.mem_append]; exact Or.inr hd
      have u1 := (hle d hm).1
      rcases List.mem_cons.1 hd with rfl | hd'
      · exact e2
      · have := (hgb.mem d hd').1
        omega
    have hd2 := precOf_one (by omega) hone
    have hm : d ∈ cuts collapse ms := by rw [e1]; simp only [List.mem_append]; exact Or.inr hd
    rw [show (hitCount ms, 0) = d from Prod.ext hd1.symm hd2.symm]
    exact hm
  · intro hc
    refine le_antisymm (by
      refine (areaRec_le t _ q h2 h6 h5).trans ?_
      rw [h7, h1, sub_zero]) ?_
    have := areaRec_ge t 1 _ q h5 ?_
    · rwa [h7, h1, sub_zero, one_mul] at this
    have hown := curveOf_own interp (references ms) hr.ne' (cuts collapse ms)
    -- a point where the recall grows
    have key : ∀ a p b, curveOf interp ((cuts collapse ms).map (cutPoint (references ms))) = a ++ p :: b →
        (∀ x ∈ a, x.2 < p.2) → 1 ≤ p.1 ∧ ∀ x ∈ a, 1 ≤ x.1 := by
      intro a p b e ha
      rw [e] at hown
      obtain ⟨a2, r, f1, f2, f3⟩ := forall₂_split hown
      cases f2 with
      | @cons _ cp _ b2 f4 f5 =>
        have hpw := hg.pairwise
        rw [f3] at hpw hc
        have hcp : cp.2 = 0 := by
          rcases List.mem_append.1 hc with hm | hm
          · exfalso
            obtain ⟨i, hi, e⟩ := List.mem_iff_getElem.1 hm
            have hi' : i < a.length := by rw [f1.length_eq]; exact hi
            have h1 := (List.Forall₂.get f1 hi' hi).2
            have h2 := ha _ (List.getElem_mem hi')
            simp only [List.get_eq_getElem] at h1
            rw [h1, f4.2, e] at h2
            have h3 := (hle cp (by rw [f3]; simp)).1
            have h4 := (div_lt_div_iff_of_pos_right hrq).1 h2
            have h5 : hitCount ms < cp.1 := by exact_mod_cast h4
            omega
          · rcases List.mem_cons.1 hm with hm | hm
            · rw [← hm]
            · have := ((List.pairwise_cons.1 (List.pairwise_append.1 hpw).2.1).1 _ hm).2
              simpa using this
        have hone : ∀ c : ℕ × ℕ, c.2 = 0 → precOf c = 1 := by
          rintro ⟨c1, c2⟩ rfl
          exact precOf_clean c1
        refine ⟨(hone cp hcp).ge.trans f4.1, fun x hx => ?_⟩
        obtain ⟨i, hi, e⟩ := List.mem_iff_getElem.1 hx
        have hi' : i < a2.length := by rw [← f1.length_eq]; exact hi
        have h1 := (List.Forall₂.get f1 hi hi').1
        simp only [List.get_eq_getElem] at h1
        rw [e] at h1
        have h2 := ((List.pairwise_append.1 hpw).2.2 _ (List.getElem_mem hi') cp (by simp)).2
        exact (hone _ (by omega)).ge.trans h1
    intro a x p b e hxp
    cases a with
    | nil =>
      simp only [List.nil_append, List.cons.injEq] at e
      obtain ⟨rfl, e⟩ := e
      have h9 := (key [] p b e (by simp)).1
      have h10 := h4 p (by rw [e]; simp)
      split <;> linarith
    | cons y a =>
      simp only [List.cons_append, List.cons.injEq] at e
      obtain ⟨rfl, e⟩ := e
      have hasc := (List.pairwise_cons.1 h5).2
      rw [e] at hasc
      have hk := key (a ++ [x]) p b (by rw [e]; simp) (by
        intro z hz
        rcases List.mem_append.1 hz with hz | hz
        · exact ((List.pairwise_append.1 hasc).2.2 z hz x (by simp)).trans_lt hxp
        · rw [List.mem_singleton] at hz
          subst hz
          exact hxp)
      have h9 := hk.1
      have h10 := hk.2 x (by simp)
      split <;> linarith

/-! ## Gain -/

/-- The gains of the hypotheses between the points. -/
noncomputable def cutGains : ℕ → ℕ → List (ℕ × ℕ) → List ℝ
  | _, _, [] => []
  | h, w, c :: cs =>
    List.replicate (c.1 + c.2 - (h + w))
      ((2 : ℝ) ^ (((c.1 : ℝ) - h) / (((c.1 : ℝ) - h) + ((c.2 : ℝ) - w))) - 1) ++ cutGains c.1 c.2 cs

theorem dsum_replicate (n : ℕ) (x : ℝ) : ∀ i, dsum i (List.replicate n x) = ∑ k ∈ Finset.range n, x * disc (i + k) := by
  induction n with
  | zero => intro i; simp [dsum]
  | succ n ih =>
    intro i
    rw [List.replicate_succ, dsum_cons, ih, Finset.sum_range_succ', add_comm, add_zero]
    congr 1
    refine Finset.sum_congr rfl fun k _ => ?_
    rw [show i + 1 + k = i + (k + 1) by omega]

theorem cutGain_dsum (cs : List (ℕ × ℕ)) : ∀ h w, Growing h w cs →
    cutGain h w cs = dsum (h + w + 1) (cutGains h w cs) := by
  induction cs with
  | nil => intro h w _; simp [cutGain, cutGains, dsum]
  | cons c cs ih =>
    intro h w hg
    rw [cutGain, cutGains, dsum_append, List.length_replicate, ih _ _ hg.2.2, dsum_replicate]
    have h1 := hg.1
    have h2 := hg.2.1
    rw [show h + w + 1 + (c.1 + c.2 - (h + w)) = c.1 + c.2 + 1 by omega]
    congr 1
    rw [Finset.sum_Ico_eq_sum_range]
    refine Finset.sum_congr rfl fun k _ => ?_
    unfold disc
    rw [mul_one_div]
    congr 2
    push_cast
    ring

theorem gain_ratio {h w : ℕ} {c : ℕ × ℕ} (h1 : h ≤ c.1) (h2 : w ≤ c.2) :
    let r := ((c.1 : ℝ) - h) / (((c.1 : ℝ) - h) + ((c.2 : ℝ) - w))
    0 ≤ r ∧ r ≤ 1 := by
  intro r
  have a : (0 : ℝ) ≤ (c.1 : ℝ) - h := by rw [sub_nonneg]; exact_mod_cast h1
  have b : (0 : ℝ) ≤ (c.2 : ℝ) - w := by rw [sub_nonneg]; exact_mod_cast h2
  exact ⟨by positivity, div_le_one_of_le₀ (by linarith) (by linarith)⟩

theorem cutGains_unit (cs : List (ℕ × ℕ)) : ∀ h w, Growing h w cs → ∀ x ∈ cutGains h w cs, 0 ≤ x ∧ x ≤ 1 := by
  induction cs with
  | nil => intro h w _ x hx; simp [cutGains] at hx
  | cons c cs ih =>
    intro h w hg x hx
    rw [cutGains] at hx
    rcases List.mem_append.1 hx with hx | hx
    · obtain ⟨_, rfl⟩ := List.mem_replicate.1 hx
      obtain ⟨a, b⟩ := gain_ratio hg.1 hg.2.1
      exact ⟨two_rpow_ge _ a, (two_rpow_le _ a b).trans b⟩
    · exact ih _ _ hg.2.2 x hx

theorem cutGains_sum (cs : List (ℕ × ℕ)) : ∀ h w, Growing h w cs →
    (cutGains h w cs).sum ≤ (((cs.getLast?.map Prod.fst).getD h : ℕ) : ℝ) - h := by
  induction cs with
  | nil => intro h w _; simp [cutGains]
  | cons c cs ih =>
    intro h w hg
    rw [cutGains, List.sum_append, List.sum_replicate, nsmul_eq_mul]
    have e : ((c :: cs).getLast?.map Prod.fst).getD h = (cs.getLast?.map Prod.fst).getD c.1 := by
      rcases List.eq_nil_or_concat cs with rfl | ⟨a, x, rfl⟩
      · simp
      · simp [List.getLast?_cons]
    rw [e]
    obtain ⟨a, b⟩ := gain_ratio hg.1 hg.2.1
    have h1 := hg.1
    have h2 := hg.2.1
    have key : ((c.1 + c.2 - (h + w) : ℕ) : ℝ) *
        ((2 : ℝ) ^ (((c.1 : ℝ) - h) / (((c.1 : ℝ) - h) + ((c.2 : ℝ) - w))) - 1) ≤ (c.1 : ℝ) - h := by
      have hc : ((c.1 + c.2 - (h + w) : ℕ) : ℝ) = ((c.1 : ℝ) - h) + ((c.2 : ℝ) - w) := by
        rw [Nat.cast_sub (by omega)]
        push_cast
        ring
      rw [hc]
      have h1' : (0 : ℝ) ≤ (c.1 : ℝ) - h := by rw [sub_nonneg]; exact_mod_cast h1
      have h2' : (0 : ℝ) ≤ (c.2 : ℝ) - w := by rw [sub_nonneg]; exact_mod_cast h2
      refine (mul_le_mul_of_nonneg_left (two_rpow_le _ a b) (by linarith)).trans ?_
      rcases (add_nonneg h1' h2').eq_or_lt with h0 | h0
      · rw [← h0]
        simpa using h1'
      · rw [mul_div_cancel₀ _ h0.ne']
    have := ih _ _ hg.2.2
    linarith

/-- A hit has a gain. -/
theorem cutGains_pos (cs : List (ℕ × ℕ)) : ∀ h w, Growing h w cs →
    h < (cs.getLast?.map Prod.fst).getD h → ∃ x ∈ cutGains h w cs, 0 < x := by
  induction cs with
  | nil => intro h w _ hl; simp at hl
  | cons c cs ih =>
    intro h w hg hl
    have e : ((c :: cs).getLast?.map Prod.fst).getD h = (cs.getLast?.map Prod.fst).getD c.1 := by
      rcases List.eq_nil_or_concat cs with rfl | ⟨a, x, rfl⟩
      · simp
      · simp [List.getLast?_cons]
    rw [e] at hl
    rw [cutGains]
    rcases hg.1.eq_or_lt with h1 | h1
    · obtain ⟨x, hx, h0⟩ := ih _ _ hg.2.2 (by omega)
      exact ⟨x, List.mem_append.2 (Or.inr hx), h0⟩
    · have h2 := hg.2.1
      refine ⟨_, List.mem_append.2 (Or.inl (List.mem_replicate.2 ⟨by omega, rfl⟩)), ?_⟩
      have a : (0 : ℝ) < (c.1 : ℝ) - h := by rw [sub_pos]; exact_mod_cast h1
      have b : (0 : ℝ) ≤ (c.2 : ℝ) - w := by rw [sub_nonneg]; exact_mod_cast h2
      rw [sub_pos]
      exact Real.one_lt_rpow (by norm_num) (by positivity)

theorem dsum_pos (g : List ℝ) : ∀ i, 1 ≤ i → (∀ x ∈ g, 0 ≤ x ∧ x ≤ 1) → (∃ x ∈ g, 0 < x) → 0 < dsum i g := by
  induction g with
  | nil => intro i _ _ h; simp at h
  | cons y g ih =>
    intro i hi hg ⟨x, hx, h0⟩
    rw [dsum_cons]
    have hd := disc_pos i hi
    rcases List.mem_cons.1 hx with rfl | hx
    · have := dsum_nonneg g (i + 1) (by omega) (fun z hz => hg z (by simp [hz]))
      have := mul_pos h0 hd
      linarith
    · have := ih (i + 1) (by omega) (fun z hz => hg z (by simp [hz])) ⟨x, hx, h0⟩
      have := mul_nonneg (hg y (by simp)).1 hd.le
      linarith

theorem idealGain_disc (n : ℕ) : idealGain n = ∑ k ∈ Finset.range n, disc (1 + k) := by
  unfold idealGain
  refine Finset.sum_congr rfl fun k _ => ?_
  unfold disc
  congr 2
  push_cast
  ring

theorem listNDCG_eq (hr : references ms ≠ 0) :
    listNDCG collapse ms = dsum 1 (cutGains 0 0 (cuts collapse ms)) / idealGain (references ms) := by
  unfold listNDCG idealGain
  rw [if_neg hr, cutGain_dsum _ _ _ (cuts_growing collapse ms)]

theorem listNDCG_le : listNDCG collapse ms ≤ gainShare (hitCount ms) (references ms) := by
  unfold gainShare
  by_cases hr : references ms = 0
  · rw [if_pos hr, listNDCG, if_pos hr]
  · rw [if_neg hr, listNDCG_eq collapse ms hr]
    have hg := cuts_growing collapse ms
    have hne : ms ≠ [] := by
      rintro rfl
      exact hr rfl
    have hs := cutGains_sum _ _ _ hg
    rw [cuts_getLast collapse ms hne] at hs
    simp only [Option.map_some, Option.getD_some, Nat.cast_zero, sub_zero] at hs
    have hp : 0 < idealGain (references ms) := by
      rw [idealGain_disc]
      exact ideal_pos _ (Nat.pos_of_ne_zero hr)
    refine div_le_div_of_nonneg_right ?_ hp.le
    rw [idealGain_disc]
    exact dsum_le _ 1 _ le_rfl (cutGains_unit _ _ _ hg) hs

theorem listNDCG_eq_zero : listNDCG collapse ms = 0 ↔ hitCount ms = 0 := by
  constructor
  · intro h
    by_contra h0
    have hr : references ms ≠ 0 := by
      have := hits_le_refs ms
      omega
    have hne : ms ≠ [] := by
      rintro rfl
      exact hr rfl
    rw [listNDCG_eq collapse ms hr] at h
    have hp : 0 < idealGain (references ms) := by
      rw [idealGain_disc]
      exact ideal_pos _ (Nat.pos_of_ne_zero hr)
    have hg := cuts_growing collapse ms
    refine absurd h (div_pos (dsum_pos _ 1 le_rfl (cutGains_unit _ _ _ hg) (cutGains_pos _ _ _ hg ?_)) hp).ne'
    rw [cuts_getLast collapse ms hne]
    exact Nat.pos_of_ne_zero h0
  · intro h
    by_cases hr : references ms = 0
    · rw [listNDCG, if_pos hr]
    · refine le_antisymm ((listNDCG_le collapse ms).trans ?_) ?_
      · unfold gainShare
        rw [if_neg hr, h]
        simp [idealGain]
      · rw [listNDCG_eq collapse ms hr]
        refine div_nonneg (dsum_nonneg _ 1 le_rfl (cutGains_unit _ _ _ (cuts_growing collapse ms))) ?_
        rw [idealGain_disc]
        exact (ideal_pos _ (Nat.pos_of_ne_zero hr)).le

theorem recallOf_le_one : recallOf ms ≤ 1 := by
  unfold recallOf
  split
  · rfl
  · rename_i hr
    rw [div_le_one (by exact_mod_cast Nat.pos_of_ne_zero hr)]
    exact_mod_cast hits_le_refs ms

/-- The average precision is 1 if there is a point after all references and no false positive. -/
theorem listAP_eq_one (hr : references ms ≠ 0) :
    listAP collapse interp t ms = 1 ↔ (references ms, 0) ∈ cuts collapse ms := by
  constructor
  · intro h
    have h1 := listAP_le_recall collapse interp t ms
    have h2 := recallOf_le_one ms
    have h3 : recallOf ms = 1 := le_antisymm h2 (h ▸ h1)
    have h4 : hitCount ms = references ms := by
      unfold recallOf at h3
      rw [if_neg hr, div_eq_one_iff_eq (by exact_mod_cast hr)] at h3
      exact_mod_cast h3
    rw [← h4]
    exact (listAP_eq_recall collapse interp t ms (by omega)).1 (h.trans h3.symm)
  · intro h
    have h1 := (cuts_le collapse ms _ h).1
    have h2 := hits_le_refs ms
    have h4 : hitCount ms = references ms := le_antisymm h2 h1
    rw [(listAP_eq_recall collapse interp t ms (by omega)).2 (by rw [h4]; exact h)]
    unfold recallOf
    rw [if_neg hr, h4, div_self (by exact_mod_cast hr)]

/-! ## Reports -/

theorem arranged_list_perm {b : Bool} {l : List (KwsMatch Q L)} (h : Arranged b ms l) : l.Perm ms := by
  unfold Arranged at h
  split at h
  · exact h.1
  · exact h ▸ List.Perm.refl _

variable {ms} in
theorem counts_perm {l : List (KwsMatch Q L)} (h : l.Perm ms) :
    recallOf l = recallOf ms ∧ precisionOf l = precisionOf ms ∧ hitCount l = hitCount ms ∧
    references l = references ms := by
  have h1 : hitCount l = hitCount ms := h.countP_eq _
  have h2 : references l = references ms := h.countP_eq _
  have h3 : wrongCount l = wrongCount ms := h.countP_eq _
  refine ⟨?_, ?_, h1, h2⟩
  · unfold recallOf; rw [h1, h2]
  · unfold precisionOf; rw [h1, h3]

theorem average_le' {α : Type} (l : List α) (f g : α → ℝ) (h : ∀ a ∈ l, f a ≤ g a) :
    average (l.map f) ≤ average (l.map g) := by
  unfold average
  rw [List.length_map, List.length_map]
  have : (l.map f).sum ≤ (l.map g).sum := List.sum_le_sum h
  gcongr

theorem average_eq_zero {α β : Type} [Field β] [LinearOrder β] [IsStrictOrderedRing β] (l : List α) (f : α → β)
    (h : ∀ a ∈ l, 0 ≤ f a) : average (l.map f) = 0 ↔ ∀ a ∈ l, f a = 0 := by
  unfold average
  rw [List.length_map]
  constructor
  · intro h0 a ha
    have hl : (l.length : β) ≠ 0 := by
      have := List.length_pos_of_mem ha
      exact_mod_cast this.ne'
    have hs : (l.map f).sum = 0 := (div_eq_zero_iff.1 h0).resolve_right hl
    clear h0 hl
    induction l with
    | nil => simp at ha
    | cons x l ih =>
      rw [List.map_cons, List.sum_cons] at hs
      have h1 := h x (by simp)
      have h2 : 0 ≤ (l.map f).sum := List.sum_nonneg (by
        intro y hy
        obtain ⟨b, hb, rfl⟩ := List.mem_map.1 hy
        exact h b (by simp [hb]))
      rcases List.mem_cons.1 ha with rfl | ha
      · linarith
      · exact ih (fun b hb => h b (by simp [hb])) ha (by linarith)
  · intro h0
    rw [List.sum_eq_zero (by
      intro y hy
      obtain ⟨b, hb, rfl⟩ := List.mem_map.1 hy
      exact h0 b hb), zero_div]

theorem listNDCG_nonneg : 0 ≤ listNDCG collapse ms := by
  by_cases hr : references ms = 0
  · rw [listNDCG, if_pos hr]
  · rw [listNDCG_eq collapse ms hr]
    refine div_nonneg (dsum_nonneg _ 1 le_rfl (cutGains_unit _ _ _ (cuts_growing collapse ms))) ?_
    rw [idealGain_disc]
    exact (ideal_pos _ (Nat.pos_of_ne_zero hr)).le

section
variable [DecidableEq Q] (grp : Q → Q)

theorem group_nonempty {g : Q} (h : g ∈ groupsIn grp ms) : ms.filter (InGroup grp g) ≠ [] := by
  unfold groupsIn at h
  obtain ⟨e, he, rfl⟩ := List.mem_map.1 (List.mem_dedup.1 h)
  obtain ⟨m, hm, hme⟩ := List.mem_filterMap.1 he
  refine List.ne_nil_of_mem (List.mem_filter.2 ⟨hm, ?_⟩)
  unfold InGroup
  rw [hme]
  simp

/-- There is a hit if some group has one. -/
theorem hits_groups : (∀ g ∈ groupsIn grp ms, hitCount (ms.filter (InGroup grp g)) = 0) ↔ hitCount ms = 0 := by
  unfold hitCount
  constructor
  · intro h
    rw [List.countP_eq_zero]
    intro m hm hc
    obtain ⟨e, he⟩ : ∃ e, m.ref = some e := by
      rw [← Option.isSome_iff_exists]
      simp only [Bool.and_eq_true] at hc
      exact hc.1
    have hme : eventOf m = some e := by
      unfold eventOf
      rw [he]
      rfl
    have := h (grp e.query) (by
      unfold groupsIn
      exact List.mem_dedup.2 (List.mem_map.2 ⟨e, List.mem_filterMap.2 ⟨m, hm, hme⟩, rfl⟩))
    rw [List.countP_eq_zero] at this
    refine this m (List.mem_filter.2 ⟨hm, ?_⟩) hc
    unfold InGroup
    rw [hme]
    simp
  · intro h g _
    rw [List.countP_eq_zero] at h ⊢
    exact fun m hm => h m (List.mem_filter.1 hm).1

theorem countBounds_of_shows {Q' L' : Type} (o : ToolOptions) (r : Report Q' L') (ε : ℚ)
    (hm : ∀ m ∈ ms, m.ref.isSome = true ∨ m.hyp.isSome = true) (h : ShowsList grp o r ms ε) :
    CountBounds grp o r ms ε := by
  obtain ⟨l1, a1, e1⟩ := h.gAP
  obtain ⟨l2, a2, e2⟩ := h.mAP
  obtain ⟨l3, a3, e3⟩ := h.gNDCG
  obtain ⟨l4, a4, e4⟩ := h.mNDCG
  have p1 := arranged_list_perm _ a1
  have p2 := fun g => arranged_list_perm _ (a2 g)
  have p3 := arranged_list_perm _ a3
  have p4 := fun g => arranged_list_perm _ (a4 g)
  obtain ⟨c1, c2, c3, _⟩ := counts_perm p1
  rw [abs_le] at e1 e2
  refine ⟨?_, ?_, ?_, ?_, ?_, ?_, ?_, ?_, ?_, ?_⟩
  · have := listAP_le_recall o.collapse o.interp o.trapezoid l1
    rw [c1] at this
    linarith
  · intro hi hne
    have := listAP_ge_product o.collapse o.trapezoid l1 (fun h => hne (by
      subst h
      exact p1.symm.eq_nil))
    rw [c1, c2] at this
    rw [hi] at e1
    linarith
  · have := average_le (groupsIn grp ms) (fun g => listAP o.collapse o.interp o.trapezoid (l2 g))
      (fun g => recallOf (ms.filter (InGroup grp g))) (fun g _ => by
        rw [← (counts_perm (p2 g)).1]
        exact listAP_le_recall _ _ _ _)
    linarith
  · intro hi
    have := average_le (groupsIn grp ms)
      (fun g => precisionOf (ms.filter (InGroup grp g)) * recallOf (ms.filter (InGroup grp g)))
      (fun g => listAP o.collapse o.interp o.trapezoid (l2 g)) (fun g hg => by
        rw [← (counts_perm (p2 g)).1, ← (counts_perm (p2 g)).2.1, hi]
        exact listAP_ge_product _ _ _ (fun h => group_nonempty ms grp hg (by
          have := p2 g
          rw [h] at this
          exact this.symm.eq_nil)))
    linarith
  · rw [e3, ← (counts_perm p3).2.2.1, ← (counts_perm p3).2.2.2]
    exact listNDCG_le _ _
  · rw [e4]
    refine average_le' _ _ _ fun g _ => ?_
    rw [← (counts_perm (p4 g)).2.2.1, ← (counts_perm (p4 g)).2.2.2]
    exact listNDCG_le _ _
  · rw [e3, listNDCG_eq_zero, (counts_perm p3).2.2.1]
  · rw [e4, average_eq_zero _ _ (fun g _ => listNDCG_nonneg _ _), ← hits_groups ms grp]
    refine forall₂_congr fun g _ => ?_
    rw [listNDCG_eq_zero, (counts_perm (p4 g)).2.2.1]
  · intro h0 hc hr
    subst h0
    have hv : r.gAP.value = listAP o.collapse o.interp o.trapezoid l1 := by linarith
    have hl : l1 = ms := by
      unfold Arranged at a1
      rw [hc] at a1
      simpa using a1
    rw [hv, hl]
    exact listAP_eq_one _ _ _ _ hr
  · intro h0
    subst h0
    have hv : r.gAP.value = listAP o.collapse o.interp o.trapezoid l1 := by linarith
    have hw : r.mAP.value = average ((groupsIn grp ms).map
      (fun g => listAP o.collapse o.interp o.trapezoid (l2 g))) := by linarith
    have hz : ∀ g, listAP o.collapse o.interp o.trapezoid (l2 g) = 0 ↔
        hitCount (ms.filter (InGroup grp g)) = 0 := by
      intro g
      rw [listAP_eq_zero _ _ _ _ (fun m hm' => hm m (List.mem_filter.1 ((p2 g).mem_iff.1 hm')).1),
        (counts_perm (p2 g)).2.2.1]
    constructor
    · rw [hv, listAP_eq_zero _ _ _ _ (fun m hm' => hm m (p1.mem_iff.1 hm')), c3]
    · rw [hw, average_eq_zero, ← hits_groups ms grp]
      · exact forall₂_congr fun g _ => hz g
      · intro g _
        by_cases h0 : hitCount (l2 g) = 0
        · exact (listAP_none _ _ _ _ (fun m hm' =>
            hm m (List.mem_filter.1 ((p2 g).mem_iff.1 hm')).1) h0).ge
        · exact (listAP_pos _ _ _ _ (Nat.pos_of_ne_zero h0)).le

end

theorem boxMatching_sides {D : Type} [DecidableEq D] {refs : List (Event Q (DocBox D UInt32))}
    {l : List (ScoredEvent Q (DocBox D UInt32))}
    {ms rep : List (Match (Event Q (DocBox D UInt32)) (ScoredEvent Q (DocBox D UInt32)))}
    (h : BoxMatching refs l ms rep) : ∀ m ∈ ms, m.ref.isSome = true ∨ m.hyp.isSome = true := by
  obtain ⟨overl, entries, missed, _, hg, _, _, rfl⟩ := h
  intro m hm
  rcases List.mem_append.1 hm with hm | hm
  · right
    clear * - hg hm
    generalize ([] : List (Match (Event Q (DocBox D UInt32)) (ScoredEvent Q (DocBox D UInt32)))) = earlier at hg
    induction hg with
    | nil => simp at hm
    | cons earlier h hs entry repeats entries repeated hd _ _ ih =>
      rcases List.mem_append.1 hm with hm | hm
      · rcases hd with ⟨_, rfl⟩ | ⟨_, _, _, _, _, _, _, rfl⟩ | ⟨_, _, rfl⟩
        · rw [List.mem_singleton] at hm; subst hm; rfl
        · rw [List.mem_singleton] at hm; subst hm; rfl
        · simp at hm
      · exact ih hm
  · obtain ⟨r, _, rfl⟩ := List.mem_map.1 hm
    exact Or.inl rfl

theorem segMatching_sides [DecidableEq Q] [DecidableEq L] {refs : List (Event Q L)} {l : List (ScoredEvent Q L)}
    {ms : List (KwsMatch Q L)} (h : SegMatching refs l ms) :
    ∀ m ∈ ms, m.ref.isSome = true ∨ m.hyp.isSome = true := by
  obtain ⟨missed, _, _, rfl⟩ := h
  intro m hm
  rcases List.mem_append.1 hm with hm | hm
  · right
    have : ∀ (l : List (ScoredEvent Q L)) seen, m ∈ segEntries refs seen l → m.hyp.isSome = true := by
      intro l
      induction l with
      | nil => intro seen h; simp [segEntries] at h
      | cons x l ih =>
        intro seen h
        rw [segEntries] at h
        rcases List.mem_append.1 h with h | h
        · split at h
          · rw [List.mem_singleton] at h; subst h; rfl
          · split at h
            · simp at h
            · rw [List.mem_singleton] at h; subst h; rfl
        · exact ih _ h
    exact this l [] hm
  · obtain ⟨r, _, rfl⟩ := List.mem_map.1 hm
    exact Or.inl rfl

end

end Kws
