import Verif.Model.Statistic
import Verif.Spec.Statistic
import Verif.Props.Collapse
import Verif.Lemmas.Decompose

/-!
# C119: statistic objects
-/

set_option linter.unusedSectionVars false

namespace Kws
open Spec

section
variable {Q L G : Type}

/-- C119: `GlobalAP` of groups is that of all their matches, sorted if asked for; with any rounding. -/
theorem C119_global_ap (R : Rnd) (S : StdSort) (collapse interp trapezoid : Bool) :
    Pools (GlobalStatObject.ap (Q := Q) (L := L) R S collapse interp trapezoid).plain
      (GlobalStatObject.ap R S collapse interp trapezoid).grouped := by
  refine ⟨fun gs => rfl, fun gs hn => ?_⟩
  obtain ⟨l, h1, h2, h3, -⟩ := sortMatches_spec S gs.flatten hn
  refine ⟨l, h2, h3, ?_⟩
  simp only [GlobalStatObject.ap, globalAPGrouped, if_true, h1, bind, Except.bind]

/-- C119: the same for `GlobalNDCG`. -/
theorem C119_global_ndcg (R : Rnd) (S : StdSort) (collapse : Bool) :
    Pools (GlobalStatObject.ndcg (Q := Q) (L := L) R S collapse).plain
      (GlobalStatObject.ndcg R S collapse).grouped := by
  refine ⟨fun gs => rfl, fun gs hn => ?_⟩
  obtain ⟨l, h1, h2, h3, -⟩ := sortMatches_spec S gs.flatten hn
  refine ⟨l, h2, h3, ?_⟩
  simp only [GlobalStatObject.ndcg, globalNDCGGrouped, if_true, h1, bind, Except.bind, pure, Except.pure]

/-- One round of the loop of `ComputeMeanAP`. -/
theorem meanAPLoop_cons (R : Rnd) (S : StdSort) (c i t sort : Bool) (acc : ℚ) (g : List (KwsMatch Q L))
    (gs : List (List (KwsMatch Q L))) :
    meanAPLoop R S c i t sort acc (g :: gs) =
      ((GlobalStatObject.ap R S c i t).grouped [g] sort).bind fun v =>
        meanAPLoop R S c i t sort (R.f64 (acc + v)) gs := by
  cases sort with
  | false =>
    simp only [GlobalStatObject.ap, globalAPGrouped, meanAPLoop, Bool.false_eq_true, if_false, bind, Except.bind,
      pure, Except.pure, List.flatten_cons, List.flatten_nil, List.append_nil]
  | true =>
    simp only [GlobalStatObject.ap, globalAPGrouped, meanAPLoop, if_true, bind, Except.bind,
      List.flatten_cons, List.flatten_nil, List.append_nil]
    cases sortMatches S g <;> rfl

theorem meanNDCGLoop_cons (R : Rnd) (S : StdSort) (c sort : Bool) (acc : ℝ) (g : List (KwsMatch Q L))
    (gs : List (List (KwsMatch Q L))) :
    meanNDCGLoop R S c sort acc (g :: gs) =
      ((GlobalStatObject.ndcg R S c).grouped [g] sort).bind fun v =>
        meanNDCGLoop R S c sort (acc + v) gs := by
  cases sort with
  | false =>
    simp only [GlobalStatObject.ndcg, globalNDCGGrouped, meanNDCGLoop, Bool.false_eq_true, if_false, bind,
      Except.bind, pure, Except.pure, List.flatten_cons, List.flatten_nil, List.append_nil]
  | true =>
    simp only [GlobalStatObject.ndcg, globalNDCGGrouped, meanNDCGLoop, if_true, bind, Except.bind,
      List.flatten_cons, List.flatten_nil, List.append_nil]
    cases sortMatches S g <;> rfl

/-- C119: `MeanAP` of groups is the mean of `GlobalAP` of the groups, added up in their order; with any
rounding. -/
theorem C119_mean_ap (R : Rnd) (S : StdSort) (collapse interp trapezoid : Bool) :
    Averages (roundedMean R) (GlobalStatObject.ap (Q := Q) (L := L) R S collapse interp trapezoid).grouped
      (StatObject.ap R S collapse interp trapezoid).grouped := by
  constructor
  · intro gs sort vs h
    have key : ∀ acc, meanAPLoop R S collapse interp trapezoid sort acc gs =
        .ok (vs.foldl (fun a v => R.f64 (a + v)) acc) := by
      induction h with
      | nil => exact fun _ => rfl
      | cons hv _ ih => exact fun acc => by rw [meanAPLoop_cons, hv]; exact ih _
    have hl := h.length_eq
    simp only [StatObject.ap, meanAP, key, bind, Except.bind, pure, Except.pure, roundedMean, hl]
    cases vs <;> simp
  · intro gs₁ g gs₂ sort e h he
    have key : ∀ acc, meanAPLoop R S collapse interp trapezoid sort acc (gs₁ ++ g :: gs₂) = .error e := by
      induction gs₁ with
      | nil => exact fun acc => by rw [List.nil_append, meanAPLoop_cons, he]; rfl
      | cons a l ih =>
        intro acc
        obtain ⟨v, hv⟩ := h a (by simp)
        rw [List.cons_append, meanAPLoop_cons, hv]
        exact ih (fun x hx => h x (by simp [hx])) _
    simp only [StatObject.ap, meanAP, key, bind, Except.bind]

/-- C119: `MeanNDCG` of groups is the mean of `GlobalNDCG` of the groups. -/
theorem C119_mean_ndcg (R : Rnd) (S : StdSort) (collapse : Bool) :
    Averages average (GlobalStatObject.ndcg (Q := Q) (L := L) R S collapse).grouped
      (StatObject.ndcg R S collapse).grouped := by
  constructor
  · intro gs sort vs h
    have key : ∀ acc, meanNDCGLoop R S collapse sort acc gs = .ok (acc + vs.sum) := by
      induction h with
      | nil => exact fun _ => by simp [meanNDCGLoop, pure, Except.pure]
      | cons hv _ ih =>
        intro acc
        rw [meanNDCGLoop_cons, hv]
        exact (ih _).trans (by rw [List.sum_cons, add_assoc])
    have hl := h.length_eq
    simp only [StatObject.ndcg, meanNDCG, key, bind, Except.bind, pure, Except.pure, average, hl, zero_add]
    cases vs <;> simp
  · intro gs₁ g gs₂ sort e h he
    have key : ∀ acc, meanNDCGLoop R S collapse sort acc (gs₁ ++ g :: gs₂) = .error e := by
      induction gs₁ with
      | nil => exact fun acc => by rw [List.nil_append, meanNDCGLoop_cons, he]; rfl
      | cons a l ih =>
        intro acc
        obtain ⟨v, hv⟩ := h a (by simp)
        rw [List.cons_append, meanNDCGLoop_cons, hv]
        exact ih (fun x hx => h x (by simp [hx])) _
    simp only [StatObject.ndcg, meanNDCG, key, bind, Except.bind]

/-- C119: asked to sort, statistics that collapse depend only on which matches there are (global ones) and on
which are together in a group (mean ones), neither on any order nor on the sorting algorithm. -/
theorem C119_determined (S S' : StdSort) (interp trapezoid : Bool) (gs gs' : List (List (KwsMatch Q L)))
    (hn : ∀ m ∈ gs.flatten, rank m ≠ .nan) :
    (gs.flatten.Perm gs'.flatten →
      (GlobalStatObject.ap Rnd.exact S true interp trapezoid).grouped gs true =
        (GlobalStatObject.ap Rnd.exact S' true interp trapezoid).grouped gs' true ∧
      (GlobalStatObject.ndcg Rnd.exact S true).grouped gs true =
        (GlobalStatObject.ndcg Rnd.exact S' true).grouped gs' true) ∧
    (SameGroups gs gs' →
      (StatObject.ap Rnd.exact S true interp trapezoid).grouped gs true =
        (StatObject.ap Rnd.exact S' true interp trapezoid).grouped gs' true ∧
      (StatObject.ndcg Rnd.exact S true).grouped gs true =
        (StatObject.ndcg Rnd.exact S' true).grouped gs' true) := by
  refine ⟨fun hp => C33_global Rnd.exact S S' gs gs' hp hn (Or.inl rfl) interp trapezoid, ?_⟩
  rintro ⟨gs₁, hp, hf⟩
  have hn' : ∀ g ∈ gs, ∀ m ∈ g, rank m ≠ .nan := fun g hg m hm => hn m (List.mem_flatten.2 ⟨g, hg, hm⟩)
  have hn₁ : ∀ g ∈ gs₁, ∀ m ∈ g, rank m ≠ .nan := fun g hg => hn' g (hp.mem_iff.2 hg)
  obtain ⟨e1, e2⟩ := C33_mean Rnd.exact S S' gs₁ gs' hf hn₁ (Or.inl rfl) interp trapezoid
  have v1 : ∀ g ∈ gs, ∃ v, (GlobalStatObject.ap Rnd.exact S true interp trapezoid).grouped [g] true = .ok v := by
    intro g hg
    obtain ⟨l, -, -, h⟩ := (C119_global_ap Rnd.exact S true interp trapezoid).sorted [g]
      (by simpa using hn' g hg)
    obtain ⟨v, hv⟩ := globalAP_total Rnd.exact l true interp trapezoid
    exact ⟨v, h.trans hv⟩
  have v2 : ∀ g ∈ gs, ∃ v, (GlobalStatObject.ndcg Rnd.exact S true).grouped [g] true = .ok v := by
    intro g hg
    obtain ⟨l, -, -, h⟩ := (C119_global_ndcg Rnd.exact S true).sorted [g] (by simpa using hn' g hg)
    exact ⟨_, h⟩
  choose! f1 hf1 using v1
  choose! f2 hf2 using v2
  have all : ∀ {K : Type} (one : List (List (KwsMatch Q L)) → Bool → Cpp K) (f : List (KwsMatch Q L) → K),
      (∀ g ∈ gs, one [g] true = .ok (f g)) → ∀ l, (∀ g ∈ l, g ∈ gs) →
        List.Forall₂ (fun g v => one [g] true = .ok v) l (l.map f) := by
    intro K one f h l hl
    induction l with
    | nil => exact .nil
    | cons a l ih => exact .cons (h a (hl a (by simp))) (ih fun g hg => hl g (by simp [hg]))
  constructor
  · refine Eq.trans ?_ e1
    refine ((C119_mean_ap Rnd.exact S true interp trapezoid).values gs true _
      (all _ f1 hf1 gs fun _ h => h)).trans (Eq.trans ?_ ((C119_mean_ap Rnd.exact S true interp trapezoid).values
        gs₁ true _ (all _ f1 hf1 gs₁ fun _ h => hp.mem_iff.2 h)).symm)
    congr 1
    have hm := hp.map f1
    have hfold : ∀ (l : List ℚ) (a : ℚ), l.foldl (fun a v => Rnd.exact.f64 (a + v)) a = a + l.sum := by
      intro l
      induction l with
      | nil => simp
      | cons x l ih => intro a; rw [List.foldl_cons, ih, List.sum_cons]; simp only [Rnd.exact, id]; ring
    unfold roundedMean
    rw [hfold, hfold, hm.sum_eq, hm.length_eq]
    congr 1
    exact propext ⟨fun h => by rw [h] at hm; exact hm.symm.eq_nil, fun h => by rw [h] at hm; exact hm.eq_nil⟩
  · refine Eq.trans ?_ e2
    refine ((C119_mean_ndcg Rnd.exact S true).values gs true _
      (all _ f2 hf2 gs fun _ h => h)).trans (Eq.trans ?_ ((C119_mean_ndcg Rnd.exact S true).values
        gs₁ true _ (all _ f2 hf2 gs₁ fun _ h => hp.mem_iff.2 h)).symm)
    congr 1
    have hm := hp.map f2
    unfold average
    rw [hm.sum_eq, hm.length_eq]

/-- C119: the numbers of a run are those of the four statistic objects that the tool makes. -/
theorem C119_tool (R : Rnd) (S : StdSort) (rng : Rng G) (w : World) (o : ToolOptions)
    (ms : List (KwsMatch Q L)) (groups : List (List (KwsMatch Q L)))
    (dump : Option (List (KwsMatch Q L) × List (KwsMatch Q L))) :
    assess R S rng w o ms groups dump = assessObjects R S rng w o ms groups dump := rfl

end

/-! ## Examples -/

section
/-- A hit with score 1 and, in another group, a false positive with score 2 and a missed reference. -/
def statGroups : List (List (KwsMatch Nat Nat)) :=
  [[⟨some ⟨1, 1⟩, some ⟨⟨1, 1⟩, .fin 1⟩, ⟨0, 0⟩⟩],
   [⟨some ⟨2, 1⟩, none, ⟨0, 1⟩⟩, ⟨none, some ⟨⟨2, 2⟩, .fin 2⟩, ⟨1, 0⟩⟩]]

/-- The hypotheses of C119 are met. Sorting makes a difference: the global average precision is 1/2 with the
hit first and 1/4 in the order of the scores. The mean is 1/2. -/
example (S : StdSort) :
    (∀ m ∈ statGroups.flatten, rank m ≠ .nan) ∧
    (GlobalStatObject.ap Rnd.exact S false false false).grouped statGroups false = .ok (1 / 2) ∧
    (GlobalStatObject.ap Rnd.exact S false false false).grouped statGroups true = .ok (1 / 4) ∧
    (StatObject.ap Rnd.exact S false false false).grouped statGroups false = .ok (1 / 2) := by
  refine ⟨by decide +kernel, ?_, ?_, ?_⟩
  · show globalAP Rnd.exact statGroups.flatten false false false = _
    decide +kernel
  rotate_left
  · refine ((C119_mean_ap Rnd.exact S false false false).values statGroups false [1, 0]
      (.cons ?_ (.cons ?_ .nil))).trans (by decide +kernel)
    · rw [(C119_global_ap Rnd.exact S false false false).unsorted]
      simp only [GlobalStatObject.ap]
      decide +kernel
    · rw [(C119_global_ap Rnd.exact S false false false).unsorted]
      simp only [GlobalStatObject.ap]
      decide +kernel
  obtain ⟨l, h1, h2, h3⟩ := (C119_global_ap Rnd.exact S false false false).sorted statGroups (by decide +kernel)
  have hl : l = [⟨none, some ⟨⟨2, 2⟩, .fin 2⟩, ⟨1, 0⟩⟩, ⟨some ⟨1, 1⟩, some ⟨⟨1, 1⟩, .fin 1⟩, ⟨0, 0⟩⟩,
      ⟨some ⟨2, 1⟩, none, ⟨0, 1⟩⟩] := by
    refine List.Perm.eq_of_pairwise (le := fun a b => Flt.lt (rank a) (rank b) = false) ?_ h2 (by decide +kernel)
      (h1.trans (by decide +kernel))
    intro a b ha hb hab hba
    have ha' := h1.mem_iff.1 ha
    revert hab hba
    revert ha' hb
    simp only [statGroups, List.flatten_cons, List.flatten_nil, List.append_nil, List.cons_append,
      List.nil_append, List.mem_cons, List.not_mem_nil, or_false]
    rintro (rfl | rfl | rfl) (rfl | rfl | rfl) <;> first | exact fun _ _ => rfl | (intro h1 h2; exact absurd h1 (by decide +kernel)) | (intro h1 h2; exact absurd h2 (by decide +kernel))
  rw [h3, hl]
  simp only [GlobalStatObject.ap]
  decide +kernel

/-- A case of C119_determined: the groups in another order, the second one turned round. -/
example : SameGroups statGroups
    [[⟨none, some ⟨⟨2, 2⟩, .fin 2⟩, ⟨1, 0⟩⟩, ⟨some ⟨2, 1⟩, none, ⟨0, 1⟩⟩],
     [⟨some ⟨1, 1⟩, some ⟨⟨1, 1⟩, .fin 1⟩, ⟨0, 0⟩⟩]] :=
  ⟨_, List.Perm.swap _ _ _, .cons (List.Perm.swap _ _ _) (.cons (List.Perm.refl _) .nil)⟩

/-- A false positive with the given score. -/
def statFalse (s : Flt) : KwsMatch Nat Nat := ⟨none, some ⟨⟨1, 1⟩, s⟩, ⟨1, 0⟩⟩

/-- A case of the fault clause: sorting a group with the scores 1, NaN and 2 is undefined, hence the mean. With
the same matches in three groups the mean is defined, but not the global average precision. -/
example (S : StdSort) (c i t : Bool) :
    (StatObject.ap Rnd.exact S c i t).grouped
      [[statFalse (.fin 1)], [statFalse (.fin 1), statFalse .nan, statFalse (.fin 2)]] true = .error .ub ∧
    (StatObject.ap Rnd.exact S c i t).grouped
      [[statFalse (.fin 1)], [statFalse .nan], [statFalse (.fin 2)]] true ≠ .error .ub ∧
    (GlobalStatObject.ap Rnd.exact S c i t).grouped
      [[statFalse (.fin 1)], [statFalse .nan], [statFalse (.fin 2)]] true = .error .ub := by
  have hbad : sortMatches S [statFalse (.fin 1), statFalse .nan, statFalse (.fin 2)] = .error .ub := by
    refine S.bad _ _ fun h => ?_
    rcases (C34_comparator _).1 h with h | h
    · exact absurd (h (statFalse .nan) (by simp)) (by simp [rank, statFalse])
    · have := h (statFalse (.fin 1)) (by simp) (statFalse (.fin 2)) (by simp) _ _ rfl rfl (by simp) (by simp)
      exact absurd this (by decide +kernel)
  have hone : ∀ s, ∃ v, (GlobalStatObject.ap Rnd.exact S c i t).grouped [[statFalse s]] true = .ok v := by
    intro s
    obtain ⟨l, h1, h2⟩ := S.ok scoreGreater [statFalse s] ((C34_comparator _).2 (Or.inr (by
      intro a ha b hb x y hx hy _ _
      rw [List.mem_singleton] at ha hb
      subst ha hb
      rw [Option.some.inj (hx.symm.trans hy)])))
    obtain ⟨v, hv⟩ := globalAP_total Rnd.exact l c i t
    refine ⟨v, ?_⟩
    simp only [GlobalStatObject.ap, globalAPGrouped, if_true, List.flatten_cons, List.flatten_nil,
      List.append_nil, sortMatches, h1, bind, Except.bind, hv]
  refine ⟨(C119_mean_ap Rnd.exact S c i t).fault [[statFalse (.fin 1)]] _ [] true _ ?_ ?_, ?_, ?_⟩
  · intro g hg
    rw [List.mem_singleton] at hg
    exact hg ▸ hone _
  · simp only [GlobalStatObject.ap, globalAPGrouped, if_true, List.flatten_cons, List.flatten_nil,
      List.append_nil, hbad, bind, Except.bind]
  · obtain ⟨v1, h1⟩ := hone (.fin 1)
    obtain ⟨v2, h2⟩ := hone .nan
    obtain ⟨v3, h3⟩ := hone (.fin 2)
    rw [(C119_mean_ap Rnd.exact S c i t).values _ true [v1, v2, v3] (.cons h1 (.cons h2 (.cons h3 .nil)))]
    simp
  · simp only [GlobalStatObject.ap, globalAPGrouped, if_true, List.flatten_cons, List.flatten_nil,
      List.append_nil, List.cons_append, List.nil_append, hbad, bind, Except.bind]

end

end Kws
