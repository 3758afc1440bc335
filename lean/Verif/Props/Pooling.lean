import Verif.Lemmas.Pooling
import Verif.Props.Dilution

/-!
# C116: joint evaluations
-/

namespace Kws
open Spec

section
variable {Q L Q₁ L₁ Q₂ L₂ : Type} {r : Report Q L} {r₁ : Report Q₁ L₁} {r₂ : Report Q₂ L₂}

theorem pooled_near {a b c ε ε₁ ε₂ x y z : ℚ} {g₁ g₂ : ℕ} (hx : |x - a| ≤ ε) (hy : |y - b| ≤ ε₁) (hz : |z - c| ≤ ε₂)
    (h : a * (g₁ + g₂) = b * g₁ + c * g₂) :
    |x * (g₁ + g₂) - (y * g₁ + z * g₂)| ≤ ε * (g₁ + g₂) + (ε₁ * g₁ + ε₂ * g₂) := by
  have n₁ : (0 : ℚ) ≤ g₁ := Nat.cast_nonneg _
  have n₂ : (0 : ℚ) ≤ g₂ := Nat.cast_nonneg _
  have e : x * (g₁ + g₂) - (y * g₁ + z * g₂) =
      (x - a) * (g₁ + g₂) - ((y - b) * g₁ + (z - c) * g₂) := by
    rw [sub_mul, h]
    ring
  rw [e]
  refine (abs_sub _ _).trans (add_le_add ?_ ((abs_add_le _ _).trans (add_le_add ?_ ?_)))
  · rw [abs_mul, abs_of_nonneg (add_nonneg n₁ n₂)]
    exact mul_le_mul_of_nonneg_right hx (add_nonneg n₁ n₂)
  · rw [abs_mul, abs_of_nonneg n₁]
    exact mul_le_mul_of_nonneg_right hy n₁
  · rw [abs_mul, abs_of_nonneg n₂]
    exact mul_le_mul_of_nonneg_right hz n₂

theorem shows_pooled {a b c : Numbers} {ε ε₁ ε₂ : ℚ} {g₁ g₂ : ℕ} (h : Shows r a ε) (h₁ : Shows r₁ b ε₁)
    (h₂ : Shows r₂ c ε₂) (e1 : a.mAP * (g₁ + g₂ : ℕ) = b.mAP * g₁ + c.mAP * g₂)
    (e2 : a.mNDCG * (g₁ + g₂ : ℕ) = b.mNDCG * g₁ + c.mNDCG * g₂) : MeansPooled r₁ g₁ ε₁ r₂ g₂ ε₂ r ε := by
  push_cast at e1 e2
  exact ⟨pooled_near h.mAP h₁.mAP h₂.mAP e1, by rw [h.mNDCG, h₁.mNDCG, h₂.mNDCG, e2]⟩

/-- C116: in exact arithmetic the means of a joint evaluation (with a group) are between those of its parts. -/
theorem C116_between {g₁ g₂ : ℕ} (h : MeansPooled r₁ g₁ 0 r₂ g₂ 0 r 0) (hg : g₁ + g₂ ≠ 0) :
    BetweenParts r₁.mAP.value r₂.mAP.value r.mAP.value ∧ BetweenParts r₁.mNDCG.value r₂.mNDCG.value r.mNDCG.value := by
  have key : ∀ {α : Type} [Field α] [LinearOrder α] [IsStrictOrderedRing α] (a b x : α),
      x * (g₁ + g₂) = a * g₁ + b * g₂ → BetweenParts a b x := by
    intro α _ _ _ a b x hx
    have n₁ : (0 : α) ≤ g₁ := Nat.cast_nonneg _
    have n₂ : (0 : α) ≤ g₂ := Nat.cast_nonneg _
    have n : (0 : α) < g₁ + g₂ := by exact_mod_cast Nat.pos_of_ne_zero hg
    constructor
    · refine le_of_mul_le_mul_right ?_ n
      rw [hx, mul_add]
      exact add_le_add (mul_le_mul_of_nonneg_right (min_le_left _ _) n₁)
        (mul_le_mul_of_nonneg_right (min_le_right _ _) n₂)
    · refine le_of_mul_le_mul_right ?_ n
      rw [hx, mul_add]
      exact add_le_add (mul_le_mul_of_nonneg_right (le_max_left _ _) n₁)
        (mul_le_mul_of_nonneg_right (le_max_right _ _) n₂)
  refine ⟨key _ _ _ ?_, key _ _ _ h.mNDCG⟩
  have := abs_nonpos_iff.1 (h.mAP.trans_eq (by ring))
  linarith

end

/-! ## The matching of boxes -/

section
variable {grp : Str → Str} {refs more refs' : List (Event Str (DocBox Str UInt32))}
  {hyps others hyps' : List (ScoredEvent Str (DocBox Str UInt32))}
  {ms rep ms₂ rep₂ ms' rep' : List (KwsMatch Str (DocBox Str UInt32))}

open Classical in
/-- The matches of both sides. -/
theorem exact_parts (h : AddsQueries grp refs more refs' hyps others hyps')
    (hm : ExactBoxMatching refs hyps ms rep) (hm₂ : ExactBoxMatching more others ms₂ rep₂)
    (hm' : ExactBoxMatching refs' hyps' ms' rep') (hn : ∀ x ∈ hyps', x.score ≠ .nan) :
    ∃ P : Str → Bool, (∀ q q', grp q = grp q' → P q = P q') ∧ ms = ms'.filter (about P) ∧
      ms₂ = ms'.filter (about (fun q => !P q)) := by
  obtain ⟨P, h1, h2, h3, h4⟩ := exact_old h hm hm' hn
  obtain ⟨P', h1', h2', h3', h4'⟩ := exact_old h.symm hm₂ hm' hn
  refine ⟨P, h1, h2, h2'.trans ?_⟩
  refine List.filter_congr fun m hmm => ?_
  have hq : ∀ e, eventOf m = some e → e.query ∈ queriesOf refs' hyps' := by
    intro e he
    obtain ⟨a, b⟩ := exactBoxMatching_mem hm' m (.inl hmm)
    unfold eventOf at he
    cases hr : m.ref with
    | some e₀ =>
      rw [hr] at he
      obtain rfl : e₀ = e := Option.some.inj he
      exact mem_queriesOf_ref (a _ hr)
    | none =>
      rw [hr] at he
      cases hx : m.hyp with
      | none => rw [hx] at he; cases he
      | some x =>
        rw [hx] at he
        obtain rfl : x.base = e := Option.some.inj he
        exact mem_queriesOf_hyp (b x hx)
  cases he : eventOf m with
  | none =>
    obtain ⟨d, x, er⟩ := m
    cases d <;> cases x <;> simp_all [eventOf, about, queryOf]
  | some e =>
    rw [eventOf_about m he, eventOf_about m he]
    rcases (h.mem_queries _).1 (hq e he) with hq | hq
    · rw [h3 _ hq, h4' _ hq]
      rfl
    · rw [h4 _ hq, h3' _ hq]
      rfl

/-- C116 for the matching: the sums of which the means are made add up. -/
theorem C116_matching (h : AddsQueries grp refs more refs' hyps others hyps')
    (hm : ExactBoxMatching refs hyps ms rep) (hm₂ : ExactBoxMatching more others ms₂ rep₂)
    (hm' : ExactBoxMatching refs' hyps' ms' rep') (hn : ∀ x ∈ hyps', x.score ≠ .nan) (i t : Bool) :
    (matchNumbers grp i t ms').mAP * (groupCount grp refs hyps + groupCount grp more others : ℕ) =
      (matchNumbers grp i t ms).mAP * groupCount grp refs hyps +
      (matchNumbers grp i t ms₂).mAP * groupCount grp more others ∧
    (matchNumbers grp i t ms').mNDCG * (groupCount grp refs hyps + groupCount grp more others : ℕ) =
      (matchNumbers grp i t ms).mNDCG * groupCount grp refs hyps +
      (matchNumbers grp i t ms₂).mNDCG * groupCount grp more others := by
  obtain ⟨P, hP, e, e₂⟩ := exact_parts h hm hm₂ hm' hn
  rw [← h.groupCount, ← exact_groups hm, ← exact_groups hm', ← exact_groups hm₂, e, e₂]
  exact (matchNumbers_pooled hP i t).2

end

/-! ## The tools -/

/-- C116 for the box tool, with descending order and collapsing (the defaults): three runs with the same query
options, the last of which has the references and hypotheses of the first two, which are about queries of different
groups. Its mean average precision and mean NDCG are the means of those of the first two, weighted with the numbers of
groups, and the groups are those of both. -/
theorem C116_box {R : Rnd} {w w₂ w' : World} {o : ToolOptions}
    {refs more refs' : List (Event Str (DocBox Str UInt32))}
    {hyps others hyps' : List (ScoredEvent Str (DocBox Str UInt32))}
    {r r₂ r' : Report Str (DocBox Str UInt32)} {ε ε₂ ε' : ℚ}
    (h : BoxRun R w o refs hyps r ε) (h₂ : BoxRun R w₂ o more others r₂ ε₂) (h' : BoxRun R w' o refs' hyps' r' ε')
    (hg : groupFor w o = groupFor w' o) (hg₂ : groupFor w₂ o = groupFor w' o)
    (hq : listedQueries w o = listedQueries w' o) (hq₂ : listedQueries w₂ o = listedQueries w' o)
    (hd : o.sort = "desc".toList) (hc : o.collapse = true)
    (ha : AddsQueries (groupFor w' o) refs more refs' hyps others hyps') :
    let kr := keep (Event.query (L := DocBox Str UInt32)) (listedQueries w' o)
    let kh := keep (fun x : ScoredEvent Str (DocBox Str UInt32) => x.base.query) (listedQueries w' o)
    let count := fun a b => groupCount (groupFor w' o) (kr a) (kh b)
    count refs' hyps' = count refs hyps + count more others ∧
    MeansPooled r (count refs hyps) ε r₂ (count more others) ε₂ r' ε' := by
  intro kr kh count
  obtain ⟨ms, rep, a1, a2⟩ := h.numbers hd hc
  obtain ⟨ms₂, rep₂, c1, c2⟩ := h₂.numbers hd hc
  obtain ⟨ms', rep', b1, b2⟩ := h'.numbers hd hc
  rw [hq] at a1
  rw [hg] at a2
  rw [hq₂] at c1
  rw [hg₂] at c2
  have hk := ha.keep (listedQueries w' o)
  have hn : ∀ x ∈ kh hyps', x.score ≠ .nan := fun x hx => h'.scores x (keep_subset _ _ _ x hx)
  obtain ⟨d1, d2⟩ := C116_matching hk a1 c1 b1 hn o.interp o.trapezoid
  exact ⟨hk.groupCount, shows_pooled b2 a2 c2 d1 d2⟩

/-- C116 for the segmentation-based tool. -/
theorem C116_segmentation {R : Rnd} {w w₂ w' : World} {o : ToolOptions} {refs more refs' : List (Event Str Str)}
    {hyps others hyps' : List (ScoredEvent Str Str)} {r r₂ r' : Report Nat Nat} {ε ε₂ ε' : ℚ}
    (h : SegRun R w o refs hyps r ε) (h₂ : SegRun R w₂ o more others r₂ ε₂) (h' : SegRun R w' o refs' hyps' r' ε')
    (hg : groupFor w o = groupFor w' o) (hg₂ : groupFor w₂ o = groupFor w' o)
    (hq : listedQueries w o = listedQueries w' o) (hq₂ : listedQueries w₂ o = listedQueries w' o)
    (hd : o.sort = "desc".toList) (hc : o.collapse = true)
    (ha : AddsQueries (groupFor w' o) refs more refs' hyps others hyps') :
    let kr := keep (Event.query (L := Str)) (listedQueries w' o)
    let kh := keep (fun x : ScoredEvent Str Str => x.base.query) (listedQueries w' o)
    let count := fun a b => groupCount (groupFor w' o) (kr a) (kh b)
    count refs' hyps' = count refs hyps + count more others ∧
    MeansPooled r (count refs hyps) ε r₂ (count more others) ε₂ r' ε' := by
  intro kr kh count
  have a2 := h.numbers hd hc
  have c2 := h₂.numbers hd hc
  have b2 := h'.numbers hd hc
  rw [hq, hg] at a2
  rw [hq₂, hg₂] at c2
  have hk := ha.keep (listedQueries w' o)
  have hn : ∀ x ∈ kh hyps', x.score ≠ .nan := fun x hx => h'.scores x (keep_subset _ _ _ x hx)
  obtain ⟨d1, d2⟩ := segNumbers_pooled hk hn o.interp o.trapezoid
  rw [hk.groupCount] at d1 d2
  exact ⟨hk.groupCount, shows_pooled b2 a2 c2 d1 d2⟩

/-! ## Global numbers, and cases -/

def poolWorld (refs hyps : Str) : World where
  file f := if f = "r".toList then some refs else none
  stdin := hyps
  writable _ := true

def poolOptions : ToolOptions where
  refFilename := "r".toList
  alpha := 1 / 20

theorem poolWorld_file (refs hyps : Str) : (poolWorld refs hyps).file poolOptions.refFilename = some refs :=
  by simp [poolWorld, poolOptions]

theorem pool_run {G : Type} (S : StdSort) (rng : Rng G) (t u : Str) (refs : List (Event Str Str))
    (hyps : List (ScoredEvent Str Str)) (y1 : readPlain extractStrEvent t = (refs, .ok))
    (y2 : readPlain (extractScored Rnd.exact extractStrEvent) u = (hyps, .ok))
    (hv : (vocabulary (poolWorld t u) poolOptions).dedup.length ≤ 2 ^ 31) :
    ∃ r, mainWith Rnd.exact S rng (simpleKit Rnd.exact true) (poolWorld t u) poolOptions = .ok (.done r) ∧
      SegRun Rnd.exact (poolWorld t u) poolOptions refs hyps r 0 := by
  have y1 := (C48_accepts (Format.strRefs (R := Rnd.exact)) _ _).1 y1
  have y2 := (C48_accepts (Format.strHyps (R := Rnd.exact)) _ _).1 y2
  obtain ⟨r, hr, _⟩ := (C62_segmentation_partial Rnd.exact S rng true (poolWorld t u) poolOptions hv
    (fun t u _ _ => ⟨fun h => by simp [poolOptions] at h, fun h => absurd rfl h,
      fun h => absurd rfl h, fun h => by simp [poolOptions] at h⟩)).1
    ⟨⟨by decide, ⟨_, poolWorld_file _ _, yields_valid y1⟩, ⟨_, if_pos rfl, yields_valid y2⟩,
      fun h => absurd rfl h, fun h => absurd rfl h⟩, Or.inl rfl⟩
  exact ⟨r, hr, ⟨_, poolWorld_file _ _, y1⟩, ⟨_, if_pos rfl, y2⟩, hv, .inl ⟨rfl, rfl⟩, G, S, rng, true, hr⟩

/-- The global average precision of such a run. -/
theorem pool_gAP {t u : Str} {refs : List (Event Str Str)} {hyps : List (ScoredEvent Str Str)} {r : Report Nat Nat}
    (h : SegRun Rnd.exact (poolWorld t u) poolOptions refs hyps r 0) :
    r.gAP.value = (segTally refs hyps).ap true true (descending (hyps.map (·.score))) := by
  have := sub_eq_zero.1 (abs_nonpos_iff.1 (h.numbers rfl rfl).gAP)
  rw [this]
  rfl

/-- C116 does not hold for global average precision: that of the joint evaluation can be below, and it can be above
those of both parts. -/
theorem C116_global {G : Type} (S : StdSort) (rng : Rng G) :
    (∃ (w w₂ w' : World) (refs more refs' : List (Event Str Str)) (hyps others hyps' : List (ScoredEvent Str Str))
      (r r₂ r' : Report Nat Nat), SegRun Rnd.exact w poolOptions refs hyps r 0 ∧
      SegRun Rnd.exact w₂ poolOptions more others r₂ 0 ∧ SegRun Rnd.exact w' poolOptions refs' hyps' r' 0 ∧
      groupFor w' poolOptions = id ∧ AddsQueries id refs more refs' hyps others hyps' ∧
      r.gAP.value = 1 ∧ r₂.gAP.value = 1 ∧ r'.gAP.value = 5 / 6) ∧
    (∃ (w w₂ w' : World) (refs more refs' : List (Event Str Str)) (hyps others hyps' : List (ScoredEvent Str Str))
      (r r₂ r' : Report Nat Nat), SegRun Rnd.exact w poolOptions refs hyps r 0 ∧
      SegRun Rnd.exact w₂ poolOptions more others r₂ 0 ∧ SegRun Rnd.exact w' poolOptions refs' hyps' r' 0 ∧
      groupFor w' poolOptions = id ∧ AddsQueries id refs more refs' hyps others hyps' ∧
      r.gAP.value = 1 / 2 ∧ r₂.gAP.value = 2 / 3 ∧ r'.gAP.value = 49 / 72) := by
  constructor
  · obtain ⟨r, _, h⟩ := pool_run S rng "a l\n".toList "a l 2\na m 1\n".toList
      [⟨['a'], ['l']⟩] [⟨⟨['a'], ['l']⟩, .fin 2⟩, ⟨⟨['a'], ['m']⟩, .fin 1⟩]
      (by decide +kernel) (by decide +kernel) (by decide +kernel)
    obtain ⟨r₂, _, h₂⟩ := pool_run S rng "b l\n".toList "b l 0\n".toList
      [⟨['b'], ['l']⟩] [⟨⟨['b'], ['l']⟩, .fin 0⟩]
      (by decide +kernel) (by decide +kernel) (by decide +kernel)
    obtain ⟨r', _, h'⟩ := pool_run S rng "a l\nb l\n".toList "a l 2\na m 1\nb l 0\n".toList
      [⟨['a'], ['l']⟩, ⟨['b'], ['l']⟩]
      [⟨⟨['a'], ['l']⟩, .fin 2⟩, ⟨⟨['a'], ['m']⟩, .fin 1⟩, ⟨⟨['b'], ['l']⟩, .fin 0⟩]
      (by decide +kernel) (by decide +kernel) (by decide +kernel)
    refine ⟨_, _, _, _, _, _, _, _, _, r, r₂, r', h, h₂, h', rfl,
      ⟨fun r => by simp, .refl _, by decide +kernel⟩, (pool_gAP h).trans ?_, (pool_gAP h₂).trans ?_,
      (pool_gAP h').trans ?_⟩ <;> decide +kernel
  · obtain ⟨r, _, h⟩ := pool_run S rng "a l\n".toList "a m 11\na l 10\n".toList
      [⟨['a'], ['l']⟩] [⟨⟨['a'], ['m']⟩, .fin 11⟩, ⟨⟨['a'], ['l']⟩, .fin 10⟩]
      (by decide +kernel) (by decide +kernel) (by decide +kernel)
    obtain ⟨r₂, _, h₂⟩ := pool_run S rng "b l\nb m\n".toList "b l 12\nb w 9\nb x 9\nb y 9\nb z 9\nb m 8\n".toList
      [⟨['b'], ['l']⟩, ⟨['b'], ['m']⟩] [⟨⟨['b'], ['l']⟩, .fin 12⟩, ⟨⟨['b'], ['w']⟩, .fin 9⟩,
        ⟨⟨['b'], ['x']⟩, .fin 9⟩, ⟨⟨['b'], ['y']⟩, .fin 9⟩, ⟨⟨['b'], ['z']⟩, .fin 9⟩, ⟨⟨['b'], ['m']⟩, .fin 8⟩]
      (by decide +kernel) (by decide +kernel) (by decide +kernel)
    obtain ⟨r', _, h'⟩ := pool_run S rng "a l\nb l\nb m\n".toList
      "a m 11\na l 10\nb l 12\nb w 9\nb x 9\nb y 9\nb z 9\nb m 8\n".toList
      [⟨['a'], ['l']⟩, ⟨['b'], ['l']⟩, ⟨['b'], ['m']⟩]
      [⟨⟨['a'], ['m']⟩, .fin 11⟩, ⟨⟨['a'], ['l']⟩, .fin 10⟩, ⟨⟨['b'], ['l']⟩, .fin 12⟩, ⟨⟨['b'], ['w']⟩, .fin 9⟩,
        ⟨⟨['b'], ['x']⟩, .fin 9⟩, ⟨⟨['b'], ['y']⟩, .fin 9⟩, ⟨⟨['b'], ['z']⟩, .fin 9⟩, ⟨⟨['b'], ['m']⟩, .fin 8⟩]
      (by decide +kernel) (by decide +kernel) (by decide +kernel)
    refine ⟨_, _, _, _, _, _, _, _, _, r, r₂, r', h, h₂, h', rfl,
      ⟨fun r => by simp, .refl _, by decide +kernel⟩, (pool_gAP h).trans ?_, (pool_gAP h₂).trans ?_,
      (pool_gAP h').trans ?_⟩ <;> decide +kernel

/-- A case of C116: parts with one group each, whose mean average precisions are 1/2 and 2/3. -/
example {G : Type} (S : StdSort) (rng : Rng G) : ∃ r r₂ r' : Report Nat Nat,
    mainWith Rnd.exact S rng (simpleKit Rnd.exact true) (poolWorld "a l\n".toList "a m 11\na l 10\n".toList)
      poolOptions = .ok (.done r) ∧
    mainWith Rnd.exact S rng (simpleKit Rnd.exact true) (poolWorld "b l\nb m\n".toList
      "b l 12\nb w 9\nb x 9\nb y 9\nb z 9\nb m 8\n".toList) poolOptions = .ok (.done r₂) ∧
    mainWith Rnd.exact S rng (simpleKit Rnd.exact true) (poolWorld "a l\nb l\nb m\n".toList
      "a m 11\na l 10\nb l 12\nb w 9\nb x 9\nb y 9\nb z 9\nb m 8\n".toList) poolOptions = .ok (.done r') ∧
    r'.mAP.value = (r.mAP.value + r₂.mAP.value) / 2 ∧ r'.mNDCG.value = (r.mNDCG.value + r₂.mNDCG.value) / 2 ∧
    BetweenParts r.mAP.value r₂.mAP.value r'.mAP.value := by
  obtain ⟨r, hr, h⟩ := pool_run S rng "a l\n".toList "a m 11\na l 10\n".toList
    [⟨['a'], ['l']⟩] [⟨⟨['a'], ['m']⟩, .fin 11⟩, ⟨⟨['a'], ['l']⟩, .fin 10⟩]
    (by decide +kernel) (by decide +kernel) (by decide +kernel)
  obtain ⟨r₂, hr₂, h₂⟩ := pool_run S rng "b l\nb m\n".toList "b l 12\nb w 9\nb x 9\nb y 9\nb z 9\nb m 8\n".toList
    [⟨['b'], ['l']⟩, ⟨['b'], ['m']⟩] [⟨⟨['b'], ['l']⟩, .fin 12⟩, ⟨⟨['b'], ['w']⟩, .fin 9⟩,
      ⟨⟨['b'], ['x']⟩, .fin 9⟩, ⟨⟨['b'], ['y']⟩, .fin 9⟩, ⟨⟨['b'], ['z']⟩, .fin 9⟩, ⟨⟨['b'], ['m']⟩, .fin 8⟩]
    (by decide +kernel) (by decide +kernel) (by decide +kernel)
  obtain ⟨r', hr', h'⟩ := pool_run S rng "a l\nb l\nb m\n".toList
    "a m 11\na l 10\nb l 12\nb w 9\nb x 9\nb y 9\nb z 9\nb m 8\n".toList
    [⟨['a'], ['l']⟩, ⟨['b'], ['l']⟩, ⟨['b'], ['m']⟩]
    [⟨⟨['a'], ['m']⟩, .fin 11⟩, ⟨⟨['a'], ['l']⟩, .fin 10⟩, ⟨⟨['b'], ['l']⟩, .fin 12⟩, ⟨⟨['b'], ['w']⟩, .fin 9⟩,
      ⟨⟨['b'], ['x']⟩, .fin 9⟩, ⟨⟨['b'], ['y']⟩, .fin 9⟩, ⟨⟨['b'], ['z']⟩, .fin 9⟩, ⟨⟨['b'], ['m']⟩, .fin 8⟩]
    (by decide +kernel) (by decide +kernel) (by decide +kernel)
  have g1 : ∀ a b, groupFor (poolWorld a b) poolOptions = id := fun _ _ => rfl
  have g2 : ∀ a b, listedQueries (poolWorld a b) poolOptions = [] := fun _ _ => rfl
  have key := (C116_segmentation h h₂ h' ((g1 _ _).trans (g1 _ _).symm) ((g1 _ _).trans (g1 _ _).symm)
    ((g2 _ _).trans (g2 _ _).symm) ((g2 _ _).trans (g2 _ _).symm) rfl rfl
    ⟨fun r => by simp, .refl _, by rw [g1]; decide +kernel⟩).2
  simp only [g1, g2] at key
  generalize hg : groupCount (Q := Str) (L := Str) id _ _ = g at key
  generalize hg₂ : groupCount (Q := Str) (L := Str) id _ _ = g₂ at key
  have e : g = 1 := hg.symm.trans (by decide +kernel)
  have e₂ : g₂ = 1 := hg₂.symm.trans (by decide +kernel)
  subst e e₂
  refine ⟨r, r₂, r', hr, hr₂, hr', ?_, ?_, (C116_between key (by decide)).1⟩
  · have := abs_nonpos_iff.1 (key.mAP.trans_eq (by norm_num))
    push_cast at this
    linarith
  · have := key.mNDCG
    push_cast at this
    linarith

/-- The hypothesis of C116 about boxes is met by two queries on the same page. -/
example : AddsQueries (id : Str → Str)
    [(⟨['a'], ⟨⟨0, 0, 2, 2⟩, ['d']⟩⟩ : Event Str (DocBox Str UInt32))] [⟨['b'], ⟨⟨0, 0, 2, 2⟩, ['d']⟩⟩]
    [⟨['b'], ⟨⟨0, 0, 2, 2⟩, ['d']⟩⟩, ⟨['a'], ⟨⟨0, 0, 2, 2⟩, ['d']⟩⟩]
    [⟨⟨['a'], ⟨⟨0, 0, 2, 2⟩, ['d']⟩⟩, .fin 1⟩] [⟨⟨['b'], ⟨⟨1, 0, 2, 2⟩, ['d']⟩⟩, .fin 5⟩]
    [⟨⟨['b'], ⟨⟨1, 0, 2, 2⟩, ['d']⟩⟩, .fin 5⟩, ⟨⟨['a'], ⟨⟨0, 0, 2, 2⟩, ['d']⟩⟩, .fin 1⟩] :=
  ⟨fun r => by simp [or_comm], List.Perm.swap _ _ _, by decide +kernel⟩

end Kws
