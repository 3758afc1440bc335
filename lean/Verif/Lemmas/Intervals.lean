import Verif.Lemmas.Bootstrap
import Verif.Lemmas.Tool
import Verif.Spec.Intervals

/-!
# Lemmas for C94 and C95
-/

namespace Kws
open Spec

theorem toSize_mono {x y : ℚ} {a b : Nat} (ha : toSize x = .ok a) (hb : toSize y = .ok b)
    (h : x ≤ y) : a ≤ b := by
  unfold toSize at ha hb
  split at ha
  · split at hb
    · injection ha with ha
      injection hb with hb
      rw [← ha, ← hb]
      exact Int.toNat_le_toNat (Int.floor_mono h)
    · cases hb
  · cases ha

section
variable {C G K : Type} [LinearOrder K] [AddCommGroup K] [IsOrderedAddMonoid K]

omit [IsOrderedAddMonoid K] in
/-- What a computed interval consists of. -/
theorem percentileCI_parts (R : Rnd) (S : StdSort) (rd : K → K) (original : C) (n : Nat) (alpha : ℚ)
    (statistic : C → Cpp K) (sampler : G → Cpp (C × G)) (g : G) (v lo hi : K)
    (h : percentileCI R S rd original n alpha statistic sampler g = .ok (v, lo, hi)) :
    ∃ diffs ds li ui dl du, statistic original = .ok v ∧
      bootstrapLoop rd statistic sampler v n g = .ok diffs ∧
      S.sort (fun a b : K => decide (a < b)) diffs = .ok ds ∧
      lowerIndex R alpha n = .ok li ∧ upperIndex R alpha n = .ok ui ∧
      ds[li]? = some dl ∧ ds[ui]? = some du ∧ lo = rd (v - dl) ∧ hi = rd (v - du) := by
  unfold percentileCI at h
  simp only [bind, Except.bind, pure, Except.pure] at h
  split at h
  · cases h
  · rename_i v' e1
    split at h
    · cases h
    · rename_i diffs e2
      split at h
      · cases h
      · rename_i ds e3
        split at h
        · cases h
        · rename_i li e4
          split at h
          · cases h
          · rename_i ui e5
            split at h
            · cases h
            · rename_i dl e6
              split at h
              · cases h
              · rename_i du e7
                simp only [Except.ok.injEq, Prod.mk.injEq] at h
                obtain ⟨rfl, rfl, rfl⟩ := h
                have at' : ∀ {i : Nat} {d : K}, vecAt ds i = .ok d → ds[i]? = some d := by
                  intro i d hd
                  unfold vecAt at hd
                  split at hd
                  · rename_i a ha
                    injection hd with hd
                    rw [ha, hd]
                  · cases hd
                exact ⟨diffs, ds, li, ui, dl, du, e1, e2, e3, e4, e5, at' e6, at' e7, rfl, rfl⟩

omit [LinearOrder K] [IsOrderedAddMonoid K] in
theorem bootstrapLoop_count (rd : K → K) (statistic : C → Cpp K) (sampler : G → Cpp (C × G)) (v : K)
    (n : Nat) : ∀ g l, bootstrapLoop rd statistic sampler v n g = .ok l → l.length = n := by
  induction n with
  | zero => intro g l h; injection h with h; subst h; rfl
  | succ n ih =>
    intro g l h
    unfold bootstrapLoop at h
    simp only [bind, Except.bind, pure, Except.pure] at h
    split at h
    · cases h
    · split at h
      · cases h
      · split at h
        · cases h
        · rename_i rest e
          injection h with h
          rw [← h, List.length_cons, ih _ _ e]

omit [LinearOrder K] [IsOrderedAddMonoid K] in
theorem bootstrapLoop_mem (rd : K → K) (statistic : C → Cpp K) (sampler : G → Cpp (C × G)) (v : K)
    (n : Nat) : ∀ g l, bootstrapLoop rd statistic sampler v n g = .ok l → ∀ d ∈ l,
      ∃ g c g' x, sampler g = .ok (c, g') ∧ statistic c = .ok x ∧ d = rd (x - v) := by
  induction n with
  | zero => intro g l h; injection h with h; subst h; simp
  | succ n ih =>
    intro g l h
    unfold bootstrapLoop at h
    simp only [bind, Except.bind, pure, Except.pure] at h
    split at h
    · cases h
    · rename_i cg e1
      split at h
      · cases h
      · rename_i x e2
        split at h
        · cases h
        · rename_i rest e
          injection h with h
          subst h
          intro d hd
          rcases List.mem_cons.1 hd with rfl | hd
          · exact ⟨g, cg.1, cg.2, x, e1, e2, rfl⟩
          · exact ih _ _ e d hd

omit [AddCommGroup K] [IsOrderedAddMonoid K] in
theorem sorted_at_le {ds : List K} (hs : ds.Pairwise (· ≤ ·)) {i j : Nat} {a b : K} (hij : i ≤ j)
    (ha : ds[i]? = some a) (hb : ds[j]? = some b) : a ≤ b := by
  obtain ⟨h1, rfl⟩ := List.getElem?_eq_some_iff.1 ha
  obtain ⟨h2, rfl⟩ := List.getElem?_eq_some_iff.1 hb
  rcases eq_or_lt_of_le hij with rfl | hlt
  · exact le_rfl
  · exact List.pairwise_iff_getElem.1 hs i j h1 h2 hlt

omit [AddCommGroup K] [IsOrderedAddMonoid K] in
/-- In a sorted list the elements with a property inherited by smaller ones come first. -/
theorem sorted_at_iff {ds : List K} (hs : ds.Pairwise (· ≤ ·)) (P : K → Bool)
    (hP : ∀ a b, a ≤ b → P b = true → P a = true) {i : Nat} {d : K} (hd : ds[i]? = some d) :
    P d = true ↔ i < ds.countP P := by
  induction ds generalizing i with
  | nil => cases hd
  | cons x xs ih =>
    have hx := fun a => (List.pairwise_cons.1 hs).1 a
    have hxs := (List.pairwise_cons.1 hs).2
    have none : P x = false → xs.countP P = 0 := by
      intro h
      refine List.countP_eq_zero.2 fun a ha hPa => ?_
      rw [hP x a (hx a ha) hPa] at h
      cases h
    rw [List.countP_cons]
    cases i with
    | zero =>
      simp only [List.getElem?_cons_zero, Option.some.injEq] at hd
      subst hd
      by_cases h : P x = true
      · simp [h]
      · simp only [Bool.not_eq_true] at h
        simp [h, none h]
    | succ i =>
      rw [List.getElem?_cons_succ] at hd
      rw [ih hxs hd]
      by_cases h : P x = true
      · simp [h]
      · simp only [Bool.not_eq_true] at h
        simp [h, none h]

/-- Raising alpha shrinks the interval. -/
theorem percentileCI_nested (R : Rnd) (hR : ∀ a b, a ≤ b → R.f64 a ≤ R.f64 b) (S : StdSort)
    (rd : K → K) (hrd : Monotone rd) (original : C) (n : Nat) (alpha alpha' : ℚ) (h : alpha' ≤ alpha)
    (hn : 0 ≤ R.f64 n) (statistic : C → Cpp K) (sampler : G → Cpp (C × G)) (g : G)
    (v lo hi v' lo' hi' : K)
    (h1 : percentileCI R S rd original n alpha statistic sampler g = .ok (v, lo, hi))
    (h2 : percentileCI R S rd original n alpha' statistic sampler g = .ok (v', lo', hi')) :
    v = v' ∧ lo' ≤ lo ∧ hi ≤ hi' := by
  obtain ⟨diffs, ds, li, ui, dl, du, a1, a2, a3, a4, a5, a6, a7, rfl, rfl⟩ :=
    percentileCI_parts _ _ _ _ _ _ _ _ _ _ _ _ h1
  obtain ⟨diffs', ds', li', ui', dl', du', b1, b2, b3, b4, b5, b6, b7, rfl, rfl⟩ :=
    percentileCI_parts _ _ _ _ _ _ _ _ _ _ _ _ h2
  rw [a1] at b1
  injection b1 with b1
  subst b1
  rw [a2] at b2
  injection b2 with b2
  subst b2
  rw [a3] at b3
  injection b3 with b3
  subst b3
  obtain ⟨ds', s1, _, s2⟩ := sort_lt S diffs
  rw [a3] at s1
  injection s1 with s1
  subst s1
  have hl : li ≤ li' := by
    refine toSize_mono a4 b4 (hR _ _ (mul_le_mul_of_nonneg_right (hR _ _ ?_) hn))
    have := hR (alpha' * (1 / 2)) (alpha * (1 / 2)) (by linarith)
    linarith
  have hu : ui' ≤ ui :=
    toSize_mono b5 a5 (hR _ _ (mul_le_mul_of_nonneg_right (hR _ _ (by linarith)) hn))
  exact ⟨rfl, hrd (sub_le_sub_left (sorted_at_le s2 hl a6 b6) v),
    hrd (sub_le_sub_left (sorted_at_le s2 hu b7 a7) v)⟩

omit [IsOrderedAddMonoid K] in
/-- Raising alpha up to 1 keeps the indices in the list. -/
theorem percentileCI_raise (R : Rnd) (S : StdSort) (rd : K → K) (original : C) (n : Nat)
    (hR : R = Rnd.exact ∨ R.Faithful ∧ n ≤ 2 ^ 53) (alpha alpha' : ℚ) (h : alpha' ≤ alpha)
    (h1 : alpha ≤ 1) (statistic : C → Cpp K) (sampler : G → Cpp (C × G)) (g : G) (v lo' hi' : K)
    (h2 : percentileCI R S rd original n alpha' statistic sampler g = .ok (v, lo', hi')) :
    ∃ lo hi, percentileCI R S rd original n alpha statistic sampler g = .ok (v, lo, hi) := by
  obtain ⟨diffs, ds, li', ui', dl', du', b1, b2, b3, b4, b5, b6, b7, rfl, rfl⟩ :=
    percentileCI_parts _ _ _ _ _ _ _ _ _ _ _ _ h2
  obtain ⟨mono, fn, fh, fnh⟩ : (∀ a b, a ≤ b → R.f64 a ≤ R.f64 b) ∧ R.f64 n = n ∧
      R.f64 (1 / 2) = 1 / 2 ∧ R.f64 (1 / 2 * n) = 1 / 2 * n := by
    rcases hR with rfl | ⟨hR, hn⟩
    · exact ⟨fun _ _ h => h, rfl, rfl, rfl⟩
    · refine ⟨hR.mono64, ?_, ?_, ?_⟩
      · have := hR.dyadic64 n 0 hn (by norm_num)
        simpa using this
      · have := hR.dyadic64 1 1 (by norm_num) (by norm_num)
        simpa using this
      · have := hR.dyadic64 n 1 hn (by norm_num)
        have e : (n : ℚ) / 2 ^ 1 = 1 / 2 * n := by ring
        rwa [e] at this
  have hlen : ds.length = n := by
    obtain ⟨ds', s1, s2, _⟩ := sort_lt S diffs
    rw [b3] at s1
    injection s1 with s1
    subst s1
    rw [s2.length_eq, bootstrapLoop_count rd statistic sampler v n g diffs b2]
  have hli' : li' < n := hlen ▸ (List.getElem?_eq_some_iff.1 b6).1
  have hn0 : (0 : ℚ) < n := by exact_mod_cast (by omega : 0 < n)
  unfold lowerIndex at b4
  unfold upperIndex at b5
  rw [fn] at b4 b5
  set x' := R.f64 (R.f64 (1 - R.f64 (alpha' * (1 / 2))) * n) with hx'
  set y' := R.f64 (R.f64 (alpha' * (1 / 2)) * n) with hy'
  set x := R.f64 (R.f64 (1 - R.f64 (alpha * (1 / 2))) * n) with hx
  set y := R.f64 (R.f64 (alpha * (1 / 2)) * n) with hy
  have half : R.f64 (alpha * (1 / 2)) ≤ 1 / 2 := by
    have := mono (alpha * (1 / 2)) (1 / 2) (by linarith)
    rwa [fh] at this
  have yle : y ≤ 1 / 2 * n := by
    rw [← fnh]
    exact mono _ _ (mul_le_mul_of_nonneg_right half hn0.le)
  have xge : 1 / 2 * n ≤ x := by
    rw [← fnh]
    refine mono _ _ (mul_le_mul_of_nonneg_right ?_ hn0.le)
    have := mono (1 / 2) (1 - R.f64 (alpha * (1 / 2))) (by linarith)
    rwa [fh] at this
  have hxx : x ≤ x' := by
    refine mono _ _ (mul_le_mul_of_nonneg_right (mono _ _ ?_) hn0.le)
    have := mono (alpha' * (1 / 2)) (alpha * (1 / 2)) (by linarith)
    linarith
  have hyy : y' ≤ y := mono _ _ (mul_le_mul_of_nonneg_right (mono _ _ (by linarith)) hn0.le)
  have ok : ∀ {z : ℚ} {i : Nat}, toSize z = .ok i → -1 < z ∧ z < 2 ^ 64 := by
    intro z i hz
    unfold toSize at hz
    split at hz
    · assumption
    · cases hz
  have c1 : toSize x = .ok ⌊x⌋.toNat := by
    unfold toSize
    exact if_pos ⟨by linarith, lt_of_le_of_lt hxx (ok b4).2⟩
  have c2 : toSize y = .ok ⌊y⌋.toNat := by
    unfold toSize
    exact if_pos ⟨lt_of_lt_of_le (ok b5).1 hyy, by linarith [(ok b4).2]⟩
  have k1 : ⌊x⌋.toNat < n := lt_of_le_of_lt (toSize_mono c1 b4 hxx) hli'
  have k2 : ⌊y⌋.toNat < n := by
    have : ⌊y⌋ < n := Int.floor_lt.2 (by push_cast; linarith)
    omega
  refine ⟨rd (v - ds[⌊x⌋.toNat]), rd (v - ds[⌊y⌋.toNat]), ?_⟩
  have l1 : lowerIndex R alpha n = .ok ⌊x⌋.toNat := by
    unfold lowerIndex
    rw [fn]
    exact c1
  have l2 : upperIndex R alpha n = .ok ⌊y⌋.toNat := by
    unfold upperIndex
    rw [fn]
    exact c2
  unfold percentileCI
  simp only [bind, Except.bind, pure, Except.pure, b1, b2, b3, l1, l2, vecAt]
  rw [List.getElem?_eq_getElem (by omega), List.getElem?_eq_getElem (by omega)]

end

section
variable {G Q L K : Type} [LinearOrder K] [AddCommGroup K] [IsOrderedAddMonoid K]

/-- A faithful rounding of few repetitions, or none at all. -/
theorem rnd_facts (R : Rnd) (n : Nat) (hR : R = Rnd.exact ∨ R.Faithful ∧ n ≤ 2 ^ 53) :
    (∀ a b, a ≤ b → R.f64 a ≤ R.f64 b) ∧ 0 ≤ R.f64 n := by
  rcases hR with rfl | ⟨hR, hn⟩
  · exact ⟨fun _ _ h => h, Nat.cast_nonneg n⟩
  · refine ⟨hR.mono64, ?_⟩
    have := hR.dyadic64 n 0 hn (by norm_num)
    simp only [pow_zero, div_one] at this
    rw [this]
    exact Nat.cast_nonneg n

theorem globalStatistic_nested (R : Rnd) (S : StdSort)
    (rd : K → K) (hrd : Monotone rd) (rng : Rng G) (b : Bool) (o : ToolOptions)
    (hR : R = Rnd.exact ∨ R.Faithful ∧ o.samples ≤ 2 ^ 53) (alpha : ℚ)
    (h : o.alpha ≤ alpha) (h' : alpha ≤ 1) (ms : List (KwsMatch Q L))
    (groups : List (List (KwsMatch Q L))) (plain : List (KwsMatch Q L) → Cpp K)
    (grouped : List (List (KwsMatch Q L)) → Bool → Cpp K) (m : Metric K)
    (h1 : globalStatistic R S rd rng b o ms groups plain grouped = .ok m) :
    ∃ m', globalStatistic R S rd rng b { o with alpha := alpha } ms groups plain grouped = .ok m' ∧
      Within m' m := by
  obtain ⟨mono, hn⟩ := rnd_facts R o.samples hR
  unfold globalStatistic at h1 ⊢
  cases b with
  | false =>
    simp only [Bool.false_eq_true, if_false, bind, Except.bind, pure, Except.pure] at h1 ⊢
    cases hp : plain ms with
    | error e => rw [hp] at h1; cases h1
    | ok v =>
      rw [hp] at h1
      injection h1 with h1
      rw [← h1]
      exact ⟨_, rfl, .none v⟩
  | true =>
    simp only [if_true, percentileCIGrouped, bind, Except.bind, pure, Except.pure] at h1 ⊢
    split at h1
    · cases h1
    · rename_i t e1
      obtain ⟨v, lo, hi⟩ := t
      injection h1 with h1
      obtain ⟨lo', hi', e2⟩ := percentileCI_raise R S rd _ _ hR _ _ h h' _ _ _ _ _ _ e1
      obtain ⟨_, c1, c2⟩ := percentileCI_nested R mono S rd hrd _ _ _ _ h hn _ _ _ _ _ _ _ _ _ e2 e1
      rw [e2, ← h1]
      exact ⟨_, rfl, .some v lo' hi' lo hi c1 c2⟩

theorem meanStatistic_nested (R : Rnd) (S : StdSort)
    (rd : K → K) (hrd : Monotone rd) (rng : Rng G) (b : Bool) (o : ToolOptions)
    (hR : R = Rnd.exact ∨ R.Faithful ∧ o.samples ≤ 2 ^ 53) (alpha : ℚ)
    (h : o.alpha ≤ alpha) (h' : alpha ≤ 1) (groups : List (List (KwsMatch Q L)))
    (grouped : List (List (KwsMatch Q L)) → Bool → Cpp K) (m : Metric K)
    (h1 : meanStatistic R S rd rng b o groups grouped = .ok m) :
    ∃ m', meanStatistic R S rd rng b { o with alpha := alpha } groups grouped = .ok m' ∧
      Within m' m :=
  globalStatistic_nested R S rd hrd rng b o hR alpha h h' [] groups (fun _ => grouped groups false)
    grouped m h1

end

end Kws
