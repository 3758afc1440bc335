import Verif.Lemmas.NdcgUnit
import Verif.Props.Ndcg
import Verif.Props.Rounding

/-!
# C92: NDCG in double precision

`C36` proves NDCG over the reals. Here `ComputeNDCG<double>` is run with the rounding of IEEE-754
and an accurate mathematical library (`Libm.Accurate`) and compared with the exact value.
-/

set_option linter.unusedSectionVars false

namespace Kws
open Spec

section
variable {Q L : Type}

theorem tp_le (ms : List (KwsMatch Q L)) (h : ∀ m ∈ ms, Rates m.error) :
    (((ms.map (fun m => m.error.nh)).sum : ℕ) : ℝ) - ((ms.map (fun m => m.error.fp)).sum : ℚ) ≤
      ((ms.map (fun m => m.error.nr)).sum : ℕ) := by
  rw [← sum_tp]
  induction ms with
  | nil => simp
  | cons m ms ih =>
    simp only [List.map_cons, List.sum_cons, Nat.cast_add]
    exact add_le_add (rates_tp _ (h m (by simp))) (ih (fun x hx => h x (by simp [hx])))

theorem nh_le_length (ms : List (KwsMatch Q L)) :
    (ms.map (fun m => m.error.nh)).sum ≤ ms.length ∧ (ms.map (fun m => m.error.nr)).sum ≤ ms.length := by
  constructor
  · refine sum_le_length ms _ fun a => ?_
    unfold MatchError.nh
    split <;> omega
  · refine sum_le_length ms _ fun a => ?_
    unfold MatchError.nr
    split <;> omega

/-- C92: without collapsing, NDCG in double precision differs from the exact NDCG by at most
`(n + 2) / 2^48` for `n` matches; the errors are those of any scorer. -/
theorem C92_near (m : Libm) (hm : m.Accurate) (ms : List (KwsMatch Q L)) (h : GridErrors ms)
    (hl : ms.length ≤ 2 ^ 24) :
    ∃ v, globalNDCGD Rnd.ieee m ms false = .ok v ∧
      |(v : ℝ) - globalNDCG Rnd.exact ms false| ≤ (ms.length + 2) / 2 ^ 48 := by
  have hr : ∀ x ∈ ms, Rates x.error := by
    intro x hx
    exact ((gridOk_soft ms h (hl.trans (by norm_num))).1 x hx).1
  obtain ⟨n1, n2⟩ := nh_le_length ms
  obtain ⟨s1, s2, s3, _⟩ := errors_sums ms
  have hT0 : 0 ≤ (((getMatchErrors ms).map IsError.nr).sum : ℝ) := by positivity
  have hgrid : ∀ e ∈ getMatchErrors ms, 0 < IsError.nh e →
      (gainD m e = 0 ∨ 1 / 2 ^ 40 ≤ gainD m e) ∧
      |(gainD m e : ℝ) - ((2 : ℝ) ^ relevance e - 1)| ≤ 1 / 2 ^ 50 := by
    intro e he hp
    obtain ⟨x, hx, rfl⟩ := List.mem_map.1 he
    obtain ⟨a, b, ha, hb, hab⟩ := h x hx
    have hn : IsError.nh x.error = 1 := by
      have : x.error.nh ≤ 1 := by unfold MatchError.nh; split <;> omega
      have hp' : 0 < x.error.nh := hp
      show x.error.nh = 1
      omega
    exact gain_grid m hm x.error a ha (by show x.error.fp = _; rw [hab]) hn
  rcases Nat.eq_zero_or_pos ((getMatchErrors ms).map IsError.nr).sum with h0 | hpos
  · refine ⟨0, by simp only [globalNDCGD, Bool.false_eq_true, if_false]; exact computeNDCGD_none m _ h0, ?_⟩
    simp only [globalNDCG, Bool.false_eq_true, if_false]
    rw [computeNDCG_eq, if_pos h0]
    simp only [Rat.cast_zero, sub_self, abs_zero]
    positivity
  have hZ := ideal_ge_one _ hpos
  have hn24 : (ms.length : ℝ) ≤ 2 ^ 24 := by exact_mod_cast hl
  have hd := dsum_near 0 (1 / 2 ^ 50) (by positivity) _ _ (forall₂_gains m (fun x y => |x - y| ≤ 0 * y + 1 / 2 ^ 50)
    (getMatchErrors ms) (fun e he hp => by
      rw [zero_mul, zero_add]; exact (hgrid e he hp).2)) 1 le_rfl
  have hgl : (gains (getMatchErrors ms)).length = ((getMatchErrors ms).map IsError.nh).sum := by
    unfold gains
    rw [List.length_flatMap]
    simp
  have hnh : (((getMatchErrors ms).map IsError.nh).sum : ℝ) ≤ ms.length := by
    rw [s1]; exact_mod_cast n1
  have hnr : (((getMatchErrors ms).map IsError.nr).sum : ℝ) ≤ ms.length := by
    rw [s2]; exact_mod_cast n2
  obtain ⟨v, hv, hb⟩ := computeNDCGD_near m hm (getMatchErrors ms) (ms.length / 2 ^ 50)
    (errors_ok ms hr) (by rw [sum_tp, s1, s2, s3]; exact tp_le ms hr)
    (by rw [s1]; omega) (by rw [s2]; omega)
    (by
      intro x hx
      obtain ⟨e, he, hx⟩ := List.mem_flatMap.1 hx
      obtain ⟨h1, rfl⟩ := List.mem_replicate.1 hx
      exact (hgrid e he (Nat.pos_of_ne_zero h1)).1)
    (by rw [div_le_iff₀ (by positivity)]; refine hn24.trans (by norm_num))
    (by
      refine hd.trans ?_
      rw [zero_mul, zero_add, hgl]
      have h1 : (1 / 2 ^ 50 : ℝ) * ((getMatchErrors ms).map IsError.nh).sum ≤ ms.length / 2 ^ 50 := by
        rw [one_div_mul_eq_div]; gcongr
      refine h1.trans ?_
      exact le_mul_of_one_le_right (by positivity) hZ) (by positivity)
  refine ⟨v, by simp only [globalNDCGD, Bool.false_eq_true, if_false]; exact hv, ?_⟩
  simp only [globalNDCG, Bool.false_eq_true, if_false]
  refine hb.trans ?_
  simp only [Nat.cast_add, Nat.cast_mul, Nat.cast_ofNat]
  have h1 : (ms.length : ℝ) / 2 ^ 50 + 3 * (((((getMatchErrors ms).map IsError.nh).sum : ℝ) +
      2 * ((getMatchErrors ms).map IsError.nr).sum + 10) / 2 ^ 52) ≤
      ms.length / 2 ^ 50 + 3 * ((ms.length + 2 * ms.length + 10) / 2 ^ 52) := by gcongr
  refine h1.trans ?_
  norm_num
  have : (0 : ℝ) ≤ ms.length := by positivity
  linarith

theorem hard_ndcg (m : Libm) (hm : m.Accurate) (ms : List (KwsMatch Q L)) (k : ℕ) (hk : k ≤ 2 ^ 19)
    (h : ∀ x ∈ ms, Hard x.error) (hc : ∀ s, ((ms.filter (fun x => rank x = s)).map (fun x => x.error.nh)).sum ≤ k) :
    ∀ c ∈ collapseMatches Rnd.exact ms, 0 < IsError.nh c →
      (gainD m c = 0 ∨ 1 / 2 ^ 40 ≤ gainD m c) ∧
      |(gainD m c : ℝ) - ((2 : ℝ) ^ relevance c - 1)| ≤
        ((k - 1 : ℕ) : ℝ) / 2 ^ 20 * ((2 : ℝ) ^ relevance c - 1) := by
  intro c hc' hp
  obtain ⟨a, ha⟩ := collapse_whole ms h c hc'
  obtain ⟨s, hs⟩ := collapse_count Rnd.exact ms c hc'
  have hok := collapse_ok Rnd.exact exact_faithful ms (fun x hx => hard_rates _ (h x hx))
    (fits32_exact _) (fits32_exact _) c hc'
  have ha' : a ≤ IsError.nh c := by
    have := hok.fp1
    have h2 : IsError.fp c = (a : ℚ) := ha
    rw [h2] at this
    exact_mod_cast this
  exact gain_hard m hm c a k ha ha' (hs.trans (hc s)) hk hp

/-- C92: with collapsing, for hits, false positives and false negatives: if at most `k` hypotheses
share a score, the difference is at most `(k - 1) / 2^20 + (n + 2) / 2^48`. The first term comes
from the relevance of tied hypotheses, which the code computes in single precision. -/
theorem C92_near_collapsed (m : Libm) (hm : m.Accurate) (ms : List (KwsMatch Q L)) (k : ℕ)
    (hk : k ≤ 2 ^ 19)
    (h : ∀ x ∈ ms, x.error = Outcome.hit.error ∨ x.error = Outcome.falsePos.error ∨
      x.error = Outcome.falseNeg.error)
    (hc : ∀ s, ((ms.filter (fun x => rank x = s)).map (fun x => x.error.nh)).sum ≤ k)
    (hl : ms.length ≤ 2 ^ 24) :
    ∃ v, globalNDCGD Rnd.ieee m ms true = .ok v ∧
      |(v : ℝ) - globalNDCG Rnd.exact ms true| ≤ (k - 1 : ℕ) / 2 ^ 20 + (ms.length + 2) / 2 ^ 48 := by
  have hh : ∀ x ∈ ms, Hard x.error := by
    intro x hx
    rcases h x hx with e | e | e <;> rw [e] <;> simp [Hard, Outcome.error]
  have hr : ∀ x ∈ ms, Rates x.error := fun x hx => hard_rates _ (hh x hx)
  have hg := hard_ndcg m hm ms k hk hh hc
  have hok := collapse_ok Rnd.exact exact_faithful ms hr (fits32_exact _) (fits32_exact _)
  obtain ⟨n1, n2⟩ := nh_le_length ms
  obtain ⟨s1, s2⟩ := collapse_sums Rnd.exact ms
  have s3 := (collapse_mass ms).1
  have hs : ((collapseMatches Rnd.exact ms).map (fun e => ((IsError.nh e : ℝ) - (IsError.fp e : ℝ)))).sum ≤
      ((collapseMatches Rnd.exact ms).map IsError.nr).sum := by
    rw [sum_tp, s1, s2, s3]; exact tp_le ms hr
  have hnh : (((collapseMatches Rnd.exact ms).map IsError.nh).sum : ℝ) ≤ ms.length := by
    rw [s1]; exact_mod_cast n1
  have hnr : (((collapseMatches Rnd.exact ms).map IsError.nr).sum : ℝ) ≤ ms.length := by
    rw [s2]; exact_mod_cast n2
  simp only [globalNDCGD, globalNDCG, if_true]
  rw [collapse_hard Rnd.ieee ms hh (fits32_of _ ieee_faithful _ hl)]
  set ρ : ℝ := ((k - 1 : ℕ) : ℝ) / 2 ^ 20 with hρ
  have hρ0 : 0 ≤ ρ := by positivity
  have hρ1 : ρ ≤ 1 / 2 := by
    rw [hρ, div_le_iff₀ (by positivity)]
    have : k - 1 ≤ 2 ^ 19 := by omega
    have : ((k - 1 : ℕ) : ℝ) ≤ 2 ^ 19 := by exact_mod_cast this
    refine this.trans (by norm_num)
  rcases Nat.eq_zero_or_pos ((collapseMatches Rnd.exact ms).map IsError.nr).sum with h0 | hpos
  · refine ⟨0, computeNDCGD_none m _ h0, ?_⟩
    rw [computeNDCG_eq, if_pos h0]
    simp only [Rat.cast_zero, sub_self, abs_zero]
    positivity
  have hd := dsum_near ρ 0 le_rfl _ _ (forall₂_gains m (fun x y => |x - y| ≤ ρ * y + 0)
    (collapseMatches Rnd.exact ms) (fun e he hp => by rw [add_zero]; exact (hg e he hp).2)) 1 le_rfl
  rw [zero_mul, add_zero] at hd
  have hle := dsum_le (gains (collapseMatches Rnd.exact ms)) 1 _ le_rfl (gains_bounds _ hok)
    (le_trans (gains_sum _ hok) hs)
  obtain ⟨v, hv, hb⟩ := computeNDCGD_near m hm (collapseMatches Rnd.exact ms) ρ hok hs
    (by rw [s1]; omega) (by rw [s2]; omega)
    (by
      intro x hx
      obtain ⟨e, he, hx⟩ := List.mem_flatMap.1 hx
      obtain ⟨h1, rfl⟩ := List.mem_replicate.1 hx
      exact (hg e he (Nat.pos_of_ne_zero h1)).1) hρ1
    (hd.trans (mul_le_mul_of_nonneg_left hle hρ0)) hρ0
  refine ⟨v, hv, hb.trans ?_⟩
  simp only [Nat.cast_add, Nat.cast_mul, Nat.cast_ofNat]
  have h1 : 3 * (((((collapseMatches Rnd.exact ms).map IsError.nh).sum : ℝ) +
      2 * ((collapseMatches Rnd.exact ms).map IsError.nr).sum + 10) / 2 ^ 52) ≤
      3 * ((ms.length + 2 * ms.length + 10) / 2 ^ 52) := by gcongr
  have h2 : 3 * (((ms.length : ℝ) + 2 * ms.length + 10) / 2 ^ 52) ≤ (ms.length + 2) / 2 ^ 48 := by
    norm_num
    have : (0 : ℝ) ≤ ms.length := by positivity
    linarith
  linarith

/-- C92: for hits, false positives and false negatives, NDCG in double precision is in [0,1]; with
collapsing, if no two hypotheses share a score. -/
theorem C92_unit (m : Libm) (hm : m.Accurate) (ms : List (KwsMatch Q L)) (collapse : Bool)
    (h : ∀ x ∈ ms, x.error = Outcome.hit.error ∨ x.error = Outcome.falsePos.error ∨
      x.error = Outcome.falseNeg.error)
    (hc : collapse = true → ∀ s, ((ms.filter (fun x => rank x = s)).map (fun x => x.error.nh)).sum ≤ 1)
    (hl : ms.length ≤ 2 ^ 24) :
    ∃ v, globalNDCGD Rnd.ieee m ms collapse = .ok v ∧ 0 ≤ v ∧ v ≤ 1 := by
  have hh : ∀ x ∈ ms, Hard x.error := by
    intro x hx
    rcases h x hx with e | e | e <;> rw [e] <;> simp [Hard, Outcome.error]
  have hr : ∀ x ∈ ms, Rates x.error := fun x hx => hard_rates _ (hh x hx)
  obtain ⟨n1, n2⟩ := nh_le_length ms
  have general : ∀ {ε : Type} [IsError ε] (es : List ε),
      (∀ e ∈ es, ErrOk e) → (∀ e ∈ es, IsError.nh e ≤ 1) → (∀ e ∈ es, ∃ a : ℕ, IsError.fp e = a) →
      (es.map IsError.nh).sum = (ms.map (fun m => m.error.nh)).sum →
      (es.map IsError.nr).sum = (ms.map (fun m => m.error.nr)).sum →
      (es.map IsError.fp).sum = (ms.map (fun m => m.error.fp)).sum →
      ∃ v, computeNDCGD Rnd.ieee m es = .ok v ∧ 0 ≤ v ∧ v ≤ 1 := by
    intro ε _ es hok hone hwhole s1 s2 s3
    have hgain : ∀ e ∈ es, 0 < IsError.nh e → (gainD m e = 0 ∨ gainD m e = 1) ∧
        gainD m e = IsError.nh e - IsError.fp e := by
      intro e he hp
      have h1 : IsError.nh e = 1 := by have := hone e he; omega
      obtain ⟨a, ha⟩ := hwhole e he
      have h2 := (hok e he).fp1
      rw [ha, h1] at h2
      have h3 : a ≤ 1 := by exact_mod_cast h2
      unfold gainD
      rw [ha, h1, ieee_faithful.nat32 1 (by norm_num), Nat.cast_one, div_one]
      obtain rfl | rfl : a = 0 ∨ a = 1 := by omega
      · rw [Nat.cast_zero, ieee_faithful.zero32, sub_zero, ieee_faithful.one32, gain_one m hm]
        norm_num
      · rw [Nat.cast_one, ieee_faithful.one32, sub_self, ieee_faithful.zero32, gain_zero m hm]
        norm_num
    have hsum : (gainsD m es).sum ≤ (es.map (fun e => (IsError.nh e : ℚ) - IsError.fp e)).sum := by
      clear s1 s2 s3
      induction es with
      | nil => simp [gainsD]
      | cons e es ih =>
        have hg : gainsD m (e :: es) = List.replicate (IsError.nh e) (gainD m e) ++ gainsD m es := rfl
        rw [hg, List.sum_append, List.map_cons, List.sum_cons, List.sum_replicate, nsmul_eq_mul]
        refine add_le_add ?_ (ih (fun x hx => hok x (by simp [hx])) (fun x hx => hone x (by simp [hx]))
          (fun x hx => hwhole x (by simp [hx])) (fun x hx => hgain x (by simp [hx])))
        rcases Nat.eq_zero_or_pos (IsError.nh e) with h0 | h0
        · have := (hok e (by simp)).fp1
          rw [h0] at this ⊢
          simp only [Nat.cast_zero, zero_mul] at *
          linarith
        · have h1 : IsError.nh e = 1 := by have := hone e (by simp); omega
          rw [(hgain e (by simp) h0).2, h1]
          norm_num
    refine computeNDCGD_unit m hm es (by rw [s1]; omega) (by rw [s2]; omega) ?_ ?_
    · intro x hx
      obtain ⟨e, he, hx⟩ := List.mem_flatMap.1 hx
      obtain ⟨h1, rfl⟩ := List.mem_replicate.1 hx
      exact (hgain e he (Nat.pos_of_ne_zero h1)).1
    · refine hsum.trans ?_
      have h1 := sum_tp es IsError.nh IsError.fp
      have h2 : ((es.map (fun e => (IsError.nh e : ℚ) - IsError.fp e)).sum : ℝ) =
          (es.map (fun e => ((IsError.nh e : ℝ) - (IsError.fp e : ℝ)))).sum := by
        clear h1 hsum s1 s2 s3 hgain hok hone hwhole
        induction es with
        | nil => simp
        | cons e es ih =>
          simp only [List.map_cons, List.sum_cons]
          push_cast at ih ⊢
          rw [ih]
      have h3 := tp_le ms hr
      rw [← s1, ← s2, ← s3, ← h1, ← h2] at h3
      exact_mod_cast h3
  cases collapse with
  | false =>
    simp only [globalNDCGD, Bool.false_eq_true, if_false]
    obtain ⟨s1, s2, s3, _⟩ := errors_sums ms
    refine general (getMatchErrors ms) (errors_ok ms hr) ?_ ?_ s1 s2 s3
    · intro e _
      show e.nh ≤ 1
      unfold MatchError.nh
      split <;> omega
    · intro e he
      obtain ⟨x, hx, rfl⟩ := List.mem_map.1 he
      rcases (hh x hx).1 with h | h
      · exact ⟨0, by show x.error.fp = _; simp [h]⟩
      · exact ⟨1, by show x.error.fp = _; simp [h]⟩
  | true =>
    simp only [globalNDCGD, if_true]
    rw [collapse_hard Rnd.ieee ms hh (fits32_of _ ieee_faithful _ hl)]
    obtain ⟨s1, s2⟩ := collapse_sums Rnd.exact ms
    refine general (collapseMatches Rnd.exact ms)
      (collapse_ok Rnd.exact exact_faithful ms hr (fits32_exact _) (fits32_exact _)) ?_
      (collapse_whole ms hh) s1 s2 (collapse_mass ms).1
    intro c hc'
    obtain ⟨s, hs⟩ := collapse_count Rnd.exact ms c hc'
    exact hs.trans (hc rfl s)

/-- C92: the value is exactly 1 if there is a match and all matches are hits, and exactly 0 if there
is no hit. -/
theorem C92_extremes (m : Libm) (hm : m.Accurate) (ms : List (KwsMatch Q L)) (collapse : Bool)
    (hl : ms.length ≤ 2 ^ 24) :
    (ms ≠ [] → (∀ x ∈ ms, x.error = Outcome.hit.error) →
      globalNDCGD Rnd.ieee m ms collapse = .ok 1) ∧
    ((∀ x ∈ ms, x.error = Outcome.falsePos.error ∨ x.error = Outcome.falseNeg.error) →
      globalNDCGD Rnd.ieee m ms collapse = .ok 0) := by
  obtain ⟨n1, n2⟩ := nh_le_length ms
  obtain ⟨s1, s2⟩ := collapse_sums Rnd.exact ms
  obtain ⟨t1, t2, _, _⟩ := errors_sums ms
  constructor
  · intro hne h
    have hh : ∀ x ∈ ms, Hard x.error := by
      intro x hx
      rw [h x hx]; simp [Hard, Outcome.error]
    have hr : ∀ x ∈ ms, Rates x.error := fun x hx => hard_rates _ (hh x hx)
    have hc : (ms.map (fun m => m.error.nh)).sum = (ms.map (fun m => m.error.nr)).sum := by
      congr 1
      refine List.map_congr_left fun x hx => ?_
      rw [h x hx]; rfl
    have hp : 0 < (ms.map (fun m => m.error.nr)).sum := by
      cases ms with
      | nil => exact absurd rfl hne
      | cons x ms =>
        rw [List.map_cons, List.sum_cons, h x (by simp)]
        exact Nat.lt_of_lt_of_le (by decide +kernel) (Nat.le_add_right _ _)
    cases collapse with
    | false =>
      simp only [globalNDCGD, Bool.false_eq_true, if_false]
      refine computeNDCGD_perfect m hm _ (by rw [t1]; omega) ?_ (by rw [t1, t2]; exact hc) (by rw [t2]; exact hp)
      intro e he
      obtain ⟨x, hx, rfl⟩ := List.mem_map.1 he
      rw [h x hx]; rfl
    | true =>
      simp only [globalNDCGD, if_true]
      rw [collapse_hard Rnd.ieee ms hh (fits32_of _ ieee_faithful _ hl)]
      refine computeNDCGD_perfect m hm _ (by rw [s1]; omega) ?_ (by rw [s1, s2]; exact hc) (by rw [s2]; exact hp)
      have hz : ((collapseMatches Rnd.exact ms).map IsError.fp).sum = 0 := by
        rw [(collapse_mass ms).1]
        refine List.sum_eq_zero fun y hy => ?_
        obtain ⟨x, hx, rfl⟩ := List.mem_map.1 hy
        rw [h x hx]; rfl
      have hok := collapse_ok Rnd.exact exact_faithful ms hr (fits32_exact _) (fits32_exact _)
      intro c hc'
      refine le_antisymm ?_ (hok c hc').fp0
      rw [← hz]
      refine List.single_le_sum ?_ _ (List.mem_map_of_mem hc')
      intro y hy
      obtain ⟨d, hd, rfl⟩ := List.mem_map.1 hy
      exact (hok d hd).fp0
  · intro h
    have hh : ∀ x ∈ ms, Hard x.error := by
      intro x hx
      rcases h x hx with e | e <;> rw [e] <;> simp [Hard, Outcome.error]
    have hr : ∀ x ∈ ms, Rates x.error := fun x hx => hard_rates _ (hh x hx)
    have hfp : ∀ x ∈ ms, x.error.fp = (x.error.nh : ℚ) := by
      intro x hx
      rcases h x hx with e | e <;> rw [e] <;> simp [Outcome.error, MatchError.nh]
    cases collapse with
    | false =>
      simp only [globalNDCGD, Bool.false_eq_true, if_false]
      refine computeNDCGD_worthless m hm _ (by rw [t1]; omega) (by rw [t2]; omega) ?_
      intro e he
      obtain ⟨x, hx, rfl⟩ := List.mem_map.1 he
      exact hfp x hx
    | true =>
      simp only [globalNDCGD, if_true]
      rw [collapse_hard Rnd.ieee ms hh (fits32_of _ ieee_faithful _ hl)]
      refine computeNDCGD_worthless m hm _ (by rw [s1]; omega) (by rw [s2]; omega) ?_
      have hok := collapse_ok Rnd.exact exact_faithful ms hr (fits32_exact _) (fits32_exact _)
      have hz : ((collapseMatches Rnd.exact ms).map (fun c => (IsError.nh c : ℚ) - IsError.fp c)).sum = 0 := by
        have e1 : ∀ l : List MatchErrorCounts, (l.map (fun c => (IsError.nh c : ℚ) - IsError.fp c)).sum =
            ((l.map IsError.nh).sum : ℕ) - (l.map IsError.fp).sum := by
          intro l
          induction l with
          | nil => simp
          | cons c l ih => simp only [List.map_cons, List.sum_cons, ih, Nat.cast_add]; ring
        rw [e1, s1, (collapse_mass ms).1, sub_eq_zero]
        rw [Nat.cast_list_sum, List.map_map]
        congr 1
        exact List.map_congr_left fun x hx => (hfp x hx).symm
      intro c hc'
      have h1 : (IsError.nh c : ℚ) - IsError.fp c ≤ 0 := by
        rw [← hz]
        refine List.single_le_sum ?_ _ (List.mem_map_of_mem (f := fun c => (IsError.nh c : ℚ) - IsError.fp c) hc')
        intro y hy
        obtain ⟨d, hd, rfl⟩ := List.mem_map.1 hy
        have := (hok d hd).fp1
        linarith
      exact le_antisymm (hok c hc').fp1 (by linarith)

/-- The error bound of `C92_near` and `C92_near_collapsed`. -/
noncomputable def ndcgError (collapse : Bool) (k n : ℕ) : ℝ :=
  (if collapse then ((k - 1 : ℕ) : ℝ) / 2 ^ 20 else 0) + (n + 2) / 2 ^ 48

theorem ndcg_near (m : Libm) (hm : m.Accurate) (ms : List (KwsMatch Q L)) (collapse : Bool) (k n : ℕ)
    (hk : collapse = true → k ≤ 2 ^ 19)
    (h : ∀ x ∈ ms, x.error = Outcome.hit.error ∨ x.error = Outcome.falsePos.error ∨
      x.error = Outcome.falseNeg.error)
    (hc : collapse = true → ∀ s, ((ms.filter (fun x => rank x = s)).map (fun x => x.error.nh)).sum ≤ k)
    (hl : ms.length ≤ n) (hn : n ≤ 2 ^ 24) :
    ∃ v, globalNDCGD Rnd.ieee m ms collapse = .ok v ∧
      |(v : ℝ) - globalNDCG Rnd.exact ms collapse| ≤ ndcgError collapse k n := by
  have hmono : ((ms.length : ℝ) + 2) / 2 ^ 48 ≤ (n + 2) / 2 ^ 48 := by
    have : (ms.length : ℝ) ≤ n := by exact_mod_cast hl
    gcongr
  unfold ndcgError
  cases collapse with
  | false =>
    have hg : GridErrors ms := by
      intro x hx
      rcases h x hx with e | e | e
      · exact ⟨0, 0, by norm_num, by norm_num, by rw [e]; norm_num [Outcome.error]⟩
      · exact ⟨2 ^ 24, 0, by norm_num, by norm_num, by rw [e]; norm_num [Outcome.error]⟩
      · exact ⟨0, 2 ^ 24, by norm_num, by norm_num, by rw [e]; norm_num [Outcome.error]⟩
    obtain ⟨v, h1, h2⟩ := C92_near m hm ms hg (hl.trans hn)
    exact ⟨v, h1, by simp only [Bool.false_eq_true, if_false, zero_add]; exact h2.trans hmono⟩
  | true =>
    obtain ⟨v, h1, h2⟩ := C92_near_collapsed m hm ms k (hk rfl) h (hc rfl) (hl.trans hn)
    exact ⟨v, h1, by simp only [if_true]; linarith⟩

theorem ndcgError_small (collapse : Bool) (k n : ℕ) (hk : collapse = true → k ≤ 2 ^ 19) (hn : n ≤ 2 ^ 24) :
    0 ≤ ndcgError collapse k n ∧ ndcgError collapse k n ≤ 1 := by
  have h2 : ((n : ℝ) + 2) / 2 ^ 48 ≤ 1 / 2 := by
    have : (n : ℝ) ≤ 2 ^ 24 := by exact_mod_cast hn
    rw [div_le_iff₀ (by positivity)]
    refine le_trans (add_le_add_left this 2) (by norm_num)
  unfold ndcgError
  cases collapse with
  | false =>
    simp only [Bool.false_eq_true, if_false]
    exact ⟨by positivity, by linarith⟩
  | true =>
    simp only [if_true]
    have : k - 1 ≤ 2 ^ 19 := by have := hk rfl; omega
    have : ((k - 1 : ℕ) : ℝ) ≤ 2 ^ 19 := by exact_mod_cast this
    have h1 : ((k - 1 : ℕ) : ℝ) / 2 ^ 20 ≤ 1 / 2 := by
      rw [div_le_iff₀ (by positivity)]
      exact this.trans (by norm_num)
    exact ⟨by positivity, by linarith⟩

theorem meanNDCGLoopD_near (m : Libm) (hm : m.Accurate) (S : StdSort) (collapse sort : Bool) (k N : ℕ)
    (hk : collapse = true → k ≤ 2 ^ 19) (hN : N ≤ 2 ^ 24) (K : ℕ) (hK : K ≤ 2 ^ 51)
    (groups : List (List (KwsMatch Q L)))
    (h : ∀ g ∈ groups, ∀ x ∈ g, x.error = Outcome.hit.error ∨ x.error = Outcome.falsePos.error ∨
      x.error = Outcome.falseNeg.error)
    (hc : collapse = true → ∀ g ∈ groups, ∀ s,
      ((g.filter (fun x => rank x = s)).map (fun x => x.error.nh)).sum ≤ k)
    (hl : ∀ g ∈ groups, g.length ≤ N) (hn : sort = true → ∀ g ∈ groups, ∀ x ∈ g, rank x ≠ .nan) :
    ∀ (j : ℕ) (acc : ℚ) (acc' d : ℝ), j + groups.length ≤ K → |acc| ≤ 2 * j → |(acc : ℝ) - acc'| ≤ d →
    ∃ v v', meanNDCGLoopD Rnd.ieee m S collapse sort acc groups = .ok v ∧
      meanNDCGLoop Rnd.exact S collapse sort acc' groups = .ok v' ∧
      |(v : ℝ) - v'| ≤ d + groups.length * (ndcgError collapse k N + 2 * K / 2 ^ 53) ∧
      |v| ≤ 2 * (j + groups.length) := by
  induction groups with
  | nil =>
    intro j acc acc' d _ h1 h2
    exact ⟨acc, acc', rfl, rfl, by simpa using h2, by simpa using h1⟩
  | cons g gs ih =>
    intro j acc acc' d hj h1 h2
    simp only [List.length_cons] at hj
    have hg : ∃ g', (if sort then sortMatches S g else .ok g) = .ok g' ∧ g'.Perm g := by
      cases sort with
      | false => exact ⟨g, rfl, List.Perm.refl _⟩
      | true =>
        obtain ⟨g', h1, h2, _⟩ := sortMatches_spec S g (hn rfl g (by simp))
        exact ⟨g', h1, h2⟩
    obtain ⟨g', g1, g2⟩ := hg
    have hgl : g'.length ≤ N := by rw [g2.length_eq]; exact hl g (by simp)
    have hgo : ∀ x ∈ g', x.error = Outcome.hit.error ∨ x.error = Outcome.falsePos.error ∨
      x.error = Outcome.falseNeg.error := fun x hx => h g (by simp) x (g2.mem_iff.1 hx)
    have hgc : collapse = true → ∀ s, ((g'.filter (fun x => rank x = s)).map (fun x => x.error.nh)).sum ≤ k := by
      intro hcol s
      rw [((g2.filter _).map _).sum_eq]
      exact hc hcol g (by simp) s
    obtain ⟨v, e1, e3⟩ := ndcg_near m hm g' collapse k N hk hgo hgc hgl hN
    have e5 := globalNDCG_exact_unit g' collapse (fun x hx => by
      rcases hgo x hx with e | e | e <;> rw [e] <;> norm_num [Rates, Outcome.error])
    set v' := globalNDCG Rnd.exact g' collapse with hv'
    obtain ⟨b0, b1⟩ := ndcgError_small collapse k N hk hN
    have hk1 : (j : ℚ) + 1 ≤ K := by exact_mod_cast (by omega : j + 1 ≤ K)
    have hk0 : (0 : ℚ) ≤ j := by positivity
    have hv2 : |v| ≤ 2 := by
      have : |(v : ℝ)| ≤ 2 := by
        rw [abs_le] at e3 ⊢
        constructor <;> linarith [e3.1, e3.2, e5.1, e5.2]
      exact_mod_cast this
    have hsum : |acc + v| ≤ 2 * (j + 1) := by
      refine (abs_add_le _ _).trans ?_
      linarith
    have r := ieee_relErr (acc + v) (2 * K) (hsum.trans (by linarith)) (by linarith)
    have r' : |(Rnd.ieee.f64 (acc + v) : ℝ) - (acc + v)| ≤ 2 * K / 2 ^ 53 := by
      have := (Rat.cast_le (K := ℝ)).2 r
      push_cast at this
      exact this
    have hb : |Rnd.ieee.f64 (acc + v)| ≤ 2 * ((j + 1 : ℕ) : ℚ) := by
      have hx : Rnd.ieee.f64 (2 * ((j : ℚ) + 1)) = 2 * (j + 1) := by
        have := ieee_faithful.nat64 (2 * (j + 1)) (by omega)
        push_cast at this
        exact this
      have hx' : Rnd.ieee.f64 (-(2 * ((j : ℚ) + 1))) = -(2 * (j + 1)) := by
        have := Ieee.round_neg 53 (-1074) (2 * ((j : ℚ) + 1))
        rw [show Ieee.round 53 (-1074) (2 * ((j : ℚ) + 1)) = 2 * (j + 1) from hx] at this
        exact this
      push_cast
      rw [abs_le] at hsum ⊢
      constructor
      · rw [← hx']; exact ieee_faithful.mono64 _ _ hsum.1
      · rw [← hx]; exact ieee_faithful.mono64 _ _ hsum.2
    obtain ⟨w, w', i1, i2, i3, i4⟩ := ih (fun x hx => h x (by simp [hx]))
      (fun hcol x hx => hc hcol x (by simp [hx]))
      (fun x hx => hl x (by simp [hx])) (fun hs x hx => hn hs x (by simp [hx])) (j + 1)
      (Rnd.ieee.f64 (acc + v)) (acc' + v') (d + (ndcgError collapse k N + 2 * K / 2 ^ 53)) (by omega) hb (by
        rw [abs_le] at *
        constructor <;> linarith [h2.1, h2.2, e3.1, e3.2, r'.1, r'.2])
    have step : meanNDCGLoopD Rnd.ieee m S collapse sort acc (g :: gs) =
        meanNDCGLoopD Rnd.ieee m S collapse sort (Rnd.ieee.f64 (acc + v)) gs ∧
        meanNDCGLoop Rnd.exact S collapse sort acc' (g :: gs) =
          meanNDCGLoop Rnd.exact S collapse sort (acc' + v') gs := by
      cases sort with
      | false =>
        simp only [Bool.false_eq_true, if_false, Except.ok.injEq] at g1
        subst g1
        simp only [meanNDCGLoopD, meanNDCGLoop, Bool.false_eq_true, if_false, bind, Except.bind, pure,
          Except.pure, e1, hv', and_self]
      | true =>
        simp only [if_true] at g1
        simp only [meanNDCGLoopD, meanNDCGLoop, if_true, bind, Except.bind, g1, e1, hv', and_self]
    refine ⟨w, w', by rw [step.1, i1], by rw [step.2]; exact i2, ?_, ?_⟩
    · simp only [List.length_cons]
      push_cast
      refine i3.trans (le_of_eq (by ring))
    · simp only [List.length_cons]
      push_cast at i4 ⊢
      linarith

/-- C92: the mean NDCG of `g ≤ 2^51` groups, each of at most `n ≤ 2^24` hits, false positives and
false negatives, differs from the exact mean by at most the bound of one group plus
`(g + 1) / 2^52`. -/
theorem C92_mean (m : Libm) (hm : m.Accurate) (S : StdSort) (groups : List (List (KwsMatch Q L)))
    (collapse sort : Bool) (k n : ℕ) (hk : collapse = true → k ≤ 2 ^ 19) (hn : n ≤ 2 ^ 24)
    (h : ∀ g ∈ groups, ∀ x ∈ g, x.error = Outcome.hit.error ∨ x.error = Outcome.falsePos.error ∨
      x.error = Outcome.falseNeg.error)
    (hc : collapse = true → ∀ g ∈ groups, ∀ s,
      ((g.filter (fun x => rank x = s)).map (fun x => x.error.nh)).sum ≤ k)
    (hl : ∀ g ∈ groups, g.length ≤ n) (hg : groups.length ≤ 2 ^ 51)
    (hnan : sort = true → ∀ g ∈ groups, ∀ x ∈ g, rank x ≠ .nan) :
    ∃ v v', meanNDCGD Rnd.ieee m S groups collapse sort = .ok v ∧
      meanNDCG Rnd.exact S groups collapse sort = .ok v' ∧
      |(v : ℝ) - v'| ≤ (if collapse then ((k - 1 : ℕ) : ℝ) / 2 ^ 20 else 0) + (n + 2) / 2 ^ 48 +
        (groups.length + 1) / 2 ^ 52 := by
  obtain ⟨v, v', e1, e2, e3, e4⟩ := meanNDCGLoopD_near m hm S collapse sort k n hk hn
    groups.length hg groups h hc hl hnan 0 0 0 0 (by omega) (by simp) (by simp)
  refine ⟨_, _, by unfold meanNDCGD; rw [e1]; rfl, by unfold meanNDCG; rw [e2]; rfl, ?_⟩
  have e : (if collapse then ((k - 1 : ℕ) : ℝ) / 2 ^ 20 else 0) + ((n : ℝ) + 2) / 2 ^ 48 =
      ndcgError collapse k n := rfl
  rw [e]
  have b0 := (ndcgError_small collapse k n hk hn).1
  rcases Nat.eq_zero_or_pos groups.length with h0 | hpos
  · rw [h0]
    simp only [gt_iff_lt, lt_irrefl, if_false, Rat.cast_zero, sub_self, abs_zero]
    positivity
  · rw [if_pos hpos, if_pos hpos]
    have hq : (0 : ℚ) < groups.length := by exact_mod_cast hpos
    have hq' : (0 : ℝ) < groups.length := by exact_mod_cast hpos
    rw [ieee_faithful.nat64 _ (hg.trans (by norm_num))]
    simp only [Nat.cast_zero, zero_add] at e3 e4
    have b : |v / groups.length| ≤ 2 := by
      rw [abs_div, abs_of_pos hq, div_le_iff₀ hq]; exact e4
    have r := ieee_relErr _ 2 b (by norm_num)
    have r' : |(Rnd.ieee.f64 (v / groups.length) : ℝ) - v / groups.length| ≤ 2 / 2 ^ 53 := by
      have := (Rat.cast_le (K := ℝ)).2 r
      push_cast at this
      exact this
    have c : |(v : ℝ) / groups.length - v' / groups.length| ≤
        ndcgError collapse k n + 2 * groups.length / 2 ^ 53 := by
      rw [← sub_div, abs_div, abs_of_pos hq', div_le_iff₀ hq']
      linarith
    rw [abs_le] at *
    constructor <;> linarith [r'.1, r'.2, c.1, c.2]

/-- C92: the NDCG of all groups together. -/
theorem C92_global (m : Libm) (hm : m.Accurate) (S : StdSort) (groups : List (List (KwsMatch Q L)))
    (collapse sort : Bool) (k : ℕ) (hk : collapse = true → k ≤ 2 ^ 19)
    (h : ∀ x ∈ groups.flatten, x.error = Outcome.hit.error ∨ x.error = Outcome.falsePos.error ∨
      x.error = Outcome.falseNeg.error)
    (hc : collapse = true → ∀ s,
      ((groups.flatten.filter (fun x => rank x = s)).map (fun x => x.error.nh)).sum ≤ k)
    (hl : groups.flatten.length ≤ 2 ^ 24)
    (hnan : sort = true → ∀ x ∈ groups.flatten, rank x ≠ .nan) :
    ∃ v v', globalNDCGGroupedD Rnd.ieee m S groups collapse sort = .ok v ∧
      globalNDCGGrouped Rnd.exact S groups collapse sort = .ok v' ∧
      |(v : ℝ) - v'| ≤ (if collapse then ((k - 1 : ℕ) : ℝ) / 2 ^ 20 else 0) +
        (groups.flatten.length + 2) / 2 ^ 48 := by
  have hg : ∃ g', (if sort then sortMatches S groups.flatten else .ok groups.flatten) = .ok g' ∧
      g'.Perm groups.flatten := by
    cases sort with
    | false => exact ⟨_, rfl, List.Perm.refl _⟩
    | true =>
      obtain ⟨g', h1, h2, _⟩ := sortMatches_spec S groups.flatten (hnan rfl)
      exact ⟨g', h1, h2⟩
  obtain ⟨g', g1, g2⟩ := hg
  obtain ⟨v, e1, e2⟩ := ndcg_near m hm g' collapse k groups.flatten.length hk
    (fun x hx => h x (g2.mem_iff.1 hx))
    (fun hcol s => by rw [((g2.filter _).map _).sum_eq]; exact hc hcol s) (le_of_eq g2.length_eq) hl
  refine ⟨v, globalNDCG Rnd.exact g' collapse, ?_, ?_, e2⟩
  · unfold globalNDCGGroupedD
    cases sort with
    | false =>
      simp only [Bool.false_eq_true, if_false, Except.ok.injEq] at g1
      subst g1
      exact e1
    | true =>
      simp only [if_true] at g1
      simp only [if_true, bind, Except.bind, g1, e1]
  · unfold globalNDCGGrouped
    cases sort with
    | false =>
      simp only [Bool.false_eq_true, if_false, Except.ok.injEq] at g1
      subst g1
      rfl
    | true =>
      simp only [if_true] at g1
      simp only [if_true, bind, Except.bind, g1]
      rfl

end

/-! ## The hypotheses can be met -/

theorem near_rat (x : ℝ) (hx : 0 < x) : ∃ q : ℚ, |(q : ℝ) - x| ≤ x / 2 ^ 52 := by
  obtain ⟨q, h1, h2⟩ := exists_rat_btwn (show x < x + x / 2 ^ 52 by
    have : 0 < x / 2 ^ 52 := by positivity
    linarith)
  exact ⟨q, by rw [abs_le]; constructor <;> linarith [show (0 : ℝ) < x / 2 ^ 52 by positivity]⟩

/-- An accurate library exists. -/
theorem C92_libm : ∃ m : Libm, m.Accurate := by
  classical
  choose f hf using near_rat
  have hexp : ∀ r : ℚ, (0 : ℝ) < (2 : ℝ) ^ (r : ℝ) := fun r => Real.rpow_pos_of_pos (by norm_num) _
  refine ⟨⟨fun r => if r = 0 then 1 else if r = 1 then 2 else f _ (hexp r),
    fun q => if h : 0 < Real.logb 2 (q : ℝ) then f _ h else 0⟩, ?_, ?_, ?_, ?_⟩
  · simp
  · simp
  · intro r h0 h1
    simp only
    split
    · rename_i h; subst h; simp
    · split
      · rename_i h; subst h; norm_num
      · exact hf _ (hexp r)
  · intro n h2 hn
    have hp : 0 < Real.logb 2 (((n : ℚ) : ℝ)) := by
      have := (logb_range n h2 hn).1
      push_cast
      linarith
    simp only
    rw [dif_pos hp]
    have := hf _ hp
    simpa using this

/-- A hit at rank 1, a false positive at rank 2 and a missed reference: the bounds apply. -/
example (m : Libm) (hm : m.Accurate) :
    let a : Event Nat Nat := ⟨0, 0⟩
    let b : Event Nat Nat := ⟨0, 1⟩
    let c : Event Nat Nat := ⟨0, 2⟩
    let ms : List (KwsMatch Nat Nat) := [⟨some a, some ⟨a, .fin 3⟩, Outcome.hit.error⟩,
      ⟨none, some ⟨b, .fin 2⟩, Outcome.falsePos.error⟩, ⟨some c, none, Outcome.falseNeg.error⟩]
    ∃ v, globalNDCGD Rnd.ieee m ms true = .ok v ∧ 0 ≤ v ∧ v ≤ 1 ∧
      |(v : ℝ) - globalNDCG Rnd.exact ms true| ≤ 5 / 2 ^ 48 := by
  intro a b c ms
  have h : ∀ x ∈ ms, x.error = Outcome.hit.error ∨ x.error = Outcome.falsePos.error ∨
      x.error = Outcome.falseNeg.error := by
    intro x hx
    simp only [ms, List.mem_cons, List.not_mem_nil, or_false] at hx
    rcases hx with rfl | rfl | rfl <;> simp
  have hc : ∀ s, ((ms.filter (fun x => rank x = s)).map (fun x => x.error.nh)).sum ≤ 1 := by
    intro s
    by_cases h1 : s = .fin 3
    · subst h1; decide +kernel
    by_cases h2 : s = .fin 2
    · subst h2; decide +kernel
    by_cases h3 : s = .ninf
    · subst h3; decide +kernel
    have : ms.filter (fun x => rank x = s) = [] := by
      rw [List.filter_eq_nil_iff]
      intro x hx
      simp only [ms, List.mem_cons, List.not_mem_nil, or_false] at hx
      rcases hx with rfl | rfl | rfl <;> simp [rank, Ne.symm h1, Ne.symm h2, Ne.symm h3]
    rw [this]
    simp
  obtain ⟨v, e1, e2, e3⟩ := C92_unit m hm ms true h (fun _ => hc) (by simp [ms])
  obtain ⟨v', f1, f2⟩ := C92_near_collapsed m hm ms 1 (by norm_num) h hc (by simp [ms])
  rw [e1, Except.ok.injEq] at f1
  subst f1
  refine ⟨v, e1, e2, e3, f2.trans (le_of_eq ?_)⟩
  norm_num [ms]

end Kws
