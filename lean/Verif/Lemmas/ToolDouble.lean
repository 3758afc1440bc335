import Verif.Lemmas.Stable
import Verif.Lemmas.Output
import Verif.Props.NdcgDouble
import Verif.Props.Evaluation
import Verif.Spec.ToolDouble

/-!
# Runs with NDCG in double precision
-/

namespace Kws
open Spec Traced

/-! ## Traces -/

section
variable {ε : ℝ} {α : Type}

theorem EffectNear.refl_list (l : List Effect) : List.Forall₂ (EffectNear ε) l l :=
  List.forall₂_same.2 fun e _ => .same e

theorem TraceNear.refl (t : Traced Nat) : TraceNear ε t t := ⟨rfl, EffectNear.refl_list _⟩

/-- The same beginning. -/
theorem TraceNear.bind (x : Traced α) (f g : α → Traced Nat)
    (h : ∀ a, x.result = .ok a → TraceNear ε (f a) (g a)) : TraceNear ε (x >>= f) (x >>= g) := by
  obtain ⟨es, r⟩ := x
  cases r with
  | error e => exact ⟨rfl, EffectNear.refl_list _⟩
  | ok a =>
    obtain ⟨h1, h2⟩ := h a rfl
    exact ⟨h1, List.rel_append (EffectNear.refl_list es) h2⟩

theorem TraceNear.ite (c : Prop) [Decidable c] {f g f' g' : Traced Nat} (h : c → TraceNear ε f g)
    (h' : ¬ c → TraceNear ε f' g') : TraceNear ε (if c then f else f') (if c then g else g') := by
  split
  · exact h ‹_›
  · exact h' ‹_›

/-- A metric of the kind of NDCG, computed and printed. -/
theorem TraceNear.metric (name : String) (hn : name = "gNDCG" ∨ name = "mNDCG") (x : Cpp (Metric ℚ))
    (y : Cpp (Metric ℝ)) (f g : Unit → Traced Nat) (hf : TraceNear ε (f ()) (g ()))
    (h : (∃ a b, x = .ok a ∧ y = .ok b ∧ MetricNear ε a b) ∨ ∃ e, x = .error e ∧ y = .error e) :
    TraceNear ε (lift x >>= fun a => emit (.out (showMetric name a)) >>= f)
      (lift y >>= fun a => emit (.out (showMetric name a)) >>= g) := by
  rcases h with ⟨a, b, rfl, rfl, h⟩ | ⟨e, rfl, rfl⟩
  · rw [lift_ok_bind, lift_ok_bind, emit_bind, emit_bind]
    exact ⟨hf.result, .cons (.ndcg name a b hn h) hf.effects⟩
  · exact ⟨rfl, .nil⟩

end

/-! ## Metrics -/

section
variable {G Q L : Type}

/-- Exactly one event that was missed, found or wrong. -/
def Plain (m : KwsMatch Q L) : Prop :=
  m.error = Outcome.hit.error ∨ m.error = Outcome.falsePos.error ∨ m.error = Outcome.falseNeg.error

theorem Plain.hard {m : KwsMatch Q L} (h : Plain m) : Hard m.error := by
  rcases h with e | e | e <;> rw [e] <;> simp [Hard, Outcome.error]

theorem Plain.rates {m : KwsMatch Q L} (h : Plain m) : Rates m.error := hard_rates _ h.hard

theorem ndcgTolerance_eq (collapse : Bool) (N : ℕ) :
    ndcgTolerance collapse N = ndcgError collapse N N + (N + 1) / 2 ^ 52 := rfl

theorem ndcgTolerance_small (collapse : Bool) (N : ℕ) (hk : collapse = true → N ≤ 2 ^ 19)
    (hN : N ≤ 2 ^ 24) : ndcgTolerance collapse N ≤ 1 := by
  have hq : (N : ℝ) ≤ 2 ^ 24 := by exact_mod_cast hN
  have h2 : ((N : ℝ) + 2) / 2 ^ 48 ≤ 1 / 4 := by
    rw [div_le_iff₀ (by positivity)]
    refine le_trans (add_le_add_left hq 2) (by norm_num)
  have h3 : ((N : ℝ) + 1) / 2 ^ 52 ≤ 1 / 4 := by
    rw [div_le_iff₀ (by positivity)]
    refine le_trans (add_le_add_left hq 1) (by norm_num)
  unfold ndcgTolerance
  cases collapse with
  | false =>
    simp only [Bool.false_eq_true, if_false]
    linarith
  | true =>
    simp only [if_true]
    have : N - 1 ≤ 2 ^ 19 := by have := hk rfl; omega
    have : ((N - 1 : ℕ) : ℝ) ≤ 2 ^ 19 := by exact_mod_cast this
    have h1 : ((N - 1 : ℕ) : ℝ) / 2 ^ 20 ≤ 1 / 2 := by
      rw [div_le_iff₀ (by positivity)]
      exact this.trans (by norm_num)
    linarith

theorem globalNDCG_ieee (ms : List (KwsMatch Q L)) (collapse : Bool) (h : ∀ m ∈ ms, Plain m)
    (hl : ms.length ≤ 2 ^ 24) : globalNDCG Rnd.ieee ms collapse = globalNDCG Rnd.exact ms collapse := by
  unfold globalNDCG
  rw [collapse_hard Rnd.ieee ms (fun m hm => (h m hm).hard)
    (fun k hk => ieee_faithful.nat32 k (by omega))]

theorem tie_le (ms : List (KwsMatch Q L)) (N : ℕ) (hl : ms.length ≤ N) (s : Flt) :
    ((ms.filter (fun x => rank x = s)).map (fun x => x.error.nh)).sum ≤ N :=
  (nh_le_length _).1.trans ((List.length_filter_le _ _).trans hl)

theorem globalNDCGD_close (lm : Libm) (hm : lm.Accurate) (ms : List (KwsMatch Q L)) (collapse : Bool)
    (N : ℕ) (hk : collapse = true → N ≤ 2 ^ 19) (hN : N ≤ 2 ^ 24) (h : ∀ m ∈ ms, Plain m)
    (hl : ms.length ≤ N) :
    ∃ v, globalNDCGD Rnd.ieee lm ms collapse = .ok v ∧ 0 ≤ globalNDCG Rnd.ieee ms collapse ∧
      globalNDCG Rnd.ieee ms collapse ≤ 1 ∧
      |(v : ℝ) - globalNDCG Rnd.ieee ms collapse| ≤ ndcgTolerance collapse N := by
  obtain ⟨v, h1, h2⟩ := ndcg_near lm hm ms collapse N N hk h (fun _ => tie_le ms N hl) hl hN
  rw [globalNDCG_ieee ms collapse h (hl.trans hN)]
  obtain ⟨u0, u1⟩ := C36_unit Rnd.exact ms collapse (fun m hm => (h m hm).rates) (Or.inl rfl)
  refine ⟨v, h1, u0, u1, h2.trans ?_⟩
  rw [ndcgTolerance_eq]
  have : (0 : ℝ) ≤ (N + 1) / 2 ^ 52 := by positivity
  linarith

theorem globalNDCGGroupedD_close (lm : Libm) (hm : lm.Accurate) (S : StdSort)
    (groups : List (List (KwsMatch Q L))) (collapse sort : Bool)
    (N : ℕ) (hk : collapse = true → N ≤ 2 ^ 19) (hN : N ≤ 2 ^ 24) (h : ∀ g ∈ groups, ∀ m ∈ g, Plain m)
    (hnan : ∀ g ∈ groups, NoNaN g) (hl : groups.flatten.length ≤ N) :
    ∃ v v', globalNDCGGroupedD Rnd.ieee lm S groups collapse sort = .ok v ∧
      globalNDCGGrouped Rnd.ieee S groups collapse sort = .ok v' ∧ 0 ≤ v' ∧ v' ≤ 1 ∧
      |(v : ℝ) - v'| ≤ ndcgTolerance collapse N := by
  have hflat : NoNaN groups.flatten := by
    intro m hm
    obtain ⟨g, hg, hm⟩ := List.mem_flatten.1 hm
    exact hnan g hg m hm
  have hg : ∃ l, (if sort then sortMatches S groups.flatten else pure groups.flatten) = .ok l ∧
      l.Perm groups.flatten := by
    cases sort with
    | false => exact ⟨_, rfl, List.Perm.refl _⟩
    | true =>
      obtain ⟨l, e, hp, _⟩ := sortMatches_spec S groups.flatten hflat
      exact ⟨l, e, hp⟩
  obtain ⟨l, e, hp⟩ := hg
  obtain ⟨v, h1, u0, u1, h2⟩ := globalNDCGD_close lm hm l collapse N hk hN
    (fun m hm => by
      obtain ⟨g, hg, hm⟩ := List.mem_flatten.1 (hp.mem_iff.1 hm)
      exact h g hg m hm) (by rw [hp.length_eq]; exact hl)
  refine ⟨v, _, ?_, ?_, u0, u1, h2⟩
  · unfold globalNDCGGroupedD
    cases sort with
    | false =>
      simp only [Bool.false_eq_true, if_false, pure, Except.pure, Except.ok.injEq] at e
      subst e
      exact h1
    | true =>
      simp only [if_true] at e
      simp only [if_true, e, bind, Except.bind, h1]
  · unfold globalNDCGGrouped
    cases sort with
    | false =>
      simp only [Bool.false_eq_true, if_false, pure, Except.pure, Except.ok.injEq] at e
      subst e
      rfl
    | true =>
      simp only [if_true] at e
      simp only [if_true, e, bind, Except.bind, pure, Except.pure]

theorem meanNDCGLoop_ieee (S : StdSort) (collapse sort : Bool) (N : ℕ) (hN : N ≤ 2 ^ 24)
    (groups : List (List (KwsMatch Q L))) (h : ∀ g ∈ groups, ∀ m ∈ g, Plain m)
    (hnan : ∀ g ∈ groups, NoNaN g) (hl : ∀ g ∈ groups, g.length ≤ N) : ∀ acc,
    meanNDCGLoop Rnd.ieee S collapse sort acc groups =
      meanNDCGLoop Rnd.exact S collapse sort acc groups := by
  induction groups with
  | nil => intro acc; rfl
  | cons g groups ih =>
    intro acc
    have hg : ∃ l, (if sort then sortMatches S g else pure g) = .ok l ∧ l.Perm g := by
      cases sort with
      | false => exact ⟨_, rfl, List.Perm.refl _⟩
      | true =>
        obtain ⟨l, e, hp, _⟩ := sortMatches_spec S g (hnan g (by simp))
        exact ⟨l, e, hp⟩
    obtain ⟨l, e, hp⟩ := hg
    have hv := globalNDCG_ieee l collapse (fun m hm => h g (by simp) m (hp.mem_iff.1 hm))
      (by rw [hp.length_eq]; exact (hl g (by simp)).trans hN)
    have ih' := ih (fun g hg => h g (by simp [hg])) (fun g hg => hnan g (by simp [hg]))
      (fun g hg => hl g (by simp [hg]))
    unfold meanNDCGLoop
    cases sort with
    | false =>
      simp only [Bool.false_eq_true, if_false, pure, Except.pure, Except.ok.injEq] at e
      subst e
      simp only [Bool.false_eq_true, if_false, bind, Except.bind, pure, Except.pure, hv, ih']
    | true =>
      simp only [if_true] at e
      simp only [if_true, e, bind, Except.bind, hv, ih']

theorem meanNDCGD_close (lm : Libm) (hm : lm.Accurate) (S : StdSort)
    (groups : List (List (KwsMatch Q L))) (collapse sort : Bool)
    (N : ℕ) (hk : collapse = true → N ≤ 2 ^ 19) (hN : N ≤ 2 ^ 24) (h : ∀ g ∈ groups, ∀ m ∈ g, Plain m)
    (hnan : ∀ g ∈ groups, NoNaN g) (hl : ∀ g ∈ groups, g.length ≤ N) (hg : groups.length ≤ N) :
    ∃ v v', meanNDCGD Rnd.ieee lm S groups collapse sort = .ok v ∧
      meanNDCG Rnd.ieee S groups collapse sort = .ok v' ∧ 0 ≤ v' ∧ v' ≤ 1 ∧
      |(v : ℝ) - v'| ≤ ndcgTolerance collapse N := by
  obtain ⟨v, v', h1, h2, h3⟩ := C92_mean lm hm S groups collapse sort N N hk hN h
    (fun _ g hg => tie_le g N (hl g hg)) hl (hg.trans (hN.trans (by norm_num)))
    (fun _ g hg m hm => hnan g hg m hm)
  obtain ⟨vs, v'', _, e, _, u0, u1⟩ := C36_mean S groups collapse sort
    (fun g hg m hm => (h g hg m hm).rates) (fun _ g hg m hm => hnan g hg m hm)
  rw [h2] at e
  injection e with e
  subst e
  refine ⟨v, v', h1, ?_, u0, u1, h3.trans ?_⟩
  · rw [← h2]
    unfold meanNDCG
    rw [meanNDCGLoop_ieee S collapse sort N hN groups h hnan hl]
  · unfold ndcgTolerance
    have : (groups.length : ℝ) ≤ N := by exact_mod_cast hg
    gcongr

/-- Two computations of a metric: near each other, or the same abnormal end. -/
def Both (ε : ℝ) (x : Cpp (Metric ℚ)) (y : Cpp (Metric ℝ)) : Prop :=
  (∃ a b, x = .ok a ∧ y = .ok b ∧ MetricNear ε a b) ∨ ∃ e, x = .error e ∧ y = .error e

/-- What a statistic with or without an interval gives. -/
theorem globalStatistic_near (S : StdSort) (rng : Rng G) (b : Bool) (o : ToolOptions)
    (ms : List (KwsMatch Q L)) (groups : List (List (KwsMatch Q L)))
    (pD : List (KwsMatch Q L) → Cpp ℚ) (p : List (KwsMatch Q L) → Cpp ℝ)
    (sD : List (List (KwsMatch Q L)) → Bool → Cpp ℚ) (s : List (List (KwsMatch Q L)) → Bool → Cpp ℝ)
    (ε : ℝ) (hε : ε ≤ 1)
    (h1 : ∃ v v', pD ms = .ok v ∧ p ms = .ok v' ∧ |(v : ℝ) - v'| ≤ ε)
    (h2 : b = true → ∀ sample, Resample groups sample → ∃ v v', sD sample true = .ok v ∧
      s sample true = .ok v' ∧ 0 ≤ v' ∧ v' ≤ 1 ∧ |(v : ℝ) - v'| ≤ ε) :
    (∃ x y, globalStatistic Rnd.ieee S Rnd.ieee.f64 rng b o ms groups pD sD = .ok x ∧
      globalStatistic Rnd.ieee S id rng b o ms groups p s = .ok y ∧ MetricNear ε x y) ∨
    ∃ e, globalStatistic Rnd.ieee S Rnd.ieee.f64 rng b o ms groups pD sD = .error e ∧
      globalStatistic Rnd.ieee S id rng b o ms groups p s = .error e := by
  unfold globalStatistic
  cases b with
  | false =>
    obtain ⟨v, v', e, e', hv⟩ := h1
    left
    simp only [Bool.false_eq_true, if_false, e, e', bind, Except.bind, pure, Except.pure]
    exact ⟨_, _, rfl, rfl, hv, Or.inl ⟨rfl, rfl⟩⟩
  | true =>
    rcases percentile_near S rng o groups (fun c => sD c true) (fun c => s c true) ε hε (h2 rfl) with
      ⟨v, lo, hi, v', lo', hi', e, e', k1, k2, k3⟩ | ⟨e, e'⟩
    · left
      simp only [if_true, e, e', bind, Except.bind, pure, Except.pure]
      exact ⟨_, _, rfl, rfl, k1, Or.inr ⟨_, _, _, _, rfl, rfl, k2, k3⟩⟩
    · right
      simp only [if_true, e, e', bind, Except.bind]
      exact ⟨_, rfl, rfl⟩

theorem meanStatistic_near (S : StdSort) (rng : Rng G) (b : Bool) (o : ToolOptions)
    (groups : List (List (KwsMatch Q L)))
    (sD : List (List (KwsMatch Q L)) → Bool → Cpp ℚ) (s : List (List (KwsMatch Q L)) → Bool → Cpp ℝ)
    (ε : ℝ) (hε : ε ≤ 1)
    (h1 : ∃ v v', sD groups false = .ok v ∧ s groups false = .ok v' ∧ |(v : ℝ) - v'| ≤ ε)
    (h2 : b = true → ∀ sample, Resample groups sample → ∃ v v', sD sample true = .ok v ∧
      s sample true = .ok v' ∧ 0 ≤ v' ∧ v' ≤ 1 ∧ |(v : ℝ) - v'| ≤ ε) :
    (∃ x y, meanStatistic Rnd.ieee S Rnd.ieee.f64 rng b o groups sD = .ok x ∧
      meanStatistic Rnd.ieee S id rng b o groups s = .ok y ∧ MetricNear ε x y) ∨
    ∃ e, meanStatistic Rnd.ieee S Rnd.ieee.f64 rng b o groups sD = .error e ∧
      meanStatistic Rnd.ieee S id rng b o groups s = .error e := by
  unfold meanStatistic
  cases b with
  | false =>
    obtain ⟨v, v', e, e', hv⟩ := h1
    left
    simp only [Bool.false_eq_true, if_false, e, e', bind, Except.bind, pure, Except.pure]
    exact ⟨_, _, rfl, rfl, hv, Or.inl ⟨rfl, rfl⟩⟩
  | true =>
    rcases percentile_near S rng o groups (fun c => sD c true) (fun c => s c true) ε hε (h2 rfl) with
      ⟨v, lo, hi, v', lo', hi', e, e', k1, k2, k3⟩ | ⟨e, e'⟩
    · left
      simp only [if_true, e, e', bind, Except.bind, pure, Except.pure]
      exact ⟨_, _, rfl, rfl, k1, Or.inr ⟨_, _, _, _, rfl, rfl, k2, k3⟩⟩
    · right
      simp only [if_true, e, e', bind, Except.bind]
      exact ⟨_, rfl, rfl⟩

theorem resample_length {M : Type} {groups sample : List (List M)} (h : Resample groups sample) (k : ℕ)
    (hk : ∀ g ∈ groups, g.length ≤ k) :
    (∀ g ∈ sample, g.length ≤ k) ∧ sample.flatten.length ≤ groups.length * k := by
  have h1 : ∀ g ∈ sample, g.length ≤ k := by
    intro g hg
    obtain ⟨g', hg', hd⟩ := h.2 g hg
    rw [hd.1]
    exact hk g' hg'
  refine ⟨h1, ?_⟩
  rw [← h.1, List.length_flatten]
  have := List.sum_le_card_nsmul (sample.map List.length) k (by
    intro x hx
    obtain ⟨g, hg, rfl⟩ := List.mem_map.1 hx
    exact h1 g hg)
  simpa using this

theorem groups_le {M : Type} (groups : List (List M)) (hne : [] ∉ groups) :
    groups.length ≤ groups.flatten.length := by
  induction groups with
  | nil => simp
  | cons g groups ih =>
    have hg : g ≠ [] := fun h => hne (by simp [h])
    have := List.length_pos_iff.2 hg
    have := ih (fun h => hne (by simp [h]))
    simp only [List.length_cons, List.flatten_cons, List.length_append]
    omega

/-- The two kinds of NDCG. -/
theorem statistics_near (lm : Libm) (hm : lm.Accurate) (S : StdSort) (rng : Rng G)
    (o : ToolOptions) (ms : List (KwsMatch Q L)) (groups : List (List (KwsMatch Q L))) (N : ℕ)
    (hN : N ≤ 2 ^ 24) (hk : o.collapse = true → N ≤ 2 ^ 19) (hp : ∀ m ∈ ms, Plain m) (hn : NoNaN ms)
    (hl : ms.length ≤ N) (hl2 : o.ciGndcg = true → ms.length ^ 2 ≤ N)
    (hperm : groups.flatten.Perm ms) (hsub : ∀ g ∈ groups, g.Sublist ms) (hne : [] ∉ groups) :
    Both (ndcgTolerance o.collapse N)
      (globalStatistic Rnd.ieee S Rnd.ieee.f64 rng o.ciGndcg o ms groups
        (fun ms => globalNDCGD Rnd.ieee lm ms o.collapse)
        (fun gs b => globalNDCGGroupedD Rnd.ieee lm S gs o.collapse b))
      (globalStatistic Rnd.ieee S id rng o.ciGndcg o ms groups
        (fun ms => .ok (globalNDCG Rnd.ieee ms o.collapse))
        (fun gs b => globalNDCGGrouped Rnd.ieee S gs o.collapse b)) ∧
    Both (ndcgTolerance o.collapse N)
      (meanStatistic Rnd.ieee S Rnd.ieee.f64 rng o.ciMndcg o groups
        (fun gs b => meanNDCGD Rnd.ieee lm S gs o.collapse b))
      (meanStatistic Rnd.ieee S id rng o.ciMndcg o groups
        (fun gs b => meanNDCG Rnd.ieee S gs o.collapse b)) := by
  have hε := ndcgTolerance_small o.collapse N hk hN
  have hgl : ∀ g ∈ groups, g.length ≤ ms.length := fun g hg => (hsub g hg).length_le
  have hgc : groups.length ≤ ms.length := by
    rw [← hperm.length_eq]
    exact groups_le groups hne
  have res : ∀ sample, Resample groups sample → (∀ g ∈ sample, ∀ m ∈ g, Plain m) ∧
      (∀ g ∈ sample, NoNaN g) ∧ (∀ g ∈ sample, g.length ≤ N) ∧ sample.length ≤ N ∧
      (o.ciGndcg = true → sample.flatten.length ≤ N) := by
    intro sample hs
    obtain ⟨r1, r2⟩ := resample_length hs ms.length hgl
    refine ⟨resample_all hs Plain (fun g hg m hm => hp m ((hsub g hg).mem hm)),
      fun g hg m hm => resample_all hs (fun m => rank m ≠ .nan)
        (fun g hg m hm => hn m ((hsub g hg).mem hm)) g hg m hm,
      fun g hg => (r1 g hg).trans hl, by rw [hs.1]; omega, fun h => r2.trans ?_⟩
    refine le_trans ?_ (hl2 h)
    rw [pow_two]
    exact Nat.mul_le_mul_right _ hgc
  constructor
  · refine globalStatistic_near S rng o.ciGndcg o ms groups _ _ _ _ _ hε ?_ ?_
    · obtain ⟨v, e, _, _, h⟩ := globalNDCGD_close lm hm ms o.collapse N hk hN hp hl
      exact ⟨v, _, e, rfl, h⟩
    · intro hb sample hs
      obtain ⟨r1, r2, r3, r4, r5⟩ := res sample hs
      exact globalNDCGGroupedD_close lm hm S sample o.collapse true N hk hN r1 r2 (r5 hb)
  · refine meanStatistic_near S rng o.ciMndcg o groups _ _ _ hε ?_ ?_
    · obtain ⟨v, v', e, e', _, _, h⟩ := meanNDCGD_close lm hm S groups o.collapse false N hk hN
        (fun g hg m hm => hp m ((hsub g hg).mem hm)) (fun g hg m hm => hn m ((hsub g hg).mem hm))
        (fun g hg => (hgl g hg).trans hl) (hgc.trans hl)
      exact ⟨v, v', e, e', h⟩
    · intro _ sample hs
      obtain ⟨r1, r2, r3, r4, _⟩ := res sample hs
      exact meanNDCGD_close lm hm S sample o.collapse true N hk hN r1 r2 r3 r4

theorem traceAssess_near (lm : Libm) (S : StdSort) (rng : Rng G) (w : World)
    (o : ToolOptions) (ms : List (KwsMatch Q L)) (groups : List (List (KwsMatch Q L))) (ε : ℝ)
    (h1 : Both ε (globalStatistic Rnd.ieee S Rnd.ieee.f64 rng o.ciGndcg o ms groups
        (fun ms => globalNDCGD Rnd.ieee lm ms o.collapse)
        (fun gs b => globalNDCGGroupedD Rnd.ieee lm S gs o.collapse b))
      (globalStatistic Rnd.ieee S id rng o.ciGndcg o ms groups
        (fun ms => .ok (globalNDCG Rnd.ieee ms o.collapse))
        (fun gs b => globalNDCGGrouped Rnd.ieee S gs o.collapse b)))
    (h2 : Both ε (meanStatistic Rnd.ieee S Rnd.ieee.f64 rng o.ciMndcg o groups
        (fun gs b => meanNDCGD Rnd.ieee lm S gs o.collapse b))
      (meanStatistic Rnd.ieee S id rng o.ciMndcg o groups
        (fun gs b => meanNDCG Rnd.ieee S gs o.collapse b))) :
    TraceNear ε (traceAssessD Rnd.ieee lm S rng w o ms groups)
      (traceAssess Rnd.ieee S rng w o ms groups) := by
  unfold traceAssessD traceAssess
  refine TraceNear.bind _ _ _ fun _ _ => TraceNear.bind _ _ _ fun _ _ => ?_
  refine TraceNear.bind _ _ _ fun _ _ => TraceNear.bind _ _ _ fun _ _ => ?_
  refine TraceNear.metric "gNDCG" (Or.inl rfl) _ _ _ _ ?_ h1
  exact TraceNear.metric "mNDCG" (Or.inr rfl) _ _ _ _ (TraceNear.refl _) h2

/-- What is printed at the end of a run. -/
def Prints (ε : ℝ) (t : Traced Nat) (x : Cpp (RunResult Q L)) : Prop :=
  ∀ r, x = .ok (.done r) → ∃ g m, MetricNear ε g r.gNDCG ∧ MetricNear ε m r.mNDCG ∧
    outsOf t.effects = [showMetric "gAP" r.gAP, showMetric "mAP" r.mAP, showMetric "gNDCG" g,
      showMetric "mNDCG" m]

theorem Prints.failed (ε : ℝ) (t : Traced Nat) : Prints ε t (.ok .failed : Cpp (RunResult Q L)) :=
  fun r hr => by cases hr

theorem Prints.bind {ε : ℝ} {α : Type} (u : Traced α) (hu : outsOf u.effects = []) {x : Cpp α}
    (hx : u.result = x) (f : α → Traced Nat) (y : α → Cpp (RunResult Q L))
    (h : ∀ a, x = .ok a → Prints ε (f a) (y a)) : Prints ε (u >>= f) (x.bind y) := by
  obtain ⟨es, r⟩ := u
  simp only at hu hx
  subst hx
  cases r with
  | error e => exact fun r hr => by cases hr
  | ok a =>
    intro r hr
    obtain ⟨g, m, h1, h2, h3⟩ := h a rfl r hr
    refine ⟨g, m, h1, h2, ?_⟩
    rw [← h3]
    show outsOf (es ++ (f a).effects) = _
    rw [outsOf_append, hu]
    rfl

theorem Prints.after {ε : ℝ} (u : Traced Unit) (hu : outsOf u.effects = []) (hx : u.result = .ok ())
    (f : Unit → Traced Nat) (x : Cpp (RunResult Q L)) (h : Prints ε (f ()) x) :
    Prints ε (u >>= f) x :=
  Prints.bind u hu hx f (fun _ => x) (fun _ _ => h)

theorem sayIf_outs (c : Prop) [Decidable c] (s : Str) :
    outsOf (sayIf c s).effects = [] ∧ (sayIf c s).result = .ok () := by
  unfold sayIf emitIf
  split <;> exact ⟨rfl, rfl⟩

theorem traceAssess_prints (lm : Libm) (S : StdSort) (rng : Rng G) (w : World)
    (o : ToolOptions) (ms : List (KwsMatch Q L)) (groups : List (List (KwsMatch Q L))) (ε : ℝ)
    (dump : Option (List (KwsMatch Q L) × List (KwsMatch Q L)))
    (h1 : Both ε (globalStatistic Rnd.ieee S Rnd.ieee.f64 rng o.ciGndcg o ms groups
        (fun ms => globalNDCGD Rnd.ieee lm ms o.collapse)
        (fun gs b => globalNDCGGroupedD Rnd.ieee lm S gs o.collapse b))
      (globalStatistic Rnd.ieee S id rng o.ciGndcg o ms groups
        (fun ms => .ok (globalNDCG Rnd.ieee ms o.collapse))
        (fun gs b => globalNDCGGrouped Rnd.ieee S gs o.collapse b)))
    (h2 : Both ε (meanStatistic Rnd.ieee S Rnd.ieee.f64 rng o.ciMndcg o groups
        (fun gs b => meanNDCGD Rnd.ieee lm S gs o.collapse b))
      (meanStatistic Rnd.ieee S id rng o.ciMndcg o groups
        (fun gs b => meanNDCG Rnd.ieee S gs o.collapse b))) :
    Prints ε (traceAssessD Rnd.ieee lm S rng w o ms groups)
      ((assess Rnd.ieee S rng w o ms groups dump).bind fun r => .ok (.done r)) := by
  intro r hr
  cases ha : assess Rnd.ieee S rng w o ms groups dump with
  | error e => rw [ha] at hr; cases hr
  | ok r' =>
    rw [ha] at hr
    injection hr with hr
    injection hr with hr
    subst hr
    unfold assess at ha
    unfold traceAssessD
    rcases h1 with ⟨g, g', e1, e1', k1⟩ | ⟨e, _, e1'⟩
    swap
    · rw [e1'] at ha
      simp only [bind, Except.bind] at ha
      grind
    rcases h2 with ⟨m, m', e2, e2', k2⟩ | ⟨e, _, e2'⟩
    swap
    · rw [e1', e2'] at ha
      simp only [bind, Except.bind] at ha
      grind
    rw [e1', e2'] at ha
    rw [e1, e2]
    refine ⟨g, m, ?_⟩
    generalize globalStatistic Rnd.ieee S Rnd.ieee.f64 rng o.ciGap o ms groups
      (fun ms => globalAP Rnd.ieee ms o.collapse o.interp o.trapezoid)
      (fun gs b => globalAPGrouped Rnd.ieee S gs o.collapse o.interp o.trapezoid b) = x1 at ha ⊢
    generalize meanStatistic Rnd.ieee S Rnd.ieee.f64 rng o.ciMap o groups
      (fun gs b => meanAP Rnd.ieee S gs o.collapse o.interp o.trapezoid b) = x2 at ha ⊢
    generalize globalRPCurve Rnd.ieee w o.outputGrp ms o.curveSamples o.collapse o.interp
      o.trapezoid = x5 at ha ⊢
    generalize meanRPCurve Rnd.ieee w o.outputMrp groups o.curveSamples o.collapse o.interp
      o.trapezoid = x6 at ha ⊢
    cases x1 with
    | error e => cases ha
    | ok x1 =>
    cases x2 with
    | error e => cases ha
    | ok x2 =>
    by_cases hg : o.outputGrp = []
    · by_cases hm : o.outputMrp = []
      · simp only [hg, hm, if_true, bind, Except.bind, pure, Except.pure, Except.ok.injEq] at ha
        subst ha
        exact ⟨k1, k2, by simp [hg, hm, outsOf]⟩
      · cases x6 with
        | error e => simp [hg, hm, bind, Except.bind, pure, Except.pure, Functor.map, Except.map] at ha
        | ok x6 =>
          simp only [hg, hm, if_true, if_false, bind, Except.bind, pure, Except.pure, Functor.map,
            Except.map, Except.ok.injEq] at ha
          subst ha
          exact ⟨k1, k2, by simp [hg, hm, outsOf]⟩
    · cases x5 with
      | error e => simp [hg, bind, Except.bind, Functor.map, Except.map] at ha
      | ok x5 =>
        by_cases hm : o.outputMrp = []
        · simp only [hg, hm, if_true, if_false, bind, Except.bind, pure, Except.pure, Functor.map,
            Except.map, Except.ok.injEq] at ha
          subst ha
          exact ⟨k1, k2, by simp [hg, hm, outsOf]⟩
        · cases x6 with
          | error e => simp [hg, hm, bind, Except.bind, Functor.map, Except.map] at ha
          | ok x6 =>
            simp only [hg, hm, if_false, bind, Except.bind, pure, Except.pure, Functor.map,
              Except.map, Except.ok.injEq] at ha
            subst ha
            exact ⟨k1, k2, by simp [hg, hm, outsOf]⟩

end

/-! ## What readers give -/

section
variable {μ E1 E2 : Type}

theorem readLines_all (ex : Extractor E1) (map : μ → E1 → μ × Cpp E2) (P : E2 → Prop)
    (h : ∀ l e m m' e', readLine ex l = .event e → map m e = (m', .ok e') → P e') (ls : List Str) :
    ∀ (n : ℕ) (m : μ), (readLines ex map n m ls).2.1.length ≤ ls.length ∧
      ∀ e ∈ (readLines ex map n m ls).2.1, P e := by
  induction ls with
  | nil => intro n m; simp [readLines]
  | cons l ls ih =>
    intro n m
    unfold readLines
    cases hl : readLine ex l with
    | skip =>
      obtain ⟨h1, h2⟩ := ih (n + 1) m
      exact ⟨h1.trans (by simp), h2⟩
    | bad => simp
    | fault f => simp
    | event e =>
      simp only
      cases hm : map m e with
      | mk m' r =>
        cases r with
        | error f => simp
        | ok e' =>
          obtain ⟨h1, h2⟩ := ih (n + 1) m'
          simp only [List.length_cons, List.mem_cons, forall_eq_or_imp]
          exact ⟨Nat.succ_le_succ h1, h l e m m' e' hl hm, h2⟩

theorem readLine_extracted {E : Type} (ex : Extractor E) (l : Str) (e : E)
    (h : readLine ex l = .event e) : ∃ s, (ex s).2 = some e := by
  by_cases hn : Ignored l
  · rw [readLine_ignored ex l hn] at h
    cases h
  · rw [readLine_eq ex l hn] at h
    refine ⟨⟨l.dropWhile isSpace, false, false⟩, ?_⟩
    generalize ex ⟨l.dropWhile isSpace, false, false⟩ = p at h ⊢
    obtain ⟨s, v⟩ := p
    simp only at h ⊢
    cases v with
    | none => grind
    | some v => grind

theorem extractScored_ne_nan (R : Rnd) {L : Type} (ex : Extractor (Event Str L)) (s : IStream)
    (e : ScoredEvent Str L) (h : (extractScored R ex s).2 = some e) : e.score ≠ .nan := by
  unfold extractScored Extractor.pair extractScore at h
  simp only at h
  split at h
  · rename_i y h1 h2
    injection h with h
    subst h
    obtain ⟨q, _, rfl⟩ := Option.map_eq_some_iff.1 h2
    simp
  · cases h

end

/-! ## The program -/

section
variable {μ σ Q L G : Type} [DecidableEq Q] [DecidableEq L] [Cmp Q] [Cmp L] [LawfulCmp Q] [LawfulCmp L]

/-- A tool whose matches are hits or no hits at all, and whose files give finite scores. -/
structure FineKit (kit : ToolKit μ σ Q L) : Prop where
  scorer : ∀ r x e, kit.scorer r x = .ok e → e.fp < 1 → e = ⟨0, 0⟩
  refs : ∀ m t m' es st, kit.readRef m t = (m', es, st) → es.length ≤ (lines t).length
  hyps : ∀ m t m' es st, kit.readHyp m t = (m', es, st) →
    es.length ≤ (lines t).length ∧ ∀ e ∈ es, e.score ≠ .nan

theorem icdar_fine (R : Rnd) (S : StdSort) : FineKit (icdarKit R S) where
  scorer a b e he hf := by
    obtain ⟨i, hi⟩ := inter_ok a b.base
    have := ioh_eq R (1 / 2) a b i hi
    rw [show (icdarKit R S).scorer a b = iohScorer R (1 / 2) a b from rfl, this] at he
    injection he with he
    subst he
    unfold verdict at hf ⊢
    split
    · rfl
    · rename_i hne; rw [if_neg hne] at hf; norm_num at hf
  refs m t m' es st h := by
    have h : readEvents extractBoxEvent identityMap m t = (m', es, st) := h
    rw [readEvents_lines] at h
    have := (readLines_all extractBoxEvent identityMap (fun _ => True) (fun _ _ _ _ _ _ _ => trivial)
      (lines t) 1 m).1
    rw [h] at this
    exact this
  hyps m t m' es st h := by
    have h : readEvents (extractScored R extractBoxEvent) identityMap m t = (m', es, st) := h
    rw [readEvents_lines] at h
    have := readLines_all (extractScored R extractBoxEvent) identityMap (fun e => e.score ≠ .nan)
      (fun l e m m' e' h1 h2 => by
        obtain ⟨s, hs⟩ := readLine_extracted _ l e h1
        injection h2 with _ h2
        injection h2 with h2
        subst h2
        exact extractScored_ne_nan R _ s e hs) (lines t) 1 m
    rw [h] at this
    exact this

theorem simple_fine (R : Rnd) (qf : Bool) : FineKit (simpleKit R qf) where
  scorer a b e he hf := by
    have he : trivialScorer a b = .ok e := he
    unfold trivialScorer at he
    split at he
    · injection he with he; subst he; rfl
    · injection he with he; subst he; norm_num at hf
  refs m t m' es st h := by
    have h : readEvents extractStrEvent (IntMapper.mapEvent qf (2 ^ 31 - 1)) m t = (m', es, st) := h
    rw [readEvents_lines] at h
    have := (readLines_all extractStrEvent (IntMapper.mapEvent qf (2 ^ 31 - 1)) (fun _ => True)
      (fun _ _ _ _ _ _ _ => trivial) (lines t) 1 m).1
    rw [h] at this
    exact this
  hyps m t m' es st h := by
    have h : readEvents (extractScored R extractStrEvent) (IntMapper.mapScoredEvent qf (2 ^ 31 - 1)) m t
      = (m', es, st) := h
    rw [readEvents_lines] at h
    have := readLines_all (extractScored R extractStrEvent) (IntMapper.mapScoredEvent qf (2 ^ 31 - 1))
      (fun e => e.score ≠ .nan)
      (fun l e m m' e' h1 h2 => by
        obtain ⟨s, hs⟩ := readLine_extracted _ l e h1
        unfold IntMapper.mapScoredEvent at h2
        split at h2
        · injection h2 with _ h2; cases h2
        · injection h2 with _ h2
          injection h2 with h2
          subst h2
          exact extractScored_ne_nan R _ s e hs) (lines t) 1 m
    rw [h] at this
    exact this

omit [DecidableEq Q] [DecidableEq L] [Cmp Q] [Cmp L] [LawfulCmp Q] [LawfulCmp L] in
theorem HardMatch.plain {m : KwsMatch Q L} (h : HardMatch m) : Plain m := by
  rcases h with ⟨_, _, h⟩ | ⟨_, _, h⟩ | ⟨_, _, h⟩
  · exact Or.inl h
  · exact Or.inr (Or.inl h)
  · exact Or.inr (Or.inr h)

theorem lift_result {α : Type} {x : Cpp α} {a : α} (h : (lift x).result = .ok a) : x = .ok a := h

theorem traceMatchAndAssess_near (lm : Libm) (hm : lm.Accurate) (S : StdSort) (rng : Rng G)
    (kit : ToolKit μ σ Q L) (hk : FineKit kit) (texts : ToolTexts Q L) (w : World) (o : ToolOptions)
    (q2g : List (Q × Q)) (refs : List (Event Q L)) (hyps : List (ScoredEvent Q L)) (N : ℕ)
    (hN : N ≤ 2 ^ 24) (hc : o.collapse = true → N ≤ 2 ^ 19) (hn : ∀ h ∈ hyps, h.score ≠ .nan)
    (hl : refs.length + hyps.length ≤ N)
    (hl2 : o.ciGndcg = true → (refs.length + hyps.length) ^ 2 ≤ N) :
    TraceNear (ndcgTolerance o.collapse N)
      (traceMatchAndAssessD Rnd.ieee lm S rng kit texts w o q2g refs hyps)
      (traceMatchAndAssess Rnd.ieee S rng kit texts w o q2g refs hyps) := by
  unfold traceMatchAndAssessD traceMatchAndAssess
  refine TraceNear.bind _ _ _ fun l h1 => TraceNear.bind _ _ _ fun _ _ => TraceNear.bind _ _ _ fun _ _ =>
    TraceNear.bind _ _ _ fun x h2 => ?_
  obtain ⟨s', ms, rep⟩ := x
  have h1 := sortHyps_mem S o.sort hyps l (lift_result h1)
  have h2 := lift_result h2
  refine TraceNear.ite _ (fun _ => TraceNear.refl _) fun _ => TraceNear.bind _ _ _ fun _ _ => ?_
  refine TraceNear.ite _ (fun _ => TraceNear.refl _) fun _ => TraceNear.bind _ _ _ fun _ _ => ?_
  refine TraceNear.bind _ _ _ fun groups h3 => ?_
  obtain ⟨g1, g2, g3⟩ := groupMatches_facts q2g ms groups (lift_result h3)
  have r1 := (run_ranks _ _ _ _ _ _ _ _ h2 (fun h hh => hn h (h1.mem_iff.1 hh))).1
  have r3 := run_length _ _ _ _ _ _ _ _ h2
  rw [h1.length_eq] at r3
  obtain ⟨s1, s2⟩ := statistics_near lm hm S rng o ms groups N hN hc
    (fun m hm => HardMatch.plain (run_hardMatch _ _ _ _ _ _ _ _ h2 hk.scorer m hm)) r1 (r3.trans hl)
    (fun h => (Nat.pow_le_pow_left r3 2).trans (hl2 h)) g1 g2 g3
  exact traceAssess_near lm S rng w o ms groups _ s1 s2

theorem traceEvaluate_near (lm : Libm) (hm : lm.Accurate) (S : StdSort) (rng : Rng G)
    (kit : ToolKit μ σ Q L) (hk : FineKit kit) (texts : ToolTexts Q L) (w : World) (o : ToolOptions)
    (q2g : List (Q × Q)) (refs : List (Event Q L)) (hyps : List (ScoredEvent Q L)) (N : ℕ)
    (hN : N ≤ 2 ^ 24) (hc : o.collapse = true → N ≤ 2 ^ 19) (hn : ∀ h ∈ hyps, h.score ≠ .nan)
    (hl : refs.length + hyps.length ≤ N)
    (hl2 : o.ciGndcg = true → (refs.length + hyps.length) ^ 2 ≤ N) :
    TraceNear (ndcgTolerance o.collapse N)
      (traceEvaluateD Rnd.ieee lm S rng kit texts w o q2g refs hyps)
      (traceEvaluate Rnd.ieee S rng kit texts w o q2g refs hyps) := by
  unfold traceEvaluateD traceEvaluate
  refine TraceNear.ite _ (fun _ => ?_) fun _ => ?_
  · exact traceMatchAndAssess_near lm hm S rng kit hk texts w o q2g refs hyps N hN hc hn hl hl2
  · refine TraceNear.bind _ _ _ fun _ _ => TraceNear.bind _ _ _ fun _ _ =>
      TraceNear.bind _ _ _ fun _ _ => ?_
    have f1 : (filterEvents q2g (·.query) refs).length ≤ refs.length := List.length_filter_le _ _
    have f2 : (filterEvents q2g (·.base.query) hyps).length ≤ hyps.length := List.length_filter_le _ _
    refine traceMatchAndAssess_near lm hm S rng kit hk texts w o q2g _ _ N hN hc
      (fun h hh => hn h (List.mem_filter.1 hh).1) (by omega)
      (fun h => (Nat.pow_le_pow_left (by omega) 2).trans (hl2 h))

theorem traceRead_some {E : Type} (read : Str → μ × List E × ReadStatus) (text : Option Str) (m : μ)
    (es : List E) (h : (traceRead read text).result = .ok (some (m, es))) :
    ∃ t, text = some t ∧ read t = (m, es, .ok) := by
  unfold traceRead at h
  cases text with
  | none => cases h
  | some t =>
    refine ⟨t, rfl, ?_⟩
    simp only at h
    split at h
    · cases h
    · cases h
    · cases h
    · rename_i h'
      rw [h']
      injection h with h
      injection h with h
      injection h with h1 h2
      rw [h1, h2]

theorem traceMainWith_near (lm : Libm) (hm : lm.Accurate) (S : StdSort) (rng : Rng G)
    (kit : ToolKit μ σ Q L) (hk : FineKit kit) (texts : ToolTexts Q L) (w : World) (argc : ℕ)
    (o : ToolOptions) (N : ℕ) (h : SmallRun w o N) :
    TraceNear (ndcgTolerance o.collapse N)
      (traceMainWithD Rnd.ieee lm S rng kit texts w argc o)
      (traceMainWith Rnd.ieee S rng kit texts w argc o) := by
  unfold traceMainWithD traceMainWith
  refine TraceNear.ite _ (fun _ => TraceNear.refl _) fun _ => TraceNear.bind _ _ _ fun x hx => ?_
  match x, hx with
  | none, _ => exact TraceNear.refl _
  | some (m, refs), hx =>
    obtain ⟨t, ht, hx⟩ := traceRead_some _ _ _ _ hx
    refine TraceNear.bind _ _ _ fun _ _ => TraceNear.bind _ _ _ fun y hy => ?_
    match y, hy with
    | none, _ => exact TraceNear.refl _
    | some (m', hyps), hy =>
      obtain ⟨u, hu, hy⟩ := traceRead_some _ _ _ _ hy
      refine TraceNear.bind _ _ _ fun _ _ => TraceNear.bind _ _ _ fun z hz => ?_
      match z with
      | none => exact TraceNear.refl _
      | some q2g =>
        have k1 := hk.refs _ _ _ _ _ hx
        obtain ⟨k2, k3⟩ := hk.hyps _ _ _ _ _ hy
        have := h.lines t u ht hu
        exact traceEvaluate_near lm hm S rng kit hk texts w o q2g refs hyps N h.bound h.collapse k3
          (by omega) (fun hc => (Nat.pow_le_pow_left (by omega) 2).trans (h.resample hc t u ht hu))

theorem traceMatchAndAssess_prints (lm : Libm) (hm : lm.Accurate) (S : StdSort) (rng : Rng G)
    (kit : ToolKit μ σ Q L) (hk : FineKit kit) (texts : ToolTexts Q L) (w : World) (o : ToolOptions)
    (q2g : List (Q × Q)) (refs : List (Event Q L)) (hyps : List (ScoredEvent Q L)) (N : ℕ)
    (hN : N ≤ 2 ^ 24) (hc : o.collapse = true → N ≤ 2 ^ 19) (hn : ∀ h ∈ hyps, h.score ≠ .nan)
    (hl : refs.length + hyps.length ≤ N)
    (hl2 : o.ciGndcg = true → (refs.length + hyps.length) ^ 2 ≤ N) :
    Prints (ndcgTolerance o.collapse N)
      (traceMatchAndAssessD Rnd.ieee lm S rng kit texts w o q2g refs hyps)
      (matchAndAssess Rnd.ieee S rng kit w o q2g refs hyps) := by
  have heq : matchAndAssess Rnd.ieee S rng kit w o q2g refs hyps =
      (sortHyps S o.sort hyps).bind fun l =>
      (SimpleMatcher.run kit.index kit.scorer kit.refsSet refs l).bind fun t =>
      if o.dumpMatches ≠ [] ∧ w.writable o.dumpMatches = false then .ok .failed
      else if t.2.1.foldl (fun n m => n + m.error.nh) 0 > l.length then .ok .failed
      else (groupMatches q2g t.2.1).bind fun groups =>
        (assess Rnd.ieee S rng w o t.2.1 groups
          (if o.dumpMatches = [] then none else some (t.2.1, t.2.2))).bind fun r =>
        .ok (.done r) := rfl
  rw [heq]
  unfold traceMatchAndAssessD
  refine Prints.bind _ rfl rfl _ _ fun l h1 => ?_
  refine Prints.after _ (sayIf_outs _ _).1 (sayIf_outs _ _).2 _ _ ?_
  refine Prints.after _ rfl rfl _ _ ?_
  refine Prints.bind _ rfl rfl _ _ fun x h2 => ?_
  obtain ⟨s', ms, rep⟩ := x
  have h1 := sortHyps_mem S o.sort hyps l h1
  dsimp only
  split
  · exact Prints.failed _ _
  refine Prints.after _ ?_ ?_ _ _ ?_
  · unfold emitIf
    split <;> rfl
  · unfold emitIf
    split <;> rfl
  split
  · exact Prints.failed _ _
  refine Prints.after _ (sayIf_outs _ _).1 (sayIf_outs _ _).2 _ _ ?_
  refine Prints.bind _ rfl rfl _ _ fun groups h3 => ?_
  obtain ⟨g1, g2, g3⟩ := groupMatches_facts q2g ms groups h3
  have r1 := (run_ranks _ _ _ _ _ _ _ _ h2 (fun h hh => hn h (h1.mem_iff.1 hh))).1
  have r3 := run_length _ _ _ _ _ _ _ _ h2
  rw [h1.length_eq] at r3
  obtain ⟨s1, s2⟩ := statistics_near lm hm S rng o ms groups N hN hc
    (fun m hm => HardMatch.plain (run_hardMatch _ _ _ _ _ _ _ _ h2 hk.scorer m hm)) r1 (r3.trans hl)
    (fun h => (Nat.pow_le_pow_left r3 2).trans (hl2 h)) g1 g2 g3
  exact traceAssess_prints lm S rng w o ms groups _ _ s1 s2

theorem traceEvaluate_prints (lm : Libm) (hm : lm.Accurate) (S : StdSort) (rng : Rng G)
    (kit : ToolKit μ σ Q L) (hk : FineKit kit) (texts : ToolTexts Q L) (w : World) (o : ToolOptions)
    (q2g : List (Q × Q)) (refs : List (Event Q L)) (hyps : List (ScoredEvent Q L)) (N : ℕ)
    (hN : N ≤ 2 ^ 24) (hc : o.collapse = true → N ≤ 2 ^ 19) (hn : ∀ h ∈ hyps, h.score ≠ .nan)
    (hl : refs.length + hyps.length ≤ N)
    (hl2 : o.ciGndcg = true → (refs.length + hyps.length) ^ 2 ≤ N) :
    Prints (ndcgTolerance o.collapse N)
      (traceEvaluateD Rnd.ieee lm S rng kit texts w o q2g refs hyps)
      (evaluate Rnd.ieee S rng kit w o q2g refs hyps) := by
  unfold traceEvaluateD evaluate
  by_cases hq : q2g = []
  · simp only [hq, if_true]
    exact traceMatchAndAssess_prints lm hm S rng kit hk texts w o _ refs hyps N hN hc hn hl hl2
  · simp only [hq, if_false]
    have f1 : (filterEvents q2g (·.query) refs).length ≤ refs.length := List.length_filter_le _ _
    have f2 : (filterEvents q2g (·.base.query) hyps).length ≤ hyps.length := List.length_filter_le _ _
    refine Prints.after _ (sayIf_outs _ _).1 (sayIf_outs _ _).2 _ _ ?_
    refine Prints.after _ (sayIf_outs _ _).1 (sayIf_outs _ _).2 _ _ ?_
    refine Prints.after _ (sayIf_outs _ _).1 (sayIf_outs _ _).2 _ _ ?_
    exact traceMatchAndAssess_prints lm hm S rng kit hk texts w o q2g _ _ N hN hc
      (fun h hh => hn h (List.mem_filter.1 hh).1) (by omega)
      (fun h => (Nat.pow_le_pow_left (by omega) 2).trans (hl2 h))

theorem readResult_some {E : Type} (read : Str → μ × List E × ReadStatus) (text : Option Str) (m : μ)
    (es : List E) (h : readResult read text = .ok (some (m, es))) :
    ∃ t, text = some t ∧ read t = (m, es, .ok) :=
  traceRead_some read text m es ((traceRead_result read text).trans h)

theorem traceMainWith_prints (lm : Libm) (hm : lm.Accurate) (S : StdSort) (rng : Rng G)
    (kit : ToolKit μ σ Q L) (hk : FineKit kit) (texts : ToolTexts Q L) (w : World) (argc : ℕ)
    (o : ToolOptions) (N : ℕ) (h : SmallRun w o N) :
    Prints (ndcgTolerance o.collapse N)
      (traceMainWithD Rnd.ieee lm S rng kit texts w argc o)
      (mainWith Rnd.ieee S rng kit w o) := by
  by_cases hr : o.refFilename = []
  · unfold mainWith
    rw [if_pos hr]
    exact Prints.failed _ _
  rw [mainWith_eq _ S rng kit w o hr]
  unfold traceMainWithD
  rw [if_neg hr]
  refine Prints.bind _ (traceRead_quiet _ _).outs (traceRead_result _ _) _ _ fun x hx => ?_
  match x, hx with
  | none, _ => exact Prints.failed _ _
  | some (m, refs), hx =>
    obtain ⟨t, ht, hx⟩ := readResult_some _ _ _ _ hx
    refine Prints.after _ rfl rfl _ _ ?_
    refine Prints.bind _ (traceRead_quiet _ _).outs (traceRead_result _ _) _ _ fun y hy => ?_
    match y, hy with
    | none, _ => exact Prints.failed _ _
    | some (m', hyps), hy =>
      obtain ⟨u, hu, hy⟩ := readResult_some _ _ _ _ hy
      refine Prints.after _ rfl rfl _ _ ?_
      obtain ⟨q1, q2, _⟩ := traceQueryMap_facts kit.mapQuery w o m'
      refine Prints.bind _ q2.outs q1 _ _ fun z hz => ?_
      match z with
      | none => exact Prints.failed _ _
      | some q2g =>
        have k1 := hk.refs _ _ _ _ _ hx
        obtain ⟨k2, k3⟩ := hk.hyps _ _ _ _ _ hy
        have := h.lines t u ht hu
        exact traceEvaluate_prints lm hm S rng kit hk texts w o q2g refs hyps N h.bound h.collapse k3
          (by omega) (fun hc => (Nat.pow_le_pow_left (by omega) 2).trans (h.resample hc t u ht hu))

end

end Kws
