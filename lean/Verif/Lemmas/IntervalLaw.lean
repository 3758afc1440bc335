import Verif.Lemmas.Resampling
import Verif.Lemmas.Bootstrap
import Verif.Spec.IntervalLaw
import Verif.Spec.Bootstrap
import Verif.Props.Bootstrap
import Verif.Lemmas.Tool

/-!
# Samples of the same groups in another order have the same law
-/

set_option linter.unusedSectionVars false

namespace Kws
open Spec

section
variable {M M' : Type}

theorem drawN_same {G : Type} {rng rng' : Rng G} (h : rng.draw = rng'.draw) (o : List M) (max n : ℕ) (g : G) :
    drawN rng o max n g = drawN rng' o max n g := by
  induction n generalizing g with
  | zero => rfl
  | succ n ih =>
    simp only [drawN, h, ih]

theorem drawGroups_same {G : Type} {rng rng' : Rng G} (h : rng.draw = rng'.draw) (o : List (List M))
    (max n : ℕ) (g : G) : drawGroups rng o max n g = drawGroups rng' o max n g := by
  induction n generalizing g with
  | zero => rfl
  | succ n ih =>
    simp only [drawGroups, h, ih, drawN_same h]

theorem sampler_same {G : Type} {rng rng' : Rng G} (h : rng.draw = rng'.draw) (o : List (List M)) :
    matchesByQuerySampler rng o = matchesByQuerySampler rng' o :=
  funext fun _ => drawGroups_same h _ _ _ _

/-- A draw among the members of a list. -/
theorem probability_member {N : ℕ} (hN : 0 < N) (o : List M) (ho : o ≠ []) (hd : o.length ∣ N) (L : ℕ)
    (P : Option M → List ℕ → Prop) :
    probability N (L + 1) (fun l => P o[l.headD 0 % (o.length - 1 + 1)]? l.tail) =
      (o.map (fun m => probability N L (P (some m)))).sum / o.length := by
  have hpos : 0 < o.length := List.length_pos_iff.2 ho
  rw [show o.length - 1 + 1 = o.length by omega,
    probability_draw hN hd L (fun b t => P o[b]? t),
    ← sum_members o (fun m => probability N L (P (some m)))]
  congr 2
  refine List.map_congr_left fun b hb => ?_
  rw [List.getElem?_eq_getElem (List.mem_range.1 hb)]
  rfl

/-- Draws from two lists with the same members have the same law. -/
theorem drawN_law {N : ℕ} (hN : 0 < N) (f : M → M') (o : List M) (o' : List M')
    (hp : o'.Perm (o.map f)) (ho : o ≠ [] → o.length ∣ N) (B : ℕ)
    (n : ℕ) (hn : o = [] → n = 0) (P : List M → List ℕ → Prop) (P' : List M' → List ℕ → Prop)
    (hP : ∀ s, (∀ m ∈ s, m ∈ o) → s.length = n → ∀ L, B ≤ L →
      probability N L (P s) = probability N L (P' (s.map f))) :
    ∀ L, B + n ≤ L →
      probability N L (fun l => ∃ s l', drawN dice o (o.length - 1) n l = .ok (s, l') ∧ P s l') =
      probability N L (fun l => ∃ s l', drawN dice o' (o'.length - 1) n l = .ok (s, l') ∧ P' s l') := by
  have hlen : o'.length = o.length := by rw [hp.length_eq, List.length_map]
  induction n generalizing P P' with
  | zero =>
    intro L hL
    have := hP [] (by simp) rfl L hL
    simpa [drawN, pure, Except.pure] using this
  | succ n ih =>
    intro L hL
    have hne : o ≠ [] := fun h => absurd (hn h) (by omega)
    have hne' : o' ≠ [] := by
      intro h
      rw [h] at hlen
      exact hne (List.length_eq_zero_iff.1 hlen.symm)
    obtain ⟨L, rfl⟩ : ∃ k, L = k + 1 := ⟨L - 1, by omega⟩
    have step : ∀ {X : Type} (q : List X) (T : List X → List ℕ → Prop) (l : List ℕ),
        (∃ s l', drawN dice q (q.length - 1) (n + 1) l = .ok (s, l') ∧ T s l') ↔
        (fun (x : Option X) (t : List ℕ) => ∃ m, x = some m ∧
          ∃ s l', drawN dice q (q.length - 1) n t = .ok (s, l') ∧ T (m :: s) l')
          q[l.headD 0 % (q.length - 1 + 1)]? l.tail := by
      intro X q T l
      simp only [drawN, dice]
      generalize q[l.headD 0 % (q.length - 1 + 1)]? = x
      cases x with
      | none => simp
      | some m =>
        simp only [bind, Except.bind, pure, Except.pure, Option.some.injEq, exists_eq_left']
        generalize drawN _ q (q.length - 1) n l.tail = r
        match r with
        | .error e => simp
        | .ok (ms, g) => simp
    rw [probability_congr (step o P), probability_congr (step o' P')]
    rw [probability_member hN o hne (ho hne) L (fun x t => ∃ m, x = some m ∧
          ∃ s l', drawN dice o (o.length - 1) n t = .ok (s, l') ∧ P (m :: s) l'),
      probability_member hN o' hne' (hlen ▸ ho hne) L (fun x t => ∃ m, x = some m ∧
          ∃ s l', drawN dice o' (o'.length - 1) n t = .ok (s, l') ∧ P' (m :: s) l'), show (o'.length : ℚ) = o.length by rw [hlen]]
    congr 1
    rw [(hp.map _).sum_eq, List.map_map]
    congr 1
    refine List.map_congr_left fun m hm => ?_
    simp only [Function.comp, Option.some.injEq, exists_eq_left']
    refine ih (fun h => absurd h hne) (fun s => P (m :: s)) (fun s => P' (f m :: s)) ?_ L (by omega)
    intro s hs hsl K hK
    exact hP (m :: s) (by simpa using ⟨hm, hs⟩) (by simp [hsl]) K hK

theorem forall₂_sum {α β : Type} {R : α → β → Prop} {l : List α} {l' : List β} (h : List.Forall₂ R l l')
    (u : α → ℚ) (v : β → ℚ) (huv : ∀ a b, a ∈ l → b ∈ l' → R a b → u a = v b) :
    (l.map u).sum = (l'.map v).sum := by
  induction h with
  | nil => rfl
  | cons hab _ ih =>
    rw [List.map_cons, List.map_cons, List.sum_cons, List.sum_cons, huv _ _ (by simp) (by simp) hab,
      ih (fun a b ha hb => huv a b (by simp [ha]) (by simp [hb]))]

theorem Spec.Regrouped.length {f : M → M'} {groups : List (List M)} {groups' : List (List M')}
    (h : Regrouped f groups groups') : groups'.length = groups.length := by
  obtain ⟨gs, h1, h2⟩ := h
  rw [h1.length_eq, h2.length_eq]

/-- Groups that are drawn from the same groups in another order have the same law. -/
theorem drawGroups_law {N : ℕ} (f : M → M') (groups : List (List M)) (groups' : List (List M'))
    (hg : Regrouped f groups groups') (hf : Fair groups N) (hne : groups ≠ []) (K : ℕ)
    (hK : ∀ o ∈ groups, o.length ≤ K) (B n : ℕ)
    (P : List (List M) → List ℕ → Prop) (P' : List (List M') → List ℕ → Prop)
    (hP : ∀ c, c.length = n → (∀ s ∈ c, ∃ o ∈ groups, DrawnFrom o s) → ∀ L, B ≤ L →
      probability N L (P c) = probability N L (P' (c.map (List.map f)))) :
    ∀ L, B + n * (K + 1) ≤ L →
      probability N L (fun l => ∃ c l', drawGroups dice groups (groups.length - 1) n l = .ok (c, l') ∧ P c l') =
      probability N L
        (fun l => ∃ c l', drawGroups dice groups' (groups'.length - 1) n l = .ok (c, l') ∧ P' c l') := by
  have hlen := hg.length
  have hne' : groups' ≠ [] := by
    intro h
    rw [h] at hlen
    exact hne (List.length_eq_zero_iff.1 hlen.symm)
  induction n generalizing P P' with
  | zero =>
    intro L hL
    have := hP [] rfl (by simp) L (by omega)
    simpa [drawGroups, pure, Except.pure] using this
  | succ n ih =>
    intro L hL
    obtain ⟨L, rfl⟩ : ∃ k, L = k + 1 := ⟨L - 1, by
      have : n * (K + 1) ≤ (n + 1) * (K + 1) := Nat.mul_le_mul_right _ (by omega)
      have : 0 < (n + 1) * (K + 1) := by positivity
      omega⟩
    have step : ∀ {X : Type} (q : List (List X)) (T : List (List X) → List ℕ → Prop) (l : List ℕ),
        (∃ c l', drawGroups dice q (q.length - 1) (n + 1) l = .ok (c, l') ∧ T c l') ↔
        (fun (x : Option (List X)) (t : List ℕ) => ∃ o, x = some o ∧
          ∃ s l1, drawN dice o (o.length - 1) o.length t = .ok (s, l1) ∧
            ∃ c l', drawGroups dice q (q.length - 1) n l1 = .ok (c, l') ∧ T (s :: c) l')
          q[l.headD 0 % (q.length - 1 + 1)]? l.tail := by
      intro X q T l
      simp only [drawGroups, dice]
      generalize q[l.headD 0 % (q.length - 1 + 1)]? = x
      cases x with
      | none => simp
      | some o =>
        simp only [bind, Except.bind, pure, Except.pure, Option.some.injEq, exists_eq_left']
        generalize drawN _ o (o.length - 1) o.length l.tail = r
        match r with
        | .error e => simp
        | .ok (ms, g) =>
          simp only [Except.ok.injEq, Prod.mk.injEq]
          generalize hr : drawGroups _ q (q.length - 1) n g = r'
          match r' with
          | .error e =>
            constructor
            · rintro ⟨c, l', h, _⟩; cases h
            · rintro ⟨s, l1, ⟨rfl, rfl⟩, c, l', h, _⟩
              rw [hr] at h; cases h
          | .ok (cs, g') =>
            constructor
            · rintro ⟨c, l', h, ht⟩
              simp only [Except.ok.injEq, Prod.mk.injEq] at h
              obtain ⟨rfl, rfl⟩ := h
              exact ⟨ms, g, ⟨rfl, rfl⟩, cs, g', hr, ht⟩
            · rintro ⟨s, l1, ⟨rfl, rfl⟩, c, l', h, ht⟩
              rw [hr] at h
              simp only [Except.ok.injEq, Prod.mk.injEq] at h
              obtain ⟨rfl, rfl⟩ := h
              exact ⟨_, _, rfl, ht⟩
    rw [probability_congr (step groups P), probability_congr (step groups' P')]
    rw [probability_member hf.1 groups hne (hf.2.1 hne) L (fun x t => ∃ o, x = some o ∧
          ∃ s l1, drawN dice o (o.length - 1) o.length t = .ok (s, l1) ∧
            ∃ c l', drawGroups dice groups (groups.length - 1) n l1 = .ok (c, l') ∧ P (s :: c) l'),
      probability_member hf.1 groups' hne' (hlen ▸ hf.2.1 hne) L (fun x t => ∃ o, x = some o ∧
          ∃ s l1, drawN dice o (o.length - 1) o.length t = .ok (s, l1) ∧
            ∃ c l', drawGroups dice groups' (groups'.length - 1) n l1 = .ok (c, l') ∧ P' (s :: c) l'),
      show (groups'.length : ℚ) = groups.length by rw [hlen]]
    congr 1
    obtain ⟨gs, h1, h2⟩ := hg
    rw [(h1.map _).sum_eq]
    refine forall₂_sum h2 _ _ fun o o' ho _ hoo => ?_
    simp only [Option.some.injEq, exists_eq_left']
    have hol : o'.length = o.length := by rw [hoo.length_eq, List.length_map]
    have hmul : (n + 1) * (K + 1) = n * (K + 1) + K + 1 := by ring
    have := drawN_law hf.1 f o o' hoo (hf.2.2 o ho) (B + n * (K + 1)) o.length
      (by rintro rfl; rfl)
      (fun s l1 => ∃ c l', drawGroups dice groups (groups.length - 1) n l1 = .ok (c, l') ∧ P (s :: c) l')
      (fun s l1 => ∃ c l', drawGroups dice groups' (groups'.length - 1) n l1 = .ok (c, l') ∧ P' (s :: c) l')
      (by
        intro s hs hsl L' hL'
        refine ih (fun c => P (s :: c)) (fun c => P' (s.map f :: c)) ?_ L' hL'
        intro c hc hcs L'' hL''
        have := hP (s :: c) (by simp [hc]) (by
          intro x hx
          rcases List.mem_cons.1 hx with rfl | hx
          · exact ⟨o, ho, hsl, hs⟩
          · exact hcs x hx) L'' hL''
        rwa [List.map_cons] at this) L (by have := hK o ho; omega)
    rw [← hol] at this ⊢
    exact this

/-- The first `n` samples. -/
def samplesFrom {G : Type} (rng : Rng G) (groups : List (List M)) : ℕ → G → List (List (List M))
  | 0, _ => []
  | n + 1, g =>
    match matchesByQuerySampler rng groups g with
    | .ok (c, g') => c :: samplesFrom rng groups n g'
    | .error _ => []

theorem samplesFrom_same {G : Type} {rng rng' : Rng G} (h : rng.draw = rng'.draw) (o : List (List M)) (n : ℕ)
    (g : G) : samplesFrom rng o n g = samplesFrom rng' o n g := by
  induction n generalizing g with
  | zero => rfl
  | succ n ih => simp only [samplesFrom, sampler_same h, ih]

theorem samplesFrom_nil (n : ℕ) (l : List ℕ) :
    samplesFrom dice ([] : List (List M)) n l = List.replicate n [] := by
  induction n with
  | zero => rfl
  | succ n ih =>
    simp only [samplesFrom, matchesByQuerySampler, List.length_nil, drawGroups, pure, Except.pure, ih]
    rfl

/-- The samples of the same groups in another order have the same law. -/
theorem samples_law {N : ℕ} (f : M → M') (groups : List (List M)) (groups' : List (List M'))
    (hg : Regrouped f groups groups') (hf : Fair groups N) (n : ℕ)
    (P : List (List (List M)) → Prop) (P' : List (List (List M')) → Prop)
    (hP : ∀ cs, (∀ c ∈ cs, Resample groups c) → (P cs ↔ P' (cs.map (List.map (List.map f))))) :
    ∀ L, drawsFor groups n ≤ L →
      probability N L (fun l => P (samplesFrom dice groups n l)) =
      probability N L (fun l => P' (samplesFrom dice groups' n l)) := by
  by_cases hne : groups = []
  · intro L _
    subst hne
    have : groups' = [] := List.length_eq_zero_iff.1 hg.length
    subst this
    refine probability_congr fun l => ?_
    rw [samplesFrom_nil, samplesFrom_nil, hP _ (by
      intro c hc
      rw [List.eq_of_mem_replicate hc]
      exact ⟨rfl, by simp⟩), List.map_replicate]
    rfl
  induction n generalizing P P' with
  | zero =>
    intro L _
    refine probability_congr fun l => ?_
    exact hP [] (by simp)
  | succ n ih =>
    intro L hL
    have step : ∀ {X : Type} (q : List (List X)) (T : List (List (List X)) → Prop) (l : List ℕ),
        T (samplesFrom dice q (n + 1) l) ↔ ∃ c l', drawGroups dice q (q.length - 1) q.length l = .ok (c, l') ∧
          T (c :: samplesFrom dice q n l') := by
      intro X q T l
      obtain ⟨c, l', h, _⟩ := C40_shape dice q l
      have h' : drawGroups dice q (q.length - 1) q.length l = .ok (c, l') := h
      rw [h']
      simp only [samplesFrom, h, Except.ok.injEq, Prod.mk.injEq]
      constructor
      · intro ht; exact ⟨_, _, ⟨rfl, rfl⟩, ht⟩
      · rintro ⟨_, _, ⟨rfl, rfl⟩, ht⟩; exact ht
    rw [probability_congr (step groups P), probability_congr (step groups' P'), hg.length]
    have hK : ∀ o ∈ groups, o.length ≤ groups.flatten.length := fun o ho =>
      (List.sublist_flatten_of_mem ho).length_le
    have hd : drawsFor groups (n + 1) = drawsFor groups n + groups.length * (groups.flatten.length + 1) := by
      unfold drawsFor; ring
    have := drawGroups_law f groups groups' hg hf hne groups.flatten.length hK (drawsFor groups n) groups.length
      (fun c l' => P (c :: samplesFrom dice groups n l')) (fun c l' => P' (c :: samplesFrom dice groups' n l'))
      (by
        intro c hcl hc L' hL'
        refine ih (fun cs => P (c :: cs)) (fun cs => P' (c.map (List.map f) :: cs)) ?_ L' hL'
        intro cs hcs
        have := hP (c :: cs) (by
          intro x hx
          rcases List.mem_cons.1 hx with rfl | hx
          · exact ⟨hcl, hc⟩
          · exact hcs x hx)
        rwa [List.map_cons] at this) L (by omega)
    rwa [hg.length] at this

end

/-! ## Intervals -/

section
variable {K : Type} [LinearOrder K] [AddCommGroup K] [IsOrderedAddMonoid K]

/-- The deviations of some statistics. -/
def deviations (rd : K → K) (v : K) : List (Cpp K) → Cpp (List K)
  | [] => return []
  | x :: xs => do
    let y ← x
    let rest ← deviations rd v xs
    return rd (y - v) :: rest

theorem bootstrapLoop_samples {G M : Type} (rd : K → K) (rng : Rng G) (groups : List (List M))
    (statistic : List (List M) → Cpp K) (v : K) (n : ℕ) (g : G) :
    bootstrapLoop rd statistic (matchesByQuerySampler rng groups) v n g =
      deviations rd v ((samplesFrom rng groups n g).map statistic) := by
  induction n generalizing g with
  | zero => rfl
  | succ n ih =>
    obtain ⟨c, g', h, _⟩ := C40_shape rng groups g
    simp only [bootstrapLoop, samplesFrom, h, List.map_cons, deviations, bind, Except.bind, ih]

/-- The interval for the given statistics of the samples. -/
def intervalOf (R : Rnd) (S : StdSort) (rd : K → K) (n : ℕ) (alpha : ℚ) (observed : Cpp K)
    (stats : List (Cpp K)) : Cpp (K × K × K) := do
  let v ← observed
  let diffs ← deviations rd v stats
  let diffs ← S.sort (fun a b => decide (a < b)) diffs
  let li ← lowerIndex R alpha n
  let ui ← upperIndex R alpha n
  let dl ← vecAt diffs li
  let du ← vecAt diffs ui
  return (v, rd (v - dl), rd (v - du))

theorem percentileCI_samples {G M : Type} (R : Rnd) (S : StdSort) (rd : K → K) (rng : Rng G)
    (groups : List (List M)) (n : ℕ) (alpha : ℚ) (seed : ℕ) (statistic : List (List M) → Cpp K) :
    percentileCIGrouped R S rd rng groups n alpha seed statistic =
      intervalOf R S rd n alpha (statistic groups)
        ((samplesFrom rng groups n (rng.seed seed)).map statistic) := by
  unfold percentileCIGrouped percentileCI intervalOf
  simp only [bootstrapLoop_samples]

theorem sort_lt_same (S S' : StdSort) (l : List K) :
    S.sort (fun a b : K => decide (a < b)) l = S'.sort (fun a b : K => decide (a < b)) l := by
  obtain ⟨a, a1, a2, a3⟩ := sort_lt S l
  obtain ⟨b, b1, b2, b3⟩ := sort_lt S' l
  rw [a1, b1]
  congr 1
  exact (a2.trans b2.symm).eq_of_pairwise (fun x y _ _ h1 h2 => le_antisymm h1 h2) a3 b3

theorem intervalOf_same (R : Rnd) (S S' : StdSort) (rd : K → K) (n : ℕ) (alpha : ℚ) (observed : Cpp K)
    (stats : List (Cpp K)) :
    intervalOf R S rd n alpha observed stats = intervalOf R S' rd n alpha observed stats := by
  unfold intervalOf
  simp only [sort_lt_same S S']

/-- A metric, given its value without and with bootstrapping and the statistics of the samples. -/
def metricOf (R : Rnd) (S : StdSort) (rd : K → K) (b : Bool) (n : ℕ) (alpha : ℚ) (plain observed : Cpp K)
    (stats : List (Cpp K)) : Cpp (Metric K) :=
  if b then do
    let (v, lo, hi) ← intervalOf R S rd n alpha observed stats
    return ⟨v, some (lo, hi)⟩
  else do return ⟨← plain, none⟩

variable {G Q L : Type}

theorem globalStatistic_metricOf (R : Rnd) (S : StdSort) (rd : K → K) (rng : Rng G) (b : Bool)
    (o : ToolOptions) (ms : List (KwsMatch Q L)) (groups : List (List (KwsMatch Q L)))
    (plain : List (KwsMatch Q L) → Cpp K) (grouped : List (List (KwsMatch Q L)) → Bool → Cpp K) :
    globalStatistic R S rd rng b o ms groups plain grouped =
      metricOf R S rd b o.samples o.alpha (plain ms) (grouped groups true)
        ((samplesFrom rng groups o.samples (rng.seed o.seed)).map (fun c => grouped c true)) := by
  unfold globalStatistic metricOf
  rw [percentileCI_samples]

theorem meanStatistic_metricOf (R : Rnd) (S : StdSort) (rd : K → K) (rng : Rng G) (b : Bool)
    (o : ToolOptions) (groups : List (List (KwsMatch Q L)))
    (grouped : List (List (KwsMatch Q L)) → Bool → Cpp K) :
    meanStatistic R S rd rng b o groups grouped =
      metricOf R S rd b o.samples o.alpha (grouped groups false) (grouped groups true)
        ((samplesFrom rng groups o.samples (rng.seed o.seed)).map (fun c => grouped c true)) := by
  unfold meanStatistic metricOf
  rw [percentileCI_samples]

end

/-! ## Assessing the same matches under other names -/

section
variable {Q L Q' L' : Type}

/-- `f` keeps errors and scores. -/
def KeepsScores (f : KwsMatch Q L → KwsMatch Q' L') : Prop :=
  ∀ m, (f m).error = m.error ∧ (f m).hyp.map (·.score) = m.hyp.map (·.score)

variable {f : KwsMatch Q L → KwsMatch Q' L'}

theorem KeepsScores.rank (hf : KeepsScores f) (m : KwsMatch Q L) : Spec.rank (f m) = Spec.rank m := by
  unfold Spec.rank
  rw [(hf m).2]

theorem KeepsScores.score (hf : KeepsScores f) (m : KwsMatch Q L) : matchScore (f m) = matchScore m := by
  have := (hf m).2
  unfold matchScore
  cases h : m.hyp <;> cases h' : (f m).hyp <;> simp_all

theorem KeepsScores.collapse (hf : KeepsScores f) (R : Rnd) (ms : List (KwsMatch Q L)) :
    collapseMatches R (ms.map f) = collapseMatches R ms := by
  unfold collapseMatches
  rw [List.foldl_map]
  congr 3
  funext acc m
  unfold collapseStep
  simp only [hf.score, (hf m).1]

/-- Sorting and collapsing the same matches under other names. -/
theorem KeepsScores.collapse_sort (hf : KeepsScores f) (S S' : StdSort) (ms : List (KwsMatch Q L))
    (hn : NoNaN ms) : ∃ l l', sortMatches S ms = .ok l ∧ sortMatches S' (ms.map f) = .ok l' ∧
      collapseMatches Rnd.exact l = collapseMatches Rnd.exact l' := by
  obtain ⟨l, a1, a2, a3, a4, _⟩ := sortMatches_spec S ms hn
  have hn' : NoNaN (ms.map f) := by
    intro m hm
    obtain ⟨x, hx, rfl⟩ := List.mem_map.1 hm
    rw [hf.rank]
    exact hn x hx
  obtain ⟨l', b1, b2, b3, b4, _⟩ := sortMatches_spec S' (ms.map f) hn'
  refine ⟨l, l', a1, b1, ?_⟩
  rw [← hf.collapse Rnd.exact l]
  refine collapse_perm _ _ ((a2.map f).trans b2.symm) ?_ ?_ b3
  · intro m hm
    obtain ⟨x, hx, rfl⟩ := List.mem_map.1 hm
    rw [hf.rank]
    exact a4 x hx
  · unfold ByRank
    rw [List.pairwise_map]
    refine a3.imp fun h => ?_
    rw [hf.rank, hf.rank]
    exact h

/-- The four statistics of the same matches under other names. -/
theorem KeepsScores.statistics (hf : KeepsScores f) (S S' : StdSort) (c : List (List (KwsMatch Q L)))
    (hn : ∀ g ∈ c, NoNaN g) (interp trapezoid : Bool) :
    globalAPGrouped Rnd.exact S' (c.map (List.map f)) true interp trapezoid true =
      globalAPGrouped Rnd.exact S c true interp trapezoid true ∧
    meanAP Rnd.exact S' (c.map (List.map f)) true interp trapezoid true =
      meanAP Rnd.exact S c true interp trapezoid true ∧
    globalNDCGGrouped Rnd.exact S' (c.map (List.map f)) true true =
      globalNDCGGrouped Rnd.exact S c true true ∧
    meanNDCG Rnd.exact S' (c.map (List.map f)) true true = meanNDCG Rnd.exact S c true true := by
  obtain ⟨l, l', h1, h2, h3⟩ := hf.collapse_sort S S' c.flatten (by
    intro m hm
    obtain ⟨g, hg, hm⟩ := List.mem_flatten.1 hm
    exact hn g hg m hm)
  have hfl : (c.map (List.map f)).flatten = c.flatten.map f := (List.map_flatten ..).symm
  have key : ∀ c : List (List (KwsMatch Q L)), (∀ g ∈ c, NoNaN g) →
      (∀ acc, meanAPLoop Rnd.exact S' true interp trapezoid true acc (c.map (List.map f)) =
        meanAPLoop Rnd.exact S true interp trapezoid true acc c) ∧
      (∀ acc, meanNDCGLoop Rnd.exact S' true true acc (c.map (List.map f)) =
        meanNDCGLoop Rnd.exact S true true acc c) := by
    intro c
    induction c with
    | nil => intro _; exact ⟨fun _ => rfl, fun _ => rfl⟩
    | cons g c ih =>
      intro hn
      obtain ⟨i1, i2⟩ := ih (fun x hx => hn x (by simp [hx]))
      obtain ⟨k, k', e1, e2, e3⟩ := hf.collapse_sort S S' g (hn g (by simp))
      constructor
      · intro acc
        simp only [List.map_cons, meanAPLoop, if_true, e1, e2, bind, Except.bind, globalAP, matchesPR, e3, i1]
      · intro acc
        simp only [List.map_cons, meanNDCGLoop, if_true, e1, e2, bind, Except.bind, globalNDCG, e3, i2]
  obtain ⟨k1, k2⟩ := key c hn
  refine ⟨?_, ?_, ?_, ?_⟩
  · unfold globalAPGrouped
    simp only [if_true, hfl, h1, h2, bind, Except.bind, globalAP, matchesPR, h3]
  · unfold meanAP
    simp only [k1, List.length_map]
  · unfold globalNDCGGrouped
    simp only [if_true, hfl, h1, h2, bind, Except.bind, globalNDCG, h3]
  · unfold meanNDCG
    simp only [k2, List.length_map]

theorem metricOf_same {K : Type} [LinearOrder K] [AddCommGroup K] [IsOrderedAddMonoid K] (R : Rnd)
    (S S' : StdSort) (rd : K → K) (b : Bool) (n : ℕ) (alpha : ℚ) (plain observed plain' observed' : Cpp K)
    (stats : List (Cpp K)) (h : (if b then observed else plain) = (if b then observed' else plain')) :
    metricOf R S rd b n alpha plain observed stats = metricOf R S' rd b n alpha plain' observed' stats := by
  unfold metricOf
  cases b with
  | false =>
    simp only [Bool.false_eq_true, if_false] at h ⊢
    rw [h]
  | true =>
    simp only [if_true] at h ⊢
    rw [h, intervalOf_same R S S']

/-- The statement is true of the metrics with these values and these statistics of the samples. -/
def saysOn (Φ : Statement) (S : StdSort) (o : ToolOptions) (ap map : Bool → Cpp ℚ) (nd mnd : Bool → Cpp ℝ)
    (aps maps : List (Cpp ℚ)) (nds mnds : List (Cpp ℝ)) : Prop :=
  ∃ a b c d, metricOf Rnd.exact S Rnd.exact.f64 o.ciGap o.samples o.alpha (ap false) (ap true) aps = .ok a ∧
    metricOf Rnd.exact S Rnd.exact.f64 o.ciMap o.samples o.alpha (map false) (map true) maps = .ok b ∧
    metricOf Rnd.exact S id o.ciGndcg o.samples o.alpha (nd false) (nd true) nds = .ok c ∧
    metricOf Rnd.exact S id o.ciMndcg o.samples o.alpha (mnd false) (mnd true) mnds = .ok d ∧ Φ a b c d

/-- The reports on the same matches under other names and in another order have the same law. -/
theorem assess_law (S S' : StdSort) (w w' : World) (o o' : ToolOptions) (ms : List (KwsMatch Q L))
    (ms' : List (KwsMatch Q' L')) (groups : List (List (KwsMatch Q L))) (groups' : List (List (KwsMatch Q' L')))
    (dump : Option (List (KwsMatch Q L) × List (KwsMatch Q L)))
    (dump' : Option (List (KwsMatch Q' L') × List (KwsMatch Q' L')))
    (rep : List ℕ → Report Q L) (rep' : List ℕ → Report Q' L')
    (h : ∀ l, assess Rnd.exact S (diceFrom l) w o ms groups dump = .ok (rep l))
    (h' : ∀ l, assess Rnd.exact S' (diceFrom l) w' o' ms' groups' dump' = .ok (rep' l))
    (hf : KeepsScores f) (hg : Regrouped f groups groups') (hn : ∀ g ∈ groups, NoNaN g)
    (hc : o.collapse = true) (hc' : o'.collapse = true) (hs : SameMetrics o o')
    (hv : (rep' []).gAP.value = (rep []).gAP.value ∧ (rep' []).mAP.value = (rep []).mAP.value ∧
      (rep' []).gNDCG.value = (rep []).gNDCG.value ∧ (rep' []).mNDCG.value = (rep []).mNDCG.value)
    {N n : ℕ} (hN : Fair groups N) (hL : drawsFor groups o.samples ≤ n) (Φ : Statement) :
    probability N n (fun l => Φ.of (rep l)) = probability N n (fun l => Φ.of (rep' l)) := by
  have H := fun l => assess_ok _ _ _ _ _ _ _ _ _ (h l)
  have H' := fun l => assess_ok _ _ _ _ _ _ _ _ _ (h' l)
  obtain ⟨a1, a2, a3, a4, _⟩ := H []
  obtain ⟨b1, b2, b3, b4, _⟩ := H' []
  have A1 := global_value _ _ _ _ _ _ _ _ _ _ _ a1
  have A2 := mean_value _ _ _ _ _ _ _ _ _ a2
  have A3 := global_value _ _ _ _ _ _ _ _ _ _ _ a3
  have A4 := mean_value _ _ _ _ _ _ _ _ _ a4
  have B1 := global_value _ _ _ _ _ _ _ _ _ _ _ b1
  have B2 := mean_value _ _ _ _ _ _ _ _ _ b2
  have B3 := global_value _ _ _ _ _ _ _ _ _ _ _ b3
  have B4 := mean_value _ _ _ _ _ _ _ _ _ b4
  rw [hv.1, ← A1] at B1
  rw [hv.2.1, ← A2] at B2
  rw [hv.2.2.1, ← A3] at B3
  rw [hv.2.2.2, ← A4] at B4
  simp only [globalStatistic_metricOf, meanStatistic_metricOf, hc, hs.gap, hs.map, hs.gndcg, hs.mndcg, hs.samples,
    hs.alpha, hs.interp, hs.trapezoid, hc'] at H H' B1 B2 B3 B4
  have smp : ∀ {X : Type} (q : List (List X)) (k : ℕ) (l : List ℕ),
      samplesFrom (diceFrom l) q k ((diceFrom l).seed o.seed) = samplesFrom dice q k l := fun q k l =>
    samplesFrom_same (rng := diceFrom l) (rng' := dice) rfl q k l
  have smp' : ∀ {X : Type} (q : List (List X)) (k : ℕ) (l : List ℕ),
      samplesFrom (diceFrom l) q k ((diceFrom l).seed o'.seed) = samplesFrom dice q k l := fun q k l =>
    samplesFrom_same (rng := diceFrom l) (rng' := dice) rfl q k l
  simp only [smp] at H
  simp only [smp'] at H'
  have read : ∀ {K : Type} {c : Cpp (Metric K)} {v : Metric K}, c = .ok v → ∀ x, c = .ok x ↔ x = v := by
    rintro K c v rfl x
    rw [Except.ok.injEq]
    exact eq_comm
  let ap : Bool → Cpp ℚ := fun b => if b then globalAPGrouped Rnd.exact S groups true o.interp o.trapezoid true
    else globalAP Rnd.exact ms true o.interp o.trapezoid
  let map : Bool → Cpp ℚ := fun b => meanAP Rnd.exact S groups true o.interp o.trapezoid b
  let nd : Bool → Cpp ℝ := fun b => if b then globalNDCGGrouped Rnd.exact S groups true true
    else .ok (globalNDCG Rnd.exact ms true)
  let mnd : Bool → Cpp ℝ := fun b => meanNDCG Rnd.exact S groups true b
  have E : ∀ l, Φ.of (rep l) ↔ saysOn Φ S o ap map nd mnd
      ((samplesFrom dice groups o.samples l).map fun c =>
        globalAPGrouped Rnd.exact S c true o.interp o.trapezoid true)
      ((samplesFrom dice groups o.samples l).map fun c => meanAP Rnd.exact S c true o.interp o.trapezoid true)
      ((samplesFrom dice groups o.samples l).map fun c => globalNDCGGrouped Rnd.exact S c true true)
      ((samplesFrom dice groups o.samples l).map fun c => meanNDCG Rnd.exact S c true true) := by
    intro l
    obtain ⟨h1, h2, h3, h4, _⟩ := H l
    simp only [saysOn, ap, map, nd, mnd, if_true, Bool.false_eq_true, if_false, read h1, read h2, read h3, read h4,
      exists_and_left, exists_eq_left]
    rfl
  have E' : ∀ l, Φ.of (rep' l) ↔ saysOn Φ S o ap map nd mnd
      ((samplesFrom dice groups' o.samples l).map fun c =>
        globalAPGrouped Rnd.exact S' c true o.interp o.trapezoid true)
      ((samplesFrom dice groups' o.samples l).map fun c => meanAP Rnd.exact S' c true o.interp o.trapezoid true)
      ((samplesFrom dice groups' o.samples l).map fun c => globalNDCGGrouped Rnd.exact S' c true true)
      ((samplesFrom dice groups' o.samples l).map fun c => meanNDCG Rnd.exact S' c true true) := by
    intro l
    obtain ⟨h1, h2, h3, h4, _⟩ := H' l
    rw [metricOf_same Rnd.exact S' S _ _ _ _ _ _ _ _ _ B1] at h1
    rw [metricOf_same Rnd.exact S' S _ _ _ _ _ _ (map false) (map true) _ (by
        revert B2; generalize o.ciMap = x; cases x <;> simp [map])] at h2
    rw [metricOf_same Rnd.exact S' S _ _ _ _ _ _ _ _ _ B3] at h3
    rw [metricOf_same Rnd.exact S' S _ _ _ _ _ _ (mnd false) (mnd true) _ (by
        revert B4; generalize o.ciMndcg = x; cases x <;> simp [mnd])] at h4
    simp only [map] at h2
    simp only [mnd] at h4
    simp only [saysOn, ap, map, nd, mnd, if_true, Bool.false_eq_true, if_false, read h1, read h2, read h3, read h4,
      exists_and_left, exists_eq_left]
    rfl
  rw [probability_congr E, probability_congr E']
  refine samples_law f groups groups' hg hN o.samples
    (fun cs => saysOn Φ S o ap map nd mnd
      (cs.map fun c => globalAPGrouped Rnd.exact S c true o.interp o.trapezoid true)
      (cs.map fun c => meanAP Rnd.exact S c true o.interp o.trapezoid true)
      (cs.map fun c => globalNDCGGrouped Rnd.exact S c true true)
      (cs.map fun c => meanNDCG Rnd.exact S c true true))
    (fun cs => saysOn Φ S o ap map nd mnd
      (cs.map fun c => globalAPGrouped Rnd.exact S' c true o.interp o.trapezoid true)
      (cs.map fun c => meanAP Rnd.exact S' c true o.interp o.trapezoid true)
      (cs.map fun c => globalNDCGGrouped Rnd.exact S' c true true)
      (cs.map fun c => meanNDCG Rnd.exact S' c true true)) ?_ n hL
  intro cs hcs
  have st : ∀ c ∈ cs, _ := fun c hcc => hf.statistics S S' c (by
    have := resample_all (hcs c hcc) (fun m => Spec.rank m ≠ .nan) (fun g hg m hm => hn g hg m hm)
    exact this) o.interp o.trapezoid
  simp only [List.map_map, Function.comp_def]
  rw [List.map_congr_left (fun c hcc => (st c hcc).1), List.map_congr_left (fun c hcc => (st c hcc).2.1),
    List.map_congr_left (fun c hcc => (st c hcc).2.2.1), List.map_congr_left (fun c hcc => (st c hcc).2.2.2)]

end

end Kws
