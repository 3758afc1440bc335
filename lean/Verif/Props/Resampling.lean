import Verif.Lemmas.Resampling
import Verif.Spec.Bootstrap

/-!
# C91: the law of the bootstrap samples

`probability N L P` is the share of the sequences of `L` numbers below `N` with the property `P`. The
generator `dice` reads its draws from such a sequence. `resampleLaw` is the textbook probability of a
resample: the groups are drawn uniformly and independently, and the matches uniformly and independently
from the group. (`std::default_random_engine` is a fixed sequence of numbers; the theorems are about what
the sampler makes of ideal ones.)
-/

namespace Kws
open Spec

section
variable {M : Type} [DecidableEq M]

/-- C91: the sampler returns each sample with its textbook probability. -/
theorem C91_law (original sample : List (List M)) (N L : ℕ) (hf : Fair original N)
    (hlen : sample.length = original.length) (hL : drawsOf sample ≤ L) :
    probability N L (fun l => ∃ l', matchesByQuerySampler dice original l = .ok (sample, l')) =
      resampleLaw original sample := by
  by_cases hne : original = []
  · subst hne
    obtain rfl := List.length_eq_zero_iff.1 hlen
    rw [probability_true hf.1 (by simp [matchesByQuerySampler, drawGroups, pure, Except.pure])]
    rfl
  · have h := drawGroups_probability original hf hne sample (L - drawsOf sample) (fun _ => True)
    rw [probability_true hf.1 (fun _ => trivial), mul_one, Nat.sub_add_cancel hL, hlen] at h
    rw [← h]
    exact probability_congr fun l => by simp [matchesByQuerySampler]

/-- C91: the samples taken one after the other are independent, and all have that law. -/
theorem C91_independent (original : List (List M)) (samples : List (List (List M))) (N L : ℕ)
    (hf : Fair original N) (hlen : ∀ sample ∈ samples, sample.length = original.length)
    (hL : (samples.map drawsOf).sum ≤ L) :
    probability N L (fun l => Successive (matchesByQuerySampler dice original) l samples) =
      (samples.map (resampleLaw original)).prod := by
  induction samples generalizing L with
  | nil => exact probability_true hf.1 (fun l => .nil l)
  | cons c cs ih =>
    have hc := hlen c List.mem_cons_self
    have hcs := fun s hs => hlen s (List.mem_cons_of_mem _ hs)
    simp only [List.map_cons, List.sum_cons] at hL
    have step : ∀ l, Successive (matchesByQuerySampler dice original) l (c :: cs) ↔
        ∃ l', matchesByQuerySampler dice original l = .ok (c, l') ∧
          Successive (matchesByQuerySampler dice original) l' cs := by
      intro l
      constructor
      · rintro (_ | ⟨_, g', _, _, h1, h2⟩)
        exact ⟨g', h1, h2⟩
      · rintro ⟨g', h1, h2⟩
        exact .cons _ _ _ _ h1 h2
    rw [probability_congr step, List.map_cons, List.prod_cons, ← ih (L - drawsOf c) hcs (by omega)]
    by_cases hne : original = []
    · subst hne
      obtain rfl := List.length_eq_zero_iff.1 hc
      simp only [matchesByQuerySampler, drawGroups, pure, Except.pure, List.length_nil,
        Except.ok.injEq, Prod.mk.injEq, true_and, resampleLaw, drawsOf, List.map_nil, List.prod_nil,
        List.sum_nil, one_mul, Nat.sub_zero]
      exact probability_congr fun l => by simp
    · have h := drawGroups_probability original hf hne c (L - drawsOf c)
        (fun l => Successive (matchesByQuerySampler dice original) l cs)
      rw [Nat.sub_add_cancel (by omega), hc] at h
      rw [← h]
      rfl

/-- C91: if all matches are different and no group is empty, a resample has the probability
`1 / (n^n k₁^k₁ ... kₙ^kₙ)`, where `n` is the number of groups and `k₁, ..., kₙ` are the sizes of the
groups of the sample: no group and no match is favoured. -/
theorem C91_distinct (original sample : List (List M)) (N L : ℕ) (hf : Fair original N)
    (hd : original.flatten.Nodup) (hne : ∀ o ∈ original, o ≠ []) (hs : Resample original sample)
    (hL : drawsOf sample ≤ L) :
    probability N L (fun l => ∃ l', matchesByQuerySampler dice original l = .ok (sample, l')) =
      1 / ((original.length : ℚ) ^ original.length *
        (sample.map (fun s => (s.length : ℚ) ^ s.length)).prod) := by
  rw [C91_law original sample N L hf hs.1 hL]
  have one : ∀ s ∈ sample, groupLaw original s = 1 / (original.length * (s.length : ℚ) ^ s.length) := by
    intro s hss
    obtain ⟨o, ho, hl, hm⟩ := hs.2 s hss
    have hs0 : s ≠ [] := by
      intro h
      rw [h, List.length_nil] at hl
      exact hne o ho (List.length_eq_zero_iff.1 hl.symm)
    obtain ⟨m0, hm0⟩ := List.exists_mem_of_ne_nil s hs0
    unfold groupLaw
    have hterm : ∀ o' ∈ original, (if o'.length = s.length then drawLaw o' s else 0) =
        if o' = o then 1 / (s.length : ℚ) ^ s.length else 0 := by
      intro o' ho'
      by_cases e : o' = o
      · subst e
        rw [if_pos hl.symm, if_pos rfl]
        have hcount : ∀ m ∈ s, ((o'.count m : ℚ) / o'.length) = 1 / s.length := by
          intro m hms
          have hnd : o'.Nodup := (List.nodup_flatten.1 hd).1 o' ho'
          rw [List.count_eq_one_of_mem hnd (hm m hms), hl]
          simp
        unfold drawLaw
        rw [List.map_congr_left hcount, List.map_const', List.prod_replicate, div_pow, one_pow]
      · rw [if_neg e]
        have hdis : m0 ∉ o' := by
          intro h0
          have hpw := (List.nodup_flatten.1 hd).2
          have : Std.Symm (List.Disjoint (α := M)) := ⟨fun _ _ h => h.symm⟩
          exact hpw.forall ho' ho e h0 (hm m0 hm0)
        split
        · unfold drawLaw
          refine List.prod_eq_zero ?_
          exact List.mem_map.2 ⟨m0, hm0, by rw [List.count_eq_zero_of_not_mem hdis]; simp⟩
        · rfl
    rw [List.map_congr_left hterm]
    have hnd : original.Nodup := by
      refine List.Pairwise.imp_of_mem ?_ (List.nodup_flatten.1 hd).2
      intro a b ha _ hab e
      subst e
      obtain ⟨x, hx⟩ := List.exists_mem_of_ne_nil a (hne a ha)
      exact hab hx hx
    have hsum : (original.map (fun o' => if o' = o then 1 / (s.length : ℚ) ^ s.length else 0)).sum =
        1 / (s.length : ℚ) ^ s.length := by
      exact sum_indicator original hnd o ho _
    rw [hsum, div_div, mul_comm]
  unfold resampleLaw
  rw [List.map_congr_left one]
  have hp : ∀ l : List (List M), (l.map (fun s => 1 / ((original.length : ℚ) *
      (s.length : ℚ) ^ s.length))).prod = 1 / ((original.length : ℚ) ^ l.length *
        (l.map (fun s => (s.length : ℚ) ^ s.length)).prod) := by
    intro l
    induction l with
    | nil => simp
    | cons a l ih =>
      rw [List.map_cons, List.prod_cons, ih, List.map_cons, List.prod_cons, List.length_cons, pow_succ]
      simp only [one_div, mul_inv]
      ring
  rw [hp, hs.1]

omit [DecidableEq M] in
/-- C91: sequences that allow for fair draws exist for every original. -/
theorem C91_fair (original : List (List M)) : ∃ N, Fair original N := by
  refine ⟨(original.length + if original = [] then 1 else 0) *
    (original.map (fun o => o.length + if o = [] then 1 else 0)).prod, ?_, ?_, ?_⟩
  · refine Nat.mul_pos ?_ ?_
    · split
      · omega
      · rename_i h
        have := List.length_pos_iff.2 h
        omega
    · refine Nat.pos_of_ne_zero ?_
      intro h
      obtain ⟨o, _, ho⟩ := List.mem_map.1 (List.prod_eq_zero_iff.1 h)
      by_cases e : o = []
      · simp [e] at ho
      · simp [e] at ho
  · intro h
    rw [if_neg h]
    exact Dvd.intro _ rfl
  · intro o ho hne
    refine Dvd.dvd.mul_left (List.dvd_prod (List.mem_map.2 ⟨o, ho, ?_⟩)) _
    simp [hne]

end

/-- Two groups, of two and of one match: the sample of two copies of the first group in its own order
needs six draws. Its probability is 1/64. -/
example : Fair [[1, 2], [3]] 2 ∧ drawsOf [[1, 2], [1, 2]] = 6 ∧
    resampleLaw [[1, 2], [3]] [[1, 2], [1, 2]] = 1 / 64 ∧
    resampleLaw [[1, 2], [3]] [[3], [3]] = 1 / 4 ∧
    resampleLaw [[1, 2], [3]] [[2, 2], [3]] = 1 / 16 := by
  refine ⟨⟨by decide, fun _ => by decide, by decide⟩, by decide, by decide +kernel, by decide +kernel,
    by decide +kernel⟩

/-- The share of the sequences of six coin tosses that lead to it. -/
example : probability 2 6 (fun l => ∃ l', matchesByQuerySampler dice [[1, 2], [3]] l =
    .ok ([[1, 2], [1, 2]], l')) = 1 / 64 := by
  rw [C91_law [[1, 2], [3]] [[1, 2], [1, 2]] 2 6 ⟨by decide, fun _ => by decide, by decide⟩ rfl
    (by decide)]
  decide +kernel

/-- The same by the formula for different matches. -/
example : [[1, 2], [3]].flatten.Nodup ∧ (∀ o ∈ [[1, 2], [3]], o ≠ []) ∧
    Resample [[1, 2], [3]] [[1, 2], [1, 2]] ∧ (1 / ((2 : ℚ) ^ 2 * (2 ^ 2 * 2 ^ 2)) = 1 / 64) := by
  refine ⟨by decide, by decide, ⟨rfl, fun s hs => ⟨[1, 2], by simp, ?_⟩⟩, by norm_num⟩
  simp only [List.mem_cons, List.not_mem_nil, or_false, or_self] at hs
  subst hs
  exact ⟨rfl, fun m hm => hm⟩

/-- The same matches in several groups: the probabilities add up. -/
example : resampleLaw [[1, 1], [1, 2], [2]] [[1, 1], [1, 1], [1, 1]] = (5 / 12) ^ 3 := by decide +kernel

end Kws
