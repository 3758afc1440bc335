import Verif.Model.Ieee
import Verif.Props.Cmd

/-!
# C56: the texts that floating-point options accept
-/

namespace Kws
open Spec IStream

section
variable {p : Char → Bool}

theorem dropWhile_append_rest (s m : Str) (h : s.dropWhile p ≠ []) :
    (s ++ m).takeWhile p = s.takeWhile p ∧ (s ++ m).dropWhile p = s.dropWhile p ++ m := by
  induction s with
  | nil => exact absurd rfl h
  | cons c s ih =>
    cases hc : p c with
    | false => simp [hc]
    | true =>
      simp only [List.dropWhile_cons, hc, if_true] at h
      have := ih h
      simp [hc, this]

end

theorem scanSign_append (s m : Str) (h : (scanSign s).2 ≠ []) :
    scanSign (s ++ m) = ((scanSign s).1, (scanSign s).2 ++ m) := by
  cases s with
  | nil => exact absurd rfl h
  | cons c s =>
    unfold scanSign
    by_cases h1 : c = '-'
    · subst h1; rfl
    · by_cases h2 : c = '+'
      · subst h2; rfl
      · split
        · rename_i e; simp only [List.cons_append, List.cons.injEq] at e; exact absurd e.1 h1
        · rename_i e; simp only [List.cons_append, List.cons.injEq] at e; exact absurd e.1 h2
        · split
          · rename_i e; simp only [List.cons.injEq] at e; exact absurd e.1 h1
          · rename_i e; simp only [List.cons.injEq] at e; exact absurd e.1 h2
          · rfl

theorem fracPart_append (z m : Str) (h : (fracPart z).2 ≠ []) :
    fracPart (z ++ m) = ((fracPart z).1, (fracPart z).2 ++ m) := by
  cases z with
  | nil => exact absurd rfl h
  | cons c z =>
    by_cases hc : c = '.'
    · subst hc
      simp only [fracPart, List.cons_append] at h ⊢
      obtain ⟨e1, e2⟩ := dropWhile_append_rest z m h
      rw [e1, e2]
    · have hz : ∀ z : Str, fracPart (c :: z) = ([], c :: z) := by
        intro z
        unfold fracPart
        split
        · rename_i e; simp only [List.cons.injEq] at e; exact absurd e.1 hc
        · rfl
      rw [List.cons_append, hz, hz, List.cons_append]

theorem expPart_append (z m : Str) (h : (expPart z).2 ≠ []) :
    expPart (z ++ m) = ((expPart z).1, (expPart z).2 ++ m) := by
  cases z with
  | nil => exact absurd rfl h
  | cons c z =>
    simp only [expPart, List.cons_append] at h ⊢
    by_cases hc : (c == 'e' || c == 'E') = true
    · rw [if_pos hc] at h ⊢
      rw [if_pos hc]
      simp only at h ⊢
      have hs : (scanSign z).2 ≠ [] := by
        intro e
        rw [e] at h
        exact h rfl
      rw [scanSign_append z m hs]
      simp only
      obtain ⟨e1, e2⟩ := dropWhile_append_rest (scanSign z).2 m h
      rw [e1, e2]
    · rw [if_neg hc, if_neg hc, List.cons_append]

/-- What stops a number stops it whatever follows. -/
theorem scanFloat_append (s m : Str) (h : (scanFloat s).2 ≠ []) :
    (scanFloat (s ++ m)).2 = (scanFloat s).2 ++ m := by
  rw [scanFloat_eq] at h
  rw [scanFloat_eq, scanFloat_eq]
  simp only at h ⊢
  have hf : (fracPart ((scanSign s).2.dropWhile isDigit)).2 ≠ [] := by
    intro e
    rw [e] at h
    split at h <;> exact h rfl
  have hd : (scanSign s).2.dropWhile isDigit ≠ [] := by
    intro e
    rw [e] at hf
    exact hf rfl
  have hs : (scanSign s).2 ≠ [] := by
    intro e
    rw [e] at hd
    exact hd rfl
  rw [scanSign_append s m hs]
  simp only
  obtain ⟨e1, e2⟩ := dropWhile_append_rest (scanSign s).2 m hd
  rw [e1, e2, fracPart_append _ m hf]
  simp only
  split
  · rfl
  · rename_i hc
    rw [if_neg hc] at h
    rw [expPart_append _ m h]

theorem expPart_start {z : Str} (h : (expPart z).2 = []) : z = [] ∨
    ∃ e sg neg ds, z = e :: (sg ++ ds) ∧ (e = 'e' ∨ e = 'E') ∧ Sign sg neg ∧ ∀ c ∈ ds, isDigit c = true := by
  cases z with
  | nil => exact Or.inl rfl
  | cons c z =>
    right
    simp only [expPart] at h
    split at h
    · rename_i hc
      simp only [Bool.or_eq_true, beq_iff_eq] at hc
      obtain ⟨sg, hs, e⟩ := scan_sign z
      refine ⟨c, sg, _, (scanSign z).2, by rw [← e], hc, hs, ?_⟩
      have ey := List.takeWhile_append_dropWhile (p := isDigit) (l := (scanSign z).2)
      rw [show (scanSign z).2.dropWhile isDigit = [] from h, List.append_nil] at ey
      rw [← ey]
      exact fun c hc => mem_takeWhile_imp hc
    · exact absurd h (by simp)

/-- A text is completely scanned exactly if some number starts with it. -/
theorem scanFloat_start (s : Str) : (scanFloat s).2 = [] ↔ ∃ more q, DenotesReal (s ++ more) q := by
  constructor
  · intro h
    refine ⟨['0'], ?_⟩
    obtain ⟨sg, hs, e⟩ := scan_sign s
    have ey := List.takeWhile_append_dropWhile (p := isDigit) (l := (scanSign s).2)
    obtain ⟨frac, ez, hf, hfrac⟩ := fracPart_spec ((scanSign s).2.dropWhile isDigit)
    have hi : ∀ c ∈ (scanSign s).2.takeWhile isDigit, isDigit c = true := fun c hc => mem_takeWhile_imp hc
    rw [scanFloat_eq] at h
    simp only at h
    generalize (scanSign s).2.takeWhile isDigit = int at *
    generalize (scanSign s).2.dropWhile isDigit = z at *
    generalize (scanSign s).1 = neg at *
    generalize (scanSign s).2 = y at *
    have hz0 : isDigit '0' = true := by decide
    -- no exponent: the digit goes to the integer or the fraction
    have plain : (fracPart z).2 = [] → ∃ q, DenotesReal (s ++ ['0']) q := by
      intro h0
      rw [h0, List.append_nil] at ez
      rcases hfrac with ⟨rfl, h1⟩ | h1
      · refine ⟨_, sg, neg, int ++ ['0'], [], [], [], 0, ?_, hs, ?_, by simp, Or.inl ⟨rfl, rfl⟩, by simp,
          Or.inl ⟨rfl, rfl⟩, rfl⟩
        · rw [e, ← ey, ez]; simp
        · intro c hc
          rcases List.mem_append.1 hc with hc | hc
          · exact hi c hc
          · rw [List.mem_singleton.1 hc]; exact hz0
      · refine ⟨_, sg, neg, int, frac ++ ['0'], (fracPart z).1 ++ ['0'], [], 0, ?_, hs, hi, ?_,
          Or.inr (by rw [h1]; rfl), by simp, Or.inl ⟨rfl, rfl⟩, rfl⟩
        · rw [e, ← ey, ez]; simp
        · intro c hc
          rcases List.mem_append.1 hc with hc | hc
          · exact hf c hc
          · rw [List.mem_singleton.1 hc]; exact hz0
    split at h
    · exact plain h
    · rename_i hne
      rcases expPart_start h with h0 | ⟨x, esg, eneg, ds, h0, hx, hes, hds⟩
      · exact plain h0
      · refine ⟨_, sg, neg, int, frac, (fracPart z).1, x :: (esg ++ (ds ++ ['0'])), _, ?_, hs, hi, hf, hfrac,
          ?_, Or.inr ⟨x, _, rfl, hx, esg, eneg, ds ++ ['0'], rfl, hes, ⟨by simp, ?_⟩, rfl⟩, rfl⟩
        · rw [e, ← ey, ez, h0]; simp
        · intro h1
          rw [List.append_eq_nil_iff] at h1
          exact hne (by rw [h1.1, h1.2]; rfl)
        · intro c hc
          rcases List.mem_append.1 hc with hc | hc
          · exact hds c hc
          · rw [List.mem_singleton.1 hc]; exact hz0
  · rintro ⟨more, q, h⟩
    by_contra hne
    have := (scanFloat_denotes h).1
    rw [scanFloat_append s more hne] at this
    simp only [List.append_eq_nil_iff] at this
    exact hne this.1

/-- The value stored in a `double` for a text: the nearest one, at most the largest finite one, and 0
for a text that is no number. -/
def Spec.StoredDouble (R : Rnd) (s : Str) (x : ℚ) : Prop :=
  (∀ q, DenotesReal s q → x = if dblMax < R.f64 q then dblMax else if R.f64 q < -dblMax then -dblMax
    else R.f64 q) ∧ ((¬ ∃ q, DenotesReal s q) → x = 0)

/-- C56, what holds (`double`): exactly the texts with which some number starts are accepted, with
the following value. -/
theorem C56_double_partial (R : Rnd) (old x : ℚ) (s : Str) :
    (OptVal.double old).parseOpt R s = (true, .double x) ↔
      (∃ more q, DenotesReal (s ++ more) q) ∧ StoredDouble R s x := by
  rw [← scanFloat_start]
  simp only [OptVal.parseOpt, OptVal.parseOther, IStream.getFloat, IStream.sentry, IStream.ofStr,
    IStream.good, Bool.not_false, Bool.and_self, if_true, Bool.false_eq_true, if_false]
  have hden : (scanFloat s).2 = [] → ∀ q, DenotesReal s q ↔ (scanFloat s).1.value? = some q := by
    intro h q
    exact ⟨fun hq => (scanFloat_denotes hq).2, fun hq => scan_float h hq⟩
  constructor
  · intro h
    have h0 : (scanFloat s).2 = [] := by
      cases hv : (scanFloat s).1.value? with
      | none =>
        simp only [hv] at h
        injection h with h1 h2
        simpa using h1
      | some q =>
        simp only [hv] at h
        split at h <;> [skip; split at h] <;> (injection h with h1 h2; simpa using h1)
    refine ⟨h0, ?_⟩
    cases hv : (scanFloat s).1.value? with
    | none =>
      simp only [hv] at h
      injection h with h1 h2
      injection h2 with h2
      refine ⟨fun q hq => ?_, fun _ => h2.symm⟩
      rw [hden h0, hv] at hq
      cases hq
    | some q =>
      refine ⟨fun q' hq => ?_, fun hn => absurd ⟨q, (hden h0 q).2 hv⟩ hn⟩
      rw [hden h0, hv, Option.some.injEq] at hq
      subst hq
      simp only [hv] at h
      split at h
      · rename_i hgt
        injection h with h1 h2
        injection h2 with h2
        rw [if_pos hgt]; exact h2.symm
      · rename_i hgt
        rw [if_neg hgt]
        split at h
        · rename_i hlt
          injection h with h1 h2
          injection h2 with h2
          rw [if_pos hlt]; exact h2.symm
        · rename_i hlt
          injection h with h1 h2
          injection h2 with h2
          rw [if_neg hlt]; exact h2.symm
  · rintro ⟨h0, h1, h2⟩
    cases hv : (scanFloat s).1.value? with
    | none =>
      simp only [h0]
      rw [h2 (by rintro ⟨q, hq⟩; rw [hden h0, hv] at hq; cases hq)]
      rfl
    | some q =>
      rw [h1 q ((hden h0 q).2 hv)]
      simp only [h0]
      by_cases a : dblMax < R.f64 q
      · rw [if_pos a, if_pos a]; rfl
      · rw [if_neg a, if_neg a]
        by_cases b : R.f64 q < -dblMax
        · rw [if_pos b, if_pos b]; rfl
        · rw [if_neg b, if_neg b]; rfl

namespace NumberStart

deriving instance DecidableEq for OptVal

/-- Some number starts with `-1.5e`, which is none. -/
example : (∃ more q, DenotesReal ("-1.5e".toList ++ more) q) ∧ StoredDouble Rnd.ieee "-1.5e".toList 0 :=
  (C56_double_partial Rnd.ieee 7 0 _).1 (by decide +kernel)

/-- `1e400` is larger than every `double`. -/
example : StoredDouble Rnd.ieee "1e400".toList dblMax :=
  ((C56_double_partial Rnd.ieee 7 dblMax _).1 (by decide +kernel)).2

/-- No number starts with `1e+-`. -/
example : ¬ ∃ more q, DenotesReal ("1e+-".toList ++ more) q := by
  rw [← scanFloat_start]
  decide +kernel

end NumberStart

end Kws
