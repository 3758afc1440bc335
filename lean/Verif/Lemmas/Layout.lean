import Verif.Spec.Layout
import Verif.Lemmas.Grammar
import Verif.Lemmas.Ids
import Verif.Lemmas.Output
import Verif.Model.ToolDouble

/-!
# Reading depends on the words of the lines only
-/

namespace Kws
open Spec IStream

/-! ## One extraction -/

/-- Two streams that have failed both, or have the same words ahead. -/
structure Alike (s s' : IStream) : Prop where
  fail : s.fail = s'.fail
  ready : s.fail = false → Ready s ∧ Ready s' ∧ words s.rest = words s'.rest

/-- An extractor for which only the words ahead matter. -/
def Layoutless {α : Type} (ex : Extractor α) : Prop :=
  ∀ s s', Alike s s' → Alike (ex s).1 (ex s').1 ∧ ((ex s).1.fail = false → (ex s).2 = (ex s').2)

theorem alike_failed {s s' : IStream} (h : s.fail = true) (h' : s'.fail = true) : Alike s s' :=
  ⟨by rw [h, h'], fun hf => by rw [h] at hf; cases hf⟩

theorem alike_rest {r r' : Str} (h : words r = words r') :
    Alike ⟨r, r.isEmpty, false⟩ ⟨r', r'.isEmpty, false⟩ :=
  ⟨rfl, fun _ => ⟨ready_rest r, ready_rest r', h⟩⟩

/-- What is left of a word, followed by the other words. -/
theorem words_left {y r r' : Str} (hy : ∀ c ∈ y, isSpace c = false) (hr : Stop r) (hr' : Stop r')
    (h : words r = words r') : words (y ++ r) = words (y ++ r') := by
  by_cases hn : y = []
  · subst hn
    exact h
  · rw [words_word y r ⟨hn, hy⟩ hr, words_word y r' ⟨hn, hy⟩ hr', h]

theorem word_of_words {r w : Str} {ws : List Str} (h : words r = w :: ws) :
    ∀ c ∈ w, isSpace c = false := by
  obtain ⟨_, _, _, _, hw, _, _⟩ := words_cons h
  exact hw.2

theorem getString_layoutless : Layoutless getString := by
  intro s s' h
  by_cases hf : s.fail = true
  · have g1 : s.getString.1.fail = true := by
      unfold getString
      simp only [sentry_fail s true hf, if_true]
    have g2 : s'.getString.1.fail = true := by
      unfold getString
      simp only [sentry_fail s' true (h.fail ▸ hf), if_true]
    exact ⟨alike_failed g1 g2, fun e => by rw [g1] at e; cases e⟩
  · obtain ⟨h1, h2, h3⟩ := h.ready (Bool.not_eq_true _ ▸ hf)
    cases hw : words s.rest with
    | nil =>
      have g1 := getString_none hw
      exact ⟨alike_failed g1 (getString_none (h3 ▸ hw)), fun e => by rw [g1] at e; cases e⟩
    | cons w ws =>
      obtain ⟨r, e, k⟩ := getString_word h1 hw
      obtain ⟨r', e', k'⟩ := getString_word h2 (h3 ▸ hw)
      rw [e, e']
      exact ⟨alike_rest (k.trans k'.symm), fun _ => rfl⟩

theorem getUnsigned_layoutless (max : Nat) : Layoutless (getUnsigned max true) := by
  intro s s' h
  by_cases hf : s.fail = true
  · have g1 : (s.getUnsigned max true).1.fail = true := by
      unfold getUnsigned
      simp only [sentry_fail s true hf, if_true]
    have g2 : (s'.getUnsigned max true).1.fail = true := by
      unfold getUnsigned
      simp only [sentry_fail s' true (h.fail ▸ hf), if_true]
    exact ⟨alike_failed g1 g2, fun e => by rw [g1] at e; cases e⟩
  · obtain ⟨h1, h2, h3⟩ := h.ready (Bool.not_eq_true _ ▸ hf)
    cases hw : words s.rest with
    | nil =>
      have g1 := getUnsigned_none (max := max) hw
      exact ⟨alike_failed g1 (getUnsigned_none (h3 ▸ hw)), fun e => by rw [g1] at e; cases e⟩
    | cons w ws =>
      obtain ⟨r, k, st, e⟩ := getUnsigned_word (max := max) h1 hw
      obtain ⟨r', k', st', e'⟩ := getUnsigned_word (max := max) h2 (h3 ▸ hw)
      have hy : ∀ c ∈ (scanSign w).2.dropWhile isDigit, isSpace c = false := fun c hc =>
        word_of_words hw c ((scanSign_suffix w).subset ((List.dropWhile_sublist _).subset hc))
      have hl := words_left hy st st' (k.trans k'.symm)
      rw [e, e']
      dsimp only
      split
      · exact ⟨alike_failed rfl rfl, fun e => by cases e⟩
      · split
        · exact ⟨alike_failed rfl rfl, fun e => by cases e⟩
        · exact ⟨alike_rest hl, fun _ => rfl⟩

theorem getFloat_layoutless (rd : ℚ → ℚ) (max : ℚ) : Layoutless (getFloat rd max true) := by
  intro s s' h
  by_cases hf : s.fail = true
  · have g1 : (s.getFloat rd max true).1.fail = true := by
      unfold getFloat
      simp only [sentry_fail s true hf, if_true]
    have g2 : (s'.getFloat rd max true).1.fail = true := by
      unfold getFloat
      simp only [sentry_fail s' true (h.fail ▸ hf), if_true]
    exact ⟨alike_failed g1 g2, fun e => by rw [g1] at e; cases e⟩
  · obtain ⟨h1, h2, h3⟩ := h.ready (Bool.not_eq_true _ ▸ hf)
    cases hw : words s.rest with
    | nil =>
      have g1 := getFloat_none (rd := rd) (max := max) hw
      exact ⟨alike_failed g1 (getFloat_none (h3 ▸ hw)), fun e => by rw [g1] at e; cases e⟩
    | cons w ws =>
      obtain ⟨r, k, st, e⟩ := getFloat_word (rd := rd) (max := max) h1 hw
      obtain ⟨r', k', st', e'⟩ := getFloat_word (rd := rd) (max := max) h2 (h3 ▸ hw)
      have hy : ∀ c ∈ (scanFloat w).2, isSpace c = false := fun c hc =>
        word_of_words hw c ((scanFloat_suffix w).subset hc)
      have hl := words_left hy st st' (k.trans k'.symm)
      rw [e, e']
      dsimp only
      split
      · exact ⟨alike_failed rfl rfl, fun e => by cases e⟩
      · split
        · exact ⟨alike_failed rfl rfl, fun e => by cases e⟩
        · split
          · exact ⟨alike_failed rfl rfl, fun e => by cases e⟩
          · exact ⟨alike_rest hl, fun _ => rfl⟩

theorem Layoutless.map {α β : Type} {ex : Extractor α} (h : Layoutless ex) (f : α → β) :
    Layoutless (fun s => ((ex s).1, (ex s).2.map f)) := by
  intro s s' hs
  obtain ⟨h1, h2⟩ := h s s' hs
  exact ⟨h1, fun hf => congrArg (Option.map f) (h2 hf)⟩

theorem Layoutless.pair {α β γ : Type} {a : Extractor α} {b : Extractor β} (f : α → β → γ)
    (ha : Layoutless a) (hb : Layoutless b) (wb : WellBehaved b) :
    Layoutless (Extractor.pair f a b) := by
  intro s s' hs
  obtain ⟨h1, h2⟩ := ha s s' hs
  obtain ⟨h3, h4⟩ := hb _ _ h1
  refine ⟨h3, fun hf => ?_⟩
  have hf' : (b (a s).1).1.fail = false := hf
  have ha' := (wb.value _ hf').1
  simp only [Extractor.pair]
  rw [h2 ha', h4 hf']

theorem extractU32_layoutless : Layoutless extractU32 := (getUnsigned_layoutless _).map _

theorem extractScore_layoutless (R : Rnd) : Layoutless (extractScore R) :=
  (getFloat_layoutless _ _).map _

theorem extractBox_layoutless : Layoutless extractBox :=
  ((extractU32_layoutless.pair _ extractU32_layoutless extractU32_wb).pair _ extractU32_layoutless
    extractU32_wb).pair _ extractU32_layoutless extractU32_wb

theorem extractBoxEvent_layoutless : Layoutless extractBoxEvent :=
  getString_layoutless.pair _ (getString_layoutless.pair _ extractBox_layoutless extractBox_wb)
    (getString_wb.pair _ extractBox_wb)

theorem extractStrEvent_layoutless : Layoutless extractStrEvent :=
  getString_layoutless.pair _ getString_layoutless getString_wb

theorem extractScored_layoutless (R : Rnd) {L : Type} {e : Extractor (Event Str L)}
    (h : Layoutless e) : Layoutless (extractScored R e) :=
  h.pair _ (extractScore_layoutless R) (extractScore_wb R)

theorem Spec.Format.layoutless {R : Rnd} {E : Type} {ex : Extractor E} {G : Str → E → Str → Prop}
    (h : Format R ex G) : Layoutless ex := by
  cases h with
  | boxRefs => exact extractBoxEvent_layoutless
  | boxHyps => exact extractScored_layoutless R extractBoxEvent_layoutless
  | strRefs => exact extractStrEvent_layoutless
  | strHyps => exact extractScored_layoutless R extractStrEvent_layoutless

/-! ## One line -/

theorem comment_words {l : Str} : Comment l ↔ ∃ w ws, words l = ('#' :: w) :: ws := by
  constructor
  · rintro ⟨pre, post, rfl, hp⟩
    rw [words_blank_append _ _ hp]
    have hb : ¬ Blank ('#' :: post) := fun h => by
      have := h '#' (by simp)
      revert this
      decide
    obtain ⟨sp, w, r, e, hsp, hw, hst, _⟩ := words_split hb
    have hs : sp = [] := by
      cases sp with
      | nil => rfl
      | cons c sp =>
        obtain ⟨rfl, _⟩ := List.cons.inj e
        exact absurd (hsp '#' (by simp)) (by decide)
    subst hs
    rw [List.nil_append] at e
    rw [e, words_word w r hw hst]
    cases w with
    | nil => exact absurd rfl hw.1
    | cons c w =>
      obtain ⟨rfl, _⟩ := List.cons.inj e
      exact ⟨w, words r, rfl⟩
  · rintro ⟨w, ws, h⟩
    obtain ⟨sp, r, e, hsp, _, _, _⟩ := words_cons h
    exact ⟨sp, w ++ r, e, hsp⟩

theorem ignored_words {l l' : Str} (h : words l = words l') : Ignored l ↔ Ignored l' := by
  unfold Ignored
  rw [comment_words, comment_words, ← words_nil, ← words_nil, h]

/-- A line is read by its words. -/
theorem readLine_words {E : Type} {ex : Extractor E} (hl : Layoutless ex) (wb : WellBehaved ex)
    {l l' : Str} (h : words l = words l') : readLine ex l = readLine ex l' := by
  by_cases hn : Ignored l
  · rw [readLine_ignored ex l hn, readLine_ignored ex l' ((ignored_words h).1 hn)]
  · have hn' : ¬ Ignored l' := fun e => hn ((ignored_words h).2 e)
    have drop : ∀ x : Str, words (x.dropWhile isSpace) = words x := by
      intro x
      conv_rhs => rw [← List.takeWhile_append_dropWhile (p := isSpace) (l := x)]
      rw [words_blank_append _ _ (fun c hc => mem_takeWhile_imp hc)]
    obtain ⟨h1, h2⟩ := hl ⟨l.dropWhile isSpace, false, false⟩ ⟨l'.dropWhile isSpace, false, false⟩
      ⟨rfl, fun _ => ⟨ready_start _, ready_start _, by rw [drop, drop]; exact h⟩⟩
    rcases readLine_wb wb l hn with ⟨e, a1, a2, a3, a4⟩ | ⟨a1, a2⟩
    · rcases readLine_wb wb l' hn' with ⟨e', b1, b2, b3, b4⟩ | ⟨b1, b2⟩
      · rw [a1, b1]
        rw [h2 a3, b2] at a2
        rw [Option.some.inj a2]
      · exfalso
        rcases b2 with b2 | b2
        · rw [← h1.fail, a3] at b2
          cases b2
        · exact b2 (words_nil.1 ((h1.ready a3).2.2 ▸ words_nil.2 a4))
    · rcases readLine_wb wb l' hn' with ⟨e', b1, b2, b3, b4⟩ | ⟨b1, b2⟩
      · exfalso
        rcases a2 with a2 | a2
        · rw [h1.fail, b3] at a2
          cases a2
        · exact a2 (words_nil.1 ((h1.ready (h1.fail ▸ b3)).2.2 ▸ words_nil.2 b4))
      · rw [a1, b1]

theorem readLine_same {R : Rnd} {E : Type} {ex : Extractor E} {G : Str → E → Str → Prop}
    (hf : Format R ex G) {l l' : Str} (h : SameLine l l') : readLine ex l = readLine ex l' := by
  rcases h with h | ⟨h1, h2⟩
  · exact readLine_words hf.layoutless hf.wb h
  · rw [readLine_ignored ex l (Or.inr h1), readLine_ignored ex l' (Or.inr h2)]

/-! ## Query files -/

section
variable {μ σ Q L G : Type}

theorem groupList_words [DecidableEq Q] (mapQuery : μ → Str → μ × Cpp Q) : ∀ (ls ls' : List Str)
    (m : μ) (q2g : List (Q × Q)), ls.map words = ls'.map words →
      groupList mapQuery m q2g ls = groupList mapQuery m q2g ls' := by
  intro ls
  induction ls with
  | nil =>
    intro ls' m q2g h
    rw [List.map_nil, eq_comm, List.map_eq_nil_iff] at h
    rw [h]
  | cons l ls ih =>
    intro ls' m q2g h
    cases ls' with
    | nil => simp at h
    | cons l' ls' =>
      simp only [List.map_cons, List.cons.injEq] at h
      simp only [groupList, h.1]
      rcases mapQueries mapQuery m (words l') with ⟨m', _ | k⟩
      · rfl
      · match k with
        | [] => rfl
        | [_] => rfl
        | g :: q :: qs => exact ih ls' _ _ h.2

theorem readQuerySet_words [DecidableEq Q] (mapQuery : μ → Str → μ × Cpp Q) (m : μ) {t t' : Str}
    (h : words t = words t') : readQuerySet mapQuery m t = readQuerySet mapQuery m t' := by
  unfold readQuerySet
  rw [wordsOf_eq, wordsOf_eq, h]

theorem readQueryGroups_words [DecidableEq Q] (mapQuery : μ → Str → μ × Cpp Q) (m : μ)
    {t t' : Str} (h : (lines t).map words = (lines t').map words) :
    readQueryGroups mapQuery m t = readQueryGroups mapQuery m t' := by
  unfold readQueryGroups IStream.ofStr
  rw [readGroupLines_eq mapQuery _ m [] t (Nat.lt_succ_self _),
    readGroupLines_eq mapQuery _ m [] t' (Nat.lt_succ_self _)]
  exact groupList_words mapQuery _ _ m [] h

theorem traceQueryMap_words [DecidableEq Q] (mapQuery : μ → Str → μ × Cpp Q) {w w' : World}
    {o : ToolOptions} (m : μ) (h : SameQueries o w w') :
    traceQueryMap mapQuery w o m = traceQueryMap mapQuery w' o m := by
  unfold traceQueryMap
  split
  case isTrue hc =>
    have hs := h.set hc.1
    revert hs
    cases w.file o.querySet <;> cases w'.file o.querySet <;> intro hs
    · rfl
    · simp at hs
    · simp at hs
    · simp only [Option.map_some, Option.some.injEq] at hs
      simp only [readQuerySet_words mapQuery m hs]
  case isFalse hc =>
    split
    case isTrue hg =>
      have hs := h.groups hg
      revert hs
      cases w.file o.queryGroups <;> cases w'.file o.queryGroups <;> intro hs
      · rfl
      · simp at hs
      · simp at hs
      · simp only [Option.map_some, Option.some.injEq] at hs
        simp only [readQueryGroups_words mapQuery m hs]
    case isFalse hg => rfl

theorem readQueryMap_words [DecidableEq Q] (mapQuery : μ → Str → μ × Cpp Q) {w w' : World}
    {o : ToolOptions} (m : μ) (h : SameQueries o w w') :
    readQueryMap mapQuery w o m = readQueryMap mapQuery w' o m := by
  unfold readQueryMap
  split
  case isTrue hc =>
    have hs := h.set hc.1
    revert hs
    cases w.file o.querySet <;> cases w'.file o.querySet <;> intro hs
    · rfl
    · simp at hs
    · simp at hs
    · simp only [Option.map_some, Option.some.injEq] at hs
      simp only [readQuerySet_words mapQuery m hs]
  case isFalse hc =>
    split
    case isTrue hg =>
      have hs := h.groups hg
      revert hs
      cases w.file o.queryGroups <;> cases w'.file o.queryGroups <;> intro hs
      · rfl
      · simp at hs
      · simp at hs
      · simp only [Option.map_some, Option.some.injEq] at hs
        simp only [readQueryGroups_words mapQuery m hs]
    case isFalse hg => rfl

/-! ## The other uses of the file system -/

theorem evaluate_writable [DecidableEq Q] [Cmp Q] [Cmp L] (R : Rnd) (S : StdSort) (rng : Rng G)
    (kit : ToolKit μ σ Q L) {w w' : World} (h : w.writable = w'.writable) (o : ToolOptions)
    (q2g : List (Q × Q)) (refs : List (Event Q L)) (hyps : List (ScoredEvent Q L)) :
    evaluate R S rng kit w o q2g refs hyps = evaluate R S rng kit w' o q2g refs hyps := by
  obtain ⟨f, s, wr⟩ := w
  obtain ⟨f', s', wr'⟩ := w'
  obtain rfl : wr = wr' := h
  rfl

theorem traceEvaluate_writable [DecidableEq Q] [Cmp Q] [Cmp L] (R : Rnd) (S : StdSort)
    (rng : Rng G) (kit : ToolKit μ σ Q L) (texts : ToolTexts Q L) {w w' : World}
    (h : w.writable = w'.writable) (o : ToolOptions)
    (q2g : List (Q × Q)) (refs : List (Event Q L)) (hyps : List (ScoredEvent Q L)) :
    traceEvaluate R S rng kit texts w o q2g refs hyps =
      traceEvaluate R S rng kit texts w' o q2g refs hyps := by
  obtain ⟨f, s, wr⟩ := w
  obtain ⟨f', s', wr'⟩ := w'
  obtain rfl : wr = wr' := h
  rfl

theorem traceEvaluateD_writable [DecidableEq Q] [Cmp Q] [Cmp L] (R : Rnd) (lm : Libm)
    (S : StdSort) (rng : Rng G) (kit : ToolKit μ σ Q L) (texts : ToolTexts Q L) {w w' : World}
    (h : w.writable = w'.writable) (o : ToolOptions)
    (q2g : List (Q × Q)) (refs : List (Event Q L)) (hyps : List (ScoredEvent Q L)) :
    traceEvaluateD R lm S rng kit texts w o q2g refs hyps =
      traceEvaluateD R lm S rng kit texts w' o q2g refs hyps := by
  obtain ⟨f, s, wr⟩ := w
  obtain ⟨f', s', wr'⟩ := w'
  obtain rfl : wr = wr' := h
  rfl

end

end Kws
