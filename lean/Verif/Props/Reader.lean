import Verif.Lemmas.Grammar

/-!
# C47 - C51, C63: reading the input files

`readPlain ex text` reads a file with the extractor `ex`, `readEvents ex map m text` reads it through
a mapper with state `m`. `Format R ex G` says that `ex` is one of the four extractors in use and `G`
its grammar.
-/

namespace Kws
open Spec IStream

section
variable {R : Rnd} {E : Type} {ex : Extractor E} {G : Str → E → Str → Prop} {μ E2 : Type}

/-! ## C47 -/

theorem readLines_same (hex : WellBehaved ex) (map : μ → E → μ × Cpp E2) {ls ls' : List Str}
    (h : SameContent ls ls') : ∀ (n n' : Nat) (m : μ),
      (readLines ex map n m ls).1 = (readLines ex map n' m ls').1 ∧
      (readLines ex map n m ls).2.1 = (readLines ex map n' m ls').2.1 ∧
      SameOutcome (readLines ex map n m ls).2.2 (readLines ex map n' m ls').2.2 := by
  induction h with
  | nil => exact fun n n' m => ⟨rfl, rfl, .ok⟩
  | @line l l' ls ls' ht _ ih =>
    intro n n' m
    have hl : readLine ex l = readLine ex l' := by
      rw [← readLine_trim hex l, ht, readLine_trim hex l']
    simp only [readLines, hl]
    cases readLine ex l' with
    | skip => exact ih _ _ _
    | bad => exact ⟨rfl, rfl, .badLine⟩
    | fault f => exact ⟨rfl, rfl, .fault⟩
    | event e =>
      simp only
      rcases map m e with ⟨m', f | e'⟩
      · exact ⟨rfl, rfl, .fault⟩
      · obtain ⟨h1, h2, h3⟩ := ih (n + 1) (n' + 1) m'
        exact ⟨h1, by simp only [h2], h3⟩
  | @left l ls ls' hi _ ih =>
    intro n n' m
    simp only [readLines, readLine_ignored ex l hi]
    exact ih _ _ _
  | @right l ls ls' hi _ ih =>
    intro n n' m
    simp only [readLines, readLine_ignored ex l hi]
    exact ih _ _ _

/-- C47: deleting or inserting comment and blank lines and adding or removing whitespace around
lines changes neither the events, nor the state of the mapper, nor whether reading succeeds. -/
theorem C47_irrelevant (h : Format R ex G) (map : μ → E → μ × Cpp E2) (m : μ) (t t' : Str)
    (hs : SameContent (lines t) (lines t')) :
    (readEvents ex map m t).1 = (readEvents ex map m t').1 ∧
    (readEvents ex map m t).2.1 = (readEvents ex map m t').2.1 ∧
    SameOutcome (readEvents ex map m t).2.2 (readEvents ex map m t').2.2 := by
  rw [readEvents_lines, readEvents_lines]
  exact readLines_same h.wb map hs 1 1 m

/-- C47: if only whitespace around lines is added or removed, even the reported line number is the
same. -/
theorem C47_whitespace (h : Format R ex G) (map : μ → E → μ × Cpp E2) (m : μ) (t t' : Str)
    (hs : List.Forall₂ (fun l l' => trim l = trim l') (lines t) (lines t')) :
    readEvents ex map m t = readEvents ex map m t' := by
  rw [readEvents_lines, readEvents_lines]
  suffices ∀ (n : Nat) (m : μ), readLines ex map n m (lines t) = readLines ex map n m (lines t') from
    this 1 m
  generalize lines t = ls, lines t' = ls' at hs
  induction hs with
  | nil => exact fun n m => rfl
  | @cons l l' ls ls' ht _ ih =>
    intro n m
    have hl : readLine ex l = readLine ex l' := by
      rw [← readLine_trim h.wb l, ht, readLine_trim h.wb l']
    simp only [readLines, hl, ih]

/-- Case: a comment, an empty line, indentation and carriage returns. -/
example : (SameContent (lines "# refs\nq d\n".toList) (lines "\n  q d \r\n#\n".toList)) ∧
    readPlain extractStrEvent "# refs\nq d\n".toList = ([⟨['q'], ['d']⟩], .ok) ∧
    readPlain extractStrEvent "\n  q d \r\n#\n".toList = ([⟨['q'], ['d']⟩], .ok) := by
  refine ⟨?_, by decide +kernel, by decide +kernel⟩
  have h1 : lines "# refs\nq d\n".toList = ["# refs".toList, "q d".toList] := by decide
  have h2 : lines "\n  q d \r\n#\n".toList = ["".toList, "  q d \r".toList, "#".toList] := by decide
  rw [h1, h2]
  have b : Ignored "".toList := Or.inl (by intro c hc; simp at hc)
  have c1 : Ignored "# refs".toList := Or.inr ⟨[], " refs".toList, by decide, by intro c hc; simp at hc⟩
  have c2 : Ignored "#".toList := Or.inr ⟨[], [], by decide, by intro c hc; simp at hc⟩
  exact .left c1 (.right b (.line (by decide) (.right c2 .nil)))

/-! ## C48 -/

/-- C48: reading succeeds with the events `es` exactly if every line is ignored or consists of one
event and nothing else, and these events are `es`. -/
theorem C48_accepts (h : Format R ex G) (t : Str) (es : List E) :
    readPlain ex t = (es, .ok) ↔ Yields G (lines t) es := by
  unfold readPlain
  rw [readEvents_lines]
  suffices ∀ (ls : List Str) (n : Nat) (es : List E),
      (readLines ex identityMap n () ls).2 = (es, .ok) ↔ Yields G ls es from this _ 1 es
  intro ls
  induction ls with
  | nil =>
    intro n es
    constructor
    · intro hr
      injection hr with h1 _
      subst h1
      exact .nil
    · rintro ⟨⟩
      rfl
  | cons l ls ih =>
    intro n es
    by_cases hn : Ignored l
    · simp only [readLines, readLine_ignored ex l hn]
      rw [ih]
      constructor
      · exact fun hy => .skip hn hy
      · intro hy
        cases hy with
        | skip _ hy => exact hy
        | event hn' _ _ => exact absurd hn hn'
    · cases hr : readLine ex l with
      | skip => exact absurd ((readLine_skip_iff h.wb l).1 hr) hn
      | fault f =>
        exfalso
        rcases readLine_trichotomy h.wb l with h' | h' | ⟨e, h'⟩ <;> rw [hr] at h' <;> cases h'
      | bad =>
        simp only [readLines, hr]
        constructor
        · intro h'
          injection h' with _ h'
          cases h'
        · intro hy
          cases hy with
          | skip hi _ => exact absurd hi hn
          | event _ he _ => exact absurd ⟨_, he⟩ ((h.readLine_bad l).1 hr).2
      | event e =>
        simp only [readLines, hr, identityMap]
        constructor
        · intro h'
          injection h' with h1 h2
          subst h1
          exact .event hn ((h.readLine_event l e).1 hr).2 ((ih (n + 1) _).1 (Prod.ext rfl h2))
        · intro hy
          cases hy with
          | skip hi _ => exact absurd hi hn
          | @event _ _ e' es' _ he hy =>
            have : e = e' := by
              have h2 := (h.readLine_event l e').2 ⟨hn, he⟩
              rw [hr] at h2
              injection h2
            subst this
            have := Prod.ext_iff.1 ((ih (n + 1) _).2 hy)
            rw [this.1, this.2]

/-- C48: otherwise reading fails at the first line that is neither ignored nor an event, having
produced the events of the lines before. -/
theorem C48_rejects (h : Format R ex G) (t : Str) (es : List E) (k : Nat) :
    readPlain ex t = (es, .badLine k) ↔ ∃ pre l post, lines t = pre ++ l :: post ∧
      k = pre.length + 1 ∧ Yields G pre es ∧ ¬ Ignored l ∧ ¬ ∃ e, IsEvent G l e := by
  unfold readPlain
  rw [readEvents_lines]
  suffices ∀ (ls : List Str) (n : Nat) (es : List E),
      (readLines ex identityMap n () ls).2 = (es, .badLine k) ↔ ∃ pre l post, ls = pre ++ l :: post ∧
      k = pre.length + n ∧ Yields G pre es ∧ ¬ Ignored l ∧ ¬ ∃ e, IsEvent G l e from this _ 1 es
  intro ls
  induction ls with
  | nil =>
    intro n es
    constructor
    · intro hr
      injection hr with _ h2
      cases h2
    · rintro ⟨pre, l, post, e, _⟩
      simp at e
  | cons l ls ih =>
    intro n es
    by_cases hn : Ignored l
    · simp only [readLines, readLine_ignored ex l hn]
      rw [ih]
      constructor
      · rintro ⟨pre, l', post, rfl, rfl, hy, hbad⟩
        exact ⟨l :: pre, l', post, rfl, by simp only [List.length_cons]; omega, .skip hn hy, hbad⟩
      · rintro ⟨pre, l', post, e, hk, hy, hbad⟩
        cases pre with
        | nil =>
          obtain ⟨rfl, _⟩ := List.cons.inj e
          exact absurd hn hbad.1
        | cons l0 pre =>
          obtain ⟨rfl, rfl⟩ := List.cons.inj e
          refine ⟨pre, l', post, rfl, by simp only [List.length_cons] at hk; omega, ?_, hbad⟩
          cases hy with
          | skip _ hy => exact hy
          | event hn' _ _ => exact absurd hn hn'
    · cases hr : readLine ex l with
      | skip => exact absurd ((readLine_skip_iff h.wb l).1 hr) hn
      | fault f =>
        exfalso
        rcases readLine_trichotomy h.wb l with h' | h' | ⟨e, h'⟩ <;> rw [hr] at h' <;> cases h'
      | bad =>
        simp only [readLines, hr]
        have hb := (h.readLine_bad l).1 hr
        constructor
        · intro h'
          injection h' with h1 h2
          injection h2 with h2
          subst h1
          exact ⟨[], l, ls, rfl, by simpa using h2.symm, .nil, hb⟩
        · rintro ⟨pre, l', post, e, hk, hy, hbad⟩
          cases pre with
          | nil =>
            cases hy
            simp only [List.length_nil, Nat.zero_add] at hk
            rw [hk]
          | cons l0 pre =>
            obtain ⟨rfl, rfl⟩ := List.cons.inj e
            cases hy with
            | skip hi _ => exact absurd hi hn
            | event _ he _ => exact absurd ⟨_, he⟩ hb.2
      | event e =>
        simp only [readLines, hr, identityMap]
        have he := (h.readLine_event l e).1 hr
        constructor
        · intro h'
          injection h' with h1 h2
          subst h1
          obtain ⟨pre, l', post, rfl, hk, hy, hbad⟩ := (ih (n + 1) _).1 (Prod.ext rfl h2)
          exact ⟨l :: pre, l', post, rfl, by simp only [List.length_cons]; omega,
            .event hn he.2 hy, hbad⟩
        · rintro ⟨pre, l', post, e', hk, hy, hbad⟩
          cases pre with
          | nil =>
            obtain ⟨rfl, _⟩ := List.cons.inj e'
            exact absurd ⟨e, he.2⟩ hbad.2
          | cons l0 pre =>
            obtain ⟨rfl, rfl⟩ := List.cons.inj e'
            cases hy with
            | skip hi _ => exact absurd hi hn
            | @event _ _ e'' es' _ he' hy =>
              have : e = e'' := by
                have h2 := (h.readLine_event l e'').2 ⟨hn, he'⟩
                rw [hr] at h2
                injection h2
              subst this
              have := Prod.ext_iff.1 ((ih (n + 1) _).2
                ⟨pre, l', post, rfl, by simp only [List.length_cons] at hk; omega, hy, hbad⟩)
              exact Prod.ext (congrArg (e :: ·) this.1) this.2

/-- C48: there is no other outcome; in particular no event is used without having been read. -/
theorem C48_outcomes (h : Format R ex G) (t : Str) :
    (readPlain ex t).2 = .ok ∨ ∃ k, (readPlain ex t).2 = .badLine k := by
  unfold readPlain
  rw [readEvents_lines]
  suffices ∀ (ls : List Str) (n : Nat), (readLines ex identityMap n () ls).2.2 = .ok ∨
      ∃ k, (readLines ex identityMap n () ls).2.2 = .badLine k from this _ 1
  intro ls
  induction ls with
  | nil => exact fun n => Or.inl rfl
  | cons l ls ih =>
    intro n
    rcases readLine_trichotomy h.wb l with hr | hr | ⟨e, hr⟩
    · simp only [readLines, hr]
      exact ih _
    · simp only [readLines, hr]
      exact Or.inr ⟨n, rfl⟩
    · simp only [readLines, hr, identityMap]
      exact ih _

/-- C48: reading through a mapper gives the mapped events of the lines read without a mapper, up to
the first event the mapper refuses. -/
theorem C48_mapped (ex : Extractor E) (map : μ → E → μ × Cpp E2) (m : μ) (t : Str) :
    let p := readPlain ex t
    let r := mapEach map m p.1
    readEvents ex map m t = (r.1, r.2.1, match r.2.2 with
      | none => p.2
      | some f => .fault f) := by
  unfold readPlain
  simp only [readEvents_lines]
  suffices ∀ (ls : List Str) (n : Nat) (m : μ),
      readLines ex map n m ls =
        ((mapEach map m (readLines ex identityMap n () ls).2.1).1,
          (mapEach map m (readLines ex identityMap n () ls).2.1).2.1,
          match (mapEach map m (readLines ex identityMap n () ls).2.1).2.2 with
          | none => (readLines ex identityMap n () ls).2.2
          | some f => .fault f) from this _ 1 m
  intro ls
  induction ls with
  | nil => exact fun n m => rfl
  | cons l ls ih =>
    intro n m
    simp only [readLines]
    cases readLine ex l with
    | skip => exact ih _ _
    | bad => rfl
    | fault f => rfl
    | event e =>
      simp only [identityMap, mapEach]
      rcases map m e with ⟨m', f | e'⟩
      · rfl
      · simp only [ih (n + 1) m']

end

/-- Case: the third line has a word too many. -/
example : readPlain extractStrEvent "q d\n#\np e f\nr s\n".toList =
    ([⟨['q'], ['d']⟩], .badLine 3) := by decide +kernel

/-! ### Lines as words -/

theorem textField_words {l w r : Str} (h : TextField l w r) : words l = w :: words r := by
  obtain ⟨sp, rfl, hsp, hw, he⟩ := h
  rw [words_blank_append _ _ hsp, words_word w r hw he]

theorem words_textField {l w : Str} {ws : List Str} (h : words l = w :: ws) :
    ∃ r, TextField l w r ∧ words r = ws := by
  obtain ⟨sp, r, e, hsp, hw, hst, h2⟩ := words_cons h
  exact ⟨r, ⟨sp, e, hsp, hw, hst⟩, h2⟩

/-- C48: in the segmentation-based formats a line is an event exactly if it consists of two words. -/
theorem C48_str_words (l : Str) (e : Event Str Str) :
    IsEvent StrEventText l e ↔ words l = [e.query, e.location] := by
  constructor
  · rintro ⟨r, ⟨r1, h1, h2⟩, hb⟩
    rw [textField_words h1, textField_words h2, words_nil.2 hb]
  · intro h
    obtain ⟨r1, h1, h2⟩ := words_textField h
    obtain ⟨r2, h3, h4⟩ := words_textField h2
    exact ⟨r2, ⟨r1, h1, h3⟩, words_nil.1 h4⟩

theorem scoreField_words {R : Rnd} {r : Str} {v : Flt} :
    (∃ r', ScoreField R r v r' ∧ Blank r') ↔
      ∃ n q, words r = [n] ∧ DenotesReal n q ∧ |R.f32 q| ≤ fltMax ∧ v = .fin (R.f32 q) := by
  constructor
  · rintro ⟨r', ⟨sp, w, q, rfl, hsp, hd, hb, ha, hv⟩, _⟩
    refine ⟨w, q, ?_, hd, ha, hv⟩
    rw [words_blank_append _ _ hsp, words_word w r' hd.word hb.stop, words_nil.2 hb]
  · rintro ⟨n, q, hw, hd, ha, hv⟩
    obtain ⟨sp, r', e, hsp, hword, hst, h2⟩ := words_cons hw
    exact ⟨r', ⟨sp, n, q, e, hsp, hd, words_nil.1 h2, ha, hv⟩, words_nil.1 h2⟩

/-- C48: ... and, for hypotheses, of two words and a number that does not overflow. -/
theorem C48_scored_str_words (R : Rnd) (l : Str) (e : ScoredEvent Str Str) :
    IsEvent (ScoredText R StrEventText) l e ↔
      ∃ n q, words l = [e.base.query, e.base.location, n] ∧ DenotesReal n q ∧
        |R.f32 q| ≤ fltMax ∧ e.score = .fin (R.f32 q) := by
  constructor
  · rintro ⟨r, ⟨r2, ⟨r1, h1, h2⟩, h3⟩, hb⟩
    obtain ⟨n, q, hw, hrest⟩ := scoreField_words.1 ⟨r, h3, hb⟩
    exact ⟨n, q, by rw [textField_words h1, textField_words h2, hw], hrest⟩
  · rintro ⟨n, q, hw, hrest⟩
    obtain ⟨r1, h1, h2⟩ := words_textField hw
    obtain ⟨r2, h3, h4⟩ := words_textField h2
    obtain ⟨r', h5, hb⟩ := scoreField_words.2 ⟨n, q, h4, hrest⟩
    exact ⟨r', ⟨r2, ⟨r1, h1, h3⟩, h5⟩, hb⟩

theorem stop_numeralEnded {r : Str} (h : Stop r) : NumeralEnded r := fun c hc => digit_stop c (h c hc)

theorem words_coordField {l w : Str} {ws : List Str} {z : Int} {v : UInt32} (h : words l = w :: ws)
    (hd : Denotes w z) (ha : |z| ≤ 2 ^ 32 - 1) (hv : (v.toNat : Int) = z % 2 ^ 32) :
    ∃ r, CoordField l v r ∧ words r = ws := by
  obtain ⟨sp, r, e, hsp, hw, hst, h2⟩ := words_cons h
  exact ⟨r, ⟨sp, w, z, e, hsp, hd, stop_numeralEnded hst, ha, hv⟩, h2⟩

/-- The words denote the numbers of a box. -/
def Spec.CoordWord (w : Str) (v : UInt32) : Prop := Numeral w ∧ numeral w = v.toNat

theorem Spec.CoordWord.denotes {w : Str} {v : UInt32} (h : CoordWord w v) :
    Denotes w (v.toNat : Int) ∧ |(v.toNat : Int)| ≤ 2 ^ 32 - 1 ∧
      (v.toNat : Int) = (v.toNat : Int) % 2 ^ 32 := by
  have hlt := v.toNat_lt
  refine ⟨⟨[], false, w, rfl, .none, h.1, by simp [h.2]⟩, ?_, ?_⟩
  · rw [abs_of_nonneg (by omega)]
    omega
  · omega

/-- C48: in the bounding-box formats, six words of which the last four are numerals below `2^32` are
an event. (The converse is C63.) -/
theorem C48_box_words (l q d x y w h : Str) (b : BBox UInt32)
    (hl : words l = [q, d, x, y, w, h]) (hx : CoordWord x b.x) (hy : CoordWord y b.y)
    (hw : CoordWord w b.w) (hh : CoordWord h b.h) :
    IsEvent BoxEventText l ⟨q, ⟨b, d⟩⟩ := by
  obtain ⟨r1, h1, e1⟩ := words_textField hl
  obtain ⟨r2, h2, e2⟩ := words_textField e1
  obtain ⟨a, a', a''⟩ := hx.denotes
  obtain ⟨r3, h3, e3⟩ := words_coordField e2 a a' a''
  obtain ⟨a, a', a''⟩ := hy.denotes
  obtain ⟨r4, h4, e4⟩ := words_coordField e3 a a' a''
  obtain ⟨a, a', a''⟩ := hw.denotes
  obtain ⟨r5, h5, e5⟩ := words_coordField e4 a a' a''
  obtain ⟨a, a', a''⟩ := hh.denotes
  obtain ⟨r6, h6, e6⟩ := words_coordField e5 a a' a''
  exact ⟨r6, ⟨r1, r2, h1, h2, r3, r4, r5, h3, h4, h5, h6⟩, words_nil.1 e6⟩

example : words "q1 page 10 20 30 40 ".toList =
      ["q1".toList, "page".toList, "10".toList, "20".toList, "30".toList, "40".toList] ∧
    readPlain extractBoxEvent "q1 page 10 20 30 40 \n".toList =
      ([⟨"q1".toList, ⟨⟨10, 20, 30, 40⟩, "page".toList⟩⟩], .ok) := by
  constructor <;> decide +kernel

/-! ## C63 -/

/-- C63 is false: coordinates can follow each other without whitespace, signs separate them. -/
theorem C63_separated_refuted : ∃ t e, readPlain extractBoxEvent t = ([e], .ok) ∧
    ∀ l ∈ lines t, (words l).length = 3 :=
  ⟨"q d 1+2+3+4\n".toList, ⟨['q'], ⟨⟨1, 2, 3, 4⟩, ['d']⟩⟩, by decide +kernel, by decide +kernel⟩

/-- C63 is false: in a hypothesis file the fraction of the last coordinate is taken as a missing
score. -/
theorem C63_fraction_refuted : ∃ t e,
    readPlain (extractScored Rnd.exact extractBoxEvent) t = ([e], .ok) ∧
    t = "q d 1 2 3 4.5\n".toList ∧ e.base.location.h = 4 ∧ e.score = .fin (1 / 2) :=
  ⟨"q d 1 2 3 4.5\n".toList, ⟨⟨['q'], ⟨⟨1, 2, 3, 4⟩, ['d']⟩⟩, .fin (1 / 2)⟩, by decide +kernel, rfl,
    rfl, rfl⟩

/-- C63, what holds: in the segmentation-based formats an accepted line has two, respectively three
words. -/
theorem C63_separated_partial (R : Rnd) (l : Str) :
    (∀ e, IsEvent StrEventText l e → (words l).length = 2) ∧
    (∀ e, IsEvent (ScoredText R StrEventText) l e → (words l).length = 3) := by
  constructor
  · intro e h
    rw [(C48_str_words l e).1 h]
    rfl
  · intro e h
    obtain ⟨n, q, hw, _⟩ := (C48_scored_str_words R l e).1 h
    rw [hw]
    rfl

/-! ## C49 -/

theorem isDigit_of_core {c : Char} (h : c.isDigit = true) : isDigit c = true := by
  simp only [Char.isDigit, Bool.and_eq_true, decide_eq_true_eq] at h
  simp only [isDigit, Bool.and_eq_true, decide_eq_true_eq]
  exact h

theorem showNat_digits (n : Nat) : showNat n = Nat.toDigits 10 n := by
  unfold showNat
  rw [Nat.toString_eq_repr, Nat.toList_repr]

theorem showNat_numeral (n : Nat) : Numeral (showNat n) := by
  rw [showNat_digits]
  exact ⟨Nat.toDigits_ne_nil, fun c hc =>
    isDigit_of_core (Nat.isDigit_of_mem_toDigits (by decide) (by decide) hc)⟩

theorem showNat_value (n : Nat) : numeral (showNat n) = n := by
  rw [← natVal_eq, showNat_digits]
  have h := Nat.ofDigitChars_ten_toDigits (n := n)
  rw [Nat.ofDigitChars_eq_foldl] at h
  exact h

theorem showNat_coord (v : UInt32) : CoordWord (showNat v.toNat) v :=
  ⟨showNat_numeral _, showNat_value _⟩

theorem Spec.Numeral.word {w : Str} (h : Numeral w) : Word w :=
  ⟨h.1, fun c hc => isDigit_not_space (h.2 c hc)⟩

theorem stop_space (r : Str) : Stop (' ' :: r) := by
  intro c hc
  simp only [List.head?_cons, Option.some.injEq] at hc
  subst hc
  decide

theorem words_space {w r : Str} (hw : Word w) : words (w ++ ' ' :: r) = w :: words r := by
  rw [words_word w _ hw (stop_space r)]
  rw [show ' ' :: r = [' '] ++ r from rfl, words_blank_append [' '] r (by simp [Blank, isSpace])]

theorem words_one {w : Str} (hw : Word w) : words w = [w] := by
  have := words_word w [] hw stop_nil
  rw [List.append_nil] at this
  rw [this]
  rfl

/-- A query: a word that does not start a comment. -/
def Spec.QueryWord (q : Str) : Prop := Word q ∧ q.head? ≠ some '#'

theorem not_ignored_query {q r : Str} (h : QueryWord q) : ¬ Ignored (q ++ r) := by
  obtain ⟨⟨hne, hns⟩, hh⟩ := h
  cases q with
  | nil => exact absurd rfl hne
  | cons c q =>
    rw [ignored_iff]
    have hc : isSpace c = false := hns c (by simp)
    have hd : ((c :: q) ++ r).dropWhile isSpace = c :: (q ++ r) := by simp [hc]
    rw [hd]
    rintro (h | ⟨t, h⟩)
    · cases h
    · rw [(List.cons.inj h).1] at hh
      exact hh rfl

theorem showStrEvent_event {e : Event Str Str} (hq : QueryWord e.query) (hl : Word e.location) :
    ¬ Ignored (showStrEvent e) ∧ IsEvent StrEventText (showStrEvent e) e := by
  refine ⟨not_ignored_query hq, (C48_str_words _ e).2 ?_⟩
  unfold showStrEvent
  rw [words_space hq.1, words_one hl]

theorem showBoxEvent_event {e : Event Str (DocBox Str UInt32)} (hq : QueryWord e.query)
    (hd : Word e.location.document) :
    ¬ Ignored (showBoxEvent e) ∧ IsEvent BoxEventText (showBoxEvent e) e := by
  refine ⟨not_ignored_query hq, ?_⟩
  refine C48_box_words _ e.query e.location.document _ _ _ _ e.location.toBBox ?_
    (showNat_coord _) (showNat_coord _) (showNat_coord _) (showNat_coord _)
  unfold showBoxEvent showDocBox showBox
  simp only [List.append_assoc, List.cons_append]
  rw [words_space hq.1, words_space hd, words_space (showNat_numeral _).word,
    words_space (showNat_numeral _).word, words_space (showNat_numeral _).word,
    words_one (showNat_numeral _).word]

/-- Text in which every event is on a line of its own. -/
def Spec.onLines {E : Type} (sh : E → Str) (es : List E) : Str := es.flatMap fun e => sh e ++ ['\n']

theorem lines_onLines {E : Type} (sh : E → Str) (es : List E)
    (h : ∀ e ∈ es, '\n' ∉ sh e) : lines (onLines sh es) = es.map sh := by
  have key : ∀ (x r : Str), '\n' ∉ x → lines (x ++ '\n' :: r) = x :: lines r := by
    intro x r hx
    induction x with
    | nil => simp [lines]
    | cons c x ih =>
      have hc : c ≠ '\n' := fun e => hx (by simp [e])
      have := ih fun hm => hx (List.mem_cons_of_mem _ hm)
      rw [List.cons_append]
      conv_lhs => unfold lines
      rw [if_neg hc, this]
  induction es with
  | nil => rfl
  | cons e es ih =>
    have e1 : onLines sh (e :: es) = sh e ++ '\n' :: onLines sh es := by
      simp [onLines]
    rw [e1, key _ _ (h e (by simp)), ih fun x hx => h x (by simp [hx])]
    rfl

theorem word_no_newline {w : Str} (h : Word w) : '\n' ∉ w := by
  intro hm
  have := h.2 _ hm
  exact absurd this (by decide)

/-- C49: writing segmentation-based events and reading the text gives the events. -/
theorem C49_str (es : List (Event Str Str))
    (h : ∀ e ∈ es, QueryWord e.query ∧ Word e.location) :
    readPlain extractStrEvent (onLines showStrEvent es) = (es, .ok) := by
  rw [C48_accepts (R := Rnd.exact) .strRefs, lines_onLines]
  · induction es with
    | nil => exact .nil
    | cons e es ih =>
      obtain ⟨hq, hl⟩ := h e (by simp)
      obtain ⟨h1, h2⟩ := showStrEvent_event hq hl
      exact .event h1 h2 (ih fun x hx => h x (by simp [hx]))
  · intro e he hm
    obtain ⟨hq, hl⟩ := h e he
    rcases List.mem_append.1 hm with hm | hm
    · exact word_no_newline hq.1 hm
    · rcases List.mem_cons.1 hm with hm | hm
      · exact absurd hm (by decide)
      · exact word_no_newline hl hm

/-- C49: writing bounding-box events and reading the text gives the events. -/
theorem C49_box (es : List (Event Str (DocBox Str UInt32)))
    (h : ∀ e ∈ es, QueryWord e.query ∧ Word e.location.document) :
    readPlain extractBoxEvent (onLines showBoxEvent es) = (es, .ok) := by
  rw [C48_accepts (R := Rnd.exact) .boxRefs, lines_onLines]
  · induction es with
    | nil => exact .nil
    | cons e es ih =>
      obtain ⟨hq, hd⟩ := h e (by simp)
      obtain ⟨h1, h2⟩ := showBoxEvent_event hq hd
      exact .event h1 h2 (ih fun x hx => h x (by simp [hx]))
  · intro e he hm
    obtain ⟨hq, hd⟩ := h e he
    simp only [showBoxEvent, showDocBox, showBox, List.append_assoc, List.cons_append,
      List.mem_append, List.mem_cons] at hm
    have hnum : ∀ n, '\n' ∉ showNat n := fun n => word_no_newline (showNat_numeral n).word
    rcases hm with hm | hm | hm | hm | hm | hm | hm | hm | hm | hm | hm
    · exact word_no_newline hq.1 hm
    · exact absurd hm (by decide)
    · exact word_no_newline hd hm
    · exact absurd hm (by decide)
    · exact hnum _ hm
    · exact absurd hm (by decide)
    · exact hnum _ hm
    · exact absurd hm (by decide)
    · exact hnum _ hm
    · exact absurd hm (by decide)
    · exact hnum _ hm

/-- Case: two boxes, one with the largest coordinates. -/
example : onLines showBoxEvent [⟨['q'], ⟨⟨0, 7, 4294967295, 4294967295⟩, ['d']⟩⟩,
      ⟨['r'], ⟨⟨1, 2, 3, 4⟩, ['d']⟩⟩] =
    "q d 0 7 4294967295 4294967295\nr d 1 2 3 4\n".toList ∧
    QueryWord ['q'] ∧ QueryWord ['r'] ∧ Word ['d'] := by
  refine ⟨by decide +kernel, ⟨⟨by decide, by decide⟩, by decide⟩, ⟨⟨by decide, by decide⟩, by decide⟩,
    by decide, by decide⟩

/-- C49, the condition on the query: a query that starts with `#` is written but not read back. -/
theorem C49_comment : readPlain extractStrEvent (onLines showStrEvent [⟨"#q".toList, ['d']⟩]) =
    ([], .ok) := by decide +kernel

/-! ## C50 -/

/-- C50 is false: a negative number is accepted and stored modulo `2^32`. -/
theorem C50_range_refuted : ∃ w v z, extractU32 (IStream.ofStr w) = (⟨[], true, false⟩, some v) ∧
    Denotes w z ∧ ¬ (0 ≤ z) ∧ v.toNat = 4294967295 :=
  ⟨"-1".toList, 4294967295, -1, by decide +kernel,
    ⟨['-'], true, ['1'], rfl, .minus, ⟨by decide, by decide⟩, by decide⟩, by decide, by decide⟩

/-- C50 is false for whole files: a box of width 4294967295 from the text `-1`. -/
theorem C50_file_refuted : readPlain extractBoxEvent "q d 5 5 -1 1\n".toList =
    ([⟨['q'], ⟨⟨5, 5, 4294967295, 1⟩, ['d']⟩⟩], .ok) := by decide +kernel

/-- C50, what holds: exactly the integers of magnitude at most `2^32-1` are accepted, and the
coordinate is the number modulo `2^32`. -/
theorem C50_accepted_partial (w : Str) (v : UInt32) :
    extractU32 (IStream.ofStr w) = (⟨[], true, false⟩, some v) ↔
      ∃ sp w' z, w = sp ++ w' ∧ Blank sp ∧ Denotes w' z ∧ |z| ≤ 2 ^ 32 - 1 ∧
        (v.toNat : Int) = z % 2 ^ 32 := by
  have h := extractU32_parses.iff (IStream.ofStr w) (ready_start w) v []
  rw [show (([] : Str).isEmpty) = true from rfl] at h
  rw [h]
  unfold CoordField IStream.ofStr
  simp only [List.append_nil]
  constructor
  · rintro ⟨sp, w', z, e, hsp, hd, _, ha, hv⟩
    exact ⟨sp, w', z, e, hsp, hd, ha, hv⟩
  · rintro ⟨sp, w', z, e, hsp, hd, ha, hv⟩
    exact ⟨sp, w', z, e, hsp, hd, by intro c hc; simp at hc, ha, hv⟩

theorem denotes_unique {w : Str} {z z' : Int} (h : Denotes w z) (h' : Denotes w z') : z = z' := by
  have hn : NumeralEnded [] := by intro c hc; simp at hc
  rw [(h.scan hn).2.2, (h'.scan hn).2.2]

/-- C50, what holds: a text denoting a number from 0 to `2^32-1` is accepted with this value, and a
numeral above is rejected. -/
theorem C50_in_range_partial (w : Str) (z : Int) (hd : Denotes w z) (hz : 0 ≤ z) :
    (z < 2 ^ 32 → ∃ v : UInt32, extractU32 (IStream.ofStr w) = (⟨[], true, false⟩, some v) ∧
      (v.toNat : Int) = z) ∧
    (2 ^ 32 ≤ z → (extractU32 (IStream.ofStr w)).1.fail = true) := by
  constructor
  · intro hlt
    refine ⟨UInt32.ofNat z.toNat, (C50_accepted_partial w _).2
      ⟨[], w, z, rfl, blank_nil, hd, ?_, ?_⟩, ?_⟩
    · rw [abs_of_nonneg hz]; omega
    · rw [UInt32.toNat_ofNat']; omega
    · rw [UInt32.toNat_ofNat']; omega
  · intro hge
    by_contra hf
    rw [Bool.not_eq_true] at hf
    obtain ⟨v, r', hv⟩ := extractU32_parses.ok _ (ready_start w) hf
    obtain ⟨sp, w', z', e, hsp, hd', he, ha, _⟩ :=
      (extractU32_parses.iff _ (ready_start w) v r').1 hv
    simp only at e
    -- `w` is a single word that starts with the sign and digits of `w'`
    have hsp0 : sp = [] := by
      cases sp with
      | nil => rfl
      | cons c sp =>
        have h1 := hd.word.2 c (by rw [e]; simp)
        rw [(blank_cons.1 hsp).1] at h1
        cases h1
    subst hsp0
    have hn : NumeralEnded [] := by intro c hc; simp at hc
    obtain ⟨_, h2, h3⟩ := hd.scan hn
    obtain ⟨_, h2', h3'⟩ := hd'.scan he
    rw [List.append_nil] at h2 h3
    rw [List.nil_append] at e
    rw [← e] at h2' h3'
    rw [h3'] at ha
    rw [h3] at hge hz
    cases hs : (scanSign w).1 <;> rw [hs] at ha hge hz
    · simp only [Bool.false_eq_true, if_false] at ha hge
      rw [abs_of_nonneg (by omega)] at ha
      omega
    · simp only [if_true] at hge
      omega

/-- Case: a numeral with a plus sign and leading zeros. -/
example : Denotes "+007".toList 7 ∧
    extractU32 (IStream.ofStr "+007".toList) = (⟨[], true, false⟩, some 7) ∧
    (extractU32 (IStream.ofStr "4294967296".toList)).1.fail = true :=
  ⟨⟨['+'], false, "007".toList, rfl, .plus, ⟨by decide, by decide⟩, by decide⟩, by decide +kernel,
    by decide +kernel⟩

/-! ## C51 -/

/-- C51: the events read from a hypothesis file, accepted or not, have finite scores. -/
theorem C51_finite (R : Rnd) {L : Type} {ex : Extractor (Event Str L)}
    {G : Str → Event Str L → Str → Prop} (h : Format R (extractScored R ex) (ScoredText R G))
    (t : Str) : ∀ e ∈ (readPlain (extractScored R ex) t).1, ∃ q : ℚ, e.score = .fin q ∧ |q| ≤ fltMax := by
  have key : ∀ l e, IsEvent (ScoredText R G) l e → ∃ q : ℚ, e.score = .fin q ∧ |q| ≤ fltMax := by
    rintro l e ⟨r, ⟨r1, _, sp, w, q, _, _, _, _, ha, hv⟩, _⟩
    exact ⟨_, hv, ha⟩
  have hy : ∀ (ls : List Str) (es : List (ScoredEvent Str L)),
      Yields (ScoredText R G) ls es →
      ∀ e ∈ es, ∃ q : ℚ, e.score = .fin q ∧ |q| ≤ fltMax := by
    intro ls es hy
    induction hy with
    | nil => intro e he; simp at he
    | skip _ _ ih => exact ih
    | event _ he _ ih =>
      intro e hm
      rcases List.mem_cons.1 hm with rfl | hm
      · exact key _ _ he
      · exact ih e hm
  have e : readPlain (extractScored R ex) t =
      ((readPlain (extractScored R ex) t).1, (readPlain (extractScored R ex) t).2) := rfl
  rcases C48_outcomes h t with ho | ⟨k, ho⟩
  · rw [ho] at e
    exact hy _ _ ((C48_accepts h t _).1 e)
  · rw [ho] at e
    obtain ⟨pre, l, post, _, _, hyl, _⟩ := (C48_rejects h t _ k).1 e
    exact hy _ _ hyl

/-- C51: the texts `nan` and `inf` and overflowing numbers are rejected. -/
example : (∃ k, (readPlain (extractScored Rnd.exact extractStrEvent) "q d nan\n".toList).2 = .badLine k) ∧
    (∃ k, (readPlain (extractScored Rnd.exact extractStrEvent) "q d inf\n".toList).2 = .badLine k) ∧
    (∃ k, (readPlain (extractScored Rnd.exact extractStrEvent) "q d 1e39\n".toList).2 = .badLine k) ∧
    readPlain (extractScored Rnd.exact extractStrEvent) "q d -2.5e1\n".toList =
      ([⟨⟨['q'], ['d']⟩, .fin (-25)⟩], .ok) :=
  ⟨⟨1, by decide +kernel⟩, ⟨1, by decide +kernel⟩, ⟨1, by decide +kernel⟩, by decide +kernel⟩

end Kws
