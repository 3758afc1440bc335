import Verif.Lemmas.Stream

/-!
Facts about lines, words and the plain-text readers.
-/

namespace Kws
open Spec

/-! ## Words -/

theorem mem_takeWhile_imp {p : Char → Bool} {l : Str} {c : Char} (h : c ∈ l.takeWhile p) :
    p c = true := by
  induction l with
  | nil => simp at h
  | cons d l ih =>
    by_cases hd : p d = true
    · rw [List.takeWhile_cons_of_pos hd] at h
      rcases List.mem_cons.1 h with rfl | h
      · exact hd
      · exact ih h
    · rw [List.takeWhile_cons_of_neg hd] at h
      simp at h

theorem takeWhile_self {p : Char → Bool} {l : Str} (h : ∀ c ∈ l, p c = true) :
    l.takeWhile p = l := by
  induction l with
  | nil => rfl
  | cons d l ih =>
    rw [List.takeWhile_cons_of_pos (h d (by simp)), ih fun c hc => h c (by simp [hc])]

theorem blank_nil : Blank [] := by intro c h; simp at h

theorem blank_cons {c : Char} {r : Str} : Blank (c :: r) ↔ isSpace c = true ∧ Blank r := by
  unfold Blank
  simp

theorem words_blank_append (sp x : Str) (h : Blank sp) : words (sp ++ x) = words x := by
  induction sp with
  | nil => rfl
  | cons c sp ih =>
    rw [blank_cons] at h
    have : words ((c :: sp) ++ x) = words (sp ++ x) := by
      rw [List.cons_append]
      conv_lhs => unfold words
      rw [if_pos h.1]
    rw [this, ih h.2]

theorem words_word (w r : Str) (hw : Word w) (hr : Stop r) : words (w ++ r) = w :: words r := by
  obtain ⟨hne, hns⟩ := hw
  induction w with
  | nil => exact absurd rfl hne
  | cons c w ih =>
    have hc : isSpace c = false := hns c (by simp)
    cases w with
    | nil =>
      cases r with
      | nil => simp [words, hc]
      | cons d r =>
        have hd := hr d rfl
        show words (c :: d :: r) = _
        rw [words, if_neg (by simp [hc])]
        simp only [hd, if_true]
    | cons d w =>
      have hd : isSpace d = false := hns d (by simp)
      have ih' := ih (by simp) (fun x hx => hns x (List.mem_cons_of_mem _ hx))
      show words (c :: d :: (w ++ r)) = _
      rw [words, if_neg (by simp [hc])]
      simp only [hd, Bool.false_eq_true, if_false]
      have : words (d :: (w ++ r)) = (d :: w) :: words r := ih'
      rw [this]

theorem words_split {r : Str} (h : ¬ Blank r) : ∃ sp w r', r = sp ++ (w ++ r') ∧ Blank sp ∧ Word w ∧
    Stop r' ∧ words r = w :: words r' := by
  have e1 := List.takeWhile_append_dropWhile (p := isSpace) (l := r)
  have e2 := List.takeWhile_append_dropWhile (p := fun c => !isSpace c) (l := r.dropWhile isSpace)
  set t := r.dropWhile isSpace with ht
  have hsp : Blank (r.takeWhile isSpace) := fun c hc => mem_takeWhile_imp hc
  have hw : Word (t.takeWhile fun c => !isSpace c) := by
    refine ⟨?_, fun c hc => by simpa using mem_takeWhile_imp hc⟩
    cases h2 : t with
    | nil => exact absurd (dropWhile_space_nil.1 h2) h
    | cons c t' =>
      have := dropWhile_space_head (ht ▸ h2)
      simp [this]
  have hst : Stop (t.dropWhile fun c => !isSpace c) := by
    intro c hc
    have := List.head?_dropWhile_not (fun c => !isSpace c) t
    rw [hc] at this
    simpa using this
  refine ⟨_, _, _, (by rw [e2, e1]), hsp, hw, hst, ?_⟩
  rw [← words_word _ _ hw hst, e2]
  conv_lhs => rw [← e1]
  exact words_blank_append _ _ hsp

theorem words_nil {r : Str} : words r = [] ↔ Blank r := by
  constructor
  · intro h
    by_contra hb
    obtain ⟨_, _, _, _, _, _, _, e⟩ := words_split hb
    rw [h] at e
    cases e
  · intro h
    have := words_blank_append r [] h
    rw [List.append_nil] at this
    rw [this]
    rfl

theorem words_cons {r w : Str} {ws : List Str} (h : words r = w :: ws) :
    ∃ sp r', r = sp ++ (w ++ r') ∧ Blank sp ∧ Word w ∧ Stop r' ∧ words r' = ws := by
  have hb : ¬ Blank r := by
    intro hb
    rw [words_nil.2 hb] at h
    cases h
  obtain ⟨sp, w', r', e, hsp, hw, hs, e2⟩ := words_split hb
  rw [h] at e2
  obtain ⟨rfl, rfl⟩ := List.cons.inj e2
  exact ⟨sp, r', e, hsp, hw, hs, rfl⟩

/-! ## Extraction from words -/

/-- A stream ready for extraction. -/
structure Ready (s : IStream) : Prop where
  fail : s.fail = false
  eof : s.eof = true → s.rest = []

theorem ready_rest (r : Str) : Ready ⟨r, r.isEmpty, false⟩ := ⟨rfl, fun h => by simpa using h⟩

theorem ready_start (r : Str) : Ready ⟨r, false, false⟩ := ⟨rfl, fun h => absurd h (by simp)⟩

namespace IStream

theorem sentry_blank {s : IStream} (h : Blank s.rest) : (s.sentry true).fail = true := by
  unfold sentry
  split
  · rw [dropWhile_space_nil.2 h]; rfl
  · rfl

theorem dropWhile_space_word {sp w r : Str} (hsp : Blank sp) (hw : Word w) :
    (sp ++ (w ++ r)).dropWhile isSpace = w ++ r := by
  induction sp with
  | nil =>
    obtain ⟨hne, hns⟩ := hw
    cases w with
    | nil => exact absurd rfl hne
    | cons c w => simp [hns c (by simp)]
  | cons c sp ih =>
    rw [blank_cons] at hsp
    simp [hsp.1, ih hsp.2]

theorem sentry_word {s : IStream} (hs : Ready s) {sp w r : Str} (h : s.rest = sp ++ (w ++ r))
    (hsp : Blank sp) (hw : Word w) : s.sentry true = ⟨w ++ r, false, false⟩ := by
  have hne : w ++ r ≠ [] := by
    intro e
    exact hw.1 (List.append_eq_nil_iff.1 e).1
  have he : s.eof = false := by
    by_contra hc
    rw [Bool.not_eq_false] at hc
    have := hs.eof hc
    rw [h] at this
    exact hne (List.append_eq_nil_iff.1 this).2
  obtain ⟨rest, eof, fail⟩ := s
  have hf := hs.fail
  simp only at he hf h
  subst he; subst hf; subst h
  have e := dropWhile_space_word (r := r) hsp hw
  simp only [sentry, good, Bool.not_false, Bool.and_self, if_true, e]
  rw [if_neg (by simpa using hne)]

theorem takeWhile_word (p : Char → Bool) (w r : Str) (hw : ∀ c ∈ w, p c = true)
    (hp : ∀ c, isSpace c = true → p c = false) (hr : Stop r) :
    (w ++ r).takeWhile p = w ∧ (w ++ r).dropWhile p = r := by
  have t := takeWhile_stop p hp w r hr
  rw [t.1, t.2]
  have h1 : w.takeWhile p = w := takeWhile_self hw
  have h2 : w.dropWhile p = [] := by
    have := List.takeWhile_append_dropWhile (p := p) (l := w)
    rw [h1] at this
    exact List.append_right_eq_self.1 this
  rw [h1, h2]
  exact ⟨rfl, rfl⟩

theorem getString_none {s : IStream} (h : words s.rest = []) : s.getString.1.fail = true := by
  unfold getString
  have := sentry_blank (words_nil.1 h)
  simp only [this, if_true]

theorem getString_word {s : IStream} (hs : Ready s) {w : Str} {ws : List Str}
    (h : words s.rest = w :: ws) :
    ∃ r, s.getString = (⟨r, r.isEmpty, false⟩, some w) ∧ words r = ws := by
  obtain ⟨sp, r, e, hsp, hw, hst, e2⟩ := words_cons h
  refine ⟨r, ?_, e2⟩
  unfold getString
  rw [sentry_word hs e hsp hw]
  have t := takeWhile_word (fun c => !isSpace c) w r (fun c hc => by simp [hw.2 c hc])
    notSpace_stop hst
  simp only [Bool.false_eq_true, if_false, t.1, t.2]
  have : List.isEmpty w = false := by
    cases w with
    | nil => exact absurd rfl hw.1
    | cons _ _ => rfl
  rw [this]

theorem getUnsigned_none {max : Nat} {s : IStream} (h : words s.rest = []) :
    (s.getUnsigned max true).1.fail = true := by
  unfold getUnsigned
  have := sentry_blank (words_nil.1 h)
  simp only [this, if_true]

theorem getFloat_none {rd : ℚ → ℚ} {max : ℚ} {s : IStream} (h : words s.rest = []) :
    (s.getFloat rd max true).1.fail = true := by
  unfold getFloat
  have := sentry_blank (words_nil.1 h)
  simp only [this, if_true]

/-- A word with the form of a signed numeral. -/
theorem getUnsigned_word {max : Nat} {s : IStream} (hs : Ready s) {w : Str} {ws : List Str}
    (h : words s.rest = w :: ws) :
    ∃ r, words r = ws ∧ Stop r ∧ s.getUnsigned max true =
      (let (neg, x) := scanSign w
       let ds := x.takeWhile isDigit
       let y := x.dropWhile isDigit ++ r
       if ds.isEmpty then (⟨y, y.isEmpty, true⟩, some 0)
       else if natVal ds > max then (⟨y, y.isEmpty, true⟩, some max)
       else (⟨y, y.isEmpty, false⟩,
        some (if neg then (max + 1 - natVal ds) % (max + 1) else natVal ds))) := by
  obtain ⟨sp, r, e, hsp, hw, hst, e2⟩ := words_cons h
  refine ⟨r, e2, hst, ?_⟩
  unfold getUnsigned
  rw [sentry_word hs e hsp hw]
  simp only [Bool.false_eq_true, if_false, scanSign_stop w r hst]
  have t := takeWhile_stop isDigit digit_stop (scanSign w).2 r hst
  rw [t.1, t.2]

theorem getFloat_word {rd : ℚ → ℚ} {max : ℚ} {s : IStream} (hs : Ready s) {w : Str}
    {ws : List Str} (h : words s.rest = w :: ws) :
    ∃ r, words r = ws ∧ Stop r ∧ s.getFloat rd max true =
      (let (t, x) := scanFloat w
       let y := x ++ r
       match t.value? with
       | none => (⟨y, y.isEmpty, true⟩, some 0)
       | some q =>
         if rd q > max then (⟨y, y.isEmpty, true⟩, some max)
         else if rd q < -max then (⟨y, y.isEmpty, true⟩, some (-max))
         else (⟨y, y.isEmpty, false⟩, some (rd q))) := by
  obtain ⟨sp, r, e, hsp, hw, hst, e2⟩ := words_cons h
  refine ⟨r, e2, hst, ?_⟩
  unfold getFloat
  rw [sentry_word hs e hsp hw]
  simp only [Bool.false_eq_true, if_false, scanFloat_stop w r hst]
  cases (scanFloat w).1.value? <;> rfl

end IStream

/-! ## One line -/

theorem ignored_iff (l : Str) : Ignored l ↔
    l.dropWhile isSpace = [] ∨ ∃ t, l.dropWhile isSpace = '#' :: t := by
  unfold Ignored
  rw [dropWhile_space_nil]
  refine or_congr Iff.rfl ?_
  constructor
  · rintro ⟨pre, post, rfl, hp⟩
    refine ⟨post, ?_⟩
    induction pre with
    | nil => simp [show isSpace '#' = false by decide]
    | cons c pre ih =>
      rw [blank_cons] at hp
      simp [hp.1, ih hp.2]
  · rintro ⟨t, h⟩
    refine ⟨l.takeWhile isSpace, t, ?_, fun c hc => mem_takeWhile_imp hc⟩
    rw [← h, List.takeWhile_append_dropWhile]

section
variable {E : Type} {ex : Extractor E}

/-- What a line means, in terms of what the extractor does to the line without leading
whitespace. -/
theorem readLine_eq (ex : Extractor E) (l : Str) (hn : ¬ Ignored l) : readLine ex l =
    (let p := ex ⟨l.dropWhile isSpace, false, false⟩
     let iss := if p.1.eof then p.1 else p.1.ws
     if iss.fail || !iss.eof then .bad
     else match p.2 with
      | some e => .event e
      | none => .fault .ub) := by
  rw [ignored_iff] at hn
  push Not at hn
  unfold readLine
  cases h : l.dropWhile isSpace with
  | nil => exact absurd h hn.1
  | cons c t =>
    have hc : c ≠ '#' := by
      rintro rfl
      exact hn.2 t h
    have h1 : ((IStream.ofStr l).ws).peek = (⟨c :: t, false, false⟩, some c) := by
      simp [IStream.ofStr, IStream.ws, IStream.good, IStream.peek, h]
    simp only [h1, Option.some.injEq, hc, if_false, Bool.false_eq_true]
    generalize ex ⟨c :: t, false, false⟩ = p
    obtain ⟨p1, p2⟩ := p
    simp only
    split
    · rfl
    · cases p2 <;> rfl

theorem readLine_ignored (ex : Extractor E) (l : Str) (hn : Ignored l) : readLine ex l = .skip := by
  rw [ignored_iff] at hn
  unfold readLine
  rcases hn with h | ⟨t, h⟩
  · simp [IStream.ofStr, IStream.ws, IStream.good, IStream.peek, h]
  · simp [IStream.ofStr, IStream.ws, IStream.good, IStream.peek, h]

theorem padded_start (t w : Str) (hw : Blank w) :
    Padded ⟨t, false, false⟩ ⟨t ++ w, false, false⟩ :=
  ⟨rfl, fun h => absurd h (by simp), fun h => absurd h (by simp), fun _ => ⟨w, hw, rfl⟩⟩

/-- A line that is not ignored gives an event exactly if extraction succeeds and leaves only
whitespace. -/
theorem readLine_wb (hex : WellBehaved ex) (l : Str) (hn : ¬ Ignored l) :
    (∃ e, readLine ex l = .event e ∧
        (ex ⟨l.dropWhile isSpace, false, false⟩).2 = some e ∧
        (ex ⟨l.dropWhile isSpace, false, false⟩).1.fail = false ∧
        Blank (ex ⟨l.dropWhile isSpace, false, false⟩).1.rest) ∨
    (readLine ex l = .bad ∧ ((ex ⟨l.dropWhile isSpace, false, false⟩).1.fail = true ∨
        ¬ Blank (ex ⟨l.dropWhile isSpace, false, false⟩).1.rest)) := by
  rw [readLine_eq ex l hn]
  have hp := (hex.padded _ _ (padded_start (l.dropWhile isSpace) [] blank_nil)).1
  have hv := hex.value ⟨l.dropWhile isSpace, false, false⟩
  rw [List.append_nil] at hp
  generalize ex ⟨l.dropWhile isSpace, false, false⟩ = p at hp hv ⊢
  obtain ⟨⟨rest, eof, fail⟩, v⟩ := p
  simp only at hp hv ⊢
  cases fail with
  | true =>
    right
    refine ⟨?_, Or.inl rfl⟩
    cases eof <;> simp [IStream.ws, IStream.good]
  | false =>
    obtain ⟨_, a, rfl⟩ := hv rfl
    cases eof with
    | true =>
      left
      have := hp.eof rfl rfl
      simp only at this
      subst this
      exact ⟨a, by simp, rfl, rfl, blank_nil⟩
    | false =>
      by_cases hb : Blank rest
      · left
        have hd := dropWhile_space_nil.2 hb
        exact ⟨a, by simp [IStream.ws, IStream.good, hd], rfl, rfl, hb⟩
      · right
        have hd : rest.dropWhile isSpace ≠ [] := fun e => hb (dropWhile_space_nil.1 e)
        exact ⟨by simp [IStream.ws, IStream.good, hd], Or.inr hb⟩

theorem readLine_trichotomy (hex : WellBehaved ex) (l : Str) : readLine ex l = .skip ∨
    readLine ex l = .bad ∨ ∃ e, readLine ex l = .event e := by
  by_cases hn : Ignored l
  · exact Or.inl (readLine_ignored ex l hn)
  · rcases readLine_wb hex l hn with ⟨e, h, _⟩ | ⟨h, _⟩
    · exact Or.inr (Or.inr ⟨e, h⟩)
    · exact Or.inr (Or.inl h)

theorem readLine_skip_iff (hex : WellBehaved ex) (l : Str) :
    readLine ex l = .skip ↔ Ignored l := by
  constructor
  · intro h
    by_contra hn
    rcases readLine_wb hex l hn with ⟨e, h', _⟩ | ⟨h', _⟩ <;> rw [h] at h' <;> cases h'
  · exact readLine_ignored ex l

/-- Whitespace at the end of a line does not matter. -/
theorem readLine_pad (hex : WellBehaved ex) (l w : Str) (hw : Blank w) :
    readLine ex (l ++ w) = readLine ex l := by
  by_cases hb : Blank l
  · rw [readLine_ignored ex l (Or.inl hb),
      readLine_ignored ex (l ++ w) (Or.inl (Blank.append.2 ⟨hb, hw⟩))]
  · have hd := dropWhile_space_append (w := w) hb
    by_cases hn : Ignored l
    · have hn' : Ignored (l ++ w) := by
        rw [ignored_iff] at hn ⊢
        rcases hn with h | ⟨t, h⟩
        · exact absurd (dropWhile_space_nil.1 h) hb
        · exact Or.inr ⟨t ++ w, by rw [hd, h]; rfl⟩
      rw [readLine_ignored ex l hn, readLine_ignored ex _ hn']
    · have hn' : ¬ Ignored (l ++ w) := by
        rw [ignored_iff] at hn ⊢
        push Not at hn ⊢
        rw [hd]
        refine ⟨fun e => hn.1 (List.append_eq_nil_iff.1 e).1, fun t e => ?_⟩
        cases h : l.dropWhile isSpace with
        | nil => exact hn.1 h
        | cons c t' =>
          rw [h, List.cons_append] at e
          obtain ⟨rfl, _⟩ := List.cons.inj e
          exact hn.2 t' h
      obtain ⟨hp, hv⟩ := hex.padded _ _ (padded_start (l.dropWhile isSpace) w hw)
      have hex1 := readLine_wb hex l hn
      have hex2 := readLine_wb hex (l ++ w) hn'
      rw [hd] at hex2
      generalize ex ⟨l.dropWhile isSpace, false, false⟩ = p at hp hv hex1
      generalize ex ⟨l.dropWhile isSpace ++ w, false, false⟩ = p' at hp hv hex2
      rcases hex1 with ⟨e, h1, h2, h3, h4⟩ | ⟨h1, h2⟩ <;>
        rcases hex2 with ⟨e', h1', h2', h3', h4'⟩ | ⟨h1', h2'⟩
      · rw [h1, h1']
        have := hv h3
        rw [h2, h2'] at this
        rw [Option.some.inj this]
      · obtain ⟨w', hw', hr⟩ := hp.pad h3
        rcases h2' with h2' | h2'
        · rw [← hp.fail, h3] at h2'
          cases h2'
        · exact absurd (by rw [hr, Blank.append]; exact ⟨h4, hw'⟩) h2'
      · rcases h2 with h2 | h2
        · rw [hp.fail, h3'] at h2
          cases h2
        · obtain ⟨w', hw', hr⟩ := hp.pad (by rw [hp.fail]; exact h3')
          rw [hr, Blank.append] at h4'
          exact absurd h4'.1 h2
      · rw [h1, h1']

/-- Whitespace at the start of a line does not matter, whatever the extractor. -/
theorem readLine_lead (ex : Extractor E) (l w : Str) (hw : Blank w) :
    readLine ex (w ++ l) = readLine ex l := by
  have hd : (w ++ l).dropWhile isSpace = l.dropWhile isSpace := by
    induction w with
    | nil => rfl
    | cons c w ih =>
      rw [blank_cons] at hw
      simp [hw.1, ih hw.2]
  unfold readLine
  simp [IStream.ofStr, IStream.ws, IStream.good, hd]

theorem trim_spec (l : Str) : ∃ a b, l = a ++ (trim l ++ b) ∧ Blank a ∧ Blank b := by
  refine ⟨l.takeWhile isSpace, ((l.dropWhile isSpace).reverse.takeWhile isSpace).reverse, ?_,
    fun c hc => mem_takeWhile_imp hc, fun c hc => ?_⟩
  · unfold trim
    rw [← List.reverse_append, List.takeWhile_append_dropWhile, List.reverse_reverse,
      List.takeWhile_append_dropWhile]
  · exact mem_takeWhile_imp (List.mem_reverse.1 hc)

theorem readLine_trim (hex : WellBehaved ex) (l : Str) : readLine ex (trim l) = readLine ex l := by
  obtain ⟨a, b, e, ha, hb⟩ := trim_spec l
  conv_rhs => rw [e]
  rw [readLine_lead ex _ a ha, readLine_pad hex _ b hb]

end

/-! ## All lines -/

section
variable {μ E1 E2 : Type}

/-- Reading a list of lines, numbered from `n`. -/
def readLines (ex : Extractor E1) (map : μ → E1 → μ × Cpp E2) :
    Nat → μ → List Str → μ × List E2 × ReadStatus
  | _, m, [] => (m, [], .ok)
  | n, m, l :: ls =>
    match readLine ex l with
    | .skip => readLines ex map (n + 1) m ls
    | .bad => (m, [], .badLine n)
    | .fault f => (m, [], .fault f)
    | .event e =>
      match map m e with
      | (m, .error f) => (m, [], .fault f)
      | (m, .ok e) =>
        let (m, es, st) := readLines ex map (n + 1) m ls
        (m, e :: es, st)

theorem lines_eq (c : Char) (r : Str) : lines (c :: r) =
    (c :: r).takeWhile (· != '\n') ::
      (match (c :: r).dropWhile (· != '\n') with
       | [] => []
       | _ :: r' => lines r') := by
  induction r generalizing c with
  | nil =>
    by_cases hc : c = '\n'
    · subst hc; simp [lines]
    · simp [lines, hc]
  | cons d r ih =>
    by_cases hc : c = '\n'
    · subst hc
      simp [lines]
    · have e : lines (c :: d :: r) = match lines (d :: r) with
          | [] => [[c]]
          | l :: ls => (c :: l) :: ls := by
        conv_lhs => unfold lines
        rw [if_neg hc]
        cases lines (d :: r) <;> rfl
      have hc' : (c != '\n') = true := by simp [hc]
      rw [List.takeWhile_cons_of_pos (p := fun x => x != '\n') hc',
        List.dropWhile_cons_of_pos (p := fun x => x != '\n') hc', e, ih d]

theorem lines_length (t : Str) : (lines t).length ≤ t.length := by
  induction t with
  | nil => simp [lines]
  | cons c r ih =>
    unfold lines
    split
    · simp only [List.length_cons]; omega
    · split
      · simp
      · rename_i h; rw [h] at ih; simp only [List.length_cons] at ih ⊢; omega

theorem readLoop_end (ex : Extractor E1) (map : μ → E1 → μ × Cpp E2) (fuel n : Nat) (m : μ) :
    readLoop ex map (fuel + 1) n m ⟨[], true, false⟩ = (m, [], .ok) := by
  simp [readLoop, IStream.getline, IStream.good]

theorem readLoop_lines (ex : Extractor E1) (map : μ → E1 → μ × Cpp E2) (fuel : Nat) :
    ∀ (n : Nat) (m : μ) (t : Str), t.length < fuel →
      readLoop ex map fuel n m ⟨t, false, false⟩ = readLines ex map n m (lines t) := by
  induction fuel with
  | zero => intro n m t h; omega
  | succ fuel ih =>
    intro n m t h
    cases t with
    | nil => simp [readLoop, IStream.getline, IStream.good, lines, readLines]
    | cons c r =>
      rw [lines_eq]
      have hlen : ((c :: r).dropWhile (· != '\n')).length ≤ (c :: r).length :=
        (List.dropWhile_sublist _).length_le
      cases hd : (c :: r).dropWhile (· != '\n') with
      | nil =>
        have hg : (IStream.mk (c :: r) false false).getline =
            (⟨[], true, false⟩, some ((c :: r).takeWhile (· != '\n'))) := by
          simp only [IStream.getline, IStream.good, Bool.not_false, Bool.and_self, if_true]
          rw [hd]
        have hfuel : ∃ k, fuel = k + 1 := ⟨fuel - 1, by simp only [List.length_cons] at h; omega⟩
        obtain ⟨k, rfl⟩ := hfuel
        rw [readLoop, hg]
        simp only [readLines]
        cases readLine ex ((c :: r).takeWhile (· != '\n')) with
        | skip => exact readLoop_end ex map k (n + 1) m
        | bad => rfl
        | fault f => rfl
        | event e =>
          simp only
          rcases map m e with ⟨m', _ | e'⟩
          · rfl
          · simp only [readLoop_end]
      | cons x r' =>
        have hg : (IStream.mk (c :: r) false false).getline =
            (⟨r', false, false⟩, some ((c :: r).takeWhile (· != '\n'))) := by
          simp only [IStream.getline, IStream.good, Bool.not_false, Bool.and_self, if_true]
          rw [hd]
        have hr' : r'.length < fuel := by
          rw [hd] at hlen
          simp only [List.length_cons] at hlen h
          omega
        rw [readLoop, hg]
        simp only [readLines]
        cases readLine ex ((c :: r).takeWhile (· != '\n')) with
        | skip => exact ih (n + 1) m r' hr'
        | bad => rfl
        | fault f => rfl
        | event e =>
          simp only
          rcases map m e with ⟨m', _ | e'⟩
          · rfl
          · simp only [ih (n + 1) m' r' hr']

theorem readEvents_lines (ex : Extractor E1) (map : μ → E1 → μ × Cpp E2) (m : μ) (t : Str) :
    readEvents ex map m t = readLines ex map 1 m (lines t) :=
  readLoop_lines ex map (t.length + 1) 1 m t (by omega)

end

end Kws
