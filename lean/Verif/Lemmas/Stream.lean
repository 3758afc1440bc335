import Verif.Spec.Reading
import Verif.Lemmas.Tactics

/-!
Facts about streams and extraction.
-/

namespace Kws
open Spec

theorem isDigit_not_space {c : Char} (h : isDigit c = true) : isSpace c = false := by
  by_contra hc
  rw [Bool.not_eq_false] at hc
  simp only [isSpace, Bool.or_eq_true, beq_iff_eq] at hc
  rcases hc with ((((rfl | rfl) | rfl) | rfl) | rfl) | rfl <;> revert h <;> decide

/-- Empty or starting with whitespace. -/
def Stop (r : Str) : Prop := ∀ c, r.head? = some c → isSpace c = true

theorem Spec.Blank.stop {w : Str} (h : Blank w) : Stop w := by
  intro c hc
  exact h c (List.mem_of_mem_head? hc)

theorem stop_nil : Stop [] := by intro c h; simp at h

theorem takeWhile_stop (p : Char → Bool) (hp : ∀ c, isSpace c = true → p c = false) (x r : Str)
    (hr : Stop r) : (x ++ r).takeWhile p = x.takeWhile p ∧
      (x ++ r).dropWhile p = x.dropWhile p ++ r := by
  induction x with
  | nil =>
    cases r with
    | nil => simp
    | cons c r =>
      have := hp c (hr c rfl)
      simp [this]
  | cons c x ih =>
    simp only [List.cons_append, List.takeWhile_cons, List.dropWhile_cons]
    split
    · simp [ih.1, ih.2]
    · simp

theorem notSpace_stop : ∀ c, isSpace c = true → (!isSpace c) = false := by
  intro c h; simp [h]

theorem digit_stop : ∀ c, isSpace c = true → isDigit c = false := by
  intro c h
  by_contra hc
  rw [Bool.not_eq_false] at hc
  rw [isDigit_not_space hc] at h
  exact absurd h (by decide)

theorem dropWhile_space_nil {r : Str} : r.dropWhile isSpace = [] ↔ Blank r := by
  unfold Blank
  induction r with
  | nil => simp
  | cons c r ih =>
    by_cases hc : isSpace c = true
    · simp [hc, ih]
    · simp [hc]

theorem Spec.Blank.append {a b : Str} : Blank (a ++ b) ↔ Blank a ∧ Blank b := by
  unfold Blank
  simp only [List.mem_append]
  constructor
  · exact fun h => ⟨fun c hc => h c (Or.inl hc), fun c hc => h c (Or.inr hc)⟩
  · rintro ⟨h1, h2⟩ c (hc | hc)
    · exact h1 c hc
    · exact h2 c hc

theorem dropWhile_space_append {r w : Str} (h : ¬ Blank r) :
    (r ++ w).dropWhile isSpace = r.dropWhile isSpace ++ w := by
  induction r with
  | nil => exact absurd (fun c hc => by simp at hc) h
  | cons c r ih =>
    by_cases hc : isSpace c = true
    · simp only [List.cons_append, List.dropWhile_cons, hc, if_true]
      refine ih fun hb => h ?_
      intro d hd
      rcases List.mem_cons.1 hd with rfl | hd
      · exact hc
      · exact hb d hd
    · simp [hc]

theorem dropWhile_space_head {r : Str} {c : Char} {t : Str} (h : r.dropWhile isSpace = c :: t) :
    isSpace c = false := by
  have := List.head?_dropWhile_not isSpace r
  rw [h] at this
  simpa using this

theorem dropWhile_space_idem (r : Str) : (r.dropWhile isSpace).dropWhile isSpace = r.dropWhile isSpace := by
  cases h : r.dropWhile isSpace with
  | nil => rfl
  | cons c t => simp [dropWhile_space_head h]

/-! ## Scanning numbers -/

namespace IStream

theorem scanSign_stop (x r : Str) (hr : Stop r) :
    scanSign (x ++ r) = ((scanSign x).1, (scanSign x).2 ++ r) := by
  cases x with
  | nil =>
    cases r with
    | nil => rfl
    | cons c r =>
      have h := hr c rfl
      unfold scanSign
      split
      · rename_i r' e
        simp only [List.nil_append, List.cons.injEq] at e
        rw [e.1] at h
        exact absurd h (by decide)
      · rename_i r' e
        simp only [List.nil_append, List.cons.injEq] at e
        rw [e.1] at h
        exact absurd h (by decide)
      · rfl
  | cons c x =>
    unfold scanSign
    by_cases h1 : c = '-'
    · subst h1; rfl
    · by_cases h2 : c = '+'
      · subst h2; rfl
      · split
        · rename_i e; simp only [List.cons_append, List.cons.injEq] at e; exact absurd e.1 h1
        · rename_i e; simp only [List.cons_append, List.cons.injEq] at e; exact absurd e.1 h2
        · split
          · rename_i e; simp only [List.cons.injEq] at e; exact absurd e.1 h1
          · rename_i e; simp only [List.cons.injEq] at e; exact absurd e.1 h2
          · rfl

/-- The optional fraction of a number. -/
def fracPart : Str → Str × Str
  | '.' :: r' => (r'.takeWhile isDigit, r'.dropWhile isDigit)
  | z => ([], z)

/-- The optional exponent of a number. -/
def expPart : Str → Option (Bool × Str) × Str
  | [] => (none, [])
  | c :: r' =>
    if c == 'e' || c == 'E' then
      (some ((scanSign r').1, (scanSign r').2.takeWhile isDigit), (scanSign r').2.dropWhile isDigit)
    else (none, c :: r')

theorem scanFloat_eq (x : Str) : scanFloat x =
    let y := (scanSign x).2
    let int := y.takeWhile isDigit
    let f := fracPart (y.dropWhile isDigit)
    if int.isEmpty && f.1.isEmpty then (⟨(scanSign x).1, int, f.1, none⟩, f.2)
    else (⟨(scanSign x).1, int, f.1, (expPart f.2).1⟩, (expPart f.2).2) := by
  unfold scanFloat
  simp only
  generalize scanSign x = sg
  generalize sg.2.dropWhile isDigit = z
  have fin : ∀ (fr r : Str), (if (List.isEmpty (sg.2.takeWhile isDigit) && fr.isEmpty) = true then
        ((⟨sg.1, sg.2.takeWhile isDigit, fr, none⟩, r) : FloatText × Str)
      else
        match r with
        | c :: r' =>
          if (c == 'e' || c == 'E') = true then
            (⟨sg.1, sg.2.takeWhile isDigit, fr, some ((scanSign r').1, (scanSign r').2.takeWhile isDigit)⟩,
              (scanSign r').2.dropWhile isDigit)
          else (⟨sg.1, sg.2.takeWhile isDigit, fr, none⟩, r)
        | [] => (⟨sg.1, sg.2.takeWhile isDigit, fr, none⟩, [])) =
      if (List.isEmpty (sg.2.takeWhile isDigit) && fr.isEmpty) = true then
        (⟨sg.1, sg.2.takeWhile isDigit, fr, none⟩, r)
      else (⟨sg.1, sg.2.takeWhile isDigit, fr, (expPart r).1⟩, (expPart r).2) := by
    intro fr r
    split
    · rfl
    · cases r with
      | nil => rfl
      | cons c r' =>
        simp only [expPart]
        split <;> rfl
  split
  · exact fin _ _
  · rename_i hz
    have e : fracPart z = ([], z) := by
      unfold fracPart
      split
      · rename_i r' ; exact absurd rfl (hz r')
      · rfl
    rw [e]
    exact fin [] z

theorem fracPart_stop (z r : Str) (hr : Stop r) :
    fracPart (z ++ r) = ((fracPart z).1, (fracPart z).2 ++ r) := by
  cases z with
  | nil =>
    cases r with
    | nil => rfl
    | cons c r =>
      have h := hr c rfl
      by_cases hc : c = '.'
      · subst hc; exact absurd h (by decide)
      · simp [fracPart]
        split
        · rename_i e; simp only [List.cons.injEq] at e; exact absurd e.1 hc
        · rfl
  | cons c z0 =>
    by_cases hc : c = '.'
    · subst hc
      have t2 := takeWhile_stop isDigit digit_stop z0 r hr
      simp only [fracPart, List.cons_append, t2.1, t2.2]
    · have : ∀ y, fracPart (c :: y) = ([], c :: y) := by
        intro y
        unfold fracPart
        split
        · rename_i e; simp only [List.cons.injEq] at e; exact absurd e.1 hc
        · rfl
      rw [List.cons_append, this, this]
      rfl

theorem expPart_stop (z r : Str) (hr : Stop r) :
    expPart (z ++ r) = ((expPart z).1, (expPart z).2 ++ r) := by
  cases z with
  | nil =>
    cases r with
    | nil => rfl
    | cons c r =>
      have h := hr c rfl
      have : (c == 'e' || c == 'E') = false := by
        by_contra hc
        simp only [Bool.not_eq_false, Bool.or_eq_true, beq_iff_eq] at hc
        rcases hc with rfl | rfl <;> exact absurd h (by decide)
      simp only [List.nil_append, expPart, this]
      rfl
  | cons c z'' =>
    simp only [List.cons_append, expPart]
    split
    · rw [scanSign_stop z'' r hr]
      simp only
      have t3 := takeWhile_stop isDigit digit_stop (scanSign z'').2 r hr
      rw [t3.1, t3.2]
    · rfl

theorem scanFloat_stop (x r : Str) (hr : Stop r) :
    scanFloat (x ++ r) = ((scanFloat x).1, (scanFloat x).2 ++ r) := by
  rw [scanFloat_eq, scanFloat_eq, scanSign_stop x r hr]
  simp only
  have t1 := takeWhile_stop isDigit digit_stop (scanSign x).2 r hr
  rw [t1.1, t1.2, fracPart_stop _ r hr]
  simp only [expPart_stop _ r hr]
  split <;> rfl

end IStream

/-! ## Trailing whitespace -/

/-- The second stream is the first one with whitespace added at the end. -/
structure Padded (s s' : IStream) : Prop where
  fail : s.fail = s'.fail
  eof : s.eof = true → s.fail = false → s.rest = []
  eof' : s'.eof = true → s'.fail = false → s'.rest = []
  pad : s.fail = false → ∃ w, Blank w ∧ s'.rest = s.rest ++ w

/-- What is assumed of extractors: they treat trailing whitespace as nothing, do nothing on a failed
stream, and produce a value when they succeed. -/
structure WellBehaved {α : Type} (ex : Extractor α) : Prop where
  padded : ∀ s s', Padded s s' → Padded (ex s).1 (ex s').1 ∧
    ((ex s).1.fail = false → (ex s).2 = (ex s').2)
  value : ∀ s, (ex s).1.fail = false → s.fail = false ∧ ∃ a, (ex s).2 = some a

theorem padded_failed {s s' : IStream} (h : s.fail = true) (h' : s'.fail = true) : Padded s s' :=
  ⟨by rw [h, h'], fun _ hf => by rw [h] at hf; exact absurd hf (by decide),
    fun _ hf => by rw [h'] at hf; exact absurd hf (by decide),
    fun hf => by rw [h] at hf; exact absurd hf (by decide)⟩

namespace IStream

theorem sentry_fail (s : IStream) (skip : Bool) (h : s.fail = true) : (s.sentry skip).fail = true := by
  unfold sentry good
  simp [h]

/-- The sentry on padded streams: both fail, or both stand before the same visible character. -/
theorem sentry_padded (s s' : IStream) (h : Padded s s') :
    ((s.sentry true).fail = true ∧ (s'.sentry true).fail = true) ∨
    ∃ t w, t ≠ [] ∧ Blank w ∧ s.sentry true = ⟨t, false, false⟩ ∧
      s'.sentry true = ⟨t ++ w, false, false⟩ ∧ s.fail = false := by
  by_cases hf : s.fail = true
  · exact Or.inl ⟨sentry_fail s true hf, sentry_fail s' true (by rw [← h.fail]; exact hf)⟩
  · rw [Bool.not_eq_true] at hf
    have hf' : s'.fail = false := by rw [← h.fail]; exact hf
    obtain ⟨w, hw, hr⟩ := h.pad hf
    by_cases hb : Blank s.rest
    · left
      have hb' : Blank s'.rest := by rw [hr, Blank.append]; exact ⟨hb, hw⟩
      have key : ∀ x : IStream, Blank x.rest → (x.sentry true).fail = true := by
        intro x hx
        unfold sentry
        split
        · rw [dropWhile_space_nil.2 hx]; rfl
        · rfl
      exact ⟨key s hb, key s' hb'⟩
    · right
      have he : s.eof = false := by
        by_contra hc
        rw [Bool.not_eq_false] at hc
        apply hb
        rw [h.eof hc hf]
        intro c hc; simp at hc
      have he' : s'.eof = false := by
        by_contra hc
        rw [Bool.not_eq_false] at hc
        have := h.eof' hc hf'
        rw [hr] at this
        apply hb
        rw [(List.append_eq_nil_iff.1 this).1]
        intro c hc; simp at hc
      have hne : s.rest.dropWhile isSpace ≠ [] := fun e => hb (dropWhile_space_nil.1 e)
      refine ⟨s.rest.dropWhile isSpace, w, hne, hw, ?_, ?_, hf⟩
      · obtain ⟨rest, eof, fail⟩ := s
        simp only at he hf hne ⊢
        subst he; subst hf
        simp [sentry, good, hne]
      · obtain ⟨rest, eof, fail⟩ := s'
        simp only at he' hf' hr ⊢
        subst he'; subst hf'
        subst hr
        rw [← dropWhile_space_append hb]
        have : (s.rest ++ w).dropWhile isSpace ≠ [] := by
          rw [dropWhile_space_append hb]
          simp [hne]
        simp [sentry, good, this]

theorem padded_rest (r w : Str) (hw : Blank w) :
    Padded ⟨r, r.isEmpty, false⟩ ⟨r ++ w, (r ++ w).isEmpty, false⟩ :=
  ⟨rfl, fun h _ => by simpa using h, fun h _ => by simpa using h, fun _ => ⟨w, hw, rfl⟩⟩

theorem getString_wb : WellBehaved getString where
  padded := by
    intro s s' h
    unfold getString
    rcases sentry_padded s s' h with ⟨h1, h2⟩ | ⟨t, w, ht, hw, h1, h2, _⟩
    · simp only [h1, h2, if_true]
      exact ⟨padded_failed h1 h2, fun hf => absurd hf (by simp [h1])⟩
    · simp only [h1, h2, Bool.false_eq_true, if_false]
      have t1 := takeWhile_stop (fun c => !isSpace c) notSpace_stop t w hw.stop
      rw [t1.1, t1.2]
      refine ⟨⟨rfl, fun h _ => by simpa using h, fun h _ => by simpa using h, fun _ => ⟨w, hw, rfl⟩⟩,
        fun _ => rfl⟩
  value := by
    intro s hs
    by_cases hf : s.fail = true
    · unfold getString at hs
      simp only [sentry_fail s true hf, if_true] at hs
      exact absurd hs (by decide)
    · rw [Bool.not_eq_true] at hf
      refine ⟨hf, ?_⟩
      unfold getString at hs ⊢
      by_cases h : (s.sentry true).fail = true
      · simp only [h, if_true] at hs
        exact absurd hs (by decide)
      · rw [if_neg h]
        exact ⟨_, rfl⟩

theorem getUnsigned_wb (max : Nat) : WellBehaved (getUnsigned max true) where
  padded := by
    intro s s' h
    unfold getUnsigned
    rcases sentry_padded s s' h with ⟨h1, h2⟩ | ⟨t, w, ht, hw, h1, h2, _⟩
    · simp only [h1, h2, if_true]
      exact ⟨padded_failed h1 h2, fun hf => absurd hf (by simp [h1])⟩
    · simp only [h1, h2, Bool.false_eq_true, if_false, scanSign_stop t w hw.stop]
      have t1 := takeWhile_stop isDigit digit_stop (scanSign t).2 w hw.stop
      rw [t1.1, t1.2]
      split
      · exact ⟨padded_failed rfl rfl, fun hf => absurd hf (by simp)⟩
      · split
        · exact ⟨padded_failed rfl rfl, fun hf => absurd hf (by simp)⟩
        · exact ⟨padded_rest _ w hw, fun _ => rfl⟩
  value := by
    intro s hs
    by_cases hf : s.fail = true
    · unfold getUnsigned at hs
      simp only [sentry_fail s true hf, if_true] at hs
      exact absurd hs (by decide)
    · rw [Bool.not_eq_true] at hf
      refine ⟨hf, ?_⟩
      unfold getUnsigned at hs ⊢
      by_cases h : (s.sentry true).fail = true
      · simp only [h, if_true] at hs
        exact absurd hs (by decide)
      · rw [if_neg h]
        simp only
        split
        · exact ⟨_, rfl⟩
        · split
          · exact ⟨_, rfl⟩
          · exact ⟨_, rfl⟩

theorem getFloat_wb (rd : ℚ → ℚ) (max : ℚ) : WellBehaved (getFloat rd max true) where
  padded := by
    intro s s' h
    unfold getFloat
    rcases sentry_padded s s' h with ⟨h1, h2⟩ | ⟨t, w, ht, hw, h1, h2, _⟩
    · simp only [h1, h2, if_true]
      exact ⟨padded_failed h1 h2, fun hf => absurd hf (by simp [h1])⟩
    · simp only [h1, h2, Bool.false_eq_true, if_false, scanFloat_stop t w hw.stop]
      split
      · exact ⟨padded_failed rfl rfl, fun hf => absurd hf (by simp)⟩
      · split
        · exact ⟨padded_failed rfl rfl, fun hf => absurd hf (by simp)⟩
        · split
          · exact ⟨padded_failed rfl rfl, fun hf => absurd hf (by simp)⟩
          · exact ⟨padded_rest _ w hw, fun _ => rfl⟩
  value := by
    intro s hs
    by_cases hf : s.fail = true
    · unfold getFloat at hs
      simp only [sentry_fail s true hf, if_true] at hs
      exact absurd hs (by decide)
    · rw [Bool.not_eq_true] at hf
      refine ⟨hf, ?_⟩
      unfold getFloat at hs ⊢
      by_cases h : (s.sentry true).fail = true
      · simp only [h, if_true] at hs
        exact absurd hs (by decide)
      · rw [if_neg h]
        simp only
        split
        · exact ⟨_, rfl⟩
        · split
          · exact ⟨_, rfl⟩
          · split
            · exact ⟨_, rfl⟩
            · exact ⟨_, rfl⟩

end IStream

theorem WellBehaved.map {α β : Type} {ex : Extractor α} (h : WellBehaved ex) (f : α → β) :
    WellBehaved (fun s => ((ex s).1, (ex s).2.map f)) where
  padded := by
    intro s s' hp
    refine ⟨(h.padded s s' hp).1, fun hf => ?_⟩
    simp only
    rw [(h.padded s s' hp).2 hf]
  value := by
    intro s hs
    obtain ⟨h1, a, h2⟩ := h.value s hs
    exact ⟨h1, f a, by simp [h2]⟩

theorem WellBehaved.pair {α β γ : Type} {a : Extractor α} {b : Extractor β} (f : α → β → γ)
    (ha : WellBehaved a) (hb : WellBehaved b) : WellBehaved (Extractor.pair f a b) where
  padded := by
    intro s s' hp
    obtain ⟨p1, v1⟩ := ha.padded s s' hp
    obtain ⟨p2, v2⟩ := hb.padded _ _ p1
    refine ⟨p2, fun hf => ?_⟩
    have hf' : (b (a s).1).1.fail = false := hf
    obtain ⟨hf1, _⟩ := hb.value _ hf'
    unfold Extractor.pair
    simp only [v1 hf1, v2 hf']
  value := by
    intro s hs
    have hf' : (b (a s).1).1.fail = false := hs
    obtain ⟨hf1, y, hy⟩ := hb.value _ hf'
    obtain ⟨hf0, x, hx⟩ := ha.value _ hf1
    refine ⟨hf0, f x y, ?_⟩
    unfold Extractor.pair
    simp only [hx, hy]

theorem extractU32_wb : WellBehaved extractU32 := (IStream.getUnsigned_wb _).map _

theorem extractScore_wb (R : Rnd) : WellBehaved (extractScore R) := (IStream.getFloat_wb _ _).map _

theorem extractBox_wb : WellBehaved extractBox :=
  ((extractU32_wb.pair _ extractU32_wb).pair _ extractU32_wb).pair _ extractU32_wb

theorem extractBoxEvent_wb : WellBehaved extractBoxEvent :=
  IStream.getString_wb.pair _ (IStream.getString_wb.pair _ extractBox_wb)

theorem extractStrEvent_wb : WellBehaved extractStrEvent :=
  IStream.getString_wb.pair _ IStream.getString_wb

theorem extractScored_wb (R : Rnd) {L : Type} {e : Extractor (Event Str L)} (h : WellBehaved e) :
    WellBehaved (extractScored R e) := h.pair _ (extractScore_wb R)

end Kws
