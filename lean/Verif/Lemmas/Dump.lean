import Verif.Props.Scores

/-!
# Lemmas about the texts of matches
-/

namespace Kws
open Spec

/-- Words separated by single spaces. -/
def joinWords : List Str → Str
  | [] => []
  | [w] => w
  | w :: ws => w ++ ' ' :: joinWords ws

theorem joinWords_cons (w : Str) {ws : List Str} (h : ws ≠ []) :
    joinWords (w :: ws) = w ++ ' ' :: joinWords ws := by
  cases ws with
  | nil => exact absurd rfl h
  | cons v ws => rfl

theorem joinWords_words {ws : List Str} (h : ∀ w ∈ ws, Word w) : words (joinWords ws) = ws := by
  induction ws with
  | nil => rfl
  | cons w ws ih =>
    cases ws with
    | nil => exact words_one (h w (by simp))
    | cons v ws =>
      rw [joinWords_cons w (by simp), words_space (h w (by simp)),
        ih fun x hx => h x (List.mem_cons_of_mem _ hx)]

theorem joinWords_newline {ws : List Str} (h : ∀ w ∈ ws, Word w) : '\n' ∉ joinWords ws := by
  induction ws with
  | nil => simp [joinWords]
  | cons w ws ih =>
    cases ws with
    | nil => exact word_no_newline (h w (by simp))
    | cons v ws =>
      rw [joinWords_cons w (by simp)]
      have h1 := word_no_newline (h w (by simp))
      have h2 := ih fun x hx => h x (List.mem_cons_of_mem _ hx)
      simp [h1, h2]

/-- A text before the first word. -/
def glueFirst (p : Str) : List Str → List Str
  | [] => []
  | w :: ws => (p ++ w) :: ws

/-- A text after the last word. -/
def glueLast (s : Str) : List Str → List Str
  | [] => []
  | [w] => [w ++ s]
  | w :: ws => w :: glueLast s ws

theorem glueLast_cons (s w : Str) {ws : List Str} (h : ws ≠ []) :
    glueLast s (w :: ws) = w :: glueLast s ws := by
  cases ws with
  | nil => exact absurd rfl h
  | cons v ws => rfl

@[simp] theorem glueFirst_length (p : Str) (ws : List Str) :
    (glueFirst p ws).length = ws.length := by cases ws <;> rfl

@[simp] theorem glueLast_length (s : Str) (ws : List Str) :
    (glueLast s ws).length = ws.length := by
  induction ws with
  | nil => rfl
  | cons w ws ih =>
    cases ws with
    | nil => rfl
    | cons v ws => rw [glueLast_cons s w (by simp)]; simp [ih]

theorem glueFirst_inj {p : Str} {a b : List Str} (h : glueFirst p a = glueFirst p b) : a = b := by
  cases a <;> cases b <;> simp_all [glueFirst]

theorem glueLast_inj {s : Str} {a b : List Str} (h : glueLast s a = glueLast s b) : a = b := by
  induction a generalizing b with
  | nil =>
    have := congrArg List.length h
    simp only [glueLast_length, List.length_nil] at this
    exact (List.length_eq_zero_iff.1 this.symm).symm
  | cons w ws ih =>
    cases b with
    | nil =>
      have := congrArg List.length h
      simp at this
    | cons v vs =>
      have hl := congrArg List.length h
      simp only [glueLast_length, List.length_cons, Nat.add_right_cancel_iff] at hl
      cases ws with
      | nil =>
        have : vs = [] := List.length_eq_zero_iff.1 hl.symm
        subst this
        simp only [glueLast, List.cons.injEq, List.append_cancel_right_eq, and_true] at h
        rw [h]
      | cons w' ws =>
        have hv : vs ≠ [] := by rintro rfl; simp at hl
        rw [glueLast_cons _ _ (by simp), glueLast_cons _ _ hv, List.cons.injEq] at h
        rw [h.1, ih h.2]

theorem joinWords_glueFirst (p : Str) {ws : List Str} (h : ws ≠ []) :
    joinWords (glueFirst p ws) = p ++ joinWords ws := by
  cases ws with
  | nil => exact absurd rfl h
  | cons w ws =>
    cases ws with
    | nil => rfl
    | cons v ws => simp [glueFirst, joinWords]

theorem joinWords_glueLast (s : Str) {ws : List Str} (h : ws ≠ []) :
    joinWords (glueLast s ws) = joinWords ws ++ s := by
  induction ws with
  | nil => exact absurd rfl h
  | cons w ws ih =>
    cases ws with
    | nil => rfl
    | cons v ws =>
      have hne : glueLast s (v :: ws) ≠ [] := by
        intro h0
        have := congrArg List.length h0
        simp at this
      rw [glueLast_cons _ _ (by simp), joinWords_cons _ hne, ih (by simp),
        joinWords_cons w (List.cons_ne_nil v ws)]
      simp

theorem joinWords_append {a b : List Str} (ha : a ≠ []) (hb : b ≠ []) :
    joinWords (a ++ b) = joinWords a ++ ' ' :: joinWords b := by
  induction a with
  | nil => exact absurd rfl ha
  | cons w ws ih =>
    cases ws with
    | nil => exact joinWords_cons w hb
    | cons v ws =>
      rw [List.cons_append, joinWords_cons _ (by simp), ih (by simp),
        joinWords_cons w (List.cons_ne_nil v ws)]
      simp

theorem word_append {p w : Str} (hp : ∀ c ∈ p, isSpace c = false) (hw : Word w) : Word (p ++ w) :=
  ⟨by simp [hw.1], fun c hc => (List.mem_append.1 hc).elim (hp c) (hw.2 c)⟩

theorem append_word {s w : Str} (hs : ∀ c ∈ s, isSpace c = false) (hw : Word w) : Word (w ++ s) :=
  ⟨by simp [hw.1], fun c hc => (List.mem_append.1 hc).elim (hw.2 c) (hs c)⟩

theorem glueFirst_word {p : Str} {ws : List Str} (hp : ∀ c ∈ p, isSpace c = false)
    (h : ∀ w ∈ ws, Word w) : ∀ w ∈ glueFirst p ws, Word w := by
  cases ws with
  | nil => exact h
  | cons v ws =>
    intro w hw
    rcases List.mem_cons.1 hw with rfl | hw
    · exact word_append hp (h v (by simp))
    · exact h w (List.mem_cons_of_mem _ hw)

theorem glueLast_word {s : Str} {ws : List Str} (hs : ∀ c ∈ s, isSpace c = false)
    (h : ∀ w ∈ ws, Word w) : ∀ w ∈ glueLast s ws, Word w := by
  induction ws with
  | nil => exact h
  | cons v ws ih =>
    cases ws with
    | nil =>
      intro w hw
      rcases List.mem_singleton.1 hw with rfl
      exact append_word hs (h v (by simp))
    | cons u ws =>
      intro w hw
      rw [glueLast_cons _ _ (by simp)] at hw
      rcases List.mem_cons.1 hw with rfl | hw
      · exact h w (by simp)
      · exact ih (fun x hx => h x (List.mem_cons_of_mem _ hx)) w hw

section
variable {Q L : Type}

/-- Events whose texts are a fixed number of words that determine them. -/
structure EventWords (sh : Event Q L → Str) (valid : Event Q L → Prop) (k : ℕ)
    (ws : Event Q L → List Str) : Prop where
  text : ∀ e, valid e → sh e = joinWords (ws e)
  word : ∀ e, valid e → ∀ w ∈ ws e, Word w
  length : ∀ e, (ws e).length = k
  pos : 0 < k
  inj : ∀ e e', ws e = ws e' → e = e'

theorem box_eventWords : EventWords showBoxEvent
    (fun e => Word e.query ∧ Word e.location.document) 6
    (fun e => [e.query, e.location.document, showNat e.location.x.toNat, showNat e.location.y.toNat,
      showNat e.location.w.toNat, showNat e.location.h.toNat]) where
  text e _ := by
    simp [showBoxEvent, showDocBox, showBox, joinWords]
  word e he w hw := by
    simp only [List.mem_cons, List.not_mem_nil, or_false] at hw
    rcases hw with rfl | rfl | rfl | rfl | rfl | rfl
    · exact he.1
    · exact he.2
    all_goals exact (showNat_numeral _).word
  length e := rfl
  pos := by norm_num
  inj e e' h := by
    obtain ⟨q, ⟨⟨x, y, w, h⟩, d⟩⟩ := e
    obtain ⟨q', ⟨⟨x', y', w', h'⟩, d'⟩⟩ := e'
    have key : ∀ a b : UInt32, showNat a.toNat = showNat b.toNat → a = b := by
      intro a b hab
      have := congrArg numeral hab
      rw [showNat_value, showNat_value] at this
      exact UInt32.toNat_inj.1 this
    simp only [List.cons.injEq, and_true] at h
    obtain ⟨rfl, rfl, h1, h2, h3, h4⟩ := h
    rw [key _ _ h1, key _ _ h2, key _ _ h3, key _ _ h4]

theorem showNat_inj {a b : ℕ} (h : showNat a = showNat b) : a = b := by
  have := congrArg numeral h
  rwa [showNat_value, showNat_value] at this

theorem id_eventWords : EventWords showIdEvent (fun _ => True) 2
    (fun e => [showNat e.query, showNat e.location]) where
  text e _ := by simp [showIdEvent, joinWords]
  word e _ w hw := by
    simp only [List.mem_cons, List.not_mem_nil, or_false] at hw
    rcases hw with rfl | rfl <;> exact (showNat_numeral _).word
  length e := rfl
  pos := by norm_num
  inj e e' h := by
    obtain ⟨q, l⟩ := e
    obtain ⟨q', l'⟩ := e'
    simp only [List.cons.injEq, and_true] at h
    rw [showNat_inj h.1, showNat_inj h.2]

/-- The words of the error of a match. -/
def errorWords (e : MatchError) : List Str :=
  ["Error=MatchError[fp=".toList ++ showGeneral e.fp ++ [','],
    "fn=".toList ++ showGeneral e.fn ++ [','], "nh=".toList ++ showNat e.nh ++ [','],
    "nr=".toList ++ showNat e.nr ++ "]]".toList]

theorem errorWords_ne (e : MatchError) : errorWords e ≠ [] := List.cons_ne_nil _ _

theorem errorWords_text (e : MatchError) :
    joinWords (errorWords e) = "Error=".toList ++ showError e ++ "]".toList := by
  have c1 : "Error=MatchError[fp=".toList = "Error=".toList ++ "MatchError[fp=".toList := by decide
  have c2 : ", fn=".toList = ',' :: ' ' :: "fn=".toList := by decide
  have c3 : ", nh=".toList = ',' :: ' ' :: "nh=".toList := by decide
  have c4 : ", nr=".toList = ',' :: ' ' :: "nr=".toList := by decide
  have c5 : "]]".toList = "]".toList ++ "]".toList := by decide
  unfold errorWords showError
  rw [joinWords_cons _ (by simp), joinWords_cons _ (by simp), joinWords_cons _ (by simp), joinWords,
    c1, c2, c3, c4, c5]
  simp only [List.append_assoc, List.cons_append, List.nil_append]

/-- The words of the text of a match. -/
def matchWords (ws : Event Q L → List Str) (m : KwsMatch Q L) : List Str :=
  glueFirst "Match[".toList (
    (match m.hyp with
      | some h => glueFirst "Hyp=".toList (ws h.base ++ [showFlt showGeneral h.score ++ [',']])
      | none => []) ++
    (match m.ref with
      | some r => glueFirst "Ref=".toList (glueLast [','] (ws r))
      | none => []) ++
    errorWords m.error)

/-- A match with valid events. -/
def ValidMatch (valid : Event Q L → Prop) (m : KwsMatch Q L) : Prop :=
  (∀ h, m.hyp = some h → valid h.base) ∧ ∀ r, m.ref = some r → valid r

variable {sh : Event Q L → Str} {valid : Event Q L → Prop} {k : ℕ} {ws : Event Q L → List Str}

theorem EventWords.ne_nil (h : EventWords sh valid k ws) (e : Event Q L) : ws e ≠ [] := by
  intro h0
  have := h.length e
  rw [h0] at this
  exact absurd this h.pos.ne

theorem glueFirst_ne {p : Str} {a : List Str} (h : a ≠ []) : glueFirst p a ≠ [] := by
  cases a with
  | nil => exact absurd rfl h
  | cons _ _ => simp [glueFirst]

theorem glueLast_ne {s : Str} {a : List Str} (h : a ≠ []) : glueLast s a ≠ [] := by
  intro h0
  have := congrArg List.length h0
  rw [glueLast_length] at this
  exact h (List.length_eq_zero_iff.1 this)

theorem showFlt_word (s : Flt) : Word (showFlt showGeneral s) := by
  cases s with
  | nan => exact ⟨by decide, by decide⟩
  | ninf => exact ⟨by decide, by decide⟩
  | pinf => exact ⟨by decide, by decide⟩
  | fin x => exact (showGeneral_denotes x).word

theorem showMatch_words (h : EventWords sh valid k ws) {m : KwsMatch Q L} (hm : ValidMatch valid m) :
    showMatch sh m = joinWords (matchWords ws m) := by
  obtain ⟨ref, hyp, err⟩ := m
  obtain ⟨h1, h2⟩ := hm
  have hE := errorWords_text err
  have nE := errorWords_ne err
  unfold matchWords showMatch
  dsimp only
  generalize errorWords err = ew at hE nE
  cases hyp with
  | none =>
    cases ref with
    | none =>
      dsimp only
      rw [List.nil_append, List.nil_append, joinWords_glueFirst _ nE, hE]
      simp only [List.append_assoc, List.nil_append]
    | some r =>
      have e := h.text r (h2 r rfl)
      have n1 := glueLast_ne (s := [',']) (h.ne_nil r)
      have n2 := glueFirst_ne (p := "Ref=".toList) n1
      dsimp only
      rw [List.nil_append, joinWords_glueFirst _ (List.append_ne_nil_of_right_ne_nil _ nE),
        joinWords_append n2 nE, hE, joinWords_glueFirst _ n1, joinWords_glueLast _ (h.ne_nil r), ← e]
      simp
  | some x =>
    have e1 := h.text x.base (h1 x rfl)
    dsimp only
    have f1 : joinWords (ws x.base ++ [showFlt showGeneral x.score ++ [',']]) =
        showScored sh x ++ [','] := by
      rw [joinWords_append (h.ne_nil _) (by simp), ← e1]
      simp [showScored, joinWords]
    have n1 : ws x.base ++ [showFlt showGeneral x.score ++ [',']] ≠ [] := by simp
    generalize ws x.base ++ [showFlt showGeneral x.score ++ [',']] = hw at f1 n1 ⊢
    have n3 := glueFirst_ne (p := "Hyp=".toList) n1
    cases ref with
    | none =>
      dsimp only
      rw [List.append_nil (as := glueFirst "Hyp=".toList hw), List.append_nil,
        joinWords_glueFirst _ (List.append_ne_nil_of_right_ne_nil _ nE), joinWords_append n3 nE, hE, joinWords_glueFirst _ n1, f1]
      simp
    | some r =>
      have e := h.text r (h2 r rfl)
      have n2 := glueLast_ne (s := [',']) (h.ne_nil r)
      have n4 := glueFirst_ne (p := "Ref=".toList) n2
      dsimp only
      rw [joinWords_glueFirst _ (List.append_ne_nil_of_right_ne_nil _ nE),
        joinWords_append (List.append_ne_nil_of_right_ne_nil _ n4) nE, hE, joinWords_append n3 n4,
        joinWords_glueFirst _ n1, f1, joinWords_glueFirst _ n2, joinWords_glueLast _ (h.ne_nil r), ← e]
      simp

theorem matchWords_word (h : EventWords sh valid k ws) {m : KwsMatch Q L}
    (hm : ValidMatch valid m) : ∀ w ∈ matchWords ws m, Word w := by
  obtain ⟨ref, hyp, err⟩ := m
  obtain ⟨h1, h2⟩ := hm
  have hg : ∀ x : ℚ, Word (showGeneral x) := fun x => (showGeneral_denotes x).word
  have hn : ∀ n, Word (showNat n) := fun n => (showNat_numeral n).word
  unfold matchWords
  refine glueFirst_word (by decide) ?_
  intro w hw
  rw [List.mem_append, List.mem_append] at hw
  rcases hw with (hw | hw) | hw
  · cases hyp with
    | none => cases hw
    | some x =>
      refine glueFirst_word (by decide) ?_ w hw
      intro w hw
      rcases List.mem_append.1 hw with hw | hw
      · exact h.word _ (h1 x rfl) w hw
      · rcases List.mem_singleton.1 hw with rfl
        exact append_word (by decide) (showFlt_word _)
  · cases ref with
    | none => cases hw
    | some r =>
      exact glueFirst_word (by decide) (glueLast_word (by decide) (h.word _ (h2 r rfl))) w hw
  · simp only [errorWords, List.mem_cons, List.not_mem_nil, or_false] at hw
    rcases hw with rfl | rfl | rfl | rfl
    · exact append_word (by decide) (word_append (by decide) (hg _))
    · exact append_word (by decide) (word_append (by decide) (hg _))
    · exact append_word (by decide) (word_append (by decide) (hn _))
    · exact append_word (by decide) (word_append (by decide) (hn _))

/-- Matches that look the same: the same events, and numbers with the same texts. -/
structure SameLook (m m' : KwsMatch Q L) : Prop where
  ref : m.ref = m'.ref
  base : m.hyp.map (·.base) = m'.hyp.map (·.base)
  score : m.hyp.map (fun h => showFlt showGeneral h.score) =
    m'.hyp.map (fun h => showFlt showGeneral h.score)
  fp : showGeneral m.error.fp = showGeneral m'.error.fp
  fn : showGeneral m.error.fn = showGeneral m'.error.fn
  nh : m.error.nh = m'.error.nh
  nr : m.error.nr = m'.error.nr

theorem matchWords_inj (h : EventWords sh valid k ws) {m m' : KwsMatch Q L}
    (he : matchWords ws m = matchWords ws m') : SameLook m m' := by
  obtain ⟨ref, hyp, err⟩ := m
  obtain ⟨ref', hyp', err'⟩ := m'
  have hk := h.pos
  have hl := h.length
  have h0 := glueFirst_inj he
  dsimp only at h0
  have hlen := congrArg List.length h0
  have hE := List.append_inj' h0 rfl
  obtain ⟨hA, hB⟩ := hE
  simp only [errorWords, List.cons.injEq, List.append_cancel_left_eq, List.append_cancel_right_eq,
    and_true, List.append_assoc] at hB
  obtain ⟨b1, b2, b3, b4⟩ := hB
  have fin : ref = ref' ∧ hyp.map (·.base) = hyp'.map (·.base) ∧
      hyp.map (fun h => showFlt showGeneral h.score) =
        hyp'.map (fun h => showFlt showGeneral h.score) := by
    have hlA := congrArg List.length hA
    cases hyp with
    | none =>
      cases hyp' with
      | none =>
        cases ref with
        | none =>
          cases ref' with
          | none => exact ⟨rfl, rfl, rfl⟩
          | some r' => simp [hl] at hlA; omega
        | some r =>
          cases ref' with
          | none => simp [hl] at hlA; omega
          | some r' =>
            simp only [List.nil_append] at hA
            exact ⟨by rw [h.inj _ _ (glueLast_inj (glueFirst_inj hA))], rfl, rfl⟩
      | some x' =>
        cases ref <;> cases ref' <;> simp [hl] at hlA; omega
    | some x =>
      cases hyp' with
      | none => cases ref <;> cases ref' <;> simp [hl] at hlA
      | some x' =>
        have hx : ∀ a b : List Str,
            glueFirst "Hyp=".toList (ws x.base ++ [showFlt showGeneral x.score ++ [',']]) ++ a =
            glueFirst "Hyp=".toList (ws x'.base ++ [showFlt showGeneral x'.score ++ [',']]) ++ b →
            x.base = x'.base ∧
              showFlt showGeneral x.score = showFlt showGeneral x'.score ∧ a = b := by
          intro a b hab
          obtain ⟨c1, c2⟩ := List.append_inj hab (by simp [hl])
          obtain ⟨d1, d2⟩ := List.append_inj (glueFirst_inj c1) (by simp [hl])
          refine ⟨h.inj _ _ d1, ?_, c2⟩
          simpa using d2
        obtain ⟨y1, y2, y3⟩ := hx _ _ hA
        refine ⟨?_, by simp [y1], by simp [y2]⟩
        cases ref with
        | none =>
          cases ref' with
          | none => rfl
          | some r' =>
            have := congrArg List.length y3
            simp [hl] at this
            omega
        | some r =>
          cases ref' with
          | none =>
            have := congrArg List.length y3
            simp [hl] at this
            omega
          | some r' => rw [h.inj _ _ (glueLast_inj (glueFirst_inj y3))]
  exact ⟨fin.1, fin.2.1, fin.2.2, b1, b2, showNat_inj b3, showNat_inj b4⟩

theorem showMatch_inj (h : EventWords sh valid k ws) {m m' : KwsMatch Q L}
    (hm : ValidMatch valid m) (hm' : ValidMatch valid m') (he : showMatch sh m = showMatch sh m') :
    SameLook m m' := by
  rw [showMatch_words h hm, showMatch_words h hm'] at he
  have := congrArg words he
  rw [joinWords_words (matchWords_word h hm), joinWords_words (matchWords_word h hm')] at this
  exact matchWords_inj h this

theorem showMatch_newline (h : EventWords sh valid k ws) {m : KwsMatch Q L}
    (hm : ValidMatch valid m) : '\n' ∉ showMatch sh m := by
  rw [showMatch_words h hm]
  exact joinWords_newline (matchWords_word h hm)

theorem lines_cons {x r : Str} (hx : '\n' ∉ x) : lines (x ++ '\n' :: r) = x :: lines r := by
  induction x with
  | nil => simp [lines]
  | cons c x ih =>
    have hc : c ≠ '\n' := fun e => hx (by simp [e])
    have := ih fun hm => hx (List.mem_cons_of_mem _ hm)
    rw [List.cons_append]
    conv_lhs => unfold lines
    rw [if_neg hc, this]

theorem lines_flatMap {E : Type} (f : E → Str) (es : List E) (r : Str) (h : ∀ e ∈ es, '\n' ∉ f e) :
    lines (es.flatMap (fun e => endl (f e)) ++ r) = es.map f ++ lines r := by
  induction es with
  | nil => rfl
  | cons e es ih =>
    rw [List.flatMap_cons, List.append_assoc]
    unfold endl at ih ⊢
    rw [List.append_assoc, List.singleton_append, lines_cons (h e (by simp)),
      ih fun x hx => h x (by simp [hx])]
    rfl

/-- The lines of the file with the matches. -/
theorem lines_dump (h : EventWords sh valid k ws) {ms rep : List (KwsMatch Q L)}
    (hm : ∀ m ∈ ms, ValidMatch valid m) (hr : ∀ m ∈ rep, ValidMatch valid m) :
    lines (showDump sh (ms, rep)) = ms.map (showMatch sh) ++
      "#### REPEATED MATCHES ####".toList :: rep.map (fun m => "## ".toList ++ showMatch sh m) := by
  unfold showDump
  dsimp only
  rw [List.append_assoc, lines_flatMap _ _ _ fun m hm' => showMatch_newline h (hm m hm')]
  congr 1
  unfold endl
  rw [List.append_assoc, List.singleton_append, lines_cons (by decide)]
  congr 1
  have := lines_flatMap (fun m => "## ".toList ++ showMatch sh m) rep [] (fun m hm' => by
    have := showMatch_newline h (hr m hm')
    simp [this])
  simpa [endl, lines] using this

end

end Kws
