import Verif.Lemmas.Layout
import Verif.Props.Instances
import Verif.Model.Engine

/-!
# C115: of the input files only the words on their lines matter
-/

namespace Kws
open Spec

/-! ## Reading -/

section
variable {R : Rnd} {E : Type} {ex : Extractor E} {G : Str → E → Str → Prop} {μ E2 : Type}

/-- C115: reading an event file depends on the words of its lines only, whatever whitespace separates
them; comments may differ altogether. The line number of an error is the same. -/
theorem C115_lines (h : Format R ex G) (map : μ → E → μ × Cpp E2) (m : μ) (t t' : Str)
    (hs : SameLines t t') : readEvents ex map m t = readEvents ex map m t' := by
  rw [readEvents_lines, readEvents_lines]
  suffices ∀ (n : Nat) (m : μ), readLines ex map n m (lines t) = readLines ex map n m (lines t') from
    this 1 m
  unfold SameLines at hs
  generalize lines t = ls, lines t' = ls' at hs
  induction hs with
  | nil => exact fun n m => rfl
  | @cons l l' ls ls' ht _ ih =>
    intro n m
    simp only [readLines, readLine_same h ht, ih]

/-- C115: with lines that carry no event put in or left out, the events read, the state of the mapper and whether
reading succeeds are the same. -/
theorem C115_words (h : Format R ex G) (map : μ → E → μ × Cpp E2) (m : μ) (t t' : Str)
    (hs : SameWords (lines t) (lines t')) :
    (readEvents ex map m t).1 = (readEvents ex map m t').1 ∧
    (readEvents ex map m t).2.1 = (readEvents ex map m t').2.1 ∧
    SameOutcome (readEvents ex map m t).2.2 (readEvents ex map m t').2.2 := by
  rw [readEvents_lines, readEvents_lines]
  suffices ∀ (n n' : Nat) (m : μ),
      (readLines ex map n m (lines t)).1 = (readLines ex map n' m (lines t')).1 ∧
      (readLines ex map n m (lines t)).2.1 = (readLines ex map n' m (lines t')).2.1 ∧
      SameOutcome (readLines ex map n m (lines t)).2.2 (readLines ex map n' m (lines t')).2.2 from
    this 1 1 m
  generalize lines t = ls, lines t' = ls' at hs
  induction hs with
  | nil => exact fun n n' m => ⟨rfl, rfl, .ok⟩
  | @line l l' ls ls' ht _ ih =>
    intro n n' m
    simp only [readLines, readLine_same h (Or.inl ht)]
    cases readLine ex l' with
    | skip => exact ih _ _ _
    | bad => exact ⟨rfl, rfl, .badLine⟩
    | fault f => exact ⟨rfl, rfl, .fault⟩
    | event e =>
      simp only
      rcases map m e with ⟨m', f | e'⟩
      · exact ⟨rfl, rfl, .fault⟩
      · obtain ⟨h1, h2, h3⟩ := ih (n + 1) (n' + 1) m'
        exact ⟨h1, by simp only [h2], h3⟩
  | @left l ls ls' hi _ ih =>
    intro n n' m
    simp only [readLines, readLine_ignored ex l hi]
    exact ih _ _ _
  | @right l ls ls' hi _ ih =>
    intro n n' m
    simp only [readLines, readLine_ignored ex l hi]
    exact ih _ _ _

end

/-! ## Whole runs -/

section
variable {μ σ Q L G : Type}

/-- The readers of the program read one of the four formats. -/
structure ReadsFormats (R : Rnd) (kit : ToolKit μ σ Q L) : Prop where
  refs : ∃ (E : Type) (ex : Extractor E) (G : Str → E → Str → Prop) (map : μ → E → μ × Cpp (Event Q L)),
    Format R ex G ∧ kit.readRef = readEvents ex map
  hyps : ∃ (E : Type) (ex : Extractor E) (G : Str → E → Str → Prop)
    (map : μ → E → μ × Cpp (ScoredEvent Q L)), Format R ex G ∧ kit.readHyp = readEvents ex map

theorem icdar_formats (R : Rnd) (S : StdSort) : ReadsFormats R (icdarKit R S) :=
  ⟨⟨_, _, _, _, .boxRefs, rfl⟩, ⟨_, _, _, _, .boxHyps, rfl⟩⟩

theorem simple_formats (R : Rnd) (qf : Bool) : ReadsFormats R (simpleKit R qf) :=
  ⟨⟨_, _, _, _, .strRefs, rfl⟩, ⟨_, _, _, _, .strHyps, rfl⟩⟩

theorem traceRead_same {E : Type} {read : Str → μ × List E × ReadStatus} {t t' : Option Str}
    (h : Option.Rel SameLines t t') (hr : ∀ t t', SameLines t t' → read t = read t') :
    traceRead read t = traceRead read t' := by
  cases h with
  | none => rfl
  | some h =>
    unfold traceRead
    simp only [hr _ _ h]

theorem readResult_same {E : Type} {read : Str → μ × List E × ReadStatus} {t t' : Option Str}
    (h : Option.Rel (fun t t' => SameWords (lines t) (lines t')) t t')
    (hr : ∀ t t', SameWords (lines t) (lines t') → (read t).1 = (read t').1 ∧
      (read t).2.1 = (read t').2.1 ∧ SameOutcome (read t).2.2 (read t').2.2) :
    readResult read t = readResult read t' := by
  cases h with
  | none => rfl
  | @some t t' h =>
    obtain ⟨h1, h2, h3⟩ := hr _ _ h
    unfold readResult
    simp only
    revert h1 h2 h3
    obtain ⟨m, es, st⟩ := read t
    obtain ⟨m', es', st'⟩ := read t'
    rintro rfl rfl h3
    cases h3 <;> rfl

theorem run_same [DecidableEq Q] [Cmp Q] [Cmp L] (R : Rnd) (S : StdSort) (rng : Rng G)
    {kit : ToolKit μ σ Q L} (hk : ReadsFormats R kit) (w w' : World) (o : ToolOptions)
    (h : SameEvents o w w') : mainWith R S rng kit w o = mainWith R S rng kit w' o := by
  by_cases hne : o.refFilename = []
  · unfold mainWith
    rw [if_pos hne, if_pos hne]
  rw [mainWith_eq _ _ _ _ _ _ hne, mainWith_eq _ _ _ _ _ _ hne]
  obtain ⟨_, ex, _, map, hf, e⟩ := hk.refs
  obtain ⟨_, ex', _, map', hf', e'⟩ := hk.hyps
  have h1 := fun m => readResult_same (read := kit.readRef m) h.refs
    (fun t t' ht => by rw [e]; exact C115_words hf map m t t' ht)
  have h2 := fun m => readResult_same (read := kit.readHyp m) h.hyps
    (fun t t' ht => by rw [e']; exact C115_words hf' map' m t t' ht)
  unfold hypText at h2
  simp only [h1, h2, readQueryMap_words _ _ h.toSameQueries,
    evaluate_writable R S rng kit h.writable]

theorem trace_same [DecidableEq Q] [Cmp Q] [Cmp L] (R : Rnd) (S : StdSort) (rng : Rng G)
    {kit : ToolKit μ σ Q L} (hk : ReadsFormats R kit) (texts : ToolTexts Q L) (w w' : World)
    (prog : Str) (argv : List Str)
    (h : ∀ p, (toolParser R).parse R argv = (.accepted, p) →
      SameLayout (ToolOptions.ofParser p) w w') :
    traceMain R S rng kit texts w prog argv = traceMain R S rng kit texts w' prog argv := by
  unfold traceMain
  cases hp : (toolParser R).parse R argv with
  | mk outcome p =>
    cases outcome with
    | exitHelp => rfl
    | rejected => rfl
    | accepted =>
      have h := h p hp
      obtain ⟨_, ex, _, map, hf, e⟩ := hk.refs
      obtain ⟨_, ex', _, map', hf', e'⟩ := hk.hyps
      have h1 := fun m => traceRead_same (read := kit.readRef m) h.refs
        (fun t t' ht => by rw [e]; exact C115_lines hf map m t t' ht)
      have h2 := fun m => traceRead_same (read := kit.readHyp m) h.hyps
        (fun t t' ht => by rw [e']; exact C115_lines hf' map' m t t' ht)
      unfold hypText at h2
      simp only [traceMainWith, h1, h2, traceQueryMap_words _ _ h.toSameQueries,
        traceEvaluate_writable R S rng kit texts h.writable]

theorem traceD_same [DecidableEq Q] [Cmp Q] [Cmp L] (R : Rnd) (lm : Libm) (S : StdSort) (rng : Rng G)
    {kit : ToolKit μ σ Q L} (hk : ReadsFormats R kit) (texts : ToolTexts Q L) (w w' : World)
    (prog : Str) (argv : List Str)
    (h : ∀ p, (toolParser R).parse R argv = (.accepted, p) →
      SameLayout (ToolOptions.ofParser p) w w') :
    traceMainD R lm S rng kit texts w prog argv = traceMainD R lm S rng kit texts w' prog argv := by
  unfold traceMainD
  cases hp : (toolParser R).parse R argv with
  | mk outcome p =>
    cases outcome with
    | exitHelp => rfl
    | rejected => rfl
    | accepted =>
      have h := h p hp
      obtain ⟨_, ex, _, map, hf, e⟩ := hk.refs
      obtain ⟨_, ex', _, map', hf', e'⟩ := hk.hyps
      have h1 := fun m => traceRead_same (read := kit.readRef m) h.refs
        (fun t t' ht => by rw [e]; exact C115_lines hf map m t t' ht)
      have h2 := fun m => traceRead_same (read := kit.readHyp m) h.hyps
        (fun t t' ht => by rw [e']; exact C115_lines hf' map' m t t' ht)
      unfold hypText at h2
      simp only [traceMainWithD, h1, h2, traceQueryMap_words _ _ h.toSameQueries,
        traceEvaluateD_writable R lm S rng kit texts h.writable]

end

section
variable {G : Type}

/-- C115 for runs of the box program: with the same words on the lines of the input files, lines without events
apart, the result is the same. -/
theorem C115_box (R : Rnd) (S : StdSort) (rng : Rng G) (w w' : World) (o : ToolOptions)
    (h : SameEvents o w w') :
    mainWith R S rng (icdarKit R S) w o = mainWith R S rng (icdarKit R S) w' o :=
  run_same R S rng (icdar_formats R S) w w' o h

/-- C115 for runs of the segmentation-based program. -/
theorem C115_segmentation (R : Rnd) (S : StdSort) (rng : Rng G) (qf : Bool) (w w' : World)
    (o : ToolOptions) (h : SameEvents o w w') :
    mainWith R S rng (simpleKit R qf) w o = mainWith R S rng (simpleKit R qf) w' o :=
  run_same R S rng (simple_formats R qf) w w' o h

/-- C115 for everything that the box program writes, including the messages and their order: with the same words at
the same lines it is the same, in exact arithmetic and in that of the machine. -/
theorem C115_box_output (R : Rnd) (lm : Libm) (S : StdSort) (rng : Rng G)
    (texts : ToolTexts Str (DocBox Str UInt32)) (w w' : World) (prog : Str) (argv : List Str)
    (h : ∀ p, (toolParser R).parse R argv = (.accepted, p) →
      SameLayout (ToolOptions.ofParser p) w w') :
    traceMain R S rng (icdarKit R S) texts w prog argv =
      traceMain R S rng (icdarKit R S) texts w' prog argv ∧
    traceMainD R lm S rng (icdarKit R S) texts w prog argv =
      traceMainD R lm S rng (icdarKit R S) texts w' prog argv :=
  ⟨trace_same R S rng (icdar_formats R S) texts w w' prog argv h,
    traceD_same R lm S rng (icdar_formats R S) texts w w' prog argv h⟩

/-- C115 for everything that the segmentation-based program writes. -/
theorem C115_segmentation_output (R : Rnd) (lm : Libm) (S : StdSort) (rng : Rng G) (qf : Bool)
    (texts : ToolTexts Nat Nat) (w w' : World) (prog : Str) (argv : List Str)
    (h : ∀ p, (toolParser R).parse R argv = (.accepted, p) →
      SameLayout (ToolOptions.ofParser p) w w') :
    traceMain R S rng (simpleKit R qf) texts w prog argv =
      traceMain R S rng (simpleKit R qf) texts w' prog argv ∧
    traceMainD R lm S rng (simpleKit R qf) texts w prog argv =
      traceMainD R lm S rng (simpleKit R qf) texts w' prog argv :=
  ⟨trace_same R S rng (simple_formats R qf) texts w w' prog argv h,
    traceD_same R lm S rng (simple_formats R qf) texts w w' prog argv h⟩

end

/-! ## A case -/

/-- The files of `caseWorld` with other whitespace, without the last line feeds. -/
def layoutFile (f : Str) : Option Str :=
  if f = "ref".toList then
    some "  a\td 0 0 4 1\r\na   d 2 0 4 1 \r\nb d 0 0 2 2\r\n\tc e 5 5 3 3".toList
  else if f = "hyp".toList then
    some ("a d  2 0 4 1 0.5\na d 0 0 4 1 0.5\r\n b d 9 9 2 2 1.5\nc e 5 5 3 3\t0.25\n" ++
      "z d 1 1 1 1 2 \x0b").toList
  else if f = "groups".toList then some " x\ta  b \r\ny c".toList
  else none

def layoutWorld : World where
  file := layoutFile
  stdin := []
  writable _ := true

instance : DecidableRel SameLines := fun t t' =>
  decidable_of_iff (List.Forall₂ (fun l l' => words l = words l' ∨
      (∃ w ∈ (words l).head?, w.head? = some '#') ∧ ∃ w ∈ (words l').head?, w.head? = some '#')
    (lines t) (lines t')) <| by
    have key : ∀ l, (∃ w ∈ (words l).head?, w.head? = some '#') ↔ Comment l := by
      intro l
      rw [comment_words]
      constructor
      · rintro ⟨w, h, h'⟩
        cases hw : words l with
        | nil => rw [hw] at h; cases h
        | cons v ws =>
          rw [hw] at h
          obtain rfl := Option.some.inj h
          cases v with
          | nil => cases h'
          | cons c v =>
            obtain rfl := Option.some.inj h'
            exact ⟨v, ws, rfl⟩
      · rintro ⟨w, ws, h⟩
        exact ⟨_, by rw [h]; rfl, rfl⟩
    simp only [key]
    rfl

theorem layout_case (R : Rnd) : SameLayout (caseOptions R "ref" "hyp") caseWorld layoutWorld where
  set h := absurd rfl h
  groups _ := by
    have : ∀ w : World, w.file (caseOptions R "ref" "hyp").queryGroups = w.file "groups".toList :=
      fun _ => rfl
    rw [this, this]
    decide +kernel
  refs := by
    have e : caseWorld.file (caseOptions R "ref" "hyp").refFilename = caseFile "ref".toList := rfl
    have e' : layoutWorld.file (caseOptions R "ref" "hyp").refFilename = layoutFile "ref".toList := rfl
    rw [e, e']
    exact .some (by decide +kernel)
  hyps := by
    have e : hypText caseWorld (caseOptions R "ref" "hyp") = caseFile "hyp".toList := rfl
    have e' : hypText layoutWorld (caseOptions R "ref" "hyp") = layoutFile "hyp".toList := rfl
    rw [e, e']
    exact .some (by decide +kernel)
  writable := rfl

/-- Case: everything that the box program writes in the run of Props/Instances.lean, which succeeds, it writes with
these files, too. -/
example (lm : Libm) (S : StdSort) (texts : ToolTexts Str (DocBox Str UInt32)) (prog : Str) :
    traceMainD Rnd.ieee lm S MinStd.rng (icdarKit Rnd.ieee S) texts caseWorld prog (caseArguments "ref" "hyp") =
    traceMainD Rnd.ieee lm S MinStd.rng (icdarKit Rnd.ieee S) texts layoutWorld prog (caseArguments "ref" "hyp") := by
  refine (C115_box_output Rnd.ieee lm S MinStd.rng texts caseWorld layoutWorld prog _ fun p hp => ?_).2
  obtain ⟨p', h1, h2⟩ := caseArguments_ieee
  rw [h1] at hp
  obtain rfl := (Prod.mk.inj hp).2
  rw [h2]
  exact layout_case _

/-- Case: a run of the segmentation-based program on the standard input, with a comment put in, blanks and an empty
line. -/
example (S : StdSort) (qf : Bool) :
    let w : World := ⟨fun f => if f = "r".toList then some "a l\nb m\n".toList else none,
      "a l 1\nb l 2\n".toList, fun _ => true⟩
    let w' : World := ⟨fun f => if f = "r".toList then some "# refs\n a  l\nb m".toList else none,
      "a l\t1\n\nb l 2\r\n".toList, fun _ => true⟩
    mainWith Rnd.exact S MinStd.rng (simpleKit Rnd.exact qf) w { refFilename := "r".toList, alpha := 0 } =
      mainWith Rnd.exact S MinStd.rng (simpleKit Rnd.exact qf) w' { refFilename := "r".toList, alpha := 0 } := by
  intro w w'
  refine C115_segmentation Rnd.exact S MinStd.rng qf w w' _
    ⟨⟨fun h => absurd rfl h, fun h => absurd rfl h⟩, ?_, ?_, rfl⟩
  · have h1 : w.file "r".toList = some "a l\nb m\n".toList := rfl
    have h2 : w'.file "r".toList = some "# refs\n a  l\nb m".toList := rfl
    rw [h1, h2]
    have e1 : lines "a l\nb m\n".toList = ["a l".toList, "b m".toList] := by decide
    have e2 : lines "# refs\n a  l\nb m".toList = ["# refs".toList, " a  l".toList, "b m".toList] := by decide
    refine .some ?_
    rw [e1, e2]
    exact .right (Or.inr ⟨[], " refs".toList, by decide, blank_nil⟩)
      (.line (by decide) (.line (by decide) .nil))
  · have h1 : hypText w { refFilename := "r".toList, alpha := 0 } = some "a l 1\nb l 2\n".toList := rfl
    have h2 : hypText w' { refFilename := "r".toList, alpha := 0 } = some "a l\t1\n\nb l 2\r\n".toList := rfl
    rw [h1, h2]
    have e1 : lines "a l 1\nb l 2\n".toList = ["a l 1".toList, "b l 2".toList] := by decide
    have e2 : lines "a l\t1\n\nb l 2\r\n".toList = ["a l\t1".toList, [], "b l 2\r".toList] := by decide
    refine .some ?_
    rw [e1, e2]
    exact .line (by decide) (.right (Or.inl blank_nil) (.line (by decide) .nil))

/-- The lines matter: the same words on one line are not an event. -/
example : words "a l\nb m".toList = words "a l b m".toList ∧
    readPlain extractStrEvent "a l\nb m".toList = ([⟨['a'], ['l']⟩, ⟨['b'], ['m']⟩], .ok) ∧
    readPlain extractStrEvent "a l b m".toList = ([], .badLine 1) := by
  decide +kernel

end Kws
