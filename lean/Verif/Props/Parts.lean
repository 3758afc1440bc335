import Verif.Spec.Parts
import Verif.Props.LineOrder
import Verif.Props.Messages

/-!
# C131: files that are put together from parts

`readFiles` (Spec/Parts.lean) reads one file after the other; the theorems compare that with reading
one file that has the contents of all.
-/

namespace Kws
open Spec

theorem lines_ended (s b : Str) : lines (s ++ '\n' :: b) = lines (s ++ ['\n']) ++ lines b := by
  induction s with
  | nil => simp [lines]
  | cons c r ih =>
    simp only [List.cons_append]
    by_cases hc : c = '\n'
    · subst hc
      simp only [lines, if_true, ih, List.cons_append]
    · have hne : lines (r ++ ['\n']) ≠ [] := by
        cases r with
        | nil => simp [lines]
        | cons d r => rw [List.cons_append, lines_eq]; simp
      conv_lhs => unfold lines
      conv_rhs => unfold lines
      rw [if_neg hc, if_neg hc, ih]
      cases h : lines (r ++ ['\n']) with
      | nil => exact absurd h hne
      | cons l ls =>
        rw [← lines.eq_def]
        rfl

theorem lines_parts {a : Str} (h : EndsLine a) (b : Str) : lines (a ++ b) = lines a ++ lines b := by
  rcases h with rfl | ⟨s, rfl⟩
  · rfl
  · rw [List.append_assoc]
    exact lines_ended s b

theorem lineFeeds_lines {a : Str} (h : EndsLine a) : (lines a).length = lineFeeds a := by
  rcases h with rfl | ⟨s, rfl⟩
  · rfl
  · unfold lineFeeds
    induction s with
    | nil => rfl
    | cons c r ih =>
      simp only [List.cons_append, List.count_cons]
      by_cases hc : c = '\n'
      · subst hc
        simp [lines, ih]
      · have e : lines (c :: (r ++ ['\n'])) = match lines (r ++ ['\n']) with
            | [] => [[c]]
            | l :: ls => (c :: l) :: ls := by
          conv_lhs => unfold lines
          rw [if_neg hc]
          cases lines (r ++ ['\n']) <;> rfl
        rw [← ih, e]
        cases h : lines (r ++ ['\n']) with
        | nil =>
          exfalso
          cases r with
          | nil => simp [lines] at h
          | cons d r => rw [List.cons_append, lines_eq] at h; simp at h
        | cons l ls => simp [hc]

/-- The lines of a file that is put together. -/
theorem lines_flatten : ∀ (ts : List Str), (∀ t ∈ ts.dropLast, EndsLine t) →
    lines ts.flatten = (ts.map lines).flatten
  | [], _ => rfl
  | [t], _ => by simp
  | t :: u :: ts, h => by
    have h1 : EndsLine t := h t (by simp)
    have h2 : ∀ x ∈ (u :: ts).dropLast, EndsLine x := fun x hx => h x (by
      rw [List.dropLast_cons_cons]; exact List.mem_cons_of_mem _ hx)
    rw [List.flatten_cons, lines_parts h1, lines_flatten (u :: ts) h2]
    rfl

section
variable {μ E E2 : Type} (ex : Extractor E) (map : μ → E → μ × Cpp E2)

theorem laterBy_add (a b : ℕ) (st : ReadStatus) : laterBy a (laterBy b st) = laterBy (a + b) st := by
  cases st <;> simp [laterBy, Nat.add_assoc]

theorem readLines_later (ls : List Str) : ∀ (k n : ℕ) (m : μ), readLines ex map (k + n) m ls =
    ((readLines ex map n m ls).1, (readLines ex map n m ls).2.1,
      laterBy k (readLines ex map n m ls).2.2) := by
  induction ls with
  | nil => intro k n m; rfl
  | cons l ls ih =>
    intro k n m
    simp only [readLines]
    cases readLine ex l with
    | skip => simp only [Nat.add_assoc, ih]
    | bad => rfl
    | fault f => rfl
    | event e =>
      simp only
      rcases map m e with ⟨m', _ | e'⟩
      · rfl
      · simp only [Nat.add_assoc, ih]

theorem readLines_append (ls ls' : List Str) : ∀ (n : ℕ) (m : μ), readLines ex map n m (ls ++ ls') =
    if (readLines ex map n m ls).2.2 = .ok then
      let r := readLines ex map (n + ls.length) (readLines ex map n m ls).1 ls'
      (r.1, (readLines ex map n m ls).2.1 ++ r.2.1, r.2.2)
    else readLines ex map n m ls := by
  induction ls with
  | nil => intro n m; simp [readLines]
  | cons l ls ih =>
    intro n m
    have en : n + 1 + ls.length = n + (ls.length + 1) := by omega
    rw [List.cons_append]
    rcases hl : readLine ex l with _ | e | _ | f
    · simp only [readLines, hl, ih, List.length_cons, en]
    · rcases hm : map m e with ⟨m', _ | e'⟩
      · simp [readLines, hl, hm]
      · simp only [readLines, hl, hm, ih, List.length_cons, en]
        split <;> rfl
    · simp [readLines, hl]
    · simp [readLines, hl]

/-- C131: reading two files put together, the first of which ends with a line feed, is reading the one
and then, with the state that the mapper has then, the other: the events of both, in this order. If
the first cannot be read, nothing is read of the second; if the second cannot be read, the line
that is named is counted from the beginning of the first. -/
theorem C131_two (m : μ) (a b : Str) (h : EndsLine a) :
    readEvents ex map m (a ++ b) =
      let r := readEvents ex map m a
      if r.2.2 = .ok then
        let r' := readEvents ex map r.1 b
        (r'.1, r.2.1 ++ r'.2.1, laterBy (lineFeeds a) r'.2.2)
      else r := by
  simp only [readEvents_lines, lines_parts h, readLines_append, ← lineFeeds_lines h,
    Nat.add_comm 1 (lines a).length, readLines_later]

theorem readFiles_later {read : μ → Str → μ × List E2 × ReadStatus} (ts : List Str) : ∀ (k n : ℕ) (m : μ),
    readFiles read (k + n) m ts = ((readFiles read n m ts).1, (readFiles read n m ts).2.1,
      laterBy k (readFiles read n m ts).2.2) := by
  induction ts with
  | nil => intro k n m; rfl
  | cons t ts ih =>
    intro k n m
    simp only [readFiles]
    split
    · simp only [Nat.add_assoc, ih]
    · simp only [laterBy_add]

theorem laterBy_zero (st : ReadStatus) : laterBy 0 st = st := by cases st <;> simp [laterBy]

/-- C131: reading any number of files put together, all of which but the last end with a line feed, is
reading one after the other. -/
theorem C131_files : ∀ (ts : List Str) (m : μ), (∀ t ∈ ts.dropLast, EndsLine t) →
    readEvents ex map m ts.flatten = readFiles (readEvents ex map) 0 m ts
  | [], m, _ => by simp [readEvents_lines, lines, readLines, readFiles]
  | [t], m, _ => by
    simp only [List.flatten_cons, List.flatten_nil, List.append_nil, readFiles, laterBy_zero]
    split
    · next h => rw [← h]
    · rfl
  | t :: u :: ts, m, h => by
    have h1 : EndsLine t := h t (by simp)
    have h2 : ∀ x ∈ (u :: ts).dropLast, EndsLine x := fun x hx => h x (by
      rw [List.dropLast_cons_cons]; exact List.mem_cons_of_mem _ hx)
    rw [List.flatten_cons, C131_two ex map m t _ h1]
    rw [readFiles]
    simp only [C131_files (u :: ts) _ h2, Nat.zero_add, laterBy_zero]
    split
    · rw [show lineFeeds t = lineFeeds t + 0 from rfl, readFiles_later]
      rfl
    · rfl

end

/-- C131: the line feed is needed. Without it the last line of the first file and the first line of the
second are one line: two files that can be read give one that cannot. -/
theorem C131_newline_needed :
    readPlain extractStrEvent "a x\nb y".toList = ([⟨"a".toList, "x".toList⟩, ⟨"b".toList, "y".toList⟩], .ok) ∧
    readPlain extractStrEvent "c z\n".toList = ([⟨"c".toList, "z".toList⟩], .ok) ∧
    readPlain extractStrEvent ("a x\nb y".toList ++ "c z\n".toList) =
      ([⟨"a".toList, "x".toList⟩], .badLine 2) := by
  refine ⟨?_, ?_, ?_⟩ <;> decide +kernel

/-- C131: ... or other events, without any message. -/
theorem C131_newline_silent :
    readPlain extractStrEvent "a x\nb".toList = ([⟨"a".toList, "x".toList⟩], .badLine 2) ∧
    readPlain extractStrEvent " y\n".toList = ([], .badLine 1) ∧
    readPlain extractStrEvent ("a x\nb".toList ++ " y\n".toList) =
      ([⟨"a".toList, "x".toList⟩, ⟨"b".toList, "y".toList⟩], .ok) := by
  refine ⟨?_, ?_, ?_⟩ <;> decide +kernel

section
variable {E : Type} {G : Str → E → Str → Prop}

theorem yields_append {ls ls' : List Str} {es es' : List E} (h : Yields G ls es) (h' : Yields G ls' es') :
    Yields G (ls ++ ls') (es ++ es') := by
  induction h with
  | nil => exact h'
  | skip hi _ ih => exact .skip hi ih
  | event hi he _ ih => exact .event hi he ih

/-- C131: the events of files put together. -/
theorem C131_events (ts : List Str) (ess : List (List E)) (he : ∀ t ∈ ts.dropLast, EndsLine t)
    (h : List.Forall₂ (fun t es => Yields G (lines t) es) ts ess) :
    Yields G (lines ts.flatten) ess.flatten := by
  rw [lines_flatten ts he]
  clear he
  induction h with
  | nil => exact .nil
  | cons h _ ih => exact yields_append h ih

/-- The lines of a text that can be read. -/
theorem yields_mem {ls : List Str} {es : List E} (h : Yields G ls es) :
    ∀ l ∈ ls, Ignored l ∨ ∃ e, IsEvent G l e := by
  induction h with
  | nil => simp
  | skip hi _ ih =>
    intro l hl
    rcases List.mem_cons.1 hl with rfl | hl
    · exact Or.inl hi
    · exact ih l hl
  | event _ he _ ih =>
    intro l hl
    rcases List.mem_cons.1 hl with rfl | hl
    · exact Or.inr ⟨_, he⟩
    · exact ih l hl

/-- C131: the first bad line of files put together is that of the first file that has one, its number
being counted from the beginning. -/
theorem C131_badLine (pre post : List Str) (b : Str) (j : ℕ) (he : ∀ t ∈ pre, EndsLine t)
    (hpost : ∀ t ∈ (b :: post).dropLast, EndsLine t)
    (hr : ∀ t ∈ pre, ∃ es, Yields G (lines t) es) (hb : FirstBadLine G b j) :
    FirstBadLine G (pre ++ b :: post).flatten ((pre.map lineFeeds).sum + j) := by
  obtain ⟨p, l, q, h1, h2, h3, h4⟩ := hb
  have hlen : ((pre.map lines).flatten).length = (pre.map lineFeeds).sum := by
    rw [List.length_flatten, List.map_map]
    congr 1
    exact List.map_congr_left (fun t ht => lineFeeds_lines (he t ht))
  refine ⟨(pre.map lines).flatten ++ p, l, q ++ (post.map lines).flatten, ?_, ?_, ?_, h4⟩
  · rw [lines_flatten _ (by
      intro t ht
      rw [List.dropLast_append_of_ne_nil (by simp)] at ht
      rcases List.mem_append.1 ht with ht | ht
      · exact he t ht
      · exact hpost t ht)]
    simp [h1]
  · rw [List.length_append, hlen]
    omega
  · intro l' hl'
    rcases List.mem_append.1 hl' with hl' | hl'
    · obtain ⟨x, hx, hlx⟩ := List.mem_flatten.1 hl'
      obtain ⟨t, ht, rfl⟩ := List.mem_map.1 hx
      obtain ⟨es, hes⟩ := hr t ht
      exact yields_mem hes l' hlx
    · exact h3 l' hl'

end

section
variable {G : Type}

/-- C131 for runs of the segmentation tool: if the submission is put together from files the first
unreadable of which is `b`, the run names the line counted from the beginning of the first. -/
theorem C131_segmentation_message (R : Rnd) (S : StdSort) (rng : Rng G) (qf : Bool) (w : World) (prog : Str)
    (argv : List Str) (p : Parser) (o : ToolOptions)
    (hp : (toolParser R).parse R argv = (.accepted, p)) (ho : o = ToolOptions.ofParser p)
    (hV : (vocabulary w o).dedup.length ≤ 2 ^ 31) (hn : o.refFilename ≠ []) (t : Str)
    (refs : List (Event Str Str)) (ht : w.file o.refFilename = some t) (hrefs : Yields StrEventText (lines t) refs)
    (pre post : List Str) (b : Str) (j : ℕ) (he : ∀ t ∈ pre, EndsLine t)
    (hpost : ∀ t ∈ (b :: post).dropLast, EndsLine t)
    (hr : ∀ t ∈ pre, ∃ es, Yields (ScoredText R StrEventText) (lines t) es)
    (hb : FirstBadLine (ScoredText R StrEventText) b j)
    (hu : hypText w o = some (pre ++ b :: post).flatten) :
    let run := traceMain R S rng (simpleKit R qf) simpleTexts w prog argv
    run.result = .ok 1 ∧ outsOf run.effects = [] ∧ filesOf run.effects = [] ∧
      errsOf run.effects = [sayRefs refs.length ++ "\n".toList,
        "ERROR: Failed to read event from line ".toList ++ decimal ((pre.map lineFeeds).sum + j) ++ "\n".toList,
        sayHypsFailed o (argv.length + 1) ++ "\n".toList] := by
  intro run
  have hx := Unreadable.badLine (C131_badLine pre post b j he hpost hr hb)
  rw [← hu] at hx
  obtain ⟨h1, h2, h3, h4⟩ := C79_segmentation_stops R S rng qf w prog argv p o hp ho hV _
    (.hyps hn ht hrefs hx)
  exact ⟨h1, h3, h4, h2⟩

/-- C131 for runs of the box tool. -/
theorem C131_box_message (R : Rnd) (S : StdSort) (rng : Rng G) (w : World) (prog : Str)
    (argv : List Str) (p : Parser) (o : ToolOptions)
    (hp : (toolParser R).parse R argv = (.accepted, p)) (ho : o = ToolOptions.ofParser p)
    (hn : o.refFilename ≠ []) (t : Str) (refs : List (Event Str (DocBox Str UInt32)))
    (ht : w.file o.refFilename = some t) (hrefs : Yields BoxEventText (lines t) refs)
    (pre post : List Str) (b : Str) (j : ℕ) (he : ∀ t ∈ pre, EndsLine t)
    (hpost : ∀ t ∈ (b :: post).dropLast, EndsLine t)
    (hr : ∀ t ∈ pre, ∃ es, Yields (ScoredText R BoxEventText) (lines t) es)
    (hb : FirstBadLine (ScoredText R BoxEventText) b j)
    (hu : hypText w o = some (pre ++ b :: post).flatten) :
    let run := traceMain R S rng (icdarKit R S) icdarTexts w prog argv
    run.result = .ok 1 ∧ outsOf run.effects = [] ∧ filesOf run.effects = [] ∧
      errsOf run.effects = [sayRefs refs.length ++ "\n".toList,
        "ERROR: Failed to read event from line ".toList ++ decimal ((pre.map lineFeeds).sum + j) ++ "\n".toList,
        sayHypsFailed o (argv.length + 1) ++ "\n".toList] := by
  intro run
  have hx := Unreadable.badLine (C131_badLine pre post b j he hpost hr hb)
  rw [← hu] at hx
  obtain ⟨h1, h2, h3, h4⟩ := C79_box_stops R S rng w prog argv p o hp ho _
    (.hyps hn ht hrefs hx)
  exact ⟨h1, h3, h4, h2⟩

/-- C131: with `--sort=desc` or `--sort=asc` the order in which the files of a submission to the box tool
are put together does not matter, nor does that of the files of the references. -/
theorem C131_box_order (R : Rnd) (S : StdSort) (rng : Rng G) (w w' : World) (o : ToolOptions)
    (rs rs' hs hs' : List Str) (hrs : rs.Perm rs') (hhs : hs.Perm hs')
    (er : ∀ t ∈ rs, EndsLine t) (eh : ∀ t ∈ hs, EndsLine t)
    (h1 : w.file o.refFilename = some rs.flatten) (h1' : w'.file o.refFilename = some rs'.flatten)
    (h2 : hypText w o = some hs.flatten) (h2' : hypText w' o = some hs'.flatten)
    (hq : w.file o.querySet = w'.file o.querySet) (hg : w.file o.queryGroups = w'.file o.queryGroups)
    (hw : w.writable = w'.writable) (hsort : o.sort = "desc".toList ∨ o.sort = "asc".toList) :
    mainWith R S rng (icdarKit R S) w o = mainWith R S rng (icdarKit R S) w' o := by
  have key : ∀ {ts ts' : List Str}, ts.Perm ts' → (∀ t ∈ ts, EndsLine t) →
      (lines ts.flatten).Perm (lines ts'.flatten) := by
    intro ts ts' h he
    rw [lines_flatten ts (fun t ht => he t (List.dropLast_subset _ ht)),
      lines_flatten ts' (fun t ht => he t (h.mem_iff.2 (List.dropLast_subset _ ht)))]
    exact (h.map lines).flatten
  exact C60_line_order R S rng w w' o
    ⟨Or.inr ⟨_, _, h1, h1', fun l => (key hrs er).mem_iff⟩, Or.inr ⟨_, _, h2, h2', key hhs eh⟩, hq, hg, hw⟩ hsort

end

/-- Case: three files, the second with a comment and a bad line; the line number is counted through. -/
example :
    let a := "a x 1\nb y 2\n".toList
    let b := "# more\nc\nd z 3\n".toList
    let c := "e z 3".toList
    readPlain (extractScored Rnd.exact extractStrEvent) [a, b, c].flatten =
      (readFiles (readEvents (extractScored Rnd.exact extractStrEvent) identityMap) 0 () [a, b, c]).2 ∧
    (readPlain (extractScored Rnd.exact extractStrEvent) [a, b, c].flatten).2 = .badLine 4 := by
  intro a b c
  refine ⟨?_, by decide +kernel⟩
  rw [← C131_files _ _ [a, b, c] ()]
  · rfl
  · intro t ht
    have : t = a ∨ t = b := by simpa using ht
    rcases this with rfl | rfl
    · exact Or.inr ⟨"a x 1\nb y 2".toList, by decide +kernel⟩
    · exact Or.inr ⟨"# more\nc\nd z 3".toList, by decide +kernel⟩

end Kws
