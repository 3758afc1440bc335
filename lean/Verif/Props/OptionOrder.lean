import Verif.Spec.OptionOrder
import Verif.Props.Options
import Verif.Model.ToolDouble

/-!
# C121: the order of the options
-/

namespace Kws
open Spec OptVal Kws.Parser

section
variable {R : Rnd} {opts : List (Str × OptVal)}

theorem itemOk_dash {it : OptItem} {next : List Str} (h : ItemOk R opts it next) : it.word.head? = some '-' := by
  rcases h with ⟨h, _⟩ | ⟨name, v, ⟨⟨c, h⟩, _⟩, _⟩ <;> rw [h] <;> rfl

/-- Whether an item is fine depends on the next words only if it has no value. -/
theorem itemOk_next {it : OptItem} {next next' : List Str} (h : ItemOk R opts it next)
    (hn : it.value = none → it.word ≠ "--help".toList → ∀ w, next'.head? = some w → w.head? = some '-') :
    ItemOk R opts it next' := by
  rcases h with h | ⟨name, v, hs, hf, h⟩
  · exact .inl h
  · refine .inr ⟨name, v, hs, hf, ?_⟩
    rcases h with h | ⟨h1, h2, _⟩ | h
    · exact .inl h
    · exact .inr (.inl ⟨h1, h2, hn h2 hs.2.2⟩)
    · exact .inr (.inr h)

theorem itemsOk_each {items : List OptItem} {tail : List Str} (h : ItemsOk R opts items tail) :
    ∀ it ∈ items, ∃ next, ItemOk R opts it next := by
  induction items with
  | nil => simp
  | cons a items ih =>
    intro it hit
    rcases List.mem_cons.1 hit with rfl | hit
    · exact ⟨_, h.1⟩
    · exact ih h.2 it hit

theorem itemsOk_of_each {items : List OptItem} {tail : List Str} (h : ∀ it ∈ items, ∃ next, ItemOk R opts it next)
    (ht : NotSwallowed items tail) : ItemsOk R opts items tail := by
  induction items with
  | nil => trivial
  | cons a items ih =>
    obtain ⟨next, ha⟩ := h a (by simp)
    constructor
    · refine itemOk_next ha fun hv hw w hh => ?_
      cases items with
      | nil =>
        rcases ht with ht | ht
        · rcases ht a rfl with h1 | h1
          · exact absurd hv h1
          · exact absurd h1 hw
        · exact ht w hh
      | cons b items =>
        obtain ⟨_, hb⟩ := h b (by simp)
        have : b.word = w := by simpa [OptItem.render] using hh
        rw [← this]
        exact itemOk_dash hb
    · refine ih (fun it hit => h it (by simp [hit])) ?_
      rcases ht with ht | ht
      · left
        intro it hit
        refine ht it ?_
        cases items with
        | nil => cases hit
        | cons b items => simpa using hit
      · exact .inr ht

end

/-- C121: options (valid ones) may be given in any order, as long as the occurrences of each keep their order and
what follows is not taken for the value of the last one. -/
theorem C121_reorder_partial (R : Rnd) (p : Parser) (hp : WellRegistered p) (items items' : List OptItem) (tail pos : List Str)
    (ht : TailOk tail pos) (hok : ItemsOk R p.opts items tail) (hr : ReorderedItems items items')
    (hs : NotSwallowed items' tail) :
    ItemsOk R p.opts items' tail ∧
    p.parse R (items'.flatMap OptItem.render ++ tail) = p.parse R (items.flatMap OptItem.render ++ tail) := by
  have hok' : ItemsOk R p.opts items' tail :=
    itemsOk_of_each (fun it hit => itemsOk_each hok it (hr.perm.mem_iff.2 hit)) hs
  have h1 := parseOptions_items R _ hp.1 hp.2 items tail [] false hok
  have h2 := parseOptions_items R _ hp.1 hp.2 items' tail [] false hok'
  rw [optsAfter_nil, parseOptions_tail R _ _ ht, List.nil_append] at h1 h2
  have e1 : items'.any isHelp = items.any isHelp := by
    rw [Bool.eq_iff_iff, List.any_eq_true, List.any_eq_true]
    exact exists_congr fun it => and_congr_left fun _ => hr.perm.mem_iff.symm
  have e2 : optsAfter R p.opts items' = optsAfter R p.opts items := by
    unfold optsAfter lastText
    simp only [hr.each]
  refine ⟨hok', ?_⟩
  unfold Parser.parse
  rw [h1, h2, e1, e2]

/-- C121: before `--` any order will do. -/
theorem C121_dashes_partial (R : Rnd) (p : Parser) (hp : WellRegistered p) (items items' : List OptItem) (pos : List Str)
    (hok : ItemsOk R p.opts items ("--".toList :: pos)) (hr : ReorderedItems items items') :
    p.parse R (items'.flatMap OptItem.render ++ "--".toList :: pos) =
      p.parse R (items.flatMap OptItem.render ++ "--".toList :: pos) :=
  (C121_reorder_partial R p hp items items' _ pos (.inl rfl) hok hr
    (.inr fun w hw => by cases hw; rfl)).2

/-- C121: all that the tools write and return is the same, in exact arithmetic and in that of the machine, whether they
evaluate or show the help. -/
theorem C121_output_partial {G μ σ Q L : Type} [DecidableEq Q] [Cmp Q] [Cmp L] (R : Rnd) (lm : Libm) (S : StdSort)
    (rng : Rng G) (kit : ToolKit μ σ Q L) (texts : ToolTexts Q L) (w : World) (prog : Str) (items items' : List OptItem)
    (tail pos : List Str) (ht : TailOk tail pos) (hok : ItemsOk R (toolParser R).opts items tail)
    (hr : ReorderedItems items items') (hs : NotSwallowed items' tail)
    (ha : ((toolParser R).parse R (items.flatMap OptItem.render ++ tail)).1 ≠ .rejected) :
    traceMain R S rng kit texts w prog (items'.flatMap OptItem.render ++ tail) =
      traceMain R S rng kit texts w prog (items.flatMap OptItem.render ++ tail) ∧
    traceMainD R lm S rng kit texts w prog (items'.flatMap OptItem.render ++ tail) =
      traceMainD R lm S rng kit texts w prog (items.flatMap OptItem.render ++ tail) := by
  have e := (C121_reorder_partial R _ (C54_tool R) items items' tail pos ht hok hr hs).2
  have el : (items'.flatMap OptItem.render ++ tail).length = (items.flatMap OptItem.render ++ tail).length := by
    rw [List.length_append, List.length_append, (hr.perm.flatMap_right _).length_eq]
  unfold traceMain traceMainD
  rw [e, el]
  revert ha
  cases (toolParser R).parse R (items.flatMap OptItem.render ++ tail) with
  | mk out p =>
    cases out with
    | rejected => exact fun ha => absurd rfl ha
    | _ => exact fun _ => ⟨rfl, rfl⟩

/-- C121 is false if a flag without value is moved to the end of the options: it takes the next argument, here the file
with the references, for its value. `--collapse_matches --sort asc refs` is accepted, `--sort asc --collapse_matches
refs` is not. If that file is called `0`, the file with the hypotheses becomes that with the references: both command
lines are accepted, but mean different things. -/
theorem C121_flag_refuted :
    (∃ items items' : List OptItem, ReorderedItems items items' ∧
      ((toolParser Rnd.ieee).parse Rnd.ieee (items.flatMap OptItem.render ++ ["refs".toList])).1 = .accepted ∧
      ((toolParser Rnd.ieee).parse Rnd.ieee (items'.flatMap OptItem.render ++ ["refs".toList])).1 = .rejected) ∧
    ∃ (items items' : List OptItem) (p p' : Parser), ReorderedItems items items' ∧
      (toolParser Rnd.ieee).parse Rnd.ieee (items.flatMap OptItem.render ++ ["0".toList, "hyps".toList]) = (.accepted, p) ∧
      (toolParser Rnd.ieee).parse Rnd.ieee (items'.flatMap OptItem.render ++ ["0".toList, "hyps".toList]) = (.accepted, p') ∧
      (ToolOptions.ofParser p).refFilename = "0".toList ∧ (ToolOptions.ofParser p).collapse = true ∧
      (ToolOptions.ofParser p').refFilename = "hyps".toList ∧ (ToolOptions.ofParser p').collapse = false := by
  have hre : ReorderedItems
      [⟨"--collapse_matches".toList, none⟩, ⟨"--sort".toList, some "asc".toList⟩]
      [⟨"--sort".toList, some "asc".toList⟩, ⟨"--collapse_matches".toList, none⟩] := by
    refine ⟨List.Perm.swap _ _ _, fun name => ?_⟩
    have d1 : "--sort".toList.drop 2 = "sort".toList := rfl
    have d2 : "--collapse_matches".toList.drop 2 = "collapse_matches".toList := rfl
    simp only [List.filter_cons, d1, d2, List.filter_nil]
    by_cases h1 : "sort".toList = name
    · have h2 : ("collapse_matches".toList == name) = false := by subst h1; decide
      simp only [h2, Bool.false_eq_true, if_false]
    · have h2 : ("sort".toList == name) = false := by simpa using h1
      simp only [h2, Bool.false_eq_true, if_false]
  refine ⟨⟨_, _, hre, ?_, ?_⟩, ⟨_, _, _, _, hre, Prod.ext ?_ rfl, Prod.ext ?_ rfl, ?_, ?_, ?_, ?_⟩⟩ <;>
    decide +kernel

/-- Case: `--sort asc --collapse_matches --sort none -- refs` and `--collapse_matches --sort asc --sort none -- refs`
are two orders of the same options, both valid and accepted. -/
example (S : StdSort) (lm : Libm) (w : World) (prog : Str) :
    traceMain Rnd.ieee S mt19937_64 (icdarKit Rnd.ieee S) icdarTexts w prog
      (["--collapse_matches", "--sort", "asc", "--sort", "none", "--", "refs"].map String.toList) =
    traceMain Rnd.ieee S mt19937_64 (icdarKit Rnd.ieee S) icdarTexts w prog
      (["--sort", "asc", "--collapse_matches", "--sort", "none", "--", "refs"].map String.toList) := by
  have hsort : ∀ s : Str, '\x00' ∉ s → ∀ next, ItemOk Rnd.ieee (toolParser Rnd.ieee).opts
      ⟨"--sort".toList, some s⟩ next := fun s hs next =>
    Or.inr ⟨"sort".toList, .str "desc".toList, ⟨⟨'-', rfl⟩, (by decide : "--sort".toList ≠ "--".toList),
      (by decide : "--sort".toList ≠ "--help".toList)⟩, rfl,
      Or.inl ⟨rfl, _, rfl, by
        show (!s.contains '\x00') = true
        simpa using hs⟩⟩
  refine (C121_output_partial Rnd.ieee lm S _ _ _ w prog
    [⟨"--sort".toList, some "asc".toList⟩, ⟨"--collapse_matches".toList, none⟩,
      ⟨"--sort".toList, some "none".toList⟩]
    [⟨"--collapse_matches".toList, none⟩, ⟨"--sort".toList, some "asc".toList⟩,
      ⟨"--sort".toList, some "none".toList⟩]
    ["--".toList, "refs".toList] ["refs".toList] (Or.inl rfl)
    ⟨hsort _ (by decide) _, Or.inr ⟨"collapse_matches".toList, .bool true, ⟨⟨'-', rfl⟩, by decide, by decide⟩, rfl,
      Or.inr (Or.inl ⟨rfl, rfl, by decide⟩)⟩, hsort _ (by decide) _, trivial⟩
    ⟨List.Perm.swap _ _ _, fun name => ?_⟩ (Or.inr fun w hw => by cases hw; rfl) (by decide +kernel)).1
  have d1 : "--sort".toList.drop 2 = "sort".toList := rfl
  have d2 : "--collapse_matches".toList.drop 2 = "collapse_matches".toList := rfl
  simp only [List.filter_cons, d1, d2, List.filter_nil]
  by_cases h1 : "sort".toList = name
  · have h2 : ("collapse_matches".toList == name) = false := by subst h1; decide
    simp only [h2, Bool.false_eq_true, if_false]
  · have h2 : ("sort".toList == name) = false := by simpa using h1
    simp only [h2, Bool.false_eq_true, if_false]

end Kws
