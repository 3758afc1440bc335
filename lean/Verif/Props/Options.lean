import Verif.Spec.Options
import Verif.Lemmas.Help
import Verif.Lemmas.Tool

/-!
# C83: what the options of the tools mean

`OptionsMean` is in `Spec/Options.lean`; a command line is taken apart as in C52.
-/

namespace Kws
open Spec OptVal

/-- The last text of an option is valid. -/
theorem lastText_ok (R : Rnd) (opts : List (Str × OptVal)) (items : List OptItem) (tail : List Str)
    (hok : ItemsOk R opts items tail) (name s : Str) (v : OptVal) (hn : name ≠ "help".toList)
    (hv : AMap.find? name opts = some v) (h : lastText items name = some s) :
    (v.parseOpt R s).1 = true := by
  obtain ⟨it, hit, hw, rfl⟩ := lastText_mem h
  have hitem : ∃ next, ItemOk R opts it next := by
    clear h hw
    induction items with
    | nil => cases hit
    | cons a items ih =>
      rcases List.mem_cons.1 hit with rfl | hit
      · exact ⟨_, hok.1⟩
      · exact ih hok.2 hit
  clear h
  obtain ⟨next, ⟨h1, _⟩ | ⟨name', v', hsel, hfind, h⟩⟩ := hitem
  · rw [h1] at hw
    exact absurd hw.symm hn
  · rw [(Parser.Spec.Selects.like hsel).2] at hw
    subst hw
    rw [hfind, Option.some.injEq] at hv
    subst hv
    rcases h with ⟨_, s, hs, h⟩ | ⟨hb, hs, _⟩ | ⟨_, s, hs, _, h⟩
    · rw [hs]; exact h
    · rw [hs]
      cases v' <;> rfl
    · rw [hs]; exact h

/-- A text without NUL is stored as it is. -/
theorem takeWhile_nul (s : Str) (h : (!s.contains '\x00') = true) :
    s.takeWhile (· != '\x00') = s := by
  have hz : '\x00' ∉ s := by simpa using h
  rw [List.takeWhile_eq_self_iff]
  intro c hc
  have : c ≠ '\x00' := fun e => hz (e ▸ hc)
  simpa using this

section
variable (R : Rnd) (opts : List (Str × OptVal)) (items : List OptItem) (tail : List Str)
  (hok : ItemsOk R opts items tail) (p : Parser) (hp : p.opts = optsAfter R opts items)
  (name : String) (hn : name.toList ≠ "help".toList)
include hok hp hn

theorem text_option (d : String) (hd : AMap.find? name.toList opts = some (.str d.toList)) :
    TextOption items name d (asStr (optValue p name)) := by
  unfold optValue TextOption
  rw [hp, Parser.find?_optsAfter, hd]
  cases h : lastText items name.toList with
  | none => rfl
  | some s =>
    exact takeWhile_nul s (lastText_ok R opts items tail hok _ s _ hn hd h)

theorem flag_option (d : Bool) (hd : AMap.find? name.toList opts = some (.bool d)) :
    FlagOption items name d (asBool (optValue p name)) := by
  unfold optValue FlagOption
  rw [hp, Parser.find?_optsAfter, hd]
  cases h : lastText items name.toList with
  | none => rfl
  | some s =>
    have h1 := lastText_ok R opts items tail hok _ s _ hn hd h
    have e : (OptVal.bool d).parseOpt R s = parseOptBool d s := rfl
    simp only [Option.map_some, valueAfter, e] at h1 ⊢
    unfold parseOptBool at h1 ⊢
    split at h1
    · rename_i hs
      rw [if_pos hs]
      exact Or.inl ⟨rfl, hs⟩
    · rename_i hs
      rw [if_neg hs]
      split at h1
      · rename_i hs'
        rw [if_pos hs']
        exact Or.inr ⟨rfl, hs'⟩
      · cases h1

omit hok hn in
theorem number_option (d : ℕ) (hd : AMap.find? name.toList opts = some (.size d)) :
    NumberOption items name d (asNat (optValue p name)) := by
  unfold optValue NumberOption
  rw [hp, Parser.find?_optsAfter, hd]
  cases h : lastText items name.toList with
  | none => rfl
  | some s =>
    intro z hz hlt
    have := (C56_in_range_partial R s).1 d z hz (by positivity) (by exact_mod_cast hlt)
    simp only [Option.map_some, valueAfter, this]
    simp [asNat]

omit hok hn in
theorem real_option (d : ℚ) (hd : AMap.find? name.toList opts = some (.double (R.f64 d))) :
    RealOption R items name d (asRat (optValue p name)) := by
  unfold optValue RealOption
  rw [hp, Parser.find?_optsAfter, hd]
  cases h : lastText items name.toList with
  | none => rfl
  | some s =>
    intro q hq hlt
    have := (C56_in_range_partial R s).2.2 (R.f64 d) q hq hlt
    simp only [Option.map_some, valueAfter, this]
    rfl

end

/-- C83: on a command line that a tool accepts, every variable has the value that the option of its
name was last given, or its default, and the arguments name the files. -/
theorem C83_options (R : Rnd) (items : List OptItem) (tail pos : List Str) (p : Parser)
    (hok : ItemsOk R (toolParser R).opts items tail) (ht : TailOk tail pos)
    (hnh : ∀ it ∈ items, it.word ≠ "--help".toList)
    (h : (toolParser R).parse R (items.flatMap OptItem.render ++ tail) = (.accepted, p)) :
    OptionsMean R items pos (ToolOptions.ofParser p) := by
  have hw := C54_tool R
  have h1 := Parser.parseOptions_items R _ hw.1 hw.2 items tail [] false hok
  have hno : items.any Parser.isHelp = false := by
    rw [List.any_eq_false]
    intro it hit
    have := hnh it hit
    simpa [Parser.isHelp] using this
  rw [Parser.optsAfter_nil, Parser.parseOptions_tail R _ _ ht, hno, Bool.or_false, List.nil_append] at h1
  obtain ⟨ha1, ha2⟩ := toolParser_args R
  have key : p.opts = optsAfter R (toolParser R).opts items ∧ pos.length ≤ 2 ∧ 1 ≤ pos.length ∧
      p.args = assigned R [.str []] pos ∧ p.optArgs = assigned R [.str []] (pos.drop 1) ∧
      ArgsOk R [.str []] pos ∧ ArgsOk R [.str []] (pos.drop 1) := by
    obtain ⟨items', tail', pos', e, hok', ht', hnh', c1, c2, c3, c4, c5⟩ :=
      (C52_accepts R _ p hw _).1 h
    have h2 := Parser.parseOptions_items R _ hw.1 hw.2 items' tail' [] false hok'
    have hno' : items'.any Parser.isHelp = false := by
      rw [List.any_eq_false]
      intro it hit
      have := hnh' it hit
      simpa [Parser.isHelp] using this
    rw [Parser.optsAfter_nil, Parser.parseOptions_tail R _ _ ht', hno', Bool.or_false,
      List.nil_append, ← e, h1] at h2
    injection h2 with h3 _ h5
    subst h5
    rw [ha1, ha2] at c5
    rw [ha1] at c1 c2 c3 c4
    rw [ha2] at c2 c4
    rw [← h3] at c5
    subst c5
    exact ⟨rfl, c2, c1, rfl, rfl, c3, c4⟩
  obtain ⟨hopts, hle, hge, hargs, hoargs, hok1, hok2⟩ := key
  have f := toolParser_opts R
  have T := fun (name d : String) hn hd => text_option R _ items tail hok p hopts name hn d hd
  have F := fun (name : String) (d : Bool) hn hd => flag_option R _ items tail hok p hopts name hn d hd
  have N := fun (name : String) (d : ℕ) hd => number_option R _ items p hopts name d hd
  have X := fun (name : String) (d : ℚ) hd => real_option R _ items p hopts name d hd
  rw [f] at T F N X
  constructor
  · unfold ToolOptions.ofParser
    rw [hargs]
    match pos, hge with
    | a :: _, _ => exact congrArg some (takeWhile_nul a (hok1 _ (List.mem_cons_self ..))).symm
  · unfold ToolOptions.ofParser
    rw [hoargs]
    match pos, hge with
    | [_], _ => simp [assigned, asStr]
    | _ :: b :: _, _ => exact takeWhile_nul b (hok2 _ (List.mem_cons_self ..))
  · exact T "query_set" "" (by decide) (by simp [AMap.find?])
  · exact T "query_groups" "" (by decide) (by simp [AMap.find?])
  · exact T "dump_matches" "" (by decide) (by simp [AMap.find?])
  · exact T "sort" "desc" (by decide) (by simp [AMap.find?])
  · exact T "output_grp" "" (by decide) (by simp [AMap.find?])
  · exact T "output_mrp" "" (by decide) (by simp [AMap.find?])
  · exact F "collapse_matches" true (by decide) (by simp [AMap.find?])
  · exact F "interpolated_precision" true (by decide) (by simp [AMap.find?])
  · exact F "trapezoid_integral" true (by decide) (by simp [AMap.find?])
  · exact F "bootstrap_ci_gap" false (by decide) (by simp [AMap.find?])
  · exact F "bootstrap_ci_map" false (by decide) (by simp [AMap.find?])
  · exact F "bootstrap_ci_gndcg" false (by decide) (by simp [AMap.find?])
  · exact F "bootstrap_ci_mndcg" false (by decide) (by simp [AMap.find?])
  · exact N "bootstrap_samples" 10000 (by simp [AMap.find?])
  · exact N "bootstrap_seed" 74565 (by simp [AMap.find?])
  · exact X "bootstrap_alpha" (5 / 100) (by simp [AMap.find?])
  · exact N "rp_curve_samples" 10000 (by simp [AMap.find?])

/-- C83: a run depends on the command line only through the last text of each option and the
arguments: their order, texts given earlier and a `--` before the arguments make no difference. -/
theorem C83_same {G μ σ Q L : Type} [DecidableEq Q] [Cmp Q] [Cmp L] (R : Rnd) (S : StdSort)
    (rng : Rng G) (kit : ToolKit μ σ Q L) (w : World) (items items' : List OptItem)
    (tail tail' pos : List Str)
    (hok : ItemsOk R (toolParser R).opts items tail) (ht : TailOk tail pos)
    (hnh : ∀ it ∈ items, it.word ≠ "--help".toList)
    (hok' : ItemsOk R (toolParser R).opts items' tail') (ht' : TailOk tail' pos)
    (hnh' : ∀ it ∈ items', it.word ≠ "--help".toList)
    (hsame : ∀ name, lastText items name = lastText items' name) :
    toolMain R S rng kit w (items.flatMap OptItem.render ++ tail) =
      toolMain R S rng kit w (items'.flatMap OptItem.render ++ tail') := by
  have hw := C54_tool R
  have no_help : ∀ items : List OptItem, (∀ it ∈ items, it.word ≠ "--help".toList) →
      items.any Parser.isHelp = false := by
    intro items hnh
    rw [List.any_eq_false]
    intro it hit
    have := hnh it hit
    simpa [Parser.isHelp] using this
  have h1 := Parser.parseOptions_items R _ hw.1 hw.2 items tail [] false hok
  have h2 := Parser.parseOptions_items R _ hw.1 hw.2 items' tail' [] false hok'
  rw [Parser.optsAfter_nil, Parser.parseOptions_tail R _ _ ht, no_help _ hnh, Bool.or_false,
    List.nil_append] at h1
  rw [Parser.optsAfter_nil, Parser.parseOptions_tail R _ _ ht', no_help _ hnh', Bool.or_false,
    List.nil_append] at h2
  have e : optsAfter R (toolParser R).opts items = optsAfter R (toolParser R).opts items' := by
    unfold optsAfter
    simp only [hsame]
  unfold toolMain Parser.parse
  rw [h1, h2, e]

/-- Case: `--sort none --collapse_matches --bootstrap_seed 7 --sort asc -- -r hyp`: the last `--sort`
counts, a flag without text is true, the number is read, other options keep their defaults, and the
references are in the file `-r`. -/
example : OptionsMean Rnd.ieee
    [⟨"--sort".toList, some "none".toList⟩, ⟨"--collapse_matches".toList, none⟩,
      ⟨"--bootstrap_seed".toList, some "7".toList⟩, ⟨"--sort".toList, some "asc".toList⟩]
    ["-r".toList, "hyp".toList]
    (ToolOptions.ofParser ((toolParser Rnd.ieee).parse Rnd.ieee
      (["--sort", "none", "--collapse_matches", "--bootstrap_seed", "7", "--sort", "asc", "--", "-r",
        "hyp"].map String.toList)).2) := by
  refine C83_options Rnd.ieee _ ["--".toList, "-r".toList, "hyp".toList] _ _ ⟨?_, ?_, ?_, ?_, trivial⟩
    (Or.inl rfl) (by decide) (Prod.ext (by decide +kernel) rfl)
  · exact Or.inr ⟨"sort".toList, .str "desc".toList, ⟨⟨'-', rfl⟩, by decide, by decide⟩, rfl,
      Or.inl ⟨rfl, _, rfl, by decide⟩⟩
  · exact Or.inr ⟨"collapse_matches".toList, .bool true, ⟨⟨'-', rfl⟩, by decide, by decide⟩, rfl,
      Or.inr (Or.inl ⟨rfl, rfl, by decide⟩)⟩
  · exact Or.inr ⟨"bootstrap_seed".toList, .size 74565, ⟨⟨'-', rfl⟩, by decide, by decide⟩, rfl,
      Or.inl ⟨rfl, _, rfl, by decide +kernel⟩⟩
  · exact Or.inr ⟨"sort".toList, .str "desc".toList, ⟨⟨'-', rfl⟩, by decide, by decide⟩, rfl,
      Or.inl ⟨rfl, _, rfl, by decide⟩⟩

/-- Case: `--sort none --sort asc --collapse_matches 0 ref` is the same as
`--collapse_matches 0 --sort asc -- ref`. -/
example (S : StdSort) (w : World) : toolMain Rnd.ieee S mt19937_64 (icdarKit Rnd.ieee S) w
      (["--sort", "none", "--sort", "asc", "--collapse_matches", "0", "ref"].map String.toList) =
    toolMain Rnd.ieee S mt19937_64 (icdarKit Rnd.ieee S) w
      (["--collapse_matches", "0", "--sort", "asc", "--", "ref"].map String.toList) := by
  have hsort : ∀ s : Str, '\x00' ∉ s → ∀ next, ItemOk Rnd.ieee (toolParser Rnd.ieee).opts
      ⟨"--sort".toList, some s⟩ next := fun s hs next =>
    Or.inr ⟨"sort".toList, .str "desc".toList, ⟨⟨'-', rfl⟩, (by decide : "--sort".toList ≠ "--".toList),
      (by decide : "--sort".toList ≠ "--help".toList)⟩, rfl,
      Or.inl ⟨rfl, _, rfl, by
        show (!s.contains '\x00') = true
        simpa using hs⟩⟩
  have hcoll : ∀ next, ItemOk Rnd.ieee (toolParser Rnd.ieee).opts
      ⟨"--collapse_matches".toList, some "0".toList⟩ next := fun next =>
    Or.inr ⟨"collapse_matches".toList, .bool true, ⟨⟨'-', rfl⟩, by decide, by decide⟩, rfl,
      Or.inr (Or.inr ⟨rfl, _, rfl, by decide, by decide⟩)⟩
  refine C83_same Rnd.ieee _ _ _ w
    [⟨"--sort".toList, some "none".toList⟩, ⟨"--sort".toList, some "asc".toList⟩,
      ⟨"--collapse_matches".toList, some "0".toList⟩]
    [⟨"--collapse_matches".toList, some "0".toList⟩, ⟨"--sort".toList, some "asc".toList⟩]
    ["ref".toList] ["--".toList, "ref".toList] ["ref".toList]
    ⟨hsort _ (by decide) _, hsort _ (by decide) _, hcoll _, trivial⟩ (Or.inr ⟨rfl, ?_⟩) (by decide)
    ⟨hcoll _, hsort _ (by decide) _, trivial⟩ (Or.inl rfl) (by decide) ?_
  · intro w hw
    simp at hw
    subst hw
    rintro ⟨_, h⟩
    exact absurd h (by decide)
  · intro name
    unfold lastText
    by_cases h1 : name = "sort".toList
    · subst h1; decide
    · by_cases h2 : name = "collapse_matches".toList
      · subst h2; decide
      · have e1 : ("sort".toList == name) = false := by simpa using Ne.symm h1
        have e2 : ("collapse_matches".toList == name) = false := by simpa using Ne.symm h2
        have d1 : "--sort".toList.drop 2 = "sort".toList := rfl
        have d2 : "--collapse_matches".toList.drop 2 = "collapse_matches".toList := rfl
        simp only [List.filter_cons, d1, d2, e1, e2, Bool.false_eq_true, if_false, List.filter_nil]

end Kws
