import Verif.Lemmas.Help

/-!
# C82: the values in the help

`ListsOptions`, `ShowsValue` and `Presentable` are in `Spec/Help.lean`.
-/

namespace Kws
open Spec OptVal

/-- C82: the help of a parser lists its options with their current values. -/
theorem C82_lists (t : ParserTexts) (p : Parser) (hp : WellRegistered p) (hne : p.opts ≠ []) :
    ListsOptions p.opts (t.help p) :=
  help_lists t p hp.1 hne

theorem optsAfter_names (R : Rnd) (opts : List (Str × OptVal)) (items : List OptItem) :
    (optsAfter R opts items).map Prod.fst = opts.map Prod.fst := by
  unfold optsAfter
  rw [List.map_map]
  rfl

/-- The parser after a command line that asks for help. -/
theorem parse_help (R : Rnd) (p : Parser) (hw : WellRegistered p) (items : List OptItem)
    (tail pos : List Str) (hok : ItemsOk R p.opts items tail) (ht : TailOk tail pos)
    (hh : ∃ it ∈ items, it.word = "--help".toList) :
    ∃ p' : Parser, p'.opts = optsAfter R p.opts items ∧
      p.parse R (items.flatMap OptItem.render ++ tail) = (.exitHelp, p') := by
  have h1 := Parser.parseOptions_items R _ hw.1 hw.2 items tail [] false hok
  have hany : items.any Parser.isHelp = true := by
    obtain ⟨it, hit, e⟩ := hh
    exact List.any_eq_true.2 ⟨it, hit, by simpa [Parser.isHelp] using e⟩
  rw [Parser.optsAfter_nil, Parser.parseOptions_tail R _ _ ht, hany, Bool.or_true, List.nil_append] at h1
  unfold Parser.parse
  rw [h1]
  exact ⟨_, rfl, rfl⟩

section
variable {μ σ Q L G : Type} [DecidableEq Q] [Cmp Q] [Cmp L]

/-- C82: asked for help, a tool lists all its options, each with the value that the command line gives
to it, or else its default. -/
theorem C82_help (R : Rnd) (S : StdSort) (rng : Rng G) (kit : ToolKit μ σ Q L)
    (texts : ToolTexts Q L) (w : World) (prog : Str) (items : List OptItem) (tail pos : List Str)
    (hok : ItemsOk R (toolParser R).opts items tail) (ht : TailOk tail pos)
    (hh : ∃ it ∈ items, it.word = "--help".toList) :
    ∃ help, errsOf (traceMain R S rng kit texts w prog
        (items.flatMap OptItem.render ++ tail)).effects = [help ++ "\n".toList] ∧
      ListsOptions (optsAfter R (toolParser R).opts items) help := by
  have hw := C54_tool R
  obtain ⟨p, h2, h3⟩ := parse_help R (toolParser R) hw items tail pos hok ht hh
  refine ⟨(toolParserTexts prog texts.description).help p, ?_, ?_⟩
  · unfold traceMain
    rw [h3]
    rfl
  · rw [← h2]
    have h4 : p.opts.map Prod.fst = (toolParser R).opts.map Prod.fst := by rw [h2, optsAfter_names]
    refine help_lists _ _ (by rw [h4]; exact hw.1) ?_
    intro h
    rw [h, toolParser_names] at h4
    cases h4

end

/-- Case: `--sort asc --help`, where the help shows `asc`. -/
example : ∃ items, items.flatMap OptItem.render ++ [] = ["--sort", "asc", "--help"].map String.toList ∧
    ItemsOk Rnd.ieee (toolParser Rnd.ieee).opts items [] ∧ TailOk [] [] ∧
    (∃ it ∈ items, it.word = "--help".toList) ∧
    ("sort".toList, OptVal.str "asc".toList) ∈ optsAfter Rnd.ieee (toolParser Rnd.ieee).opts items := by
  refine ⟨[⟨"--sort".toList, some "asc".toList⟩, ⟨"--help".toList, none⟩], rfl, ⟨Or.inr ?_, Or.inl ?_, trivial⟩,
    Or.inr ⟨rfl, by simp⟩, ⟨⟨"--help".toList, none⟩, by simp, rfl⟩, ?_⟩
  · exact ⟨"sort".toList, .str "desc".toList, ⟨⟨'-', rfl⟩, by decide, by decide⟩, rfl,
      Or.inl ⟨rfl, _, rfl, rfl⟩⟩
  · exact ⟨rfl, rfl⟩
  · exact List.mem_of_getElem? (i := 13) rfl

/-- C82: a value that six digits can show is read back from the help. -/
theorem C82_back (R : Rnd) (v : OptVal) (s : Str) (h : ShowsValue v s) (hp : Presentable R v) :
    v.parseOpt R s = (true, v) :=
  (shown_read R v s h hp).1

/-- C82: giving options the values they already have, as they are shown, changes nothing. -/
theorem C82_restated (R : Rnd) (p : Parser) (hp : WellRegistered p) (he : [] ∉ p.opts.map Prod.fst)
    (hpr : ∀ o ∈ p.opts, Presentable R o.2) (os : List (Str × OptVal)) (texts : List Str)
    (hsub : ∀ o ∈ os, o ∈ p.opts) (h : List.Forall₂ (fun o s => ShowsValue o.2 s) os texts)
    (argv : List Str) :
    p.parse R ((os.zip texts).flatMap (fun x => ["--".toList ++ x.1.1, x.2]) ++ argv) =
      p.parse R argv := by
  rw [← parse_stating R p hp he os texts hsub h hpr argv]
  congr 2
  unfold stating
  rw [List.zip, List.flatMap_def, List.flatMap_def, List.map_zipWith, List.map_zipWith]
  rfl

/-- The relative error of a `double`. -/
theorem f64_rel (d : ℚ) (h : 1 / 2 ^ 126 ≤ |d|) : |Rnd.ieee.f64 d - d| ≤ |d| / 2 ^ 53 := by
  have key : ∀ x : ℚ, 1 / 2 ^ 126 ≤ x → |Ieee.roundPos 53 (-1074) x - x| ≤ x / 2 ^ 53 := by
    intro x hx
    have hx0 : 0 < x := lt_of_lt_of_le (by positivity) hx
    refine (Ieee.roundPos_err 53 (-1074)).trans ?_
    have hl : -126 ≤ Int.log 2 x := by
      have h1 := Ieee.lt_log x
      by_contra hlt
      push Not at hlt
      have h2 : (2 : ℚ) ^ (Int.log 2 x + 1) ≤ 2 ^ (-126 : ℤ) :=
        zpow_le_zpow_right₀ (by norm_num) (by omega)
      have h3 : (2 : ℚ) ^ (-126 : ℤ) = 1 / 2 ^ 126 := by rw [zpow_neg]; norm_num
      rw [h3] at h2
      linarith
    unfold Ieee.quantum
    rw [max_eq_left (by push_cast; omega)]
    have h1 := Ieee.log_le hx0
    have h2 : (2 : ℚ) ^ (Int.log 2 x - ((53 : ℕ) - 1)) = 2 ^ Int.log 2 x / 2 ^ 52 := by
      rw [zpow_sub₀ (by norm_num)]; norm_num
    rw [h2]
    have h3 : (1 / 2 : ℚ) * (2 ^ Int.log 2 x / 2 ^ 52) = 2 ^ Int.log 2 x / 2 ^ 53 := by ring
    rw [h3]
    gcongr
  show |Ieee.round 53 (-1074) d - d| ≤ _
  rcases lt_trichotomy d 0 with hd | hd | hd
  · unfold Ieee.round
    rw [if_neg (by linarith), if_pos hd]
    rw [abs_of_neg hd] at h ⊢
    have := key (-d) h
    rw [← abs_neg]
    convert this using 2
    ring
  · subst hd
    norm_num at h
  · unfold Ieee.round
    rw [if_pos hd]
    rw [abs_of_pos hd] at h ⊢
    exact key d h

/-- C82: a real number given with at most six digits, between `2^-126` and 1 in magnitude, can be
shown. -/
theorem C82_double (d : ℚ) (hd : Decimal 6 d) (h : 1 / 2 ^ 126 ≤ |d|) (h1 : |d| ≤ 1) :
    Presentable Rnd.ieee (.double (Rnd.ieee.f64 d)) := by
  have h3 := f64_rel d h
  unfold Presentable
  refine ⟨?_, ?_⟩
  · have h4 : |Rnd.ieee.f64 d| ≤ |Rnd.ieee.f64 d - d| + |d| := by
      have := abs_add_le (Rnd.ieee.f64 d - d) d
      rwa [sub_add_cancel] at this
    have h5 : (2 : ℚ) ≤ dblMax := by
      have : (1 : ℚ) ≤ 2 ^ 971 := one_le_pow₀ (by norm_num)
      unfold dblMax
      generalize (2 : ℚ) ^ 971 = z at this
      norm_num
      linarith
    have h6 : |d| / 2 ^ 53 ≤ 1 := by
      rw [div_le_iff₀ (by norm_num)]
      refine h1.trans (by norm_num)
    linarith
  · intro q n1
    have : q = d := by
      by_contra hne
      have h1 := decimal_gap hd n1.1 hne
      have h2 := n1.2 d hd
      rw [abs_sub_comm d] at h2
      have h4 : |q - d| ≤ |q - Rnd.ieee.f64 d| + |Rnd.ieee.f64 d - d| := abs_sub_le _ _ _
      have hp : 0 < |d| := lt_of_lt_of_le (by positivity) h
      have h5 : |d| / 10 ^ 6 ≤ 2 * (|d| / 2 ^ 53) := by linarith
      norm_num at h5
      linarith
    rw [this]

theorem toolParser_presentable : ∀ o ∈ (toolParser Rnd.ieee).opts, Presentable Rnd.ieee o.2 := by
  have ha : Presentable Rnd.ieee (.double (Rnd.ieee.f64 (5 / 100))) :=
    C82_double (5 / 100) ⟨5, -2, by norm_num, by norm_num⟩
      (by rw [abs_of_pos (by norm_num)]; norm_num) (by rw [abs_of_pos (by norm_num)]; norm_num)
  have e : (toolParser Rnd.ieee).opts = [("collapse_matches", OptVal.bool true),
    ("interpolated_precision", .bool true), ("trapezoid_integral", .bool true),
    ("query_set", .str []), ("dump_matches", .str []), ("query_groups", .str []),
    ("bootstrap_ci_gap", .bool false), ("bootstrap_ci_map", .bool false),
    ("bootstrap_ci_gndcg", .bool false), ("bootstrap_ci_mndcg", .bool false),
    ("bootstrap_samples", .size 10000), ("bootstrap_seed", .size 0x12345),
    ("bootstrap_alpha", .double (Rnd.ieee.f64 (5 / 100))), ("sort", .str "desc".toList),
    ("output_grp", .str []), ("output_mrp", .str []),
    ("rp_curve_samples", .size 10000)].map fun o : String × OptVal => (o.1.toList, o.2) := rfl
  rw [e, List.forall_mem_map]
  have hb : ∀ b, Presentable Rnd.ieee (.bool b) := fun _ => trivial
  have hs : ∀ s : Str, '\x00' ∉ s → Presentable Rnd.ieee (.str s) := fun _ h => h
  have hz : ∀ n, n < 2 ^ 64 → Presentable Rnd.ieee (.size n) := fun _ h => h
  simp only [List.forall_mem_cons, hb, ha, true_and]
  refine ⟨hs _ ?_, hs _ ?_, hs _ ?_, hz _ ?_, hz _ ?_, hs _ ?_, hs _ ?_, hs _ ?_, hz _ ?_, ?_⟩ <;>
    first | decide | simp

/-- Two runs that differ at most in the messages on `std::cerr`. -/
def Spec.SameButMessages {α : Type} (x y : Traced α) : Prop :=
  x.result = y.result ∧ outsOf x.effects = outsOf y.effects ∧ filesOf x.effects = filesOf y.effects

theorem Spec.SameButMessages.refl {α : Type} (x : Traced α) : SameButMessages x x :=
  ⟨rfl, rfl, rfl⟩

theorem sameButMessages_bind {α β : Type} {x y : Traced α} {f g : α → Traced β}
    (h : SameButMessages x y) (hf : ∀ a, SameButMessages (f a) (g a)) :
    SameButMessages (x >>= f) (y >>= g) := by
  obtain ⟨h1, h2, h3⟩ := h
  simp only [bind]
  rw [← h1]
  cases x.result with
  | error e => exact ⟨rfl, h2, h3⟩
  | ok a =>
    obtain ⟨a1, a2, a3⟩ := hf a
    refine ⟨a1, ?_, ?_⟩
    · unfold outsOf at *
      simp only [List.filterMap_append]
      rw [h2, a2]
    · unfold filesOf at *
      simp only [List.filterMap_append]
      rw [h3, a3]

theorem sameButMessages_say (a b : Str) : SameButMessages (Traced.say a) (Traced.say b) :=
  ⟨rfl, rfl, rfl⟩

section
variable {μ σ Q L G : Type} [DecidableEq Q] [Cmp Q] [Cmp L]

theorem traceMainWith_argc (R : Rnd) (S : StdSort) (rng : Rng G) (kit : ToolKit μ σ Q L)
    (texts : ToolTexts Q L) (w : World) (o : ToolOptions) (n m : ℕ) :
    SameButMessages (traceMainWith R S rng kit texts w n o) (traceMainWith R S rng kit texts w m o) := by
  unfold traceMainWith
  split
  · exact .refl _
  · refine sameButMessages_bind (.refl _) fun a => ?_
    rcases a with _ | ⟨mp, refs⟩
    · exact .refl _
    · refine sameButMessages_bind (.refl _) fun _ => sameButMessages_bind (.refl _) fun b => ?_
      rcases b with _ | ⟨mp, hyps⟩
      · exact sameButMessages_bind (sameButMessages_say _ _) fun _ => .refl _
      · exact .refl _

end

section
variable {μ σ Q L G : Type} [DecidableEq Q] [Cmp Q] [Cmp L]

/-- C82: stating defaults, as the help shows them, at the beginning of the command line of a tool does
not change the exit status, the standard output, or the files written. -/
theorem C82_defaults (S : StdSort) (rng : Rng G) (kit : ToolKit μ σ Q L) (texts : ToolTexts Q L)
    (w : World) (prog : Str) (os : List (Str × OptVal)) (values : List Str)
    (hsub : ∀ o ∈ os, o ∈ (toolParser Rnd.ieee).opts)
    (h : List.Forall₂ (fun o s => ShowsValue o.2 s) os values) (argv argv' : List Str)
    (hargv : argv' = (os.zip values).flatMap (fun x => ["--".toList ++ x.1.1, x.2]) ++ argv) :
    SameButMessages (traceMain Rnd.ieee S rng kit texts w prog argv')
      (traceMain Rnd.ieee S rng kit texts w prog argv) := by
  have hp := C82_restated Rnd.ieee (toolParser Rnd.ieee) (C54_tool _)
    (by rw [toolParser_names]; decide) toolParser_presentable os values hsub h argv
  rw [← hargv] at hp
  unfold traceMain
  rw [hp]
  rcases (toolParser Rnd.ieee).parse Rnd.ieee argv with ⟨o, p⟩
  cases o with
  | accepted => exact traceMainWith_argc ..
  | exitHelp => exact .refl _
  | rejected =>
    exact sameButMessages_bind ⟨rfl, rfl, rfl⟩ fun _ => .refl _

end

/-- Case: the options `bootstrap_alpha` and `sort` with their defaults. -/
example : List.Forall₂ (fun (o : Str × OptVal) s => o ∈ (toolParser Rnd.ieee).opts ∧ ShowsValue o.2 s)
    [("bootstrap_alpha".toList, .double (Rnd.ieee.f64 (5 / 100))), ("sort".toList, .str "desc".toList)]
    ["0.05".toList, "desc".toList] := by
  refine .cons ⟨?_, ?_⟩ (.cons ⟨?_, rfl⟩ .nil)
  · exact List.mem_of_getElem? (i := 12) rfl
  · have := C74_general (Rnd.ieee.f64 (5 / 100))
    have e : showGeneral (Rnd.ieee.f64 (5 / 100)) = "0.05".toList := by decide +kernel
    rw [e] at this
    exact this
  · exact List.mem_of_getElem? (i := 13) rfl

/-- C82 does not extend to numbers with more digits: the help shows 0.05 for 0.05000001. -/
theorem C82_digits_differ : ∃ s : Str, ShowsValue (.double (Rnd.ieee.f64 (5000001 / 100000000))) s ∧
    (OptVal.double (Rnd.ieee.f64 (5000001 / 100000000))).parseOpt Rnd.ieee s ≠
      (true, .double (Rnd.ieee.f64 (5000001 / 100000000))) := by
  refine ⟨"0.05".toList, ?_, ?_⟩
  · have := C74_general (Rnd.ieee.f64 (5000001 / 100000000))
    have e : showGeneral (Rnd.ieee.f64 (5000001 / 100000000)) = "0.05".toList := by decide +kernel
    rw [e] at this
    exact this
  · intro h
    have h1 := (C56_in_range_partial Rnd.ieee "0.05".toList).2.2
      (Rnd.ieee.f64 (5000001 / 100000000)) (5 / 100) ?_ (by decide +kernel)
    · rw [h1] at h
      injection h with _ h
      injection h with h
      exact absurd h (by decide +kernel)
    · exact ⟨[], false, ['0'], ".05".toList, "05".toList, [], 0, rfl, .none, by decide, by decide,
        Or.inr rfl, by decide, Or.inl ⟨rfl, rfl⟩, by
          show (5 / 100 : ℚ) = 1 * ((5 : ℕ) : ℚ) * 10 ^ ((0 : ℤ) - ((2 : ℕ) : ℤ))
          norm_num⟩

end Kws
