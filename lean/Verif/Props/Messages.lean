import Verif.Lemmas.Messages
import Verif.Props.Dump
import Verif.Props.ToolMatching

/-!
# C79: what the tools say on standard error

`Spec/Messages.lean` says what that is, from the texts of the files.
-/

namespace Kws

open Spec Traced

section
variable {Q L : Type} [DecidableEq Q] [DecidableEq L]

omit [DecidableEq Q] [DecidableEq L] in
/-- The number of hypotheses in the matches. -/
theorem effective_hard (ms : List (KwsMatch Q L)) (h : ∀ m ∈ ms, HardMatch m) :
    effective ms = ms.countP (fun m => m.hyp.isSome) := by
  have hfold : ∀ (ms : List (KwsMatch Q L)), (∀ m ∈ ms, HardMatch m) → ∀ k,
      ms.foldl (fun n m => n + m.error.nh) k = k + ms.countP (fun m => m.hyp.isSome) := by
    intro ms
    induction ms with
    | nil => intro _ k; rfl
    | cons m ms ih =>
      intro h k
      rw [List.foldl_cons, ih (fun x hx => h x (List.mem_cons_of_mem _ hx)), List.countP_cons]
      have : m.error.nh = if m.hyp.isSome = true then 1 else 0 := by
        rcases h m List.mem_cons_self with ⟨_, a, b⟩ | ⟨_, a, b⟩ | ⟨_, a, b⟩ <;> rw [b, a] <;>
          norm_num [MatchError.nh, Outcome.error]
      omega
  unfold effective
  rw [hfold ms h, Nat.zero_add]

theorem segEntries_effective (refs : List (Event Q L)) (l : List (ScoredEvent Q L)) :
    (segEntries refs [] l).countP (fun m => m.hyp.isSome) = segEffective refs l := by
  have h1 := segEntries_count refs (fun _ => true) l [] (List.pairwise_of_forall (fun _ _ => by simp))
  have h2 := segEntries_wrong refs (fun _ => true) l []
  unfold segEffective
  have e1 : (refs.toFinset ∩ (l.map (·.base)).toFinset) = hitSet refs [] l (fun _ => true) := by
    ext r
    simp [mem_hitSet]
  have e2 : l.countP (fun h => decide (h.base ∉ refs ∧ (fun _ : Flt => true) h.score = true)) =
      l.countP (fun h => h.base ∉ refs) := by
    congr 1
    funext h
    simp
  rw [e1, ← h1, ← e2, ← h2]
  generalize segEntries refs [] l = ms
  induction ms with
  | nil => rfl
  | cons m ms ih =>
    simp only [List.countP_cons] at ih ⊢
    rw [ih]
    rcases m with ⟨_ | r, _ | h, e⟩ <;> simp <;> omega

theorem segEffective_perm (refs : List (Event Q L)) {l l' : List (ScoredEvent Q L)} (h : l.Perm l') :
    segEffective refs l = segEffective refs l' := by
  unfold segEffective
  rw [h.countP_eq, List.toFinset_eq_of_perm _ _ (h.map _)]

theorem segEffective_rename {Q' L' : Type} [DecidableEq Q'] [DecidableEq L'] {f : Q → Q'} {g : L → L'}
    (hf : Function.Injective f) (hg : Function.Injective g) (refs : List (Event Q L))
    (l : List (ScoredEvent Q L)) :
    segEffective (refs.map (Event.rename f g)) (l.map (ScoredEvent.rename f g)) = segEffective refs l := by
  have hi := Event.rename_inj hf hg
  unfold segEffective
  rw [List.map_map, show ((fun x : ScoredEvent Q' L' => x.base) ∘ ScoredEvent.rename f g) =
    Event.rename f g ∘ (fun x : ScoredEvent Q L => x.base) from rfl, ← List.map_map]
  congr 1
  · rw [← Finset.card_image_of_injective _ hi, Finset.image_inter _ _ hi]
    congr 1
    ext x
    simp
  · rw [List.countP_map]
    congr 1
    funext h
    exact decide_eq_decide.2 (not_congr (List.mem_map_of_injective hi))

omit [DecidableEq Q] [DecidableEq L] in
theorem sortHyps_ranked [Cmp Q] [LawfulCmp Q] [Cmp L] [LawfulCmp L] (S : StdSort) (c : Str)
    (hyps : List (ScoredEvent Q L)) (hn : ∀ h ∈ hyps, h.score ≠ .nan) :
    ∃ l, sortHyps S c hyps = .ok l ∧ RankedBy c hyps l := by
  by_cases hd : c = "desc".toList
  · subst hd
    obtain ⟨l, h1, h2, h3⟩ := sortHyps_desc S hyps hn
    exact ⟨l, h1, h2, fun _ => h3, fun h => absurd h (by decide), fun h => absurd rfl h⟩
  by_cases ha : c = "asc".toList
  · subst ha
    have hw := (C07_scored_order_partial Q L).weak_of ScoredEvent.lt (Or.inl lt_ops) hyps hn
    obtain ⟨l, h1, h2⟩ := S.ok _ _ hw
    refine ⟨l, ?_, h2.perm, fun h => absurd h (by decide), fun _ => ?_, fun _ h => absurd rfl h⟩
    · unfold sortHyps
      rw [if_neg (by decide), if_pos rfl]
      exact h1
    · refine h2.sorted.imp_of_mem ?_
      intro a b _ _ hab
      by_contra hc
      rw [Bool.not_eq_false] at hc
      have : ScoredEvent.lt b a = true := gt_score a b hc
      rw [this] at hab
      exact absurd hab (by decide)
  · refine ⟨hyps, ?_, List.Perm.refl _, fun h => absurd h hd, fun h => absurd h ha, fun _ _ => rfl⟩
    unfold sortHyps
    rw [if_neg hd, if_neg ha]

end

theorem traceMain_accepted {μ σ Q L G : Type} [DecidableEq Q] [Cmp Q] [Cmp L] {R : Rnd} {S : StdSort}
    {rng : Rng G} {kit : ToolKit μ σ Q L} {texts : ToolTexts Q L} {w : World} {prog : Str}
    {argv : List Str} {p : Parser} (hp : (toolParser R).parse R argv = (.accepted, p)) :
    traceMain R S rng kit texts w prog argv =
      traceMainWith R S rng kit texts w (argv.length + 1) (ToolOptions.ofParser p) := by
  unfold traceMain
  rw [hp]

theorem lineEffects_quiet (ds : List Str) : outsOf (lineEffects ds) = [] ∧ filesOf (lineEffects ds) = [] := by
  induction ds with
  | nil => exact ⟨rfl, rfl⟩
  | cons d ds ih => exact ih

variable {G : Type}

/-- C79 for the segmentation tool: a run that cannot read one of its inputs says exactly why, prints
nothing, writes no file and returns 1. -/
theorem C79_segmentation_stops (R : Rnd) (S : StdSort) (rng : Rng G) (qf : Bool) (w : World) (prog : Str)
    (argv : List Str) (p : Parser) (o : ToolOptions)
    (hp : (toolParser R).parse R argv = (.accepted, p)) (ho : o = ToolOptions.ofParser p)
    (hV : (vocabulary w o).dedup.length ≤ 2 ^ 31) (ds : List Str)
    (h : Stops StrEventText (ScoredText R StrEventText) w o (argv.length + 1) ds) :
    let run := traceMain R S rng (simpleKit R qf) simpleTexts w prog argv
    run.result = .ok 1 ∧ errsOf run.effects = ds.map (· ++ "\n".toList) ∧
      outsOf run.effects = [] ∧ filesOf run.effects = [] := by
  intro run
  subst ho
  have : run = ⟨lineEffects ds, .ok 1⟩ := (traceMain_accepted hp).trans ((simple_kitReads R qf w _ hV).stops h)
  rw [this]
  exact ⟨rfl, errsOf_lineEffects ds, (lineEffects_quiet ds).1, (lineEffects_quiet ds).2⟩

/-- C79 for the box tool. -/
theorem C79_box_stops (R : Rnd) (S : StdSort) (rng : Rng G) (w : World) (prog : Str)
    (argv : List Str) (p : Parser) (o : ToolOptions)
    (hp : (toolParser R).parse R argv = (.accepted, p)) (ho : o = ToolOptions.ofParser p) (ds : List Str)
    (h : Stops BoxEventText (ScoredText R BoxEventText) w o (argv.length + 1) ds) :
    let run := traceMain R S rng (icdarKit R S) icdarTexts w prog argv
    run.result = .ok 1 ∧ errsOf run.effects = ds.map (· ++ "\n".toList) ∧
      outsOf run.effects = [] ∧ filesOf run.effects = [] := by
  intro run
  subst ho
  have : run = ⟨lineEffects ds, .ok 1⟩ := (traceMain_accepted hp).trans
    (((icdar_plain R S).reads w _).stops h)
  rw [this]
  exact ⟨rfl, errsOf_lineEffects ds, (lineEffects_quiet ds).1, (lineEffects_quiet ds).2⟩

/-- What is said about a run that gets to the evaluation. -/
theorem KitReads.inputs_errs {μ σ Q L L' : Type} [DecidableEq Q] [Cmp Q] [LawfulCmp Q] [Cmp L']
    [LawfulCmp L'] {R : Rnd} {S : StdSort} {rng : Rng G}
    {kit : ToolKit μ σ Q L'} {texts : ToolTexts Q L'} {GR : Str → Event Str L → Str → Prop}
    {GH : Str → ScoredEvent Str L → Str → Prop} {w : World} {o : ToolOptions}
    {P : (Str → Q) → (L → L') → Prop} (hk : KitReads kit GR GH w o P) (argc : ℕ) {refs : List (Event Str L)}
    {hyps : List (ScoredEvent Str L)} (hi : Inputs GR GH w o refs hyps) (hq : QueriesReadable w o)
    (hn : ∀ h ∈ hyps, h.score ≠ .nan)
    (hrun : ∀ refs hyps, ∃ t, SimpleMatcher.run kit.index kit.scorer kit.refsSet refs hyps = .ok t)
    (hh : ∀ r x e, kit.scorer r x = .ok e → e.fp < 1 → e = ⟨0, 0⟩) :
    ∃ (f : Str → Q) (g : L → L') (l : List (ScoredEvent Q L')) (s' : σ) (ms rep : List (KwsMatch Q L')),
      P f g ∧ Function.Injective f ∧ Function.Injective g ∧
      RankedBy o.sort ((keep (·.base.query) (listedQueries w o) hyps).map (ScoredEvent.rename f g)) l ∧
      SimpleMatcher.run kit.index kit.scorer kit.refsSet
        ((keep (·.query) (listedQueries w o) refs).map (Event.rename f g)) l = .ok (s', ms, rep) ∧
      errsOf (traceMainWith R S rng kit texts w argc o).effects = (saysBefore w o refs hyps ++
        saysAfter w o (ms.countP (fun m => m.hyp.isSome))
          (keep (·.base.query) (listedQueries w o) hyps).length).map (· ++ "\n".toList) := by
  classical
  obtain ⟨f, g, q2g, hP, hf, hg, h1, h2⟩ := hk.inputs (R := R) (S := S) (rng := rng) (texts := texts) argc hi hq
  obtain ⟨l, hl, hr⟩ := sortHyps_ranked S o.sort
    ((keep (·.base.query) (listedQueries w o) hyps).map (ScoredEvent.rename f g)) (by
      intro h hm
      obtain ⟨x, hx, rfl⟩ := List.mem_map.1 hm
      exact hn x (keep_subset _ _ _ x hx))
  obtain ⟨⟨s', ms, rep⟩, hms⟩ := hrun ((keep (·.query) (listedQueries w o) refs).map (Event.rename f g)) l
  refine ⟨f, g, l, s', ms, rep, hP, hf, hg, hr, hms, ?_⟩
  have key := traceEvaluate_errs R S rng kit texts w o f g hf q2g h1 refs hyps l s' ms rep hl hms
  rw [effective_hard ms (run_hardMatch _ _ _ _ _ _ _ _ hms hh)] at key
  dsimp only at h2
  rw [h2, errsOf_append, errsOf_lineEffects, key, ← List.map_append]
  refine congrArg (List.map endl) ?_
  unfold saysBefore saysKept
  simp only [List.append_assoc]

/-- C79 for the segmentation tool: what a run says whose inputs can be read. -/
theorem C79_segmentation (R : Rnd) (S : StdSort) (rng : Rng G) (qf : Bool) (w : World) (prog : Str)
    (argv : List Str) (p : Parser) (o : ToolOptions)
    (hp : (toolParser R).parse R argv = (.accepted, p)) (ho : o = ToolOptions.ofParser p)
    (hV : (vocabulary w o).dedup.length ≤ 2 ^ 31) (refs : List (Event Str Str))
    (hyps : List (ScoredEvent Str Str))
    (hi : Inputs StrEventText (ScoredText R StrEventText) w o refs hyps) (hq : QueriesReadable w o) :
    let refs' := keep (·.query) (listedQueries w o) refs
    let hyps' := keep (·.base.query) (listedQueries w o) hyps
    errsOf (traceMain R S rng (simpleKit R qf) simpleTexts w prog argv).effects =
      (saysBefore w o refs hyps ++ saysAfter w o (segEffective refs' hyps') hyps'.length).map
        (· ++ "\n".toList) := by
  intro refs' hyps'
  obtain ⟨u, hu, hy⟩ := hi.hyps
  have hfin := (str_plain R).finite u (yields_valid hy)
  rw [yields_events Format.strHyps hy] at hfin
  obtain ⟨f, g, l, s', ms, rep, _, hf, hg, hr, hms, he⟩ := (simple_kitReads R qf w o hV).inputs_errs
    (R := R) (S := S) (rng := rng) (texts := simpleTexts) (argv.length + 1) hi hq hfin
    (fun refs hyps => seg_run_ok _ refs hyps) (by
      intro r x e h hlt
      have h : trivialScorer r x = .ok e := h
      rw [C24_trivial_scorer] at h
      cases h
      unfold verdict at hlt ⊢
      split
      · rfl
      · rename_i hc
        rw [if_neg hc] at hlt
        norm_num at hlt)
  rw [traceMain_accepted hp, ← ho, he]
  obtain ⟨s2, missed, rep2, d1, _, _⟩ := C24_segmentation_result EventSet.new
    (refs'.map (Event.rename f g)) l
  have hms' : SimpleMatcher.run (plainIndex Nat Nat) trivialScorer EventSet.new
    (refs'.map (Event.rename f g)) l = .ok (s', ms, rep) := hms
  rw [d1, Except.ok.injEq, Prod.mk.injEq, Prod.mk.injEq] at hms'
  obtain ⟨_, rfl, _⟩ := hms'
  rw [List.countP_append, segEntries_effective, List.countP_eq_zero.2, Nat.add_zero,
    segEffective_perm _ hr.1, segEffective_rename hf hg]
  intro m hm
  obtain ⟨r, _, rfl⟩ := List.mem_map.1 hm
  simp

/-- C79 for the box tool: what a run says whose inputs can be read. -/
theorem C79_box (R : Rnd) (S : StdSort) (rng : Rng G) (w : World) (prog : Str)
    (argv : List Str) (p : Parser) (o : ToolOptions)
    (hp : (toolParser R).parse R argv = (.accepted, p)) (ho : o = ToolOptions.ofParser p)
    (refs : List (Event Str (DocBox Str UInt32))) (hyps : List (ScoredEvent Str (DocBox Str UInt32)))
    (hi : Inputs BoxEventText (ScoredText R BoxEventText) w o refs hyps) (hq : QueriesReadable w o)
    (hr : ∀ r ∈ refs, EdgesOkU r.location.toBBox) (hh : ∀ h ∈ hyps, InRangeU h.base)
    (hR : R = Rnd.exact ∨ R.Faithful ∧ ∀ h ∈ hyps, areaU h.base ≤ 2 ^ 24) :
    let refs' := keep (·.query) (listedQueries w o) refs
    let hyps' := keep (·.base.query) (listedQueries w o) hyps
    ∃ l ms rep, RankedBy o.sort hyps' l ∧ BoxMatching refs' l ms rep ∧
    errsOf (traceMain R S rng (icdarKit R S) icdarTexts w prog argv).effects =
      (saysBefore w o refs hyps ++ saysAfter w o (ms.countP (fun m => m.hyp.isSome)) hyps'.length).map
        (· ++ "\n".toList) := by
  intro refs' hyps'
  obtain ⟨u, hu, hy⟩ := hi.hyps
  have hfin := (icdar_plain R S).finite u (yields_valid hy)
  rw [yields_events Format.boxHyps hy] at hfin
  obtain ⟨f, g, l, s', ms, rep, ⟨rfl, rfl⟩, hf, hg, hrk, hms, he⟩ :=
    ((icdar_plain R S).reads w o).inputs_errs (R := R) (S := S) (rng := rng) (texts := icdarTexts)
    (argv.length + 1) hi hq hfin (fun refs hyps => box_run_ok R S _ refs hyps) (by
      intro r x e h hlt
      obtain ⟨i, hi⟩ := inter_ok r x.base
      have h : iohScorer R (1 / 2) r x = .ok e := h
      rw [ioh_eq R (1 / 2) r x i hi] at h
      cases h
      unfold verdict at hlt ⊢
      split
      · rfl
      · rename_i hc
        rw [if_neg hc] at hlt
        norm_num at hlt)
  have e1 : hyps'.map (ScoredEvent.rename id id) = hyps' := List.map_id hyps'
  have e2 : refs'.map (Event.rename id id) = refs' := List.map_id refs'
  rw [e1] at hrk
  rw [e2] at hms
  have hmem : ∀ x ∈ l, x ∈ hyps := fun x hx => keep_subset _ _ _ x (hrk.1.mem_iff.1 hx)
  obtain ⟨s2, ms2, rep2, d1, d2⟩ := C17_box_matching R S DocEventSet.new refs' l
    (fun r h => hr r (keep_subset _ _ _ r h)) (fun x hx => hh x (hmem x hx))
    (hR.imp_right fun h => ⟨h.1, fun x hx => h.2 x (hmem x hx)⟩)
  have hms' : SimpleMatcher.run (docIndex S Str Str UInt32) (iohScorer R (1 / 2)) DocEventSet.new
    refs' l = .ok (s', ms, rep) := hms
  rw [d1, Except.ok.injEq, Prod.mk.injEq, Prod.mk.injEq] at hms'
  obtain ⟨_, rfl, rfl⟩ := hms'
  exact ⟨l, ms2, rep2, hrk, d2, by rw [traceMain_accepted hp, ← ho, he]⟩

/-- C79: these are all runs whose command line is accepted. -/
theorem C79_cases {L : Type} (GR : Str → Event Str L → Str → Prop)
    (GH : Str → ScoredEvent Str L → Str → Prop) (w : World) (o : ToolOptions) (argc : ℕ) :
    (∃ ds, Stops GR GH w o argc ds) ∨
      ((∃ refs hyps, Inputs GR GH w o refs hyps) ∧ QueriesReadable w o) :=
  stops_or_inputs GR GH w o argc

/-! ## Examples -/

/-- The segmentation tool with a hypothesis that is given twice and one that is wrong. -/
example (S : StdSort) (rng : Rng G) (qf : Bool) (prog : Str) :
    let w := dumpExample "a l\nb l\n".toList "a l 1\nc l 3\na l 2\n".toList
    errsOf (traceMain Rnd.exact S rng (simpleKit Rnd.exact qf) simpleTexts w prog dumpArgv).effects =
      ["INFO: Number of reference events read = 2\n".toList,
        "INFO: Number of hypothesis events read = 3\n".toList,
        "INFO: Computing matches...\n".toList,
        ("INFO: Effective number of hypotheses is 2. The rest of hypotheses were considered " ++
          "repetitions of some other match, and ignored.\n").toList] := by
  intro w
  have y1 : Yields StrEventText (lines "a l\nb l\n".toList) [⟨"a".toList, "l".toList⟩,
      ⟨"b".toList, "l".toList⟩] :=
    (C48_accepts (Format.strRefs (R := Rnd.exact)) _ _).1 (by decide +kernel)
  have y2 : Yields (ScoredText Rnd.exact StrEventText) (lines "a l 1\nc l 3\na l 2\n".toList)
      [⟨⟨"a".toList, "l".toList⟩, .fin 1⟩, ⟨⟨"c".toList, "l".toList⟩, .fin 3⟩,
        ⟨⟨"a".toList, "l".toList⟩, .fin 2⟩] :=
    (C48_accepts (Format.strHyps (R := Rnd.exact)) _ _).1 (by decide +kernel)
  have := C79_segmentation Rnd.exact S rng qf w prog dumpArgv _ _ dumpExample_parse
    dumpExample_options.symm (by decide +kernel) _ _
    ⟨by decide, ⟨_, dumpExample_file _ _, y1⟩, ⟨_, if_pos rfl, y2⟩⟩
    ⟨fun h => absurd rfl h, fun h => absurd rfl h⟩
  refine this.trans ?_
  decide +kernel

/-- The second line of the references is not an event. -/
example (S : StdSort) (rng : Rng G) (qf : Bool) (prog : Str) :
    let w := dumpExample "a l\nb\n".toList []
    let run := traceMain Rnd.exact S rng (simpleKit Rnd.exact qf) simpleTexts w prog dumpArgv
    run.result = .ok 1 ∧ errsOf run.effects = ["ERROR: Failed to read event from line 2\n".toList,
      "ERROR: Failed reading file \"ref\"!\n".toList] := by
  intro w run
  have hb : FirstBadLine StrEventText "a l\nb\n".toList 2 := by
    rcases text_cases StrEventText "a l\nb\n".toList with ⟨es, h⟩ | ⟨k, h⟩
    · have := (C48_accepts (Format.strRefs (R := Rnd.exact)) _ _).2 h
      have h2 : (readPlain extractStrEvent "a l\nb\n".toList).2 = .badLine 2 := by decide +kernel
      rw [this] at h2
      cases h2
    · have := (Format.strRefs (R := Rnd.exact)).firstBad h
      have h2 : (readPlain extractStrEvent "a l\nb\n".toList).2 = .badLine 2 := by decide +kernel
      rw [this] at h2
      cases h2
      exact h
  obtain ⟨h1, h2, _⟩ := C79_segmentation_stops Rnd.exact S rng qf w prog dumpArgv _ _ dumpExample_parse
    dumpExample_options.symm (by decide +kernel) _
    (.refs (by decide) (by rw [show w.file dumpOptions.refFilename = _ from dumpExample_file _ _]
                           exact .badLine hb))
  exact ⟨h1, h2.trans (by decide +kernel)⟩

/-! ## C80: the source of the hypotheses -/

/-- What is said when the hypotheses cannot be read. -/
def Spec.sayHypsSource (o : ToolOptions) : Str :=
  if o.hypFilename = [] then "ERROR: Failed reading from stdin!".toList else sayFailed o.hypFilename

/-- C80 is false: with options on the command line, the tools do not say that the hypotheses were
expected on standard input. They name a file with an empty name. -/
theorem C80_stdin_refuted (S : StdSort) (rng : Rng G) (qf : Bool) (prog : Str) :
    ∃ (w : World) (argv : List Str) (p : Parser) (o : ToolOptions) (refs : List (Event Str Str)) (ds : List Str),
      (toolParser Rnd.exact).parse Rnd.exact argv = (.accepted, p) ∧ o = ToolOptions.ofParser p ∧
      (∃ t, w.file o.refFilename = some t ∧ Yields StrEventText (lines t) refs) ∧
      o.hypFilename = [] ∧ Unreadable (ScoredText Rnd.exact StrEventText) (hypText w o) ds ∧
      errsOf (traceMain Rnd.exact S rng (simpleKit Rnd.exact qf) simpleTexts w prog argv).effects =
        ["INFO: Number of reference events read = 1\n".toList,
          "ERROR: Failed to read event from line 1\n".toList,
          "ERROR: Failed reading file \"\"!\n".toList] := by
  have y1 : Yields StrEventText (lines "a l\n".toList) [⟨"a".toList, "l".toList⟩] :=
    (C48_accepts (Format.strRefs (R := Rnd.exact)) _ _).1 (by decide +kernel)
  have h2 : (readPlain (extractScored Rnd.exact extractStrEvent) "a l\n".toList).2 = .badLine 1 := by
    decide +kernel
  have hb : FirstBadLine (ScoredText Rnd.exact StrEventText) "a l\n".toList 1 := by
    rcases text_cases (ScoredText Rnd.exact StrEventText) "a l\n".toList with ⟨es, h⟩ | ⟨k, h⟩
    · have := (C48_accepts (Format.strHyps (R := Rnd.exact)) _ _).2 h
      rw [this] at h2
      cases h2
    · have := (Format.strHyps (R := Rnd.exact)).firstBad h
      rw [this] at h2
      cases h2
      exact h
  have hu : Unreadable (ScoredText Rnd.exact StrEventText)
      (hypText (dumpExample "a l\n".toList "a l\n".toList) dumpOptions)
      ["ERROR: Failed to read event from line ".toList ++ decimal 1] := by
    rw [show hypText (dumpExample "a l\n".toList "a l\n".toList) dumpOptions = some "a l\n".toList from
      if_pos rfl]
    exact .badLine hb
  refine ⟨dumpExample "a l\n".toList "a l\n".toList, dumpArgv, _, _, _, _, dumpExample_parse,
    dumpExample_options.symm, ⟨_, dumpExample_file _ _, y1⟩, rfl, hu, ?_⟩
  obtain ⟨_, h2, _⟩ := C79_segmentation_stops Rnd.exact S rng qf
    (dumpExample "a l\n".toList "a l\n".toList) prog dumpArgv _ _ dumpExample_parse
    dumpExample_options.symm (by decide +kernel) _ (.hyps (by decide) (dumpExample_file _ _) y1 hu)
  exact h2.trans (by decide +kernel)

theorem parseOptions_rest (R : Rnd) (n : ℕ) : ∀ (opts : List (Str × OptVal)) (help : Bool)
    (argv : List Str) (opts' : List (Str × OptVal)) (help' : Bool) (rest : List Str), argv.length ≤ n →
    Parser.parseOptions R opts help argv = .done opts' help' rest → rest.length ≤ argv.length := by
  induction n with
  | zero =>
    intro opts help argv opts' help' rest hn h
    cases argv with
    | nil =>
      rw [Parser.parseOptions] at h
      cases h
      simp
    | cons a l => simp at hn
  | succ n ih =>
    intro opts help argv opts' help' rest hn h
    cases argv with
    | nil =>
      rw [Parser.parseOptions] at h
      cases h
      simp
    | cons a l =>
      rw [List.length_cons] at hn ⊢
      rw [Parser.parseOptions] at h
      have next : ∀ opts help l', l'.length ≤ l.length →
          Parser.parseOptions R opts help l' = .done opts' help' rest → rest.length ≤ l.length + 1 := by
        intro opts help l' hl h
        have := ih opts help l' opts' help' rest (by omega) h
        omega
      split at h
      · cases h; simp
      split at h
      · cases h; simp
      split at h
      · exact next _ _ _ le_rfl h
      split at h
      · cases h
      split at h
      · split at h
        · dsimp only at h
          split at h
          · split at h
            · exact next _ _ _ le_rfl h
            · cases h
          · split at h
            · exact next _ _ _ (by simp) h
            · cases h
        · dsimp only at h
          split at h
          · cases h; simp
          · cases h
      · split at h
        · dsimp only at h
          split at h
          · exact next _ _ _ (by simp) h
          · cases h
        · cases h

/-- A single argument names the references. -/
theorem single_argument (R : Rnd) (argv : List Str) (p : Parser)
    (hp : (toolParser R).parse R argv = (.accepted, p)) (h1 : argv.length = 1) :
    (ToolOptions.ofParser p).hypFilename = [] := by
  obtain ⟨ha, hoa⟩ := toolParser_args R
  unfold Parser.parse at hp
  cases hopt : Parser.parseOptions R (toolParser R).opts false argv with
  | rejected o => rw [hopt] at hp; cases hp
  | done opts help rest =>
    have hrest := parseOptions_rest R _ _ _ _ _ _ _ le_rfl hopt
    rw [hopt] at hp
    cases help with
    | true => cases hp
    | false =>
      dsimp only at hp
      rw [ha, hoa] at hp
      cases rest with
      | nil =>
        rw [Parser.parseArgs] at hp
        · dsimp only at hp
          rw [if_pos (by simp)] at hp
          cases hp
        · simp
      | cons w rest =>
        rw [h1, List.length_cons] at hrest
        have : rest = [] := List.length_eq_zero_iff.1 (by omega)
        subst this
        simp only [Parser.parseArgs] at hp
        split at hp
        · cases hp
        · rename_i args n rest heq
          split at heq
          · cases heq
            simp only [List.length_cons, List.length_nil, lt_irrefl, if_false] at hp
            rw [Parser.parseArgs] at hp
            · dsimp only at hp
              rw [if_pos List.isEmpty_nil] at hp
              cases hp
              rfl
            · simp
          · cases heq

theorem sayHyps_source (R : Rnd) (argv : List Str) (p : Parser) (o : ToolOptions)
    (hp : (toolParser R).parse R argv = (.accepted, p)) (ho : o = ToolOptions.ofParser p)
    (hsrc : o.hypFilename ≠ [] ∨ argv.length = 1) :
    sayHypsFailed o (argv.length + 1) = sayHypsSource o := by
  have := single_argument R argv p hp
  rw [← ho] at this
  unfold sayHypsFailed sayHypsSource
  by_cases h : argv.length = 1
  · rw [if_pos (by omega), if_pos (this h)]
  · rw [if_neg (by omega), if_neg (hsrc.resolve_right h)]

/-- C80 for the segmentation tool: the source is right if the hypotheses come from a file, and if the
only argument is the name of the file with the references. -/
theorem C80_segmentation_partial (R : Rnd) (S : StdSort) (rng : Rng G) (qf : Bool) (w : World)
    (prog : Str) (argv : List Str) (p : Parser) (o : ToolOptions)
    (hp : (toolParser R).parse R argv = (.accepted, p)) (ho : o = ToolOptions.ofParser p)
    (hV : (vocabulary w o).dedup.length ≤ 2 ^ 31) (t : Str) (refs : List (Event Str Str)) (ds : List Str)
    (h0 : o.refFilename ≠ []) (ht : w.file o.refFilename = some t)
    (hy : Yields StrEventText (lines t) refs)
    (hu : Unreadable (ScoredText R StrEventText) (hypText w o) ds)
    (hsrc : o.hypFilename ≠ [] ∨ argv.length = 1) :
    errsOf (traceMain R S rng (simpleKit R qf) simpleTexts w prog argv).effects =
      (sayRefs refs.length :: ds ++ [sayHypsSource o]).map (· ++ "\n".toList) := by
  rw [← sayHyps_source R argv p o hp ho hsrc]
  exact (C79_segmentation_stops R S rng qf w prog argv p o hp ho hV _ (.hyps h0 ht hy hu)).2.1

/-- C80 for the box tool. -/
theorem C80_box_partial (R : Rnd) (S : StdSort) (rng : Rng G) (w : World)
    (prog : Str) (argv : List Str) (p : Parser) (o : ToolOptions)
    (hp : (toolParser R).parse R argv = (.accepted, p)) (ho : o = ToolOptions.ofParser p)
    (t : Str) (refs : List (Event Str (DocBox Str UInt32))) (ds : List Str)
    (h0 : o.refFilename ≠ []) (ht : w.file o.refFilename = some t)
    (hy : Yields BoxEventText (lines t) refs)
    (hu : Unreadable (ScoredText R BoxEventText) (hypText w o) ds)
    (hsrc : o.hypFilename ≠ [] ∨ argv.length = 1) :
    errsOf (traceMain R S rng (icdarKit R S) icdarTexts w prog argv).effects =
      (sayRefs refs.length :: ds ++ [sayHypsSource o]).map (· ++ "\n".toList) := by
  rw [← sayHyps_source R argv p o hp ho hsrc]
  exact (C79_box_stops R S rng w prog argv p o hp ho _ (.hyps h0 ht hy hu)).2.1

/-- A hypotheses file that does not exist. -/
example (S : StdSort) (rng : Rng G) (prog : Str) :
    errsOf (traceMain Rnd.exact S rng (icdarKit Rnd.exact S) icdarTexts runExample prog
      ["ref".toList, "hyp".toList]).effects = ["INFO: Number of reference events read = 2\n".toList,
        "ERROR: Failed reading file \"hyp\"!\n".toList] := by
  have hp : (toolParser Rnd.exact).parse Rnd.exact ["ref".toList, "hyp".toList] =
      (.accepted, ⟨(toolParser Rnd.exact).opts, [.str "ref".toList], [.str "hyp".toList]⟩) := by
    have h : Parser.parseOptions Rnd.exact (toolParser Rnd.exact).opts false
        ["ref".toList, "hyp".toList] =
        .done (toolParser Rnd.exact).opts false ["ref".toList, "hyp".toList] := by
      rw [Parser.parseOptions, if_pos (by decide)]
    unfold Parser.parse
    rw [h]
    decide +kernel
  have hu : Unreadable (ScoredText Rnd.exact BoxEventText) (hypText runExample
      (ToolOptions.ofParser ⟨(toolParser Rnd.exact).opts, [.str "ref".toList], [.str "hyp".toList]⟩)) [] := by
    rw [show hypText runExample (ToolOptions.ofParser ⟨(toolParser Rnd.exact).opts,
      [.str "ref".toList], [.str "hyp".toList]⟩) = none by decide +kernel]
    exact .missing
  refine (C80_box_partial Rnd.exact S rng runExample prog _ _ _ hp rfl _ _ [] (by decide)
    runExample_file runExample_yields.1 hu (Or.inl (by decide))).trans ?_
  decide +kernel

end Kws
