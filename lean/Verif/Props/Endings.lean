import Verif.Lemmas.Endings
import Verif.Lemmas.Ids
import Verif.Props.Tool
import Verif.Props.Options

/-!
# C90: how a run ends

`Spec.Ends` (Spec/Endings.lean) lists the four ends: status 1, undefined behaviour, an uncaught
exception, a complete report. Exactly one of its cases applies to a run, so these theorems determine
the end of every run with fewer than 2^64 bootstrap samples (they are a `size_t`) whose curves, if any,
can be counted in floating point.
-/

namespace Kws
open Spec

/-- C90 for the box tool. -/
theorem C90_box {G : Type} (R : Rnd) (S : StdSort) (rng : Rng G) (w : World) (o : ToolOptions)
    (hs : o.samples < 2 ^ 64)
    (hC : ∀ t t', w.file o.refFilename = some t → hypText w o = some t' →
      CurvesCountable R o ((lines t).length + (lines t').length)) :
    Ends R w o (ValidInputs BoxEventText (ScoredText R BoxEventText) w o ∧
      (o.dumpMatches = [] ∨ w.writable o.dumpMatches = true))
      (mainWith R S rng (icdarKit R S) w o) :=
  (icdar_plain R S).main_ends (icdar_safe R S) S rng w o hs hC

/-- C90 for the segmentation-based tool, for up to 2^31 different words. -/
theorem C90_segmentation {G : Type} (R : Rnd) (S : StdSort) (rng : Rng G) (qf : Bool) (w : World)
    (o : ToolOptions) (hV : (vocabulary w o).dedup.length ≤ 2 ^ 31) (hs : o.samples < 2 ^ 64)
    (hC : ∀ t t', w.file o.refFilename = some t → hypText w o = some t' →
      CurvesCountable R o ((lines t).length + (lines t').length)) :
    Ends R w o (ValidInputs StrEventText (ScoredText R StrEventText) w o ∧
      (o.dumpMatches = [] ∨ w.writable o.dumpMatches = true))
      (mainWith R S rng (simpleKit R qf) w o) := by
  by_cases hb : o.refFilename = [] ∨ w.file o.refFilename = none ∨
      ∃ t, w.file o.refFilename = some t ∧ ¬ ValidFile StrEventText t
  · refine .refused (fun hg => ?_) (simple_badRef R S rng qf w o hV hb)
    obtain ⟨t, ht, hv⟩ := hg.1.refs
    rcases hb with hb | hb | ⟨t', ht', hv'⟩
    · exact absurd hb hg.1.refName
    · rw [ht] at hb; cases hb
    · rw [ht] at ht'; injection ht' with ht'; subst ht'
      exact absurd hv hv'
  by_cases hb' : hypText w o = none ∨
      ∃ t, hypText w o = some t ∧ ¬ ValidFile (ScoredText R StrEventText) t
  · refine .refused (fun hg => ?_) (simple_badHyp R S rng qf w o hV hb')
    obtain ⟨t, ht, hv⟩ := hg.1.hyps
    rcases hb' with hb' | ⟨t', ht', hv'⟩
    · rw [ht] at hb'; cases hb'
    · rw [ht] at ht'; injection ht' with ht'; subst ht'
      exact absurd hv hv'
  push Not at hb hb'
  obtain ⟨hr, h1, h2⟩ := hb
  obtain ⟨t, ht⟩ := Option.ne_none_iff_exists'.1 h1
  obtain ⟨u, hu⟩ := Option.ne_none_iff_exists'.1 hb'.1
  have hv := h2 t ht
  have hv' := hb'.2 u hu
  obtain ⟨f, N, hf', _, e⟩ := simple_good R S rng qf w o hV hr t u ht hu hv hv'
  obtain ⟨q1, q2⟩ := readQueryMap_plain (mapQuery := fun (m : Unit) q => (m, (.ok q : Cpp Str)))
    (fun _ _ => rfl) w o ()
  by_cases hqf : (o.querySet ≠ [] → o.queryGroups = [] → ∃ t, w.file o.querySet = some t) ∧
      (o.queryGroups ≠ [] → ∃ t, w.file o.queryGroups = some t ∧ WellFormedGroups ((lines t).map words))
  swap
  · refine .refused (fun hg => absurd ⟨hg.1.querySet, hg.1.queryGroups⟩ hqf) ?_
    rw [e, q2 hqf]
    rfl
  obtain ⟨q2g, eq⟩ := q1 hqf
  have hfin := (str_plain R).finite u hv'
  have hE := (simple_seg R qf).safe.evaluate_ends R S rng w o (q2g.map (Prod.map f f))
    ((eventsIn extractStrEvent t).map (Event.rename f f))
    ((eventsIn (extractScored R extractStrEvent) u).map (ScoredEvent.rename f f)) _
    (hC t u ht hu) hs
    (fun x hx => by
      obtain ⟨y, hy, rfl⟩ := List.mem_map.1 hx
      exact hfin y hy)
    (by
      rw [List.length_map, List.length_map]
      exact Nat.add_le_add (List.length_filterMap_le _ _) (List.length_filterMap_le _ _))
  rw [e, eq]
  exact hE.congr ⟨fun hd => ⟨⟨hr, ⟨t, ht, hv⟩, ⟨u, hu, hv'⟩, hqf.1, hqf.2⟩, hd⟩, fun hg => hg.2⟩

theorem getUnsigned_lt (m : Nat) (skip : Bool) (s : IStream) (n : Nat)
    (h : (s.getUnsigned m skip).2 = some n) : n ≤ m := by
  unfold IStream.getUnsigned at h
  dsimp only at h
  (repeat' split at h) <;> simp only [Option.some.injEq, reduceCtorEq] at h
  · omega
  · omega
  · subst h
    exact Nat.le_of_lt_succ (Nat.mod_lt _ (Nat.succ_pos _))
  · omega

theorem size_lt (R : Rnd) (d : Nat) (hd : d < 2 ^ 64) (t : Option Str) :
    asNat (some (valueAfter R (.size d) t)) < 2 ^ 64 := by
  cases t with
  | none => exact hd
  | some s =>
    simp only [valueAfter, OptVal.parseOpt, OptVal.parseOther, asNat]
    cases h : ((IStream.ofStr s).getUnsigned (2 ^ 64 - 1) false).2 with
    | none => exact hd
    | some n =>
      have := getUnsigned_lt _ _ _ _ h
      simp only [Option.getD_some]
      omega

/-- C90, command lines: one that asks for help ends with status 0; one that neither is well formed nor
asks for help ends with status 1; and a well-formed one is run with the options it means (C83), for
which the number of samples is in range. -/
theorem C90_command_line {μ σ Q L G : Type} [DecidableEq Q] [Cmp Q] [Cmp L] (R : Rnd) (S : StdSort)
    (rng : Rng G) (kit : ToolKit μ σ Q L) (w : World) (argv : List Str) :
    (AsksHelp R (toolParser R) argv → toolMain R S rng kit w argv = .ok .helped) ∧
    (¬ WellFormedLine R (toolParser R) argv → ¬ AsksHelp R (toolParser R) argv →
      toolMain R S rng kit w argv = .ok .failed) ∧
    (WellFormedLine R (toolParser R) argv → ∃ items tail pos o,
      argv = items.flatMap OptItem.render ++ tail ∧ TailOk tail pos ∧ OptionsMean R items pos o ∧
      o.samples < 2 ^ 64 ∧ toolMain R S rng kit w argv = mainWith R S rng kit w o) := by
  obtain ⟨c1, c2⟩ := C62_command_line R S rng kit w argv
  refine ⟨c2, c1, ?_⟩
  rintro ⟨items, tail, pos, e, h1, h2, h3, h4, h5, h6, h7⟩
  obtain ⟨p, hp⟩ : ∃ p : Parser, p = ⟨optsAfter R (toolParser R).opts items,
    assigned R (toolParser R).args pos,
    assigned R (toolParser R).optArgs (pos.drop (toolParser R).args.length)⟩ := ⟨_, rfl⟩
  have hpar := (C52_accepts R (toolParser R) p (C54_tool R) argv).2
    ⟨items, tail, pos, e, h1, h2, h3, h4, h5, h6, h7, hp⟩
  have hopts : p.opts = optsAfter R (toolParser R).opts items := by rw [hp]
  refine ⟨items, tail, pos, ToolOptions.ofParser p, e, h2,
    C83_options R items tail pos p h1 h2 h3 (e ▸ hpar), ?_, ?_⟩
  · have hf : AMap.find? "bootstrap_samples".toList (toolParser R).opts = some (OptVal.size 10000) := by
      rw [toolParser_opts]
      simp [AMap.find?]
    change asNat (AMap.find? "bootstrap_samples".toList p.opts) < _
    rw [hopts, Parser.find?_optsAfter, hf]
    exact size_lt R 10000 (by norm_num) _
  · unfold toolMain
    rw [hpar]

/-- Without rounding, intervals can be read exactly if there are samples and `alpha` is between 0
and 2. -/
theorem C90_interval (o : ToolOptions) :
    IntervalDefined Rnd.exact o ↔ 0 < o.samples ∧ 0 < o.alpha ∧ o.alpha < 2 := by
  unfold IntervalDefined lowerPosition upperPosition
  simp only [Rnd.exact, id]
  constructor
  · rintro ⟨h0, _, h2, _, h4⟩
    have hn : (0 : ℚ) < o.samples := by exact_mod_cast h0
    exact ⟨h0, by nlinarith, by nlinarith⟩
  · rintro ⟨h0, h1, h2⟩
    have hn : (0 : ℚ) < o.samples := by exact_mod_cast h0
    exact ⟨h0, by nlinarith, by nlinarith, by nlinarith, by nlinarith⟩

/-- The default options of the tools define intervals in IEEE arithmetic. -/
theorem C90_interval_default (o : ToolOptions) (hs : o.samples = 10000)
    (ha : o.alpha = Rnd.ieee.f64 (5 / 100)) : IntervalDefined Rnd.ieee o := by
  unfold IntervalDefined lowerPosition upperPosition
  rw [hs, ha]
  decide +kernel

/-- Cases, with two references and three lines of hypotheses (`runExample`, where nothing can be
written): all four ends. A file for the matches gives status 1; `alpha = 2` with an interval reads out
of range; a file for the mean curve throws; and an interval with the default options is reported. -/
example {G : Type} (S : StdSort) (rng : Rng G) :
    let o : ToolOptions := { refFilename := "ref".toList, alpha := Rnd.ieee.f64 (5 / 100) }
    let run := fun o => mainWith Rnd.ieee S rng (icdarKit Rnd.ieee S) runExample o
    run { o with dumpMatches := "m".toList, outputMrp := "c".toList } = .ok .failed ∧
    run { o with ciMndcg := true, alpha := 2, outputMrp := "c".toList } = .error .ub ∧
    run { o with ciMndcg := true, outputMrp := "c".toList } = .error .ioFailure ∧
    ∃ r, run { o with ciMndcg := true } = .ok (.done r) ∧ r.mNDCG.ci.isSome = true := by
  intro o run
  have hC : ∀ o : ToolOptions, o.collapse = true → ∀ t t', runExample.file "ref".toList = some t →
      hypText runExample { o with hypFilename := [] } = some t' →
      CurvesCountable Rnd.ieee o ((lines t).length + (lines t').length) := by
    intro o hc t t' h1 h2 _
    rw [runExample_file] at h1
    injection h1 with h1
    have h2' : some runExample.stdin = some t' := h2
    injection h2' with h2'
    subst h1 h2'
    refine Or.inr ⟨ieee_precise, ?_⟩
    rw [hc, if_pos rfl]
    decide +kernel
  have hv := fun (o : ToolOptions) h1 h2 h3 h4 => runExample_valid o h1 h2 h3 h4
  refine ⟨?_, ?_, ?_, ?_⟩
  · exact (C90_box Rnd.ieee S rng runExample _ (by decide) (hC _ rfl)).status1
      (fun h => by rcases h.2 with h | h <;> exact absurd h (by decide))
  · exact (C90_box Rnd.ieee S rng runExample _ (by decide) (hC _ rfl)).undefined
      ⟨hv _ rfl rfl rfl rfl, Or.inl rfl⟩ (Or.inr (Or.inr (Or.inr rfl)))
      (fun h => absurd h.2.2.2.2 (by decide +kernel))
  · exact (C90_box Rnd.ieee S rng runExample _ (by decide) (hC _ rfl)).exception
      ⟨hv _ rfl rfl rfl rfl, Or.inl rfl⟩ (fun _ => C90_interval_default _ rfl rfl)
      (Or.inr ⟨by decide, rfl⟩)
  · obtain ⟨r, h1, h2⟩ := (C90_box Rnd.ieee S rng runExample { o with ciMndcg := true } (by decide)
      (hC _ rfl)).report ⟨hv _ rfl rfl rfl rfl, Or.inl rfl⟩ (fun _ => C90_interval_default _ rfl rfl)
      (by rintro (h | h) <;> exact absurd rfl h.1)
    exact ⟨r, h1, h2.mndcg⟩

/-- Case: the segmentation-based tool, without rounding and with a curve to be written to a file that
cannot be, throws if `alpha` is 3/2, and reads out of range if it is 0 and intervals are asked for. -/
example {G : Type} (S : StdSort) (rng : Rng G) (qf : Bool) :
    let w : World := ⟨fun f => if f = "ref".toList then some "a d\nb d\n".toList else none,
      "b d 0.5\n\n# x\na e 1.5\n".toList, fun _ => false⟩
    let run := fun alpha => mainWith Rnd.exact S rng (simpleKit Rnd.exact qf) w
      { refFilename := "ref".toList, alpha := alpha, ciGap := true, outputGrp := "c".toList }
    run (3 / 2) = .error .ioFailure ∧ run 0 = .error .ub := by
  intro w run
  have hE := fun alpha : ℚ => C90_segmentation Rnd.exact S rng qf w
    { refFilename := "ref".toList, alpha := alpha, ciGap := true, outputGrp := "c".toList }
    (show (vocabulary w { refFilename := "ref".toList, alpha := 0 }).dedup.length ≤ 2 ^ 31 by
      decide +kernel)
    (show 10000 < 2 ^ 64 by norm_num) (fun t t' _ _ _ => Or.inl rfl)
  have hv : ∀ alpha : ℚ, ValidInputs StrEventText (ScoredText Rnd.exact StrEventText) w
      { refFilename := "ref".toList, alpha := alpha, ciGap := true, outputGrp := "c".toList } := by
    intro alpha
    exact ⟨by simp, ⟨"a d\nb d\n".toList, rfl,
        (Format.strRefs (R := Rnd.exact)).valid_of_ok _ (by decide +kernel)⟩,
      ⟨"b d 0.5\n\n# x\na e 1.5\n".toList, rfl,
        (Format.strHyps (R := Rnd.exact)).valid_of_ok _ (by decide +kernel)⟩,
      fun h => absurd rfl h, fun h => absurd rfl h⟩
  constructor
  · exact (hE _).exception ⟨hv _, Or.inl rfl⟩
      (fun _ => (C90_interval _).2 ⟨by decide, by norm_num, by norm_num⟩)
      (Or.inl ⟨by decide, rfl⟩)
  · exact (hE _).undefined ⟨hv _, Or.inl rfl⟩ (Or.inl rfl)
      (fun h => absurd ((C90_interval _).1 h).2.1 (by norm_num))

end Kws
