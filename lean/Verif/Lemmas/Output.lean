import Verif.Model.Output
import Verif.Lemmas.Number
import Verif.Lemmas.Main

/-!
# Lemmas about traced runs
-/

namespace Kws

open Spec Traced

namespace Traced
variable {α β : Type}

theorem ext' {x y : Traced α} (h1 : x.effects = y.effects) (h2 : x.result = y.result) : x = y := by
  cases x; cases y; cases h1; cases h2; rfl

@[simp] theorem lift_ok_bind (a : α) (f : α → Traced β) : lift (.ok a) >>= f = f a :=
  ext' (List.nil_append _) rfl

@[simp] theorem lift_error_bind (e : Fault) (f : α → Traced β) :
    (lift (.error e) : Traced α) >>= f = ⟨[], .error e⟩ := rfl

@[simp] theorem emit_bind (e : Effect) (f : Unit → Traced β) :
    emit e >>= f = ⟨e :: (f ()).effects, (f ()).result⟩ := rfl

@[simp] theorem say_bind (s : Str) (f : Unit → Traced β) :
    say s >>= f = ⟨.err (endl s) :: (f ()).effects, (f ()).result⟩ := rfl

@[simp] theorem pure_bind' (a : α) (f : α → Traced β) : (pure a : Traced α) >>= f = f a :=
  ext' (List.nil_append _) rfl

@[simp] theorem pure_effects (a : α) : (pure a : Traced α).effects = [] := rfl
@[simp] theorem pure_result (a : α) : (pure a : Traced α).result = .ok a := rfl

theorem bind_result (x : Traced α) (f : α → Traced β) :
    (x >>= f).result = x.result.bind fun a => (f a).result := by
  obtain ⟨es, r⟩ := x
  cases r <;> rfl

theorem bind_effects (x : Traced α) (f : α → Traced β) :
    (x >>= f).effects = x.effects ++ match x.result with
      | .ok a => (f a).effects
      | .error _ => [] := by
  obtain ⟨es, r⟩ := x
  cases r with
  | error e => exact (List.append_nil _).symm
  | ok a => rfl

@[simp] theorem lift_result (x : Cpp α) : (lift x).result = x := rfl
@[simp] theorem lift_effects (x : Cpp α) : (lift x).effects = [] := rfl
@[simp] theorem emit_result (e : Effect) : (emit e).result = .ok () := rfl
@[simp] theorem emit_effects (e : Effect) : (emit e).effects = [e] := rfl
@[simp] theorem say_result (s : Str) : (say s).result = .ok () := rfl
@[simp] theorem say_effects (s : Str) : (say s).effects = [.err (endl s)] := rfl

end Traced

@[simp] theorem outsOf_append (a b) : outsOf (a ++ b) = outsOf a ++ outsOf b :=
  List.filterMap_append
@[simp] theorem errsOf_append (a b) : errsOf (a ++ b) = errsOf a ++ errsOf b :=
  List.filterMap_append
@[simp] theorem filesOf_append (a b) : filesOf (a ++ b) = filesOf a ++ filesOf b :=
  List.filterMap_append
@[simp] theorem outsOf_nil : outsOf [] = [] := rfl
@[simp] theorem errsOf_nil : errsOf [] = [] := rfl
@[simp] theorem filesOf_nil : filesOf [] = [] := rfl
@[simp] theorem outsOf_out (s es) : outsOf (.out s :: es) = s :: outsOf es := rfl
@[simp] theorem outsOf_err (s es) : outsOf (.err s :: es) = outsOf es := rfl
@[simp] theorem outsOf_file (n t es) : outsOf (.file n t :: es) = outsOf es := rfl
@[simp] theorem errsOf_out (s es) : errsOf (.out s :: es) = errsOf es := rfl
@[simp] theorem errsOf_err (s es) : errsOf (.err s :: es) = s :: errsOf es := rfl
@[simp] theorem errsOf_file (n t es) : errsOf (.file n t :: es) = errsOf es := rfl
@[simp] theorem filesOf_out (s es) : filesOf (.out s :: es) = filesOf es := rfl
@[simp] theorem filesOf_err (s es) : filesOf (.err s :: es) = filesOf es := rfl
@[simp] theorem filesOf_file (n t es) : filesOf (.file n t :: es) = (n, t) :: filesOf es := rfl
@[simp] theorem outsOf_curve (n t es) : outsOf (.curve n t :: es) = outsOf es := rfl
@[simp] theorem errsOf_curve (n t es) : errsOf (.curve n t :: es) = errsOf es := rfl
@[simp] theorem filesOf_curve (n t es) : filesOf (.curve n t :: es) = (n, t) :: filesOf es := rfl
@[simp] theorem curvesOf_append (a b) : curvesOf (a ++ b) = curvesOf a ++ curvesOf b :=
  List.filterMap_append
@[simp] theorem curvesOf_nil : curvesOf [] = [] := rfl
@[simp] theorem curvesOf_out (s es) : curvesOf (.out s :: es) = curvesOf es := rfl
@[simp] theorem curvesOf_err (s es) : curvesOf (.err s :: es) = curvesOf es := rfl
@[simp] theorem curvesOf_file (n t es) : curvesOf (.file n t :: es) = curvesOf es := rfl
@[simp] theorem curvesOf_curve (n t es) : curvesOf (.curve n t :: es) = (n, t) :: curvesOf es := rfl

/-- Curve files are files. -/
theorem curvesOf_sublist (es : List Effect) : (curvesOf es).Sublist (filesOf es) := by
  induction es with
  | nil => exact List.Sublist.slnil
  | cons e es ih =>
    cases e with
    | out s => exact ih
    | err s => exact ih
    | file n t => exact ih.cons _
    | curve n t => exact ih.cons_cons _

section
variable {μ σ Q L G : Type}

/-- the lines of the metrics -/
noncomputable def metricTexts (r : Report Q L) : List Str :=
  [showMetric "gAP" r.gAP, showMetric "mAP" r.mAP, showMetric "gNDCG" r.gNDCG,
    showMetric "mNDCG" r.mNDCG]

/-- the files with the curves -/
def curveFiles (o : ToolOptions) (r : Report Q L) : List (Str × Str) :=
  (r.globalCurve.toList.map fun c => (o.outputGrp, showCurve showScientific showScientific c)) ++
  (r.meanCurve.toList.map fun c =>
    (o.outputMrp, showCurve showScientific (showFlt showScientific) c))

/-- what the metrics and curves write -/
noncomputable def assessEffects (o : ToolOptions) (r : Report Q L) : List Effect :=
  (metricTexts r).map .out ++ (curveFiles o r).map fun f => .curve f.1 f.2

/-- the exit code -/
def exitCode : RunResult Q L → Nat
  | .failed => 1
  | .helped => 0
  | .done _ => 0

/-- The metrics and curves of a run that ends normally. -/
theorem traceAssess_ok {R : Rnd} {S : StdSort} {rng : Rng G} {w : World} {o : ToolOptions}
    {ms : List (KwsMatch Q L)} {groups : List (List (KwsMatch Q L))}
    {dump : Option (List (KwsMatch Q L) × List (KwsMatch Q L))} {r : Report Q L}
    (h : assess R S rng w o ms groups dump = .ok r) :
    traceAssess R S rng w o ms groups = ⟨assessEffects o r, .ok 0⟩ ∧ r.dump = dump := by
  unfold assess at h
  unfold traceAssess
  obtain ⟨x1, h1⟩ : ∃ x, globalStatistic R S R.f64 rng o.ciGap o ms groups
    (fun ms => globalAP R ms o.collapse o.interp o.trapezoid)
    (fun gs b => globalAPGrouped R S gs o.collapse o.interp o.trapezoid b) = x := ⟨_, rfl⟩
  obtain ⟨x2, h2⟩ : ∃ x, meanStatistic R S R.f64 rng o.ciMap o groups
    (fun gs b => meanAP R S gs o.collapse o.interp o.trapezoid b) = x := ⟨_, rfl⟩
  obtain ⟨x3, h3⟩ : ∃ x, globalStatistic R S id rng o.ciGndcg o ms groups
    (fun ms => .ok (globalNDCG R ms o.collapse))
    (fun gs b => globalNDCGGrouped R S gs o.collapse b) = x := ⟨_, rfl⟩
  obtain ⟨x4, h4⟩ : ∃ x, meanStatistic R S id rng o.ciMndcg o groups
    (fun gs b => meanNDCG R S gs o.collapse b) = x := ⟨_, rfl⟩
  obtain ⟨x5, h5⟩ : ∃ x, globalRPCurve R w o.outputGrp ms o.curveSamples o.collapse o.interp
    o.trapezoid = x := ⟨_, rfl⟩
  obtain ⟨x6, h6⟩ : ∃ x, meanRPCurve R w o.outputMrp groups o.curveSamples o.collapse o.interp
    o.trapezoid = x := ⟨_, rfl⟩
  rw [h1, h2, h3, h4, h5, h6] at h
  rw [h1, h2, h3, h4, h5, h6]
  cases x1 with
  | error e => cases h
  | ok x1 =>
  cases x2 with
  | error e => cases h
  | ok x2 =>
  cases x3 with
  | error e => cases h
  | ok x3 =>
  cases x4 with
  | error e => cases h
  | ok x4 =>
  by_cases hg : o.outputGrp = []
  · by_cases hm : o.outputMrp = []
    · simp only [hg, hm, if_true, bind, Except.bind, pure, Except.pure, Except.ok.injEq] at h
      subst h
      exact ⟨by simp [hg, hm, assessEffects, metricTexts, curveFiles], rfl⟩
    · cases x6 with
      | error e => simp [hg, hm, bind, Except.bind, pure, Except.pure, Functor.map, Except.map] at h
      | ok x6 =>
        simp only [hg, hm, if_true, if_false, bind, Except.bind, pure, Except.pure, Functor.map,
          Except.map, Except.ok.injEq] at h
        subst h
        exact ⟨by simp [hg, hm, assessEffects, metricTexts, curveFiles], rfl⟩
  · cases x5 with
    | error e => simp [hg, bind, Except.bind, Functor.map, Except.map] at h
    | ok x5 =>
      by_cases hm : o.outputMrp = []
      · simp only [hg, hm, if_true, if_false, bind, Except.bind, pure, Except.pure, Functor.map,
          Except.map, Except.ok.injEq] at h
        subst h
        exact ⟨by simp [hg, hm, assessEffects, metricTexts, curveFiles], rfl⟩
      · cases x6 with
        | error e => simp [hg, hm, bind, Except.bind, Functor.map, Except.map] at h
        | ok x6 =>
          simp only [hg, hm, if_false, bind, Except.bind, pure, Except.pure, Functor.map,
            Except.map, Except.ok.injEq] at h
          subst h
          exact ⟨by simp [hg, hm, assessEffects, metricTexts, curveFiles], rfl⟩

theorem showMetric_names {K : Type} [Field K] [LinearOrder K] [FloorRing K] (name : String)
    (m : Metric K) : NamesMetric name.toList (showMetric name m) := by
  obtain ⟨v, _ | ⟨lo, hi⟩⟩ := m
  · exact ⟨showGeneral v, by simp [showMetric, endl]⟩
  · exact ⟨showGeneral v ++ (" [".toList ++ showGeneral lo ++ ", ".toList ++ showGeneral hi ++
      "]".toList), by simp only [showMetric, endl, List.append_assoc]⟩

/-- The metrics and curves of a run that ends abnormally. -/
theorem traceAssess_error {R : Rnd} {S : StdSort} {rng : Rng G} {w : World} {o : ToolOptions}
    {ms : List (KwsMatch Q L)} {groups : List (List (KwsMatch Q L))}
    {dump : Option (List (KwsMatch Q L) × List (KwsMatch Q L))} {f : Fault}
    (h : assess R S rng w o ms groups dump = .error f) :
    (traceAssess R S rng w o ms groups).result = .error f ∧
      FirstMetrics (outsOf (traceAssess R S rng w o ms groups).effects) ∧
      errsOf (traceAssess R S rng w o ms groups).effects = [] ∧
      ∀ nt ∈ filesOf (traceAssess R S rng w o ms groups).effects, nt.1 = o.outputGrp ∧
        outsOf (traceAssess R S rng w o ms groups).effects ≠ [] := by
  unfold assess at h
  unfold traceAssess
  obtain ⟨x1, h1⟩ : ∃ x, globalStatistic R S R.f64 rng o.ciGap o ms groups
    (fun ms => globalAP R ms o.collapse o.interp o.trapezoid)
    (fun gs b => globalAPGrouped R S gs o.collapse o.interp o.trapezoid b) = x := ⟨_, rfl⟩
  obtain ⟨x2, h2⟩ : ∃ x, meanStatistic R S R.f64 rng o.ciMap o groups
    (fun gs b => meanAP R S gs o.collapse o.interp o.trapezoid b) = x := ⟨_, rfl⟩
  obtain ⟨x3, h3⟩ : ∃ x, globalStatistic R S id rng o.ciGndcg o ms groups
    (fun ms => .ok (globalNDCG R ms o.collapse))
    (fun gs b => globalNDCGGrouped R S gs o.collapse b) = x := ⟨_, rfl⟩
  obtain ⟨x4, h4⟩ : ∃ x, meanStatistic R S id rng o.ciMndcg o groups
    (fun gs b => meanNDCG R S gs o.collapse b) = x := ⟨_, rfl⟩
  obtain ⟨x5, h5⟩ : ∃ x, globalRPCurve R w o.outputGrp ms o.curveSamples o.collapse o.interp
    o.trapezoid = x := ⟨_, rfl⟩
  obtain ⟨x6, h6⟩ : ∃ x, meanRPCurve R w o.outputMrp groups o.curveSamples o.collapse o.interp
    o.trapezoid = x := ⟨_, rfl⟩
  rw [h1, h2, h3, h4, h5, h6] at h
  rw [h1, h2, h3, h4, h5, h6]
  have n0 : FirstMetrics [] := ⟨[], List.nil_prefix, .nil⟩
  have n1 : ∀ m : Metric ℚ, FirstMetrics [showMetric "gAP" m] := fun m =>
    ⟨["gAP".toList], ⟨_, rfl⟩, .cons (showMetric_names _ _) .nil⟩
  have n2 : ∀ m m' : Metric ℚ, FirstMetrics [showMetric "gAP" m, showMetric "mAP" m'] :=
    fun m m' => ⟨["gAP".toList, "mAP".toList], ⟨_, rfl⟩,
      .cons (showMetric_names _ _) (.cons (showMetric_names _ _) .nil)⟩
  have n3 : ∀ (m m' : Metric ℚ) (k : Metric ℝ), FirstMetrics [showMetric "gAP" m,
      showMetric "mAP" m', showMetric "gNDCG" k] :=
    fun m m' k => ⟨["gAP".toList, "mAP".toList, "gNDCG".toList], ⟨_, rfl⟩,
      .cons (showMetric_names _ _) (.cons (showMetric_names _ _)
        (.cons (showMetric_names _ _) .nil))⟩
  have n4 : ∀ (m m' : Metric ℚ) (k k' : Metric ℝ), FirstMetrics [showMetric "gAP" m,
      showMetric "mAP" m', showMetric "gNDCG" k, showMetric "mNDCG" k'] :=
    fun m m' k k' => ⟨metricNames, List.prefix_rfl,
      .cons (showMetric_names _ _) (.cons (showMetric_names _ _)
        (.cons (showMetric_names _ _) (.cons (showMetric_names _ _) .nil)))⟩
  cases x1 with
  | error e => cases h; simpa using n0
  | ok x1 =>
  cases x2 with
  | error e => cases h; simpa using n1 _
  | ok x2 =>
  cases x3 with
  | error e => cases h; simpa using n2 _ _
  | ok x3 =>
  cases x4 with
  | error e => cases h; simpa using n3 _ _ _
  | ok x4 =>
  by_cases hg : o.outputGrp = []
  · by_cases hm : o.outputMrp = []
    · simp [hg, hm, bind, Except.bind, pure, Except.pure] at h
    · cases x6 with
      | error e =>
        simp only [hg, hm, if_true, if_false, bind, Except.bind, pure, Except.pure, Functor.map,
          Except.map, Except.error.injEq] at h
        subst h
        simpa [hg, hm] using n4 _ _ _ _
      | ok x6 =>
        simp [hg, hm, bind, Except.bind, pure, Except.pure, Functor.map, Except.map] at h
  · cases x5 with
    | error e =>
      simp only [hg, if_false, bind, Except.bind, Functor.map, Except.map, Except.error.injEq] at h
      subst h
      simpa [hg] using n4 _ _ _ _
    | ok x5 =>
      by_cases hm : o.outputMrp = []
      · simp [hg, hm, bind, Except.bind, pure, Except.pure, Functor.map, Except.map] at h
      · cases x6 with
        | error e =>
          simp only [hg, hm, if_false, bind, Except.bind, Functor.map,
            Except.map, Except.error.injEq] at h
          subst h
          simpa [hg, hm] using n4 _ _ _ _
        | ok x6 =>
          simp [hg, hm, bind, Except.bind, pure, Except.pure, Functor.map, Except.map] at h

/-- the file with the matches -/
def dumpFiles (sh : Event Q L → Str) (o : ToolOptions) (r : Report Q L) : List (Str × Str) :=
  r.dump.toList.map fun d => (o.dumpMatches, showDump sh d)

/-- What a run wrote agrees with its outcome. -/
structure Agrees (sh : Event Q L → Str) (o : ToolOptions) (t : Traced Nat)
    (x : Cpp (RunResult Q L)) : Prop where
  code : t.result = x.map exitCode
  done : ∀ r, x = .ok (.done r) → outsOf t.effects = metricTexts r ∧
    filesOf t.effects = dumpFiles sh o r ++ curveFiles o r ∧
    ∀ s ∈ errsOf t.effects, ¬ IsErrorMessage s
  failed : x = .ok .failed → outsOf t.effects = [] ∧ filesOf t.effects = [] ∧
    ∃ s ∈ errsOf t.effects, IsErrorMessage s
  helped : x ≠ .ok .helped
  aborted : ∀ f, x = .error f → FirstMetrics (outsOf t.effects) ∧
    ∀ s ∈ errsOf t.effects, ¬ IsErrorMessage s
  curves : ∀ r, x = .ok (.done r) → curvesOf t.effects = curveFiles o r

/-- A message before the rest. -/
theorem Agrees.after {sh : Event Q L → Str} {o : ToolOptions} {t : Traced Nat}
    {x : Cpp (RunResult Q L)} (h : Agrees sh o t x) {s : Str} (hs : ¬ IsErrorMessage s) :
    Agrees sh o ⟨.err s :: t.effects, t.result⟩ x where
  code := h.code
  done r hr := by
    obtain ⟨a, b, c⟩ := h.done r hr
    refine ⟨a, b, fun m hm => ?_⟩
    rcases List.mem_cons.1 hm with rfl | hm
    · exact hs
    · exact c m hm
  failed hf := by
    obtain ⟨a, b, m, hm, c⟩ := h.failed hf
    exact ⟨a, b, m, List.mem_cons_of_mem _ hm, c⟩
  helped := h.helped
  aborted f hf := by
    obtain ⟨a, b⟩ := h.aborted f hf
    refine ⟨a, fun m hm => ?_⟩
    rcases List.mem_cons.1 hm with rfl | hm
    · exact hs
    · exact b m hm
  curves r hr := h.curves r hr

/-- A message that depends on a condition. -/
theorem Agrees.maybe {sh : Event Q L → Str} {o : ToolOptions} {c : Prop} [Decidable c] {s : Str}
    {f : Unit → Traced Nat} {x : Cpp (RunResult Q L)} (h : Agrees sh o (f ()) x)
    (hs : ¬ IsErrorMessage (endl s)) :
    Agrees sh o (sayIf c s >>= f) x := by
  unfold sayIf emitIf
  by_cases hc : c
  · rw [if_pos hc]
    exact h.after hs
  · rw [if_neg hc, pure_bind']
    exact h

/-- Failure with a message. -/
theorem agrees_failed (sh : Event Q L → Str) (o : ToolOptions) {s : Str}
    (hs : IsErrorMessage (endl s)) :
    Agrees sh o (do say s; return 1) (.ok .failed) where
  code := rfl
  done r hr := by cases hr
  failed _ := ⟨rfl, rfl, _, List.mem_singleton.2 rfl, hs⟩
  helped h := by cases h
  aborted f hf := by cases hf
  curves r hr := by cases hr

/-- An abnormal end before anything was printed. -/
theorem agrees_abort (sh : Event Q L → Str) (o : ToolOptions) (f : Fault) :
    Agrees sh o ⟨[], .error f⟩ (.error f : Cpp (RunResult Q L)) where
  code := rfl
  done r hr := by cases hr
  failed h := by cases h
  helped h := by cases h
  aborted f' hf := ⟨⟨[], List.nil_prefix, .nil⟩, fun s hs => by cases hs⟩
  curves r hr := by cases hr

/-- There are at most as many effective hypotheses as hypotheses. -/
theorem run_nh [Cmp Q] [Cmp L] [LawfulCmp Q] [LawfulCmp L] {kit : ToolKit μ σ Q L}
    {refs : List (Event Q L)} {l : List (ScoredEvent Q L)} {t : σ × List (KwsMatch Q L) × List (KwsMatch Q L)}
    (h : SimpleMatcher.run kit.index kit.scorer kit.refsSet refs l = .ok t) :
    t.2.1.foldl (fun n m => n + m.error.nh) 0 ≤ l.length := by
  obtain ⟨s', ms, rep⟩ := t
  obtain ⟨hits, fns, rfl, _, _, ⟨hs, hsub, hmap⟩, _⟩ := run_facts _ _ _ _ _ _ _ _ h
  have hfold : ∀ (ms : List (KwsMatch Q L)) (k : Nat),
      ms.foldl (fun n m => n + m.error.nh) k = k + (ms.map (fun m => m.error.nh)).sum := by
    intro ms
    induction ms with
    | nil => intro k; rfl
    | cons m ms ih => intro k; rw [List.foldl_cons, ih, List.map_cons, List.sum_cons]; omega
  have hle : ∀ ms : List (KwsMatch Q L), (ms.map (fun m => m.error.nh)).sum ≤ ms.length := by
    intro ms
    induction ms with
    | nil => exact le_rfl
    | cons m ms ih =>
      rw [List.map_cons, List.sum_cons, List.length_cons]
      have : m.error.nh ≤ 1 := by unfold MatchError.nh; split <;> omega
      omega
  have hz : ∀ fns : List (Event Q L), ((fns.map (Match.makeFalseNegative :
      Event Q L → KwsMatch Q L)).map (fun m => m.error.nh)).sum = 0 := by
    intro fns
    induction fns with
    | nil => rfl
    | cons r fns ih =>
      rw [List.map_cons, List.map_cons, List.sum_cons, ih]
      simp [Match.makeFalseNegative, MatchError.nh]
  dsimp only
  rw [hfold, List.map_append, List.sum_append, hz]
  have h1 := hle hits
  have h2 : hits.length = hs.length := by simpa using congrArg List.length hmap
  have h3 := hsub.length_le
  omega

theorem traceMatchAndAssess_agrees [DecidableEq Q] [Cmp Q] [Cmp L] [LawfulCmp Q] [LawfulCmp L]
    (R : Rnd) (S : StdSort) (rng : Rng G) (kit : ToolKit μ σ Q L) (texts : ToolTexts Q L) (w : World)
    (o : ToolOptions) (q2g : List (Q × Q)) (refs : List (Event Q L))
    (hyps : List (ScoredEvent Q L)) :
    Agrees texts.showEvent o (traceMatchAndAssess R S rng kit texts w o q2g refs hyps)
      (matchAndAssess R S rng kit w o q2g refs hyps) := by
  rw [matchAndAssess_eq]
  unfold traceMatchAndAssess
  cases sortHyps S o.sort hyps with
  | error f => exact agrees_abort _ _ f
  | ok l =>
  rw [lift_ok_bind]
  simp only [Except.bind]
  refine Agrees.maybe ?_ (by simp [IsErrorMessage, endl])
  rw [say_bind]
  refine Agrees.after ?_ (by simp [IsErrorMessage, endl])
  cases hrun : SimpleMatcher.run kit.index kit.scorer kit.refsSet refs l with
  | error f => exact agrees_abort _ _ f
  | ok t =>
  have hnh := run_nh hrun
  obtain ⟨s', ms, rep⟩ := t
  dsimp only at hnh
  rw [lift_ok_bind]
  simp only [Except.map, afterMatching]
  by_cases hw : o.dumpMatches ≠ [] ∧ w.writable o.dumpMatches = false
  · rw [if_pos hw, if_pos hw]
    exact agrees_failed _ _ (by simp [IsErrorMessage, endl])
  rw [if_neg hw, if_neg hw, if_neg (Nat.not_lt.2 hnh), if_neg (Nat.not_lt.2 hnh)]
  have key : ∀ (pre : List Effect), outsOf pre = [] → errsOf pre = [] →
      filesOf pre = (if o.dumpMatches = [] then ([] : List (Str × Str)) else
        [(o.dumpMatches, showDump texts.showEvent (ms, rep))]) → curvesOf pre = [] →
      ∀ (c : Prop) [Decidable c] (s : Str), ¬ IsErrorMessage (endl s) →
      Agrees texts.showEvent o
        ⟨pre ++ (sayIf c s >>= fun _ => (do
          let groups ← lift (groupMatches q2g ms)
          traceAssess R S rng w o ms groups)).effects,
         (sayIf c s >>= fun _ => (do
          let groups ← lift (groupMatches q2g ms)
          traceAssess R S rng w o ms groups)).result⟩
        ((groupMatches q2g ms).bind fun groups =>
          (assess R S rng w o ms groups
            (if o.dumpMatches = [] then none else some (ms, rep))).bind fun r =>
          .ok (.done r)) := by
    intro pre p1 p2 p3 p4 c _ s hs
    cases hg : groupMatches q2g ms with
    | error f =>
      have hm : Agrees texts.showEvent o _ (.error f : Cpp (RunResult Q L)) :=
        Agrees.maybe (c := c) (s := s) (f := fun _ => (lift (.error f) : Traced (List (List (KwsMatch Q L)))) >>=
          fun groups => traceAssess R S rng w o ms groups) (agrees_abort _ _ f) hs
      refine ⟨hm.code, fun r hr => (by cases hr), fun hr => (by cases hr), fun hr => (by cases hr),
        fun f' hf => ?_, fun r hr => (by cases hr)⟩
      obtain ⟨a, b⟩ := hm.aborted f' hf
      exact ⟨by simpa [p1] using a, by simpa [p2] using b⟩
    | ok groups =>
      simp only [lift_ok_bind, Except.bind]
      cases ha : assess R S rng w o ms groups
          (if o.dumpMatches = [] then none else some (ms, rep)) with
      | error f =>
        obtain ⟨a, b, c', d⟩ := traceAssess_error ha
        have h0 : Agrees texts.showEvent o (traceAssess R S rng w o ms groups)
            (.error f : Cpp (RunResult Q L)) :=
          ⟨a, fun r hr => (by cases hr), fun hr => (by cases hr), fun hr => (by cases hr),
            fun f' hf => ⟨b, fun s hs => by rw [c'] at hs; cases hs⟩, fun r hr => (by cases hr)⟩
        have hm := Agrees.maybe (c := c) (s := s) (f := fun _ => traceAssess R S rng w o ms groups)
          h0 hs
        refine ⟨hm.code, fun r hr => (by cases hr), fun hr => (by cases hr),
          fun hr => (by cases hr), fun f' hf => ?_, fun r hr => (by cases hr)⟩
        obtain ⟨a, b⟩ := hm.aborted f' hf
        exact ⟨by simpa [p1] using a, by simpa [p2] using b⟩
      | ok r =>
        obtain ⟨a, b⟩ := traceAssess_ok ha
        rw [a]
        have e1 : outsOf (assessEffects o r) = metricTexts r := by
          simp [assessEffects, outsOf, List.filterMap_map]
        have e2 : errsOf (assessEffects o r) = [] := by
          simp [assessEffects, errsOf, List.filterMap_map]
        have e3 : filesOf (assessEffects o r) = curveFiles o r := by
          simp [assessEffects, filesOf, List.filterMap_map]
        have e5 : curvesOf (assessEffects o r) = curveFiles o r := by
          simp [assessEffects, curvesOf, List.filterMap_map]
        have e4 : filesOf pre = dumpFiles texts.showEvent o r := by
          rw [p3]
          unfold dumpFiles
          rw [b]
          split <;> simp
        unfold sayIf emitIf
        by_cases hc : c
        · rw [if_pos hc]
          refine ⟨rfl, fun r' hr => ?_, fun hr => (by cases hr), fun hr => (by cases hr),
            fun f' hf => (by cases hf), fun r' hr => ?_⟩
          · cases hr
            simpa [e1, e2, e3, e4, p1, p2] using hs
          · cases hr
            simp [e5, p4]
        · rw [if_neg hc]
          refine ⟨rfl, fun r' hr => ?_, fun hr => (by cases hr), fun hr => (by cases hr),
            fun f' hf => (by cases hf), fun r' hr => ?_⟩
          · cases hr
            simp [e1, e2, e3, e4, p1, p2]
          · cases hr
            simp [e5, p4]
  unfold emitIf
  by_cases hd : o.dumpMatches = []
  · have hnd : ¬ o.dumpMatches ≠ [] := by simp [hd]
    rw [if_neg hnd, pure_bind']
    exact key [] rfl rfl (by rw [if_pos hd]; rfl) rfl _ _ (by simp [IsErrorMessage, endl])
  · rw [if_pos hd, emit_bind]
    exact key [.file o.dumpMatches (showDump texts.showEvent (ms, rep))] rfl rfl
      (by rw [if_neg hd]; rfl) rfl _ _ (by simp [IsErrorMessage, endl])

theorem traceEvaluate_agrees [DecidableEq Q] [Cmp Q] [Cmp L] [LawfulCmp Q] [LawfulCmp L]
    (R : Rnd) (S : StdSort) (rng : Rng G) (kit : ToolKit μ σ Q L) (texts : ToolTexts Q L) (w : World)
    (o : ToolOptions) (q2g : List (Q × Q)) (refs : List (Event Q L))
    (hyps : List (ScoredEvent Q L)) :
    Agrees texts.showEvent o (traceEvaluate R S rng kit texts w o q2g refs hyps)
      (evaluate R S rng kit w o q2g refs hyps) := by
  unfold traceEvaluate evaluate
  by_cases hq : q2g = []
  · simp only [hq, if_true]
    exact traceMatchAndAssess_agrees ..
  · simp only [hq, if_false]
    refine Agrees.maybe ?_ (by simp [IsErrorMessage, endl])
    refine Agrees.maybe ?_ (by simp [IsErrorMessage, endl])
    refine Agrees.maybe ?_ (by simp [IsErrorMessage, endl])
    exact traceMatchAndAssess_agrees ..

/-- Messages of a part that reads something: no error unless it fails. -/
structure Quiet {α : Type} (t : Traced (Option α)) : Prop where
  outs : outsOf t.effects = []
  files : filesOf t.effects = []
  errs : t.result ≠ .ok none → ∀ s ∈ errsOf t.effects, ¬ IsErrorMessage s

/-- Reading followed by the rest. -/
theorem Agrees.reading {α : Type} {sh : Event Q L → Str} {o : ToolOptions} {t : Traced (Option α)}
    (ht : Quiet t) {k : Option α → Traced Nat} {x : Cpp (Option α)}
    {y : Option α → Cpp (RunResult Q L)} (hx : t.result = x)
    (hnone : x = .ok none → y none = .ok .failed ∧ (k none).result = .ok 1 ∧
      outsOf (k none).effects = [] ∧ filesOf (k none).effects = [] ∧
      ∃ s ∈ errsOf t.effects ++ errsOf (k none).effects, IsErrorMessage s)
    (hsome : ∀ a, Agrees sh o (k (some a)) (y (some a))) :
    Agrees sh o (t >>= k) (x.bind y) := by
  obtain ⟨es, r⟩ := t
  simp only at hx
  subst hx
  have e1 := ht.outs
  have e2 := ht.files
  have e3 := ht.errs
  simp only at e1 e2 e3
  cases r with
  | error f =>
    have e4 := e3 (by simp)
    exact ⟨rfl, fun r hr => (by cases hr), fun h => (by cases h), fun h => (by cases h),
      fun f' hf => ⟨by show FirstMetrics (outsOf es); rw [e1]; exact ⟨[], List.nil_prefix, .nil⟩, e4⟩,
      fun r hr => (by cases hr)⟩
  | ok a =>
    have hb : ((⟨es, .ok a⟩ : Traced (Option α)) >>= k) =
      ⟨es ++ (k a).effects, (k a).result⟩ := rfl
    rw [hb]
    show Agrees sh o _ (y a)
    cases a with
    | none =>
      obtain ⟨h1, h2, h3, h4, s, hs, hse⟩ := hnone rfl
      rw [h1]
      refine ⟨h2, fun r hr => (by cases hr), fun _ => ⟨?_, ?_, s, ?_, hse⟩, fun h => (by cases h),
        fun f h => (by cases h), fun r hr => (by cases hr)⟩
      · rw [outsOf_append, e1, h3]; rfl
      · rw [filesOf_append, e2, h4]; rfl
      · rw [errsOf_append]; exact hs
    | some a =>
      have e4 := e3 (by simp)
      have h := hsome a
      refine ⟨h.code, fun r hr => ?_, fun hf => ?_, h.helped, fun f hf => ?_, fun r hr => ?_⟩
      · obtain ⟨a, b, c⟩ := h.done r hr
        refine ⟨by rw [outsOf_append, e1, a]; rfl, by rw [filesOf_append, e2, b]; rfl, ?_⟩
        intro s hs
        rw [errsOf_append, List.mem_append] at hs
        exact hs.elim (e4 s) (c s)
      · obtain ⟨a, b, s, hs, c⟩ := h.failed hf
        refine ⟨by rw [outsOf_append, e1, a]; rfl, by rw [filesOf_append, e2, b]; rfl, s, ?_, c⟩
        rw [errsOf_append]
        exact List.mem_append_right _ hs
      · obtain ⟨a, b⟩ := h.aborted f hf
        refine ⟨by rw [outsOf_append, e1]; exact a, ?_⟩
        intro s hs
        rw [errsOf_append, List.mem_append] at hs
        exact hs.elim (e4 s) (b s)
      · have e5 : curvesOf es = [] := List.sublist_nil.1 (e2 ▸ curvesOf_sublist es)
        rw [curvesOf_append, e5, h.curves r hr]
        rfl

/-- the result of reading -/
def readResult {E : Type} (read : Str → μ × List E × ReadStatus) (text : Option Str) :
    Cpp (Option (μ × List E)) :=
  match text with
  | none => .ok none
  | some text =>
    match read text with
    | (_, _, .fault f) => .error f
    | (_, _, .badLine _) => .ok none
    | (_, _, .badStream) => .ok none
    | (m, es, .ok) => .ok (some (m, es))

theorem traceRead_result {E : Type} (read : Str → μ × List E × ReadStatus) (text : Option Str) :
    (traceRead read text).result = readResult read text := by
  unfold traceRead readResult
  cases text with
  | none => rfl
  | some t =>
    dsimp only
    obtain ⟨m, es, st⟩ := read t
    cases st <;> rfl

theorem traceRead_quiet {E : Type} (read : Str → μ × List E × ReadStatus) (text : Option Str) :
    Quiet (traceRead read text) := by
  unfold traceRead
  cases text with
  | none => exact ⟨rfl, rfl, fun h => absurd rfl h⟩
  | some t =>
    dsimp only
    obtain ⟨m, es, st⟩ := read t
    cases st with
    | ok => exact ⟨rfl, rfl, fun _ s hs => by cases hs⟩
    | badLine n => exact ⟨rfl, rfl, fun h => absurd rfl h⟩
    | badStream => exact ⟨rfl, rfl, fun h => absurd rfl h⟩
    | fault f => exact ⟨rfl, rfl, fun _ s hs => by cases hs⟩

theorem traceQueryMap_facts [DecidableEq Q] (mapQuery : μ → Str → μ × Cpp Q) (w : World)
    (o : ToolOptions) (m : μ) :
    (traceQueryMap mapQuery w o m).result = readQueryMap mapQuery w o m ∧
    Quiet (traceQueryMap mapQuery w o m) ∧
    (readQueryMap mapQuery w o m = .ok none →
      ∃ s ∈ errsOf (traceQueryMap mapQuery w o m).effects, IsErrorMessage s) := by
  unfold traceQueryMap readQueryMap
  split_ifs with h1 h2
  · cases w.file o.querySet with
    | none =>
      exact ⟨rfl, ⟨rfl, rfl, fun h => absurd rfl h⟩, fun _ =>
        ⟨_, List.mem_singleton.2 rfl, by simp [IsErrorMessage, endl]⟩⟩
    | some t =>
      dsimp only
      cases (readQuerySet mapQuery m t).2 with
      | error f => exact ⟨rfl, ⟨rfl, rfl, fun _ s hs => by cases hs⟩, fun h => by cases h⟩
      | ok q2g =>
        refine ⟨rfl, ⟨rfl, rfl, fun _ s hs => ?_⟩, fun h => by cases h⟩
        rw [lift_ok_bind, say_bind] at hs
        rcases List.mem_singleton.1 hs with rfl
        simp [IsErrorMessage, endl]
  · cases w.file o.queryGroups with
    | none =>
      exact ⟨rfl, ⟨rfl, rfl, fun h => absurd rfl h⟩, fun _ =>
        ⟨_, List.mem_singleton.2 rfl, by simp [IsErrorMessage, endl]⟩⟩
    | some t =>
      dsimp only
      cases (readQueryGroups mapQuery m t).2 with
      | error f => exact ⟨rfl, ⟨rfl, rfl, fun _ s hs => by cases hs⟩, fun h => by cases h⟩
      | ok r =>
        cases r with
        | none =>
          refine ⟨rfl, ⟨rfl, rfl, fun h => absurd rfl h⟩, fun _ => ?_⟩
          rw [lift_ok_bind]
          exact ⟨_, List.mem_singleton.2 rfl, by simp [IsErrorMessage, endl]⟩
        | some q2g =>
          refine ⟨rfl, ⟨rfl, rfl, fun _ s hs => ?_⟩, fun h => by cases h⟩
          rw [lift_ok_bind] at hs
          rcases List.mem_singleton.1 hs with rfl
          simp [IsErrorMessage, endl]
  · exact ⟨rfl, ⟨rfl, rfl, fun _ s hs => by cases hs⟩, fun h => by cases h⟩

theorem mainWith_eq [DecidableEq Q] [Cmp Q] [Cmp L] (R : Rnd) (S : StdSort) (rng : Rng G)
    (kit : ToolKit μ σ Q L) (w : World) (o : ToolOptions) (h : o.refFilename ≠ []) :
    mainWith R S rng kit w o =
      (readResult (kit.readRef kit.mapper) (w.file o.refFilename)).bind fun
      | none => .ok .failed
      | some (m, refs) =>
        (readResult (kit.readHyp m)
          (if o.hypFilename = [] then some w.stdin else w.file o.hypFilename)).bind fun
        | none => .ok .failed
        | some (m, hyps) =>
          (readQueryMap kit.mapQuery w o m).bind fun
          | none => .ok .failed
          | some q2g => evaluate R S rng kit w o q2g refs hyps := by
  unfold mainWith
  rw [if_neg h]
  unfold readResult
  cases w.file o.refFilename with
  | none => rfl
  | some t =>
    dsimp only
    obtain ⟨m, refs, st⟩ := kit.readRef kit.mapper t
    cases st with
    | badLine n => rfl
    | badStream => rfl
    | fault f => rfl
    | ok =>
      simp only [Except.bind]
      generalize (if o.hypFilename = [] then some w.stdin else w.file o.hypFilename) = ht
      cases ht with
      | none => rfl
      | some t' =>
        dsimp only
        obtain ⟨m', hyps, st'⟩ := kit.readHyp m t'
        cases st' with
        | badLine n => rfl
        | badStream => rfl
        | fault f => rfl
        | ok =>
          cases hq : readQueryMap kit.mapQuery w o m' with
          | error f => simp [hq, bind, Except.bind]
          | ok r => cases r <;> simp [hq, bind, Except.bind, pure, Except.pure]

theorem traceMainWith_agrees [DecidableEq Q] [Cmp Q] [Cmp L] [LawfulCmp Q] [LawfulCmp L]
    (R : Rnd) (S : StdSort) (rng : Rng G) (kit : ToolKit μ σ Q L) (texts : ToolTexts Q L) (w : World)
    (argc : Nat) (o : ToolOptions) :
    Agrees texts.showEvent o (traceMainWith R S rng kit texts w argc o)
      (mainWith R S rng kit w o) := by
  by_cases h : o.refFilename = []
  · unfold traceMainWith mainWith
    rw [if_pos h, if_pos h]
    exact agrees_failed _ _ (by simp [IsErrorMessage, endl])
  rw [mainWith_eq R S rng kit w o h]
  unfold traceMainWith
  rw [if_neg h]
  refine Agrees.reading (traceRead_quiet _ _) (traceRead_result _ _) ?_ ?_
  · intro _
    refine ⟨rfl, rfl, rfl, rfl, _, List.mem_append_right _ (List.mem_singleton.2 rfl), ?_⟩
    simp [IsErrorMessage, endl]
  rintro ⟨m, refs⟩
  refine Agrees.after ?_ (by simp [IsErrorMessage, endl])
  refine Agrees.reading (traceRead_quiet _ _) (traceRead_result _ _) ?_ ?_
  · intro _
    refine ⟨rfl, rfl, rfl, rfl, _, List.mem_append_right _ (List.mem_singleton.2 rfl), ?_⟩
    split <;> simp [IsErrorMessage, endl]
  rintro ⟨m', hyps⟩
  refine Agrees.after ?_ (by simp [IsErrorMessage, endl])
  obtain ⟨q1, q2, q3⟩ := traceQueryMap_facts kit.mapQuery w o m'
  refine Agrees.reading q2 q1 ?_ ?_
  · intro hn
    obtain ⟨s, hs, he⟩ := q3 hn
    exact ⟨rfl, rfl, rfl, rfl, s, List.mem_append_left _ hs, he⟩
  intro q2g
  exact traceEvaluate_agrees ..

end

end Kws
