import Verif.Props.AnyCurve
import Verif.Props.Messages
import Verif.Props.Hits
import Verif.Props.CurveRounding
import Verif.Props.Ties
import Verif.Props.ToolDouble

/-!
# Cases for the theorems about runs

One run of each tool with groups of queries, a file with the matches, two curves and four confidence
intervals, in exact and in IEEE arithmetic. The theorems about runs apply to them.
-/

namespace Kws

open Spec

/-! ## The box tool -/

/-- Two references of a query that overlap, one found twice; a query that is not listed; a reference that
is not found. -/
def caseFile (f : Str) : Option Str :=
  if f = "ref".toList then some "a d 0 0 4 1\na d 2 0 4 1\nb d 0 0 2 2\nc e 5 5 3 3\n".toList
  else if f = "hyp".toList then
    some "a d 2 0 4 1 0.5\na d 0 0 4 1 0.5\nb d 9 9 2 2 1.5\nc e 5 5 3 3 0.25\nz d 1 1 1 1 2\n".toList
  else if f = "groups".toList then some "x a b\ny c\n".toList
  else if f = "seg-ref".toList then some "a l\na m\nb l\nc k\n".toList
  else if f = "seg-hyp".toList then some "a l 0.5\na k 0.5\nb m 1.5\nc k 0.25\nc k 0.125\nz l 2\n".toList
  else none

def caseWorld : World where
  file := caseFile
  stdin := []
  writable _ := true

def caseArguments (ref hyp : String) : List Str :=
  ["--query_groups", "groups", "--dump_matches", "matches", "--output_grp", "grp", "--output_mrp", "mrp",
    "--rp_curve_samples", "5", "--bootstrap_ci_gap", "--bootstrap_ci_map", "--bootstrap_ci_gndcg",
    "--bootstrap_ci_mndcg", "--bootstrap_samples", "3", ref, hyp].map String.toList

def caseOptions (R : Rnd) (ref hyp : String) : ToolOptions where
  refFilename := ref.toList
  hypFilename := hyp.toList
  queryGroups := "groups".toList
  dumpMatches := "matches".toList
  outputGrp := "grp".toList
  outputMrp := "mrp".toList
  ciGap := true
  ciMap := true
  ciGndcg := true
  ciMndcg := true
  samples := 3
  alpha := R.f64 (5 / 100)
  curveSamples := 5

theorem caseArguments_parse : ∃ p,
    (toolParser Rnd.exact).parse Rnd.exact (caseArguments "ref" "hyp") = (.accepted, p) ∧
      ToolOptions.ofParser p = caseOptions Rnd.exact "ref" "hyp" := by
  refine ⟨((toolParser Rnd.exact).parse Rnd.exact (caseArguments "ref" "hyp")).2, ?_, ?_⟩
  · rw [Prod.ext_iff]
    exact ⟨by decide +kernel, rfl⟩
  · decide +kernel

theorem caseArguments_ieee : ∃ p,
    (toolParser Rnd.ieee).parse Rnd.ieee (caseArguments "ref" "hyp") = (.accepted, p) ∧
      ToolOptions.ofParser p = caseOptions Rnd.ieee "ref" "hyp" := by
  refine ⟨((toolParser Rnd.ieee).parse Rnd.ieee (caseArguments "ref" "hyp")).2, ?_, ?_⟩
  · rw [Prod.ext_iff]
    exact ⟨by decide +kernel, rfl⟩
  · decide +kernel

def caseRefs : List (Event Str (DocBox Str UInt32)) :=
  [⟨"a".toList, ⟨⟨0, 0, 4, 1⟩, "d".toList⟩⟩, ⟨"a".toList, ⟨⟨2, 0, 4, 1⟩, "d".toList⟩⟩,
    ⟨"b".toList, ⟨⟨0, 0, 2, 2⟩, "d".toList⟩⟩, ⟨"c".toList, ⟨⟨5, 5, 3, 3⟩, "e".toList⟩⟩]

def caseHyps : List (ScoredEvent Str (DocBox Str UInt32)) :=
  [⟨⟨"a".toList, ⟨⟨2, 0, 4, 1⟩, "d".toList⟩⟩, .fin (1 / 2)⟩, ⟨⟨"a".toList, ⟨⟨0, 0, 4, 1⟩, "d".toList⟩⟩, .fin (1 / 2)⟩,
    ⟨⟨"b".toList, ⟨⟨9, 9, 2, 2⟩, "d".toList⟩⟩, .fin (3 / 2)⟩, ⟨⟨"c".toList, ⟨⟨5, 5, 3, 3⟩, "e".toList⟩⟩, .fin (1 / 4)⟩,
    ⟨⟨"z".toList, ⟨⟨1, 1, 1, 1⟩, "d".toList⟩⟩, .fin 2⟩]

theorem caseWorld_ref : caseWorld.file "ref".toList =
    some "a d 0 0 4 1\na d 2 0 4 1\nb d 0 0 2 2\nc e 5 5 3 3\n".toList := by decide

theorem caseWorld_hyp (R : Rnd) : hypText caseWorld (caseOptions R "ref" "hyp") =
    some "a d 2 0 4 1 0.5\na d 0 0 4 1 0.5\nb d 9 9 2 2 1.5\nc e 5 5 3 3 0.25\nz d 1 1 1 1 2\n".toList := by
  refine (if_neg (show ¬ ("hyp".toList = []) by decide)).trans ?_
  change caseFile "hyp".toList = _
  decide

theorem caseRefs_read : Yields BoxEventText
    (lines "a d 0 0 4 1\na d 2 0 4 1\nb d 0 0 2 2\nc e 5 5 3 3\n".toList) caseRefs :=
  (C48_accepts (Format.boxRefs (R := Rnd.exact)) _ _).1 (by decide +kernel)

theorem caseHyps_read (R : Rnd) (hR : R = Rnd.exact ∨ R = Rnd.ieee) : Yields (ScoredText R BoxEventText)
    (lines "a d 2 0 4 1 0.5\na d 0 0 4 1 0.5\nb d 9 9 2 2 1.5\nc e 5 5 3 3 0.25\nz d 1 1 1 1 2\n".toList) caseHyps := by
  rcases hR with rfl | rfl
  · exact (C48_accepts (Format.boxHyps (R := Rnd.exact)) _ _).1 (by decide +kernel)
  · exact (C48_accepts (Format.boxHyps (R := Rnd.ieee)) _ _).1 (by decide +kernel)

theorem caseRefs_edges : ∀ r ∈ caseRefs, EdgesOkU r.location.toBBox := by unfold EdgesOkU; decide +kernel

theorem caseHyps_range : ∀ h ∈ caseHyps, InRangeU h.base := by unfold InRangeU EdgesOkU; decide +kernel

theorem caseHyps_small : ∀ h ∈ caseHyps, EdgesOkU h.base.location.toBBox ∧ areaU h.base ≤ 2 ^ 24 := by
  unfold EdgesOkU; decide +kernel

theorem caseGroups : ∃ t, caseWorld.file "groups".toList = some t ∧ WellFormedGroups ((lines t).map words) :=
  ⟨"x a b\ny c\n".toList, by decide, by unfold WellFormedGroups; decide +kernel⟩

theorem case_feasible (R : Rnd) (hR : R = Rnd.exact ∨ R = Rnd.ieee) (ref hyp : String) (n : ℕ) (hn : n ≤ 2 ^ 24) :
    Feasible R caseWorld (caseOptions R ref hyp) n := by
  refine ⟨fun _ => ⟨by simp [caseOptions], ?_⟩, fun _ => rfl, fun _ => rfl, fun _ => ⟨?_, hn⟩⟩
  · rcases hR with rfl | rfl
    · exact .inl ⟨rfl, by simp [caseOptions], by norm_num [caseOptions, Rnd.exact],
        by norm_num [caseOptions, Rnd.exact]⟩
    · exact .inr ⟨ieee_faithful, by simp [caseOptions],
        show 1 / 2 ^ 19 ≤ Rnd.ieee.f64 (5 / 100) by decide +kernel,
        show Rnd.ieee.f64 (5 / 100) ≤ 2 - 1 / 2 ^ 19 by decide +kernel⟩
  · rcases hR with rfl | rfl
    · exact exact_precise
    · exact ieee_precise

theorem caseBox_valid (R : Rnd) (hR : R = Rnd.exact ∨ R = Rnd.ieee) :
    ValidInputs BoxEventText (ScoredText R BoxEventText) caseWorld (caseOptions R "ref" "hyp") :=
  ⟨by simp [caseOptions], ⟨_, caseWorld_ref, yields_valid caseRefs_read⟩,
    ⟨_, caseWorld_hyp R, yields_valid (caseHyps_read R hR)⟩,
    fun h => absurd rfl h, fun _ => caseGroups⟩

theorem caseBox_feasible (R : Rnd) (hR : R = Rnd.exact ∨ R = Rnd.ieee) (t t' : Str)
    (h : caseWorld.file "ref".toList = some t) (h' : hypText caseWorld (caseOptions R "ref" "hyp") = some t') :
    Feasible R caseWorld (caseOptions R "ref" "hyp") ((lines t).length + (lines t').length) := by
  rw [caseWorld_ref] at h
  rw [caseWorld_hyp] at h'
  injection h with h
  injection h' with h'
  subst h h'
  exact case_feasible R hR _ _ _ (by decide +kernel)

/-- The run of the box tool ends with a report. -/
theorem caseBox_run {G : Type} (R : Rnd) (hR : R = Rnd.exact ∨ R = Rnd.ieee) (S : StdSort) (rng : Rng G) :
    ∃ r, mainWith R S rng (icdarKit R S) caseWorld (caseOptions R "ref" "hyp") = .ok (.done r) ∧
      Complete (caseOptions R "ref" "hyp") r :=
  (C62_box_partial R S rng caseWorld _ (caseBox_feasible R hR)).1 ⟨caseBox_valid R hR, .inr rfl⟩

section
variable {G : Type} (S : StdSort) (rng : Rng G)

section
variable (r : Report Str (DocBox Str UInt32))
  (h : mainWith Rnd.exact S rng (icdarKit Rnd.exact S) caseWorld (caseOptions Rnd.exact "ref" "hyp") = .ok (.done r))

example := C78_box_shape S rng caseWorld _ _ _ _ _ caseWorld_ref (caseWorld_hyp _) caseRefs_read
  (caseHyps_read _ (.inl rfl)) caseRefs_edges caseHyps_range rfl rfl r h

example := C105_box_shape S rng caseWorld _ _ _ _ _ caseWorld_ref (caseWorld_hyp _) caseRefs_read
  (caseHyps_read _ (.inl rfl)) caseRefs_edges caseHyps_range r h

example (ms rep) (hd : r.dump = some (ms, rep)) := C98_box Rnd.exact S rng caseWorld _ _ _ _ _ caseWorld_ref
  (caseWorld_hyp _) caseRefs_read (caseHyps_read _ (.inl rfl)) caseRefs_edges caseHyps_range (.inl rfl) rfl rfl r h
  ms rep hd

end

/-- The command line leads to the run. -/
theorem caseBox_main : ∃ p, (toolParser Rnd.exact).parse Rnd.exact (caseArguments "ref" "hyp") = (.accepted, p) ∧
    ToolOptions.ofParser p = caseOptions Rnd.exact "ref" "hyp" ∧
    ∃ r, toolMain Rnd.exact S rng (icdarKit Rnd.exact S) caseWorld (caseArguments "ref" "hyp") = .ok (.done r) := by
  obtain ⟨p, h1, h2⟩ := caseArguments_parse
  obtain ⟨r, hr, _⟩ := caseBox_run Rnd.exact (.inl rfl) S rng
  exact ⟨p, h1, h2, r, by rw [toolMain_accepted h1, h2, hr]⟩

/-- C105: the files of this run. -/
example (prog : Str) : ∃ dump files l ms rep,
    filesOf (traceMain Rnd.exact S rng (icdarKit Rnd.exact S) icdarTexts caseWorld prog
      (caseArguments "ref" "hyp")).effects = dump ++ files ∧ (∀ f ∈ dump, f.1 = "matches".toList) ∧
    InOrder "desc".toList (keep (·.base.query) ["a".toList, "b".toList, "c".toList] caseHyps) l ∧
    BoxMatching caseRefs l ms rep ∧
    CurveFiles (caseOptions Rnd.exact "ref" "hyp")
      (listCurves (groupFor caseWorld (caseOptions Rnd.exact "ref" "hyp")) 5 true true true ms) files := by
  obtain ⟨p, h1, h2, r, hr⟩ := caseBox_main S rng
  have l1 : listedQueries caseWorld (caseOptions Rnd.exact "ref" "hyp") = ["a".toList, "b".toList, "c".toList] := by
    decide +kernel
  have l2 : keep (·.query) ["a".toList, "b".toList, "c".toList] caseRefs = caseRefs := by decide +kernel
  have := C105_box_files S rng caseWorld prog _ p _ h1 h2.symm _ _ _ _ caseWorld_ref (caseWorld_hyp _) caseRefs_read
    (caseHyps_read _ (.inl rfl)) caseRefs_edges caseHyps_range r hr
  rw [l1, l2] at this
  exact this

section
variable (r : Report Str (DocBox Str UInt32))
  (h : mainWith Rnd.ieee S rng (icdarKit Rnd.ieee S) caseWorld (caseOptions Rnd.ieee "ref" "hyp") = .ok (.done r))

example := C67_box_rounded S rng caseWorld _ _ _ _ _ caseWorld_ref (caseWorld_hyp _) caseRefs_read
  (caseHyps_read _ (.inr rfl)) caseRefs_edges caseHyps_small (by decide) rfl rfl r h

example := C78_box_rounded S rng caseWorld _ _ _ _ _ caseWorld_ref (caseWorld_hyp _) caseRefs_read
  (caseHyps_read _ (.inr rfl)) caseRefs_edges caseHyps_range (by decide) (by decide)
  (fun x hx => (caseHyps_small x hx).2) rfl rfl r h

example := C88_box_rounded S rng caseWorld _ _ _ _ _ caseWorld_ref (caseWorld_hyp _) caseRefs_read
  (caseHyps_read _ (.inr rfl)) caseRefs_edges caseHyps_small (by decide) rfl rfl r h

example := C104_box_rounded S rng caseWorld _ _ _ _ _ caseWorld_ref (caseWorld_hyp _) caseRefs_read
  (caseHyps_read _ (.inr rfl)) caseRefs_edges caseHyps_small (by decide) r h

example := C105_box_rounded S rng caseWorld _ _ _ _ _ caseWorld_ref (caseWorld_hyp _) caseRefs_read
  (caseHyps_read _ (.inr rfl)) caseRefs_edges caseHyps_small (by decide) (by decide) r h

end

theorem caseBox_inputs (R : Rnd) (hR : R = Rnd.exact ∨ R = Rnd.ieee) :
    Inputs BoxEventText (ScoredText R BoxEventText) caseWorld (caseOptions R "ref" "hyp") caseRefs caseHyps :=
  ⟨by simp [caseOptions], ⟨_, caseWorld_ref, caseRefs_read⟩, ⟨_, caseWorld_hyp R, caseHyps_read R hR⟩⟩

example (prog : Str) (p) (h1 : (toolParser Rnd.exact).parse Rnd.exact (caseArguments "ref" "hyp") = (.accepted, p))
    (h2 : ToolOptions.ofParser p = caseOptions Rnd.exact "ref" "hyp") :=
  C79_box Rnd.exact S rng caseWorld prog _ p _ h1 h2.symm _ _ (caseBox_inputs _ (.inl rfl))
    ⟨fun h => absurd rfl h, fun _ => caseGroups⟩ caseRefs_edges caseHyps_range (.inl rfl)

example (prog : Str) (p) (h1 : (toolParser Rnd.exact).parse Rnd.exact (caseArguments "ref" "hyp") = (.accepted, p))
    (h2 : ToolOptions.ofParser p = caseOptions Rnd.exact "ref" "hyp") :=
  C76_box S rng caseWorld prog _ p _ h1 h2.symm _ _ _ _ (caseBox_valid _ (.inl rfl)) caseWorld_ref (caseWorld_hyp _)
    caseRefs_read (caseHyps_read _ (.inl rfl)) caseRefs_edges caseHyps_range
    (caseBox_feasible _ (.inl rfl) _ _ caseWorld_ref (caseWorld_hyp _)) (.inr rfl) rfl rfl

theorem caseBox_small : SmallRun caseWorld (caseOptions Rnd.ieee "ref" "hyp") 81 := by
  have key : ∀ t u, caseWorld.file "ref".toList = some t →
      hypText caseWorld (caseOptions Rnd.ieee "ref" "hyp") = some u → (lines t).length + (lines u).length = 9 := by
    intro t u h h'
    rw [caseWorld_ref] at h
    rw [caseWorld_hyp] at h'
    injection h with h
    injection h' with h'
    subst h h'
    decide +kernel
  exact ⟨by decide, fun _ => by decide, fun t u h h' => by rw [key t u h h']; decide,
    fun _ t u h h' => by rw [key t u h h']; decide⟩

/-- C93: the run of the command line with NDCG in double precision prints these numbers. -/
example (lm : Libm) (hm : lm.Accurate) (prog : Str) : ∃ l ms rep,
    l.Perm (keep (·.base.query) ["a".toList, "b".toList, "c".toList] caseHyps) ∧
    BoxMatching caseRefs l ms rep ∧ ∃ gAP mAP gNDCG mNDCG : Metric ℚ,
      outsOf (traceMainD Rnd.ieee lm S rng (icdarKit Rnd.ieee S) icdarTexts caseWorld prog
        (caseArguments "ref" "hyp")).effects =
        [showMetric "gAP" gAP, showMetric "mAP" mAP, showMetric "gNDCG" gNDCG, showMetric "mNDCG" mNDCG] ∧
      |gAP.value - (matchNumbers (groupFor caseWorld (caseOptions Rnd.ieee "ref" "hyp")) true true ms).gAP| ≤
        144 / 2 ^ 52 := by
  obtain ⟨p, h1, h2⟩ := caseArguments_ieee
  obtain ⟨r, hr, _⟩ := caseBox_run Rnd.ieee (.inr rfl) S rng
  have l1 : listedQueries caseWorld (caseOptions Rnd.ieee "ref" "hyp") = ["a".toList, "b".toList, "c".toList] := by
    decide +kernel
  have l2 : keep (·.query) ["a".toList, "b".toList, "c".toList] caseRefs = caseRefs := by decide +kernel
  have h0 : (traceMainD Rnd.ieee lm S rng (icdarKit Rnd.ieee S) icdarTexts caseWorld prog
      (caseArguments "ref" "hyp")).result = .ok 0 := by
    have a := C93_box lm hm S rng caseWorld prog _ p _ 81 h1 h2.symm caseBox_small
    rw [a.result]
    exact ((C76_exit Rnd.ieee S rng _ icdarTexts caseWorld prog _).2.1).2
      (.inl ⟨r, by rw [toolMain_accepted h1, h2, hr]⟩)
  obtain ⟨l, ms, rep, e1, _, e3, gAP, mAP, gN, mN, e4, e5, _⟩ := C93_box_prints lm hm S rng caseWorld prog _ p _ 81 h1
    h2.symm caseBox_small _ _ (caseBox_inputs _ (.inr rfl)) caseRefs_edges caseHyps_small (by decide) rfl rfl h0
  rw [l1] at e1 e3
  rw [l2] at e3
  refine ⟨l, ms, rep, e1, e3, gAP, mAP, gN, mN, e4, e5.trans (le_of_eq ?_)⟩
  norm_num [caseRefs, caseHyps]

end

/-! ## The segmentation-based tool -/

def caseSegRefs : List (Event Str Str) :=
  [⟨"a".toList, "l".toList⟩, ⟨"a".toList, "m".toList⟩, ⟨"b".toList, "l".toList⟩, ⟨"c".toList, "k".toList⟩]

def caseSegHyps : List (ScoredEvent Str Str) :=
  [⟨⟨"a".toList, "l".toList⟩, .fin (1 / 2)⟩, ⟨⟨"a".toList, "k".toList⟩, .fin (1 / 2)⟩,
    ⟨⟨"b".toList, "m".toList⟩, .fin (3 / 2)⟩, ⟨⟨"c".toList, "k".toList⟩, .fin (1 / 4)⟩,
    ⟨⟨"c".toList, "k".toList⟩, .fin (1 / 8)⟩, ⟨⟨"z".toList, "l".toList⟩, .fin 2⟩]

theorem caseWorld_segRef : caseWorld.file "seg-ref".toList = some "a l\na m\nb l\nc k\n".toList := by decide

theorem caseWorld_segHyp (R : Rnd) : hypText caseWorld (caseOptions R "seg-ref" "seg-hyp") =
    some "a l 0.5\na k 0.5\nb m 1.5\nc k 0.25\nc k 0.125\nz l 2\n".toList := by
  refine (if_neg (show ¬ ("seg-hyp".toList = []) by decide)).trans ?_
  change caseFile "seg-hyp".toList = _
  decide

theorem caseSegRefs_read : Yields StrEventText (lines "a l\na m\nb l\nc k\n".toList) caseSegRefs :=
  (C48_accepts (Format.strRefs (R := Rnd.exact)) _ _).1 (by decide +kernel)

theorem caseSegHyps_read (R : Rnd) (hR : R = Rnd.exact ∨ R = Rnd.ieee) : Yields (ScoredText R StrEventText)
    (lines "a l 0.5\na k 0.5\nb m 1.5\nc k 0.25\nc k 0.125\nz l 2\n".toList) caseSegHyps := by
  rcases hR with rfl | rfl
  · exact (C48_accepts (Format.strHyps (R := Rnd.exact)) _ _).1 (by decide +kernel)
  · exact (C48_accepts (Format.strHyps (R := Rnd.ieee)) _ _).1 (by decide +kernel)

theorem caseSeg_valid (R : Rnd) (hR : R = Rnd.exact ∨ R = Rnd.ieee) :
    ValidInputs StrEventText (ScoredText R StrEventText) caseWorld (caseOptions R "seg-ref" "seg-hyp") :=
  ⟨by simp [caseOptions], ⟨_, caseWorld_segRef, yields_valid caseSegRefs_read⟩,
    ⟨_, caseWorld_segHyp R, yields_valid (caseSegHyps_read R hR)⟩,
    fun h => absurd rfl h, fun _ => caseGroups⟩

theorem caseSeg_feasible (R : Rnd) (hR : R = Rnd.exact ∨ R = Rnd.ieee) (t t' : Str)
    (h : caseWorld.file "seg-ref".toList = some t)
    (h' : hypText caseWorld (caseOptions R "seg-ref" "seg-hyp") = some t') :
    Feasible R caseWorld (caseOptions R "seg-ref" "seg-hyp") ((lines t).length + (lines t').length) := by
  rw [caseWorld_segRef] at h
  rw [caseWorld_segHyp] at h'
  injection h with h
  injection h' with h'
  subst h h'
  exact case_feasible R hR _ _ _ (by decide +kernel)

theorem caseSeg_names (R : Rnd) (hR : R = Rnd.exact ∨ R = Rnd.ieee) :
    (vocabulary caseWorld (caseOptions R "seg-ref" "seg-hyp")).dedup.length ≤ 2 ^ 31 := by
  rcases hR with rfl | rfl <;> decide +kernel

/-- The run of the segmentation-based tool ends with a report. -/
theorem caseSeg_run {G : Type} (R : Rnd) (hR : R = Rnd.exact ∨ R = Rnd.ieee) (S : StdSort) (rng : Rng G) (qf : Bool) :
    ∃ r, mainWith R S rng (simpleKit R qf) caseWorld (caseOptions R "seg-ref" "seg-hyp") = .ok (.done r) ∧
      Complete (caseOptions R "seg-ref" "seg-hyp") r :=
  (C62_segmentation_partial R S rng qf caseWorld _ (caseSeg_names R hR) (caseSeg_feasible R hR)).1
    ⟨caseSeg_valid R hR, .inr rfl⟩

section
variable {G : Type} (S : StdSort) (rng : Rng G) (qf : Bool)

theorem caseSegArguments_parse : ∃ p,
    (toolParser Rnd.exact).parse Rnd.exact (caseArguments "seg-ref" "seg-hyp") = (.accepted, p) ∧
      ToolOptions.ofParser p = caseOptions Rnd.exact "seg-ref" "seg-hyp" := by
  refine ⟨((toolParser Rnd.exact).parse Rnd.exact (caseArguments "seg-ref" "seg-hyp")).2, ?_, ?_⟩
  · rw [Prod.ext_iff]
    exact ⟨by decide +kernel, rfl⟩
  · decide +kernel

theorem caseSeg_main : ∃ p, (toolParser Rnd.exact).parse Rnd.exact (caseArguments "seg-ref" "seg-hyp") = (.accepted, p) ∧
    ToolOptions.ofParser p = caseOptions Rnd.exact "seg-ref" "seg-hyp" ∧
    ∃ r, toolMain Rnd.exact S rng (simpleKit Rnd.exact qf) caseWorld (caseArguments "seg-ref" "seg-hyp") =
      .ok (.done r) := by
  obtain ⟨p, h1, h2⟩ := caseSegArguments_parse
  obtain ⟨r, hr, _⟩ := caseSeg_run Rnd.exact (.inl rfl) S rng qf
  exact ⟨p, h1, h2, r, by rw [toolMain_accepted h1, h2, hr]⟩

/-- C78: the files of this run. -/
example (prog : Str) : ∃ dump files,
    filesOf (traceMain Rnd.exact S rng (simpleKit Rnd.exact qf) simpleTexts caseWorld prog
      (caseArguments "seg-ref" "seg-hyp")).effects = dump ++ files ∧ (∀ f ∈ dump, f.1 = "matches".toList) ∧
    CurveFiles (caseOptions Rnd.exact "seg-ref" "seg-hyp")
      (segCurves (groupFor caseWorld (caseOptions Rnd.exact "seg-ref" "seg-hyp")) 5 true true caseSegRefs
        (keep (·.base.query) ["a".toList, "b".toList, "c".toList] caseSegHyps)) files := by
  obtain ⟨p, h1, h2, r, hr⟩ := caseSeg_main S rng qf
  have l1 : listedQueries caseWorld (caseOptions Rnd.exact "seg-ref" "seg-hyp") =
    ["a".toList, "b".toList, "c".toList] := by decide +kernel
  have l2 : keep (·.query) ["a".toList, "b".toList, "c".toList] caseSegRefs = caseSegRefs := by decide +kernel
  have := C78_segmentation_files S rng qf caseWorld prog _ p _ h1 h2.symm (caseSeg_names _ (.inl rfl)) _ _ _ _
    caseWorld_segRef (caseWorld_segHyp _) caseSegRefs_read (caseSegHyps_read _ (.inl rfl)) rfl rfl r hr
  rw [l1, l2] at this
  exact this

example (prog : Str) (p) (h1 : (toolParser Rnd.exact).parse Rnd.exact (caseArguments "seg-ref" "seg-hyp") = (.accepted, p))
    (h2 : ToolOptions.ofParser p = caseOptions Rnd.exact "seg-ref" "seg-hyp") (r)
    (h : toolMain Rnd.exact S rng (simpleKit Rnd.exact qf) caseWorld (caseArguments "seg-ref" "seg-hyp") = .ok (.done r)) :=
  C105_segmentation_files S rng qf caseWorld prog _ p _ h1 h2.symm (caseSeg_names _ (.inl rfl)) _ _ _ _
    caseWorld_segRef (caseWorld_segHyp _) caseSegRefs_read (caseSegHyps_read _ (.inl rfl)) r h

section
variable (r : Report Nat Nat) (h : mainWith Rnd.exact S rng (simpleKit Rnd.exact qf) caseWorld
  (caseOptions Rnd.exact "seg-ref" "seg-hyp") = .ok (.done r))

example := C78_segmentation_shape S rng qf caseWorld _ (caseSeg_names _ (.inl rfl)) _ _ _ _ caseWorld_segRef
  (caseWorld_segHyp _) caseSegRefs_read (caseSegHyps_read _ (.inl rfl)) rfl rfl r h

example := C105_segmentation_shape S rng qf caseWorld _ (caseSeg_names _ (.inl rfl)) _ _ _ _ caseWorld_segRef
  (caseWorld_segHyp _) caseSegRefs_read (caseSegHyps_read _ (.inl rfl)) r h

end

section
variable (r : Report Nat Nat) (h : mainWith Rnd.ieee S rng (simpleKit Rnd.ieee qf) caseWorld
  (caseOptions Rnd.ieee "seg-ref" "seg-hyp") = .ok (.done r))

example := C66_segmentation_rounded S rng qf caseWorld _ (caseSeg_names _ (.inr rfl)) _ _ _ _ caseWorld_segRef
  (caseWorld_segHyp _) caseSegRefs_read (caseSegHyps_read _ (.inr rfl)) (by decide) rfl rfl r h

example := C104_segmentation_rounded S rng qf caseWorld _ (caseSeg_names _ (.inr rfl)) _ _ _ _ caseWorld_segRef
  (caseWorld_segHyp _) caseSegRefs_read (caseSegHyps_read _ (.inr rfl)) (by decide) r h

example := C105_segmentation_rounded S rng qf caseWorld _ (caseSeg_names _ (.inr rfl)) _ _ _ _ caseWorld_segRef
  (caseWorld_segHyp _) caseSegRefs_read (caseSegHyps_read _ (.inr rfl)) (by decide) (by decide) r h

end

end

end Kws
