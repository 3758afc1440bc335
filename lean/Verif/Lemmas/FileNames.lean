import Verif.Spec.FileNames
import Verif.Model.ToolDouble

/-!
# Runs whose files have other names
-/

namespace Kws
open Traced Spec

variable {o o' : ToolOptions}

theorem sameRun_bind {α β : Type} {x x' : Traced α} {f f' : α → Traced β}
    (h : SameRun o o' x x') (hf : ∀ a, SameRun o o' (f a) (f' a)) :
    SameRun o o' (x >>= f) (x' >>= f') := by
  obtain ⟨he, hr⟩ := h
  cases hx : x.result with
  | error e =>
    have hx' : x'.result = .error e := by rw [hr, hx]
    constructor
    · simpa [bind, hx, hx'] using he
    · simp [bind, hx, hx']
  | ok a =>
    have hx' : x'.result = .ok a := by rw [hr, hx]
    constructor
    · simpa [bind, hx, hx'] using List.rel_append he (hf a).effects
    · simpa [bind, hx, hx'] using (hf a).result

theorem sameRun_lift {α : Type} {x x' : Cpp α} (h : x' = x) :
    SameRun o o' (lift x) (lift x') := ⟨.nil, h⟩

theorem sameRun_pure {α : Type} (a : α) : SameRun o o' (pure a : Traced α) (pure a) :=
  ⟨.nil, rfl⟩

theorem sameRun_emit {e e' : Effect} (h : SameEffect o o' e e') :
    SameRun o o' (emit e) (emit e') := ⟨.cons h .nil, rfl⟩

theorem sameRun_say (s : Str) : SameRun o o' (say s) (say s) := sameRun_emit (.err _)

theorem sameRun_named {n n' : Str} (s t : Str) (h : (n, n') ∈ namesMentioned o o') :
    SameRun o o' (say (s ++ quoted n ++ t)) (say (s ++ quoted n' ++ t)) := by
  refine sameRun_emit ?_
  have := SameEffect.named (o := o) (o' := o') (s ++ ['"']) ('"' :: t ++ ['\n']) n n' h
  simpa [endl, quoted] using this

theorem sameRun_named_end {n n' : Str} (s : Str) (h : (n, n') ∈ namesMentioned o o') :
    SameRun o o' (say (s ++ quoted n)) (say (s ++ quoted n')) := by
  simpa using sameRun_named s [] h

theorem sameRun_ite {α : Type} {c c' : Prop} [Decidable c] [Decidable c'] (h : c' ↔ c)
    {x y x' y' : Traced α} (hx : c → SameRun o o' x x') (hy : ¬c → SameRun o o' y y') :
    SameRun o o' (if c then x else y) (if c' then x' else y') := by
  by_cases hc : c
  · rw [if_pos hc, if_pos (h.2 hc)]; exact hx hc
  · rw [if_neg hc, if_neg (fun hc' => hc (h.1 hc'))]; exact hy hc

theorem sameRun_sayIf (c : Prop) [Decidable c] (s : Str) :
    SameRun o o' (sayIf c s) (sayIf c s) :=
  sameRun_ite Iff.rfl (fun _ => sameRun_emit (.err _)) (fun _ => sameRun_pure ())

theorem writeCurveFile_renamed {K K' : Type} {w w' : World} {n n' : Str} (hn : n ≠ []) (hn' : n' ≠ [])
    (h : w'.writable n' = w.writable n) (x : List K) (y : List K') :
    writeCurveFile w' n' x y = writeCurveFile w n x y := by
  simp only [writeCurveFile, writeCurve, hn, hn', if_false, h]

variable {μ σ Q L G : Type}

theorem sameRun_traceRead {E : Type} (read : Str → μ × List E × ReadStatus) (text : Option Str) :
    SameRun o o' (traceRead read text) (traceRead read text) := by
  unfold traceRead
  split
  · exact sameRun_pure _
  · split
    · exact sameRun_lift rfl
    · exact sameRun_bind (sameRun_say _) fun _ => sameRun_pure _
    · exact sameRun_pure _
    · exact sameRun_pure _

theorem sameRun_queryMap [DecidableEq Q] (mapQuery : μ → Str → μ × Cpp Q) {w w' : World}
    (h : SameContents w w' o o') (m : μ) :
    SameRun o o' (traceQueryMap mapQuery w o m) (traceQueryMap mapQuery w' o' m) := by
  unfold traceQueryMap
  have hs : (o.querySet, o'.querySet) ∈ namesMentioned o o' := by simp [namesMentioned]
  have hg : (o.queryGroups, o'.queryGroups) ∈ namesMentioned o o' := by simp [namesMentioned]
  refine sameRun_ite ?_ (fun hc => ?_) (fun _ => sameRun_ite (not_congr h.groupsGiven)
    (fun hc => ?_) fun _ => sameRun_pure _)
  · have h1 := h.groupsGiven
    have h2 := h.setGiven
    tauto
  · rw [h.set hc.2 hc.1]
    cases w.file o.querySet with
    | none => exact sameRun_bind (sameRun_named _ _ hs) fun _ => sameRun_pure _
    | some text =>
      exact sameRun_bind (sameRun_lift rfl) fun _ =>
        sameRun_bind (sameRun_named_end _ hs) fun _ => sameRun_pure _
  · rw [h.groups hc]
    cases w.file o.queryGroups with
    | none => exact sameRun_bind (sameRun_named _ _ hg) fun _ => sameRun_pure _
    | some text =>
      refine sameRun_bind (sameRun_lift rfl) fun r => ?_
      cases r with
      | none => exact sameRun_bind (sameRun_named _ _ hg) fun _ => sameRun_pure _
      | some q2g => exact sameRun_bind (sameRun_named_end _ hg) fun _ => sameRun_pure _

theorem sameRun_assess (R : Rnd) (lm : Libm) (S : StdSort) (rng : Rng G) {w w' : World}
    (h : SameContents w w' o o') (ms : List (KwsMatch Q L)) (groups : List (List (KwsMatch Q L))) :
    SameRun o o' (traceAssessD R lm S rng w o ms groups)
      (traceAssessD R lm S rng w' o' ms groups) := by
  have hgrp := h.grpGiven
  have hmrp := h.mrpGiven
  have hgw := h.grp
  have hmw := h.mrp
  have ho := h.options
  clear h
  unfold traceAssessD
  have e1 : o'.ciGap = o.ciGap := by rw [ho]; rfl
  have e2 : o'.ciMap = o.ciMap := by rw [ho]; rfl
  have e3 : o'.ciGndcg = o.ciGndcg := by rw [ho]; rfl
  have e4 : o'.ciMndcg = o.ciMndcg := by rw [ho]; rfl
  have e5 : o'.collapse = o.collapse := by rw [ho]; rfl
  have e6 : o'.interp = o.interp := by rw [ho]; rfl
  have e7 : o'.trapezoid = o.trapezoid := by rw [ho]; rfl
  have e8 : o'.curveSamples = o.curveSamples := by rw [ho]; rfl
  have e9 : o'.samples = o.samples := by rw [ho]; rfl
  have e10 : o'.alpha = o.alpha := by rw [ho]; rfl
  have e11 : o'.seed = o.seed := by rw [ho]; rfl
  simp only [globalStatistic, meanStatistic, e1, e2, e3, e4, e5, e6, e7, e8, e9, e10, e11]
  refine sameRun_bind (sameRun_lift rfl) fun _ => sameRun_bind (sameRun_emit (.out _)) fun _ => ?_
  refine sameRun_bind (sameRun_lift rfl) fun _ => sameRun_bind (sameRun_emit (.out _)) fun _ => ?_
  refine sameRun_bind (sameRun_lift rfl) fun _ => sameRun_bind (sameRun_emit (.out _)) fun _ => ?_
  refine sameRun_bind (sameRun_lift rfl) fun _ => sameRun_bind (sameRun_emit (.out _)) fun _ => ?_
  have hlast : SameRun o o'
      (if o.outputMrp ≠ [] then do
        let c ← lift (meanRPCurve R w o.outputMrp groups o.curveSamples o.collapse o.interp
          o.trapezoid)
        emit (.curve o.outputMrp (showCurve showScientific (showFlt showScientific) c))
        return 0
      else return 0 : Traced Nat)
      (if o'.outputMrp ≠ [] then do
        let c ← lift (meanRPCurve R w' o'.outputMrp groups o.curveSamples o.collapse o.interp
          o.trapezoid)
        emit (.curve o'.outputMrp (showCurve showScientific (showFlt showScientific) c))
        return 0
      else return 0 : Traced Nat) := by
    refine sameRun_ite (not_congr hmrp) (fun hc => ?_) fun _ => sameRun_pure _
    refine sameRun_bind (sameRun_lift ?_) fun _ => sameRun_bind (sameRun_emit (.mrp _)) fun _ =>
      sameRun_pure _
    simp only [meanRPCurve, writeCurveFile_renamed hc (mt hmrp.1 hc) (hmw hc)]
  refine sameRun_ite (not_congr hgrp) (fun hc => ?_) fun _ => ?_
  · refine sameRun_bind (sameRun_lift ?_) fun _ => sameRun_bind (sameRun_emit (.grp _)) fun _ => ?_
    · simp only [globalRPCurve, writeCurveFile_renamed hc (mt hgrp.1 hc) (hgw hc)]
    · exact hlast
  · exact hlast

theorem sameRun_match [DecidableEq Q] [Cmp Q] [Cmp L] (R : Rnd) (lm : Libm) (S : StdSort)
    (rng : Rng G) (kit : ToolKit μ σ Q L) (texts : ToolTexts Q L) {w w' : World}
    (h : SameContents w w' o o') (q2g : List (Q × Q)) (refs : List (Event Q L))
    (hyps : List (ScoredEvent Q L)) :
    SameRun o o' (traceMatchAndAssessD R lm S rng kit texts w o q2g refs hyps)
      (traceMatchAndAssessD R lm S rng kit texts w' o' q2g refs hyps) := by
  have hd : (o.dumpMatches, o'.dumpMatches) ∈ namesMentioned o o' := by simp [namesMentioned]
  have e1 : o'.sort = o.sort := by rw [h.options]; rfl
  unfold traceMatchAndAssessD
  rw [e1]
  refine sameRun_bind (sameRun_lift rfl) fun hyps => ?_
  refine sameRun_bind (sameRun_sayIf _ _) fun _ => sameRun_bind (sameRun_say _) fun _ => ?_
  refine sameRun_bind (sameRun_lift rfl) fun r => ?_
  obtain ⟨_, ms, repeated⟩ := r
  refine sameRun_ite ?_ (fun hc => ?_) fun _ => ?_
  · by_cases hc : o.dumpMatches = []
    · simp [hc, h.dumpGiven.2 hc]
    · simp [hc, mt h.dumpGiven.1 hc, h.dump hc]
  · exact sameRun_bind (sameRun_named _ _ hd) fun _ => sameRun_pure _
  · refine sameRun_bind (sameRun_ite (not_congr h.dumpGiven) (fun _ => sameRun_emit (.dump _))
      fun _ => sameRun_pure _) fun _ => ?_
    refine sameRun_ite Iff.rfl (fun _ => sameRun_bind (sameRun_say _) fun _ => sameRun_pure _)
      fun _ => ?_
    exact sameRun_bind (sameRun_sayIf _ _) fun _ => sameRun_bind (sameRun_lift rfl) fun _ =>
      sameRun_assess R lm S rng h _ _

theorem sameRun_evaluate [DecidableEq Q] [Cmp Q] [Cmp L] (R : Rnd) (lm : Libm) (S : StdSort)
    (rng : Rng G) (kit : ToolKit μ σ Q L) (texts : ToolTexts Q L) {w w' : World}
    (h : SameContents w w' o o') (q2g : List (Q × Q)) (refs : List (Event Q L))
    (hyps : List (ScoredEvent Q L)) :
    SameRun o o' (traceEvaluateD R lm S rng kit texts w o q2g refs hyps)
      (traceEvaluateD R lm S rng kit texts w' o' q2g refs hyps) := by
  have hg : (o.queryGroups, o'.queryGroups) ∈ namesMentioned o o' := by simp [namesMentioned]
  unfold traceEvaluateD
  refine sameRun_ite Iff.rfl (fun _ => sameRun_match R lm S rng kit texts h _ _ _) fun _ => ?_
  refine sameRun_bind (sameRun_sayIf _ _) fun _ => sameRun_bind (sameRun_sayIf _ _) fun _ => ?_
  refine sameRun_bind (sameRun_ite (not_congr h.groupsGiven) (fun _ => ?_)
    fun _ => sameRun_pure _) fun _ => sameRun_match R lm S rng kit texts h _ _ _
  exact sameRun_named_end _ hg

theorem hypsUnread_said (argc : Nat) :
    HypsUnread o (endl (if argc = 2 then "ERROR: Failed reading from stdin!".toList
      else "ERROR: Failed reading file ".toList ++ quoted o.hypFilename ++ "!".toList)) := by
  by_cases h : argc = 2
  · left; rw [if_pos h]; rfl
  · right
    rw [if_neg h]
    simp [endl, quoted]

theorem sameRun_main [DecidableEq Q] [Cmp Q] [Cmp L] (R : Rnd) (lm : Libm) (S : StdSort)
    (rng : Rng G) (kit : ToolKit μ σ Q L) (texts : ToolTexts Q L) {w w' : World}
    (h : SameContents w w' o o') (argc argc' : Nat) :
    SameRun o o' (traceMainWithD R lm S rng kit texts w argc o)
      (traceMainWithD R lm S rng kit texts w' argc' o') := by
  have hr : (o.refFilename, o'.refFilename) ∈ namesMentioned o o' := by simp [namesMentioned]
  have hh := h.hyps
  unfold hypText at hh
  unfold traceMainWithD
  refine sameRun_ite h.refsGiven (fun _ => sameRun_bind (sameRun_say _) fun _ => sameRun_pure _)
    fun hc => ?_
  rw [h.refs hc, hh]
  refine sameRun_bind (sameRun_traceRead _ _) fun r => ?_
  obtain _ | ⟨m, refs⟩ := r
  · exact sameRun_bind (sameRun_named _ _ hr) fun _ => sameRun_pure _
  refine sameRun_bind (sameRun_say _) fun _ => sameRun_bind (sameRun_traceRead _ _) fun r => ?_
  obtain _ | ⟨m, hyps⟩ := r
  · exact sameRun_bind (sameRun_emit (.hyps _ _ (hypsUnread_said argc) (hypsUnread_said argc')))
      fun _ => sameRun_pure _
  refine sameRun_bind (sameRun_say _) fun _ =>
    sameRun_bind (sameRun_queryMap kit.mapQuery h m) fun r => ?_
  cases r with
  | none => exact sameRun_pure _
  | some q2g => exact sameRun_evaluate R lm S rng kit texts h _ _ _

end Kws
