import Verif.Model.Tool

/-!
# core/Statistic.h: statistics as objects

An object is represented by what can be called on it; the members `collapse_matches_`,
`interpolate_precision_` and `trapezoid_integral_`, set by the constructors and never changed, are the
arguments of the definitions below. The value type `K` stands for `double`: rational numbers rounded by
`R` for average precision and real numbers for NDCG, as in Model/Assessment.
-/

namespace Kws
variable {Q L G : Type}

/-- core/Statistic.h:11-25 `Statistic`: an object with `operator()(grouped_matches, sort_matches)` -/
structure StatObject (Q L K : Type) where
  grouped : List (List (KwsMatch Q L)) → Bool → Cpp K

/-- core/Statistic.h:27-36 `GlobalStatistic`: also with `operator()(matches)` -/
structure GlobalStatObject (Q L K : Type) extends StatObject Q L K where
  plain : List (KwsMatch Q L) → Cpp K

/-- core/Statistic.h:38-63 `GlobalAP` -/
def GlobalStatObject.ap (R : Rnd) (S : StdSort) (collapse interp trapezoid : Bool) :
    GlobalStatObject Q L ℚ where
  plain ms := globalAP R ms collapse interp trapezoid
  grouped gs sort := globalAPGrouped R S gs collapse interp trapezoid sort

/-- core/Statistic.h:65-84 `MeanAP` -/
def StatObject.ap (R : Rnd) (S : StdSort) (collapse interp trapezoid : Bool) : StatObject Q L ℚ where
  grouped gs sort := meanAP R S gs collapse interp trapezoid sort

/-- core/Statistic.h:86-103 `GlobalNDCG` -/
noncomputable def GlobalStatObject.ndcg (R : Rnd) (S : StdSort) (collapse : Bool) :
    GlobalStatObject Q L ℝ where
  plain ms := .ok (globalNDCG R ms collapse)
  grouped gs sort := globalNDCGGrouped R S gs collapse sort

/-- core/Statistic.h:105-117 `MeanNDCG` -/
noncomputable def StatObject.ndcg (R : Rnd) (S : StdSort) (collapse : Bool) : StatObject Q L ℝ where
  grouped gs sort := meanNDCG R S gs collapse sort

section
variable {K : Type} [LinearOrder K] [Sub K]

/-- tools/GenericKwsEvalTool.h:81-104 `ComputeGlobalStatistic` for a statistic object -/
def GlobalStatObject.compute (st : GlobalStatObject Q L K) (R : Rnd) (S : StdSort) (rd : K → K)
    (rng : Rng G) (bootstrap : Bool) (o : ToolOptions) (ms : List (KwsMatch Q L))
    (groups : List (List (KwsMatch Q L))) : Cpp (Metric K) :=
  globalStatistic R S rd rng bootstrap o ms groups st.plain st.grouped

/-- tools/GenericKwsEvalTool.h:57-79 `ComputeMeanStatistic` for a statistic object -/
def StatObject.compute (st : StatObject Q L K) (R : Rnd) (S : StdSort) (rd : K → K)
    (rng : Rng G) (bootstrap : Bool) (o : ToolOptions) (groups : List (List (KwsMatch Q L))) :
    Cpp (Metric K) :=
  meanStatistic R S rd rng bootstrap o groups st.grouped

end

/-- tools/GenericKwsEvalTool.h:435-475 with the four statistic objects made there -/
noncomputable def assessObjects (R : Rnd) (S : StdSort) (rng : Rng G) (w : World) (o : ToolOptions)
    (ms : List (KwsMatch Q L)) (groups : List (List (KwsMatch Q L)))
    (dump : Option (List (KwsMatch Q L) × List (KwsMatch Q L))) : Cpp (Report Q L) := do
  let gAP ← (GlobalStatObject.ap R S o.collapse o.interp o.trapezoid).compute R S R.f64 rng o.ciGap o ms groups
  let mAP ← (StatObject.ap R S o.collapse o.interp o.trapezoid).compute R S R.f64 rng o.ciMap o groups
  let gNDCG ← (GlobalStatObject.ndcg R S o.collapse).compute R S id rng o.ciGndcg o ms groups
  let mNDCG ← (StatObject.ndcg R S o.collapse).compute R S id rng o.ciMndcg o groups
  let grp ← if o.outputGrp = [] then pure none else
    some <$> globalRPCurve R w o.outputGrp ms o.curveSamples o.collapse o.interp o.trapezoid
  let mrp ← if o.outputMrp = [] then pure none else
    some <$> meanRPCurve R w o.outputMrp groups o.curveSamples o.collapse o.interp o.trapezoid
  return { gAP := gAP, mAP := mAP, gNDCG := gNDCG, mNDCG := mNDCG, dump := dump, globalCurve := grp,
           meanCurve := mrp }

end Kws
