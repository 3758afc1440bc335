import Verif.Spec.Cuts
import Verif.Spec.Bootstrap
import Verif.Model.Tool

/-!
# Specification of the confidence intervals of a run
-/

namespace Kws.Spec
variable {Q L : Type}

/-- The interval around `value` that the numbers of the samples give: their differences from the value are
put in ascending order, and those after a share of `1 - alpha / 2` and of `alpha / 2` of them are subtracted
from the value. -/
def OfSamples {C K : Type} [LinearOrder K] [Sub K] (alpha : ℚ) (samples : List C) (number : C → K)
    (value : K) (ci : K × K) : Prop :=
  ∃ devs : List K, devs.Perm (samples.map fun s => number s - value) ∧ devs.Pairwise (· ≤ ·) ∧
    ∃ dl du, devs[⌊(1 - alpha / 2) * samples.length⌋.toNat]? = some dl ∧
      devs[⌊alpha / 2 * samples.length⌋.toNat]? = some du ∧ ci = (value - dl, value - du)

/-- The matches, taken apart by group. -/
def grouped [DecidableEq Q] (grp : Q → Q) (keys : List Q) (ms : List (Match (Event Q L) (ScoredEvent Q L))) :
    List (List (Match (Event Q L) (ScoredEvent Q L))) :=
  keys.map fun g => ms.filter (InGroup grp g)

/-- A number has an interval if it is asked for. All intervals are those of the same samples, which are
drawn one after the other from the groups of the matches; the matches of a sample, or of each of its
groups, are arranged by score. -/
structure ShowsIntervals {Q' L' G : Type} [DecidableEq Q] (rng : Rng G) (grp : Q → Q) (o : ToolOptions)
    (r : Report Q' L') (ms : List (Match (Event Q L) (ScoredEvent Q L))) (keys : List Q)
    (samples : List (List (List (Match (Event Q L) (ScoredEvent Q L)))))
    (arr : List (Match (Event Q L) (ScoredEvent Q L)) → List (Match (Event Q L) (ScoredEvent Q L))) : Prop where
  allGroups : keys.Perm (groupsIn grp ms)
  drawn : Successive (matchesByQuerySampler rng (grouped grp keys ms)) (rng.seed o.seed) samples
  count : samples.length = o.samples
  sample : ∀ s ∈ samples, Resample (grouped grp keys ms) s
  arranged : ∀ s ∈ samples, Arranged true s.flatten (arr s.flatten) ∧ ∀ g ∈ s, Arranged true g (arr g)
  gAP : (r.gAP.ci.isSome = o.ciGap) ∧ ∀ ci ∈ r.gAP.ci, OfSamples o.alpha samples
    (fun s => listAP o.collapse o.interp o.trapezoid (arr s.flatten)) r.gAP.value ci
  mAP : (r.mAP.ci.isSome = o.ciMap) ∧ ∀ ci ∈ r.mAP.ci, OfSamples o.alpha samples
    (fun s => average (s.map fun g => listAP o.collapse o.interp o.trapezoid (arr g))) r.mAP.value ci
  gNDCG : (r.gNDCG.ci.isSome = o.ciGndcg) ∧ ∀ ci ∈ r.gNDCG.ci, OfSamples o.alpha samples
    (fun s => listNDCG o.collapse (arr s.flatten)) r.gNDCG.value ci
  mNDCG : (r.mNDCG.ci.isSome = o.ciMndcg) ∧ ∀ ci ∈ r.mNDCG.ci, OfSamples o.alpha samples
    (fun s => average (s.map fun g => listNDCG o.collapse (arr g))) r.mNDCG.value ci

/-- All four numbers and all bounds of their intervals are `x`. -/
structure AllNumbers (r : Report Q L) (x : ℚ) : Prop where
  gAP : r.gAP.value = x ∧ ∀ ci ∈ r.gAP.ci, ci = (x, x)
  mAP : r.mAP.value = x ∧ ∀ ci ∈ r.mAP.ci, ci = (x, x)
  gNDCG : r.gNDCG.value = x ∧ ∀ ci ∈ r.gNDCG.ci, ci = ((x : ℝ), (x : ℝ))
  mNDCG : r.mNDCG.value = x ∧ ∀ ci ∈ r.mNDCG.ci, ci = ((x : ℝ), (x : ℝ))

end Kws.Spec
