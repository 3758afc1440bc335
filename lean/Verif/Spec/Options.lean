import Verif.Spec.CommandLine
import Verif.Spec.Grammar
import Verif.Model.Tool

/-!
# What the options of the tools mean

Each predicate says how the variable of an option follows from the last occurrence of the option
among the items of a command line, and from its default.
-/

namespace Kws.Spec

/-- A text. -/
def TextOption (items : List OptItem) (name : String) (default : String) (v : Str) : Prop :=
  match lastText items name.toList with
  | none => v = default.toList
  | some s => v = s

/-- A flag: the texts are `true`, `1`, `false` and `0`, and no text means true. -/
def FlagOption (items : List OptItem) (name : String) (default b : Bool) : Prop :=
  match lastText items name.toList with
  | none => b = default
  | some s => (b = true ∧ (s = [] ∨ s = "true".toList ∨ s = "1".toList)) ∨
      (b = false ∧ (s = "false".toList ∨ s = "0".toList))

/-- A number that is not negative. (What texts that denote no number in range do is C56.) -/
def NumberOption (items : List OptItem) (name : String) (default n : Nat) : Prop :=
  match lastText items name.toList with
  | none => n = default
  | some s => ∀ z : Nat, Denotes s z → z < 2 ^ 64 → n = z

/-- A real number, rounded to `double`. -/
def RealOption (R : Rnd) (items : List OptItem) (name : String) (default x : ℚ) : Prop :=
  match lastText items name.toList with
  | none => x = R.f64 default
  | some s => ∀ q, DenotesReal s q → |R.f64 q| ≤ dblMax → x = R.f64 q

/-- The variables of the tools after a command line with these options and arguments. -/
structure OptionsMean (R : Rnd) (items : List OptItem) (pos : List Str) (o : ToolOptions) :
    Prop where
  references : pos.head? = some o.refFilename
  hypotheses : o.hypFilename = pos.tail.head?.getD []
  query_set : TextOption items "query_set" "" o.querySet
  query_groups : TextOption items "query_groups" "" o.queryGroups
  dump_matches : TextOption items "dump_matches" "" o.dumpMatches
  sort : TextOption items "sort" "desc" o.sort
  output_grp : TextOption items "output_grp" "" o.outputGrp
  output_mrp : TextOption items "output_mrp" "" o.outputMrp
  collapse_matches : FlagOption items "collapse_matches" true o.collapse
  interpolated_precision : FlagOption items "interpolated_precision" true o.interp
  trapezoid_integral : FlagOption items "trapezoid_integral" true o.trapezoid
  bootstrap_ci_gap : FlagOption items "bootstrap_ci_gap" false o.ciGap
  bootstrap_ci_map : FlagOption items "bootstrap_ci_map" false o.ciMap
  bootstrap_ci_gndcg : FlagOption items "bootstrap_ci_gndcg" false o.ciGndcg
  bootstrap_ci_mndcg : FlagOption items "bootstrap_ci_mndcg" false o.ciMndcg
  bootstrap_samples : NumberOption items "bootstrap_samples" 10000 o.samples
  bootstrap_seed : NumberOption items "bootstrap_seed" 74565 o.seed
  bootstrap_alpha : RealOption R items "bootstrap_alpha" (5 / 100) o.alpha
  rp_curve_samples : NumberOption items "rp_curve_samples" 10000 o.curveSamples

end Kws.Spec
