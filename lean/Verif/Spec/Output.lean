import Mathlib.Algebra.Order.Field.Basic
import Verif.Spec.Grammar
import Verif.Spec.Evaluation

/-!
# What the tools print
-/

namespace Kws.Spec

section
variable {K : Type} [Field K] [LinearOrder K]

/-- A number with at most `n` significant decimal digits. -/
def Decimal (n : ℕ) (v : K) : Prop := ∃ m k : ℤ, |m| < 10 ^ n ∧ v = m * 10 ^ k

/-- A number with at most `n` significant digits, and no other one is nearer to `x`. -/
def Nearest (n : ℕ) (x v : K) : Prop := Decimal n v ∧ ∀ d, Decimal n d → |v - x| ≤ |d - x|

end

/-- A text that denotes a number with at most `n` significant digits nearest to `x`. -/
def Prints {K : Type} [Field K] [LinearOrder K] (n : ℕ) (x : K) (w : Str) : Prop :=
  ∃ q : ℚ, DenotesReal w q ∧ Nearest n x (q : K)

/-- The line of a metric: its name, its value to six digits, and if there is a confidence interval
also its bounds. -/
def MetricLine {K : Type} [Field K] [LinearOrder K] (name : String) (v : K) (ci : Option (K × K))
    (line : Str) : Prop := ∃ a, Prints 6 v a ∧
  match ci with
  | none => line = name.toList ++ " = ".toList ++ a ++ "\n".toList
  | some (lo, hi) => ∃ b c, Prints 6 lo b ∧ Prints 6 hi c ∧
    line = name.toList ++ " = ".toList ++ a ++ " [".toList ++ b ++ ", ".toList ++ c ++ "]\n".toList

/-- The text of a score. -/
def PrintsScore : Flt → Str → Prop
  | .fin x, w => Prints 6 x w
  | .nan, w => w = "nan".toList
  | .pinf, w => w = "inf".toList
  | .ninf, w => w = "-inf".toList

/-- The text of a bounding-box event: query, document and the four coordinates. -/
def BoxEventLine (e : Event Str (DocBox Str UInt32)) (s : Str) : Prop :=
  ∃ x y w h, Denotes x e.location.x.toNat ∧ Denotes y e.location.y.toNat ∧
    Denotes w e.location.w.toNat ∧ Denotes h e.location.h.toNat ∧
    s = e.query ++ " ".toList ++ e.location.document ++ " ".toList ++ x ++ " ".toList ++ y ++
      " ".toList ++ w ++ " ".toList ++ h

/-- The text of an event that consists of two integers. -/
def IdEventLine (e : Event Nat Nat) (s : Str) : Prop :=
  ∃ a b, Denotes a e.query ∧ Denotes b e.location ∧ s = a ++ " ".toList ++ b

/-- The line of a match: hypothesis and score if there is a hypothesis, reference if there is one,
errors and counts. -/
def MatchLine {Q L : Type} (ev : Event Q L → Str → Prop)
    (m : Match (Event Q L) (ScoredEvent Q L)) (line : Str) : Prop :=
  ∃ f g a b c d,
    (match m.hyp with
      | none => f = []
      | some h => ∃ e s, ev h.base e ∧ PrintsScore h.score s ∧
        f = "Hyp=".toList ++ e ++ " ".toList ++ s ++ ", ".toList) ∧
    (match m.ref with
      | none => g = []
      | some r => ∃ e, ev r e ∧ g = "Ref=".toList ++ e ++ ", ".toList) ∧
    Prints 6 m.error.fp a ∧ Prints 6 m.error.fn b ∧ Denotes c m.error.nh ∧ Denotes d m.error.nr ∧
    line = "Match[".toList ++ f ++ g ++ "Error=MatchError[fp=".toList ++ a ++ ", fn=".toList ++ b ++
      ", nh=".toList ++ c ++ ", nr=".toList ++ d ++ "]]".toList

/-- The lines of the file with the matches. -/
def DumpLines {Q L : Type} (ev : Event Q L → Str → Prop)
    (ms rep : List (Match (Event Q L) (ScoredEvent Q L))) (ls : List Str) : Prop :=
  ∃ l1 l2, ls = l1 ++ "#### REPEATED MATCHES ####".toList :: l2.map ("## ".toList ++ ·) ∧
    List.Forall₂ (MatchLine ev) ms l1 ∧ List.Forall₂ (MatchLine ev) rep l2

/-- An error message. -/
def IsErrorMessage (s : Str) : Prop := "ERROR: ".toList <+: s

/-- the names of the metrics, in the order in which they are printed -/
def metricNames : List Str := ["gAP", "mAP", "gNDCG", "mNDCG"].map String.toList

/-- A line that names a metric and goes on with a value. -/
def NamesMetric (name line : Str) : Prop := ∃ rest, line = name ++ " = ".toList ++ rest ++ ['\n']

/-- The first metrics, one per line. -/
def FirstMetrics (ls : List Str) : Prop := ∃ ns, ns <+: metricNames ∧ List.Forall₂ NamesMetric ns ls

end Kws.Spec
