import Verif.Spec.Geometry
import Verif.Model.Match

/-!
# Specification of the scorers: ratios of numbers of cells
-/

namespace Kws.Spec

variable {Q D : Type} [DecidableEq D]

/-- Number of cells of a box event. -/
def areaU (e : Event Q (DocBox D UInt32)) : ℕ := (cellsU e.location.toBBox).card

/-- Number of cells common to two box events; none on different documents. -/
def commonU (a b : Event Q (DocBox D UInt32)) : ℕ :=
  if a.location.document = b.location.document then
    (cellsU a.location.toBBox ∩ cellsU b.location.toBBox).card
  else 0

/-- Number of cells covered by two box events; documents do not share cells. -/
def coveredU (a b : Event Q (DocBox D UInt32)) : ℕ :=
  if a.location.document = b.location.document then
    (cellsU a.location.toBBox ∪ cellsU b.location.toBBox).card
  else areaU a + areaU b

/-- Edges and area of the box do not wrap around. -/
def InRangeU (e : Event Q (DocBox D UInt32)) : Prop :=
  EdgesOkU e.location.toBBox ∧ areaU e < 2 ^ 32

/-- The verdict of a hard scorer. -/
def verdict (accepted : Prop) [Decidable accepted] : MatchError :=
  if accepted then ⟨0, 0⟩ else ⟨1, 1⟩

/-- The entries of the segmentation-based evaluation: `seen` are the events hypothesised before. -/
def segEntries {Q L : Type} [DecidableEq Q] [DecidableEq L] (refs : List (Event Q L)) :
    List (Event Q L) → List (ScoredEvent Q L) → List (Match (Event Q L) (ScoredEvent Q L))
  | _, [] => []
  | seen, h :: hs =>
    (if h.base ∉ refs then [⟨none, some h, ⟨1, 0⟩⟩]
     else if h.base ∈ seen then []
     else [⟨some h.base, some h, ⟨0, 0⟩⟩]) ++ segEntries refs (h.base :: seen) hs

end Kws.Spec
