import Verif.Model.Match

/-!
# scorer/*.h

A scorer maps a reference and a hypothesis to a `MatchError`. The hypothesis is a `ScoredEvent`;
only its base event is looked at. Areas have type `T`; `toRat` is the exact value of a coordinate,
and the conversion `T -> float` is that value rounded.
-/

namespace Kws

/-- Conversion of a coordinate to a number, before rounding to `float`. -/
class CoordVal (T : Type) where
  val : T → ℚ

instance : CoordVal UInt32 := ⟨fun a => (a.toNat : ℚ)⟩
instance : CoordVal Int32 := ⟨fun a => (a.toInt : ℚ)⟩

section
variable {Q L D T : Type}

/-- scorer/TrivialScorer.h:18-24 -/
def trivialScorer [Cmp Q] [Cmp L] (ref : Event Q L) (hyp : ScoredEvent Q L) : Cpp MatchError :=
  if Cmp.eq ref.location hyp.base.location && Cmp.eq ref.query hyp.base.query then .ok ⟨0, 0⟩
  else .ok ⟨1, 1⟩

variable [Cmp Q] [Cmp D] [Coord T] [CoordVal T]

/-- `val >= threshold_` where `val = num / (1.0f * den)` in `float` arithmetic. A zero denominator
gives `+inf` (accepted), `-inf` or NaN (rejected). -/
def ratioAtLeast (R : Rnd) (num den : T) (threshold : ℚ) : Bool :=
  let n := R.f32 (CoordVal.val num)
  let d := R.f32 (R.f32 (CoordVal.val den))
  if d = 0 then decide (n > 0) else decide (R.f32 (n / d) ≥ threshold)

/-- scorer/IntersectionOverHypothesisAreaScorer.h:23-35 -/
def iohScorer (R : Rnd) (threshold : ℚ) (ref : Event Q (DocBox D T))
    (hyp : ScoredEvent Q (DocBox D T)) : Cpp MatchError := do
  if Cmp.eq ref.query hyp.base.query then
    let area ← hyp.base.area
    if Cmp.lt Coord.zero area then
      let inter ← Event.intersectionArea ref hyp.base
      if ratioAtLeast R inter area threshold then return ⟨0, 0⟩
  return ⟨1, 1⟩

/-- scorer/IntersectionOverUnionAreaScorer.h:23-35 -/
def iouScorer (R : Rnd) (threshold : ℚ) (ref : Event Q (DocBox D T))
    (hyp : ScoredEvent Q (DocBox D T)) : Cpp MatchError := do
  if Cmp.eq ref.query hyp.base.query then
    let area ← hyp.base.area
    if Cmp.lt Coord.zero area then
      let inter ← Event.intersectionArea ref hyp.base
      let union ← Event.unionArea ref hyp.base
      if ratioAtLeast R inter union threshold then return ⟨0, 0⟩
  return ⟨1, 1⟩

/-- `1.0f - (area > 0.0f ? intersect_area / area : 0.0f)`
(scorer/SoftBoundingBoxScorer.h:21-24) -/
def softRate (R : Rnd) (inter area : T) : ℚ :=
  let i := R.f32 (CoordVal.val inter)
  let a := R.f32 (CoordVal.val area)
  R.f32 (1 - (if a > 0 then R.f32 (i / a) else 0))

/-- scorer/SoftBoundingBoxScorer.h:18-26 -/
def softScorer (R : Rnd) (ref : Event Q (DocBox D T))
    (hyp : ScoredEvent Q (DocBox D T)) : Cpp MatchError := do
  if Cmp.ne ref.query hyp.base.query then return ⟨1, 1⟩
  let inter ← Event.intersectionArea ref hyp.base
  let ha ← hyp.base.area
  let ra ← ref.area
  return ⟨softRate R inter ha, softRate R inter ra⟩

end

end Kws
