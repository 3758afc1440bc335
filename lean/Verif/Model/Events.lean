import Verif.Model.Geometry

/-!
# core/Event.h, core/ShapedEvent.h, core/ScoredEvent.h
-/

namespace Kws

/-- core/Event.h:11-21, 57-58. `ShapedEvent<Q, L>` (core/ShapedEvent.h:10-20) adds no data and
inherits all comparison operators, so it is the same structure. -/
structure Event (Q L : Type) where
  query : Q
  location : L
  deriving DecidableEq

namespace Event
variable {Q L : Type} [Cmp Q] [Cmp L]

/-- core/Event.h:31-33 `operator==` -/
def eq (a b : Event Q L) : Bool := Cmp.eq a.query b.query && Cmp.eq a.location b.location

/-- core/Event.h:35-37 `operator!=` -/
def ne (a b : Event Q L) : Bool := Cmp.ne a.query b.query || Cmp.ne a.location b.location

/-- core/Event.h:39-42 `operator<` -/
def lt (a b : Event Q L) : Bool :=
  if Cmp.ne a.query b.query then Cmp.lt a.query b.query else Cmp.lt a.location b.location

/-- core/Event.h:44-46 `operator>` -/
def gt (a b : Event Q L) : Bool := lt b a

/-- core/Event.h:48-50 `operator<=` -/
def le (a b : Event Q L) : Bool := !gt a b

/-- core/Event.h:52-54 `operator>=` -/
def ge (a b : Event Q L) : Bool := !lt a b

instance : Cmp (Event Q L) := ⟨eq, ne, lt⟩

end Event

/-- core/ShapedEvent.h:19 `Area`, for document boxes -/
def Event.area {Q D T : Type} [Coord T] (e : Event Q (DocBox D T)) : Cpp T :=
  e.location.toBBox.area

/-- core/ShapedEvent.h:22-25 `IntersectionArea(E1, E2)` (through
core/DocumentBoundingBox.h:70-74) -/
def Event.intersectionArea {Q D T : Type} [Cmp D] [Coord T]
    (a b : Event Q (DocBox D T)) : Cpp T :=
  a.location.intersectionArea b.location

/-- core/ShapedEvent.h:27-30 `UnionArea(E1, E2)` (through core/DocumentBoundingBox.h:76-80) -/
def Event.unionArea {Q D T : Type} [Cmp D] [Coord T]
    (a b : Event Q (DocBox D T)) : Cpp T :=
  a.location.unionArea b.location

/-- core/ScoredEvent.h:12-25, 57: an event with a score. The base class `E` is `Event<Q, L>` or
`ShapedEvent<Q, L>`. -/
structure ScoredEvent (Q L : Type) where
  base : Event Q L
  score : Flt
  deriving DecidableEq

namespace ScoredEvent
variable {Q L : Type} [Cmp Q] [Cmp L]

/-- core/ScoredEvent.h:27-29 `operator==` -/
def eq (a b : ScoredEvent Q L) : Bool := Flt.eq a.score b.score && Event.eq a.base b.base

/-- core/ScoredEvent.h:31-33 `operator!=` -/
def ne (a b : ScoredEvent Q L) : Bool := Flt.ne a.score b.score || Event.ne a.base b.base

/-- core/ScoredEvent.h:35-38 `operator<` -/
def lt (a b : ScoredEvent Q L) : Bool :=
  if Flt.ne a.score b.score then Flt.lt a.score b.score else Event.lt a.base b.base

/-- core/ScoredEvent.h:40-42 `operator>` -/
def gt (a b : ScoredEvent Q L) : Bool := lt b a

/-- core/ScoredEvent.h:44-46 `operator<=`: the code says `!(other > *this)` -/
def le (a b : ScoredEvent Q L) : Bool := !gt b a

/-- core/ScoredEvent.h:48-50 `operator>=` -/
def ge (a b : ScoredEvent Q L) : Bool := !lt a b

instance : Cmp (ScoredEvent Q L) := ⟨eq, ne, lt⟩

end ScoredEvent

end Kws
