import Verif.Model.Events

/-!
# core/EventSet.h and core/DocumentBoundingBoxEventSet.h
-/

namespace Kws

/-! ## core/EventSet.h -/

/-- core/EventSet.h:19, 56: the member `std::set<E> event_set_`. -/
structure EventSet (E : Type) where
  events : List E

namespace EventSet
variable {E : Type} [Cmp E]

/-- core/EventSet.h:26 -/
def new : EventSet E := ⟨[]⟩

/-- core/EventSet.h:35-37 -/
def insert (s : EventSet E) (e : E) : EventSet E := ⟨(StdSet.insert Cmp.lt e s.events).1⟩

/-- core/EventSet.h:39-41 -/
def clear (_ : EventSet E) : EventSet E := ⟨[]⟩

/-- core/EventSet.h:43-45 -/
def remove (s : EventSet E) (e : E) : EventSet E := ⟨(StdSet.erase Cmp.lt e s.events).1⟩

/-- core/EventSet.h:47 -/
def size (s : EventSet E) : Nat := s.events.length

/-- core/EventSet.h:49-53 -/
def findOverlapping (s : EventSet E) (e : E) : List E :=
  match StdSet.find? Cmp.lt e s.events with
  | some x => [x]
  | none => []

/-- core/EventSet.h:30-33: the range constructor -/
def ofRange (l : List E) : EventSet E := l.foldl insert new

end EventSet

/-! ## core/DocumentBoundingBoxEventSet.h -/

/-- core/DocumentBoundingBoxEventSet.h:26-34, 94-98. `size_` is `none` when it has not been
initialised. -/
structure DocEventSet (Q D T : Type) where
  /-- `documents_by_query_` -/
  byQuery : List (Q × List (D × List (Event Q (DocBox D T))))
  /-- `size_` -/
  size? : Option Nat

namespace DocEventSet
variable {Q D T : Type} [DecidableEq Q] [DecidableEq D] [Cmp Q] [Cmp D] [Coord T]

/-- core/DocumentBoundingBoxEventSet.h:34: default constructor, `size_(0)` -/
def new : DocEventSet Q D T := ⟨[], some 0⟩

/-- core/DocumentBoundingBoxEventSet.h:43-51 -/
def insert (s : DocEventSet Q D T) (e : Event Q (DocBox D T)) : DocEventSet Q D T :=
  let p := (AMap.emplace e.query [] s.byQuery).2
  let l := (AMap.emplace e.location.document [] p).2
  let r := StdSet.insert Cmp.lt e l
  { byQuery := AMap.set e.query (AMap.set e.location.document r.1 p) s.byQuery
    size? := if r.2 then s.size?.map (· + 1) else s.size? }

/-- core/DocumentBoundingBoxEventSet.h:53-56 -/
def clear (_ : DocEventSet Q D T) : DocEventSet Q D T := ⟨[], some 0⟩

/-- core/DocumentBoundingBoxEventSet.h:58-66 -/
def remove (s : DocEventSet Q D T) (e : Event Q (DocBox D T)) : DocEventSet Q D T :=
  match AMap.find? e.query s.byQuery with
  | none => s
  | some p =>
    match AMap.find? e.location.document p with
    | none => s
    | some l =>
      let r := StdSet.erase Cmp.lt e l
      { byQuery := AMap.set e.query (AMap.set e.location.document r.1 p) s.byQuery
        size? := s.size?.map (· - r.2) }

/-- `std::pair`'s `operator<` (C++11): lexicographic. -/
def pairLt {α β : Type} [Cmp α] [Cmp β] (a b : α × β) : Bool :=
  Cmp.lt a.1 b.1 || (!Cmp.lt b.1 a.1 && Cmp.lt a.2 b.2)

/-- core/DocumentBoundingBoxEventSet.h:75-81: the loop collecting the overlapping events -/
def collect (e : Event Q (DocBox D T)) :
    List (Event Q (DocBox D T)) → Cpp (List (T × Event Q (DocBox D T)))
  | [] => return []
  | x :: xs => do
    let a ← x.location.intersectionArea e.location
    let rest ← collect e xs
    return if Cmp.lt Coord.zero a then (a, x) :: rest else rest

/-- core/DocumentBoundingBoxEventSet.h:68-90 -/
def findOverlapping (S : StdSort) (s : DocEventSet Q D T) (e : Event Q (DocBox D T)) :
    Cpp (List (Event Q (DocBox D T))) := do
  let stored :=
    match AMap.find? e.query s.byQuery with
    | none => []
    | some p =>
      match AMap.find? e.location.document p with
      | none => []
      | some l => l
  let aux ← collect e stored
  -- std::greater<pair>: a > b, i.e. b < a
  let sorted ← S.sort (fun a b => pairLt b a) aux
  return sorted.map (·.2)

/-- core/DocumentBoundingBoxEventSet.h:92: reading an uninitialised `size_` is undefined -/
def size (s : DocEventSet Q D T) : Cpp Nat :=
  match s.size? with
  | some n => .ok n
  | none => .error .ub

/-- core/DocumentBoundingBoxEventSet.h:38-41: the range constructor does not initialise `size_` -/
def ofRange (l : List (Event Q (DocBox D T))) : DocEventSet Q D T :=
  l.foldl insert ⟨[], none⟩

end DocEventSet

end Kws
