import Verif.Model.Ownership

/-!
# Mappers over mappers: mapper/StringToIntMapper.h, mapper/StringEventToIntMapper.h, mapper/ScoredEventMapper.h

The pointers between a table, the string mappers that use it, the event mappers that use these, and the
scored event mappers on top. Every object is a cell of a heap (Model/Ownership.lean), whether it is a variable or made
by `new`; a program refers to it by its address.
-/

namespace Kws

/-- The mapper objects of a program. -/
structure MapperHeap where
  /-- `std::unordered_map<std::string, Int>` -/
  tables : Heap IntMapper
  /-- `StringToIntMapper`: `impl_` and `own_` (mapper/StringToIntMapper.h:56-57) -/
  strs : Heap (Nat × Bool)
  /-- `StringEventToIntMapper`: `map_` and `own_` (mapper/StringEventToIntMapper.h:40-41) -/
  events : Heap (Nat × Bool)
  /-- `ScoredEventMapper` over event mappers: `map_` (mapper/ScoredEventMapper.h:27) -/
  scored : Heap Nat

/-- A statement of a program that handles mappers. New objects get the next address. -/
inductive ChainStmt
  /-- `auto t = new StringToIntMapper::Impl;` -/
  | table
  /-- `delete t;` -/
  | tableEnd (t : Nat)
  /-- `StringToIntMapper m;` -/
  | str
  /-- `StringToIntMapper m(t, own);`, and `StringToIntMapper m(t);` without owning -/
  | strOver (t : Nat) (own : Bool)
  /-- `StringToIntMapper m(*p);` -/
  | strCopy (p : Nat)
  /-- `(*p)(w);` -/
  | strCall (p : Nat) (w : Str)
  /-- the end of the life of `*p` -/
  | strEnd (p : Nat)
  /-- `StringEventToIntMapper e;` -/
  | event
  /-- `StringEventToIntMapper e(p, own);`, and `StringEventToIntMapper e(p);` without owning -/
  | eventOver (p : Nat) (own : Bool)
  /-- `StringEventToIntMapper e(*q);` -/
  | eventCopy (q : Nat)
  /-- `*q = *r;` (the implicit copy assignment) -/
  | eventAssign (q r : Nat)
  /-- `(*q)(e);` -/
  | eventCall (q : Nat) (e : Event Str Str)
  /-- the end of the life of `*q` -/
  | eventEnd (q : Nat)
  /-- `ScoredEventMapper s(q);` -/
  | scoredOver (q : Nat)
  /-- `(*s)(e);` -/
  | scoredCall (s : Nat) (e : ScoredEvent Str Str)
  /-- the end of the life of `*s` -/
  | scoredEnd (s : Nat)

/-- What a call returns, or the exception that it throws. -/
inductive ChainAnswer
  | id (r : Cpp Nat)
  | event (r : Cpp (Event Nat Nat))
  | scored (r : Cpp (ScoredEvent Nat Nat))
  deriving DecidableEq

namespace MapperHeap

/-- before the program -/
def empty : MapperHeap := ⟨.empty, .empty, .empty, .empty⟩

/-- The program has the pointer `p`: it was the address of an object. -/
def known {α : Type} (h : Heap α) (p : Nat) : Cpp Unit := if p < h.next then .ok () else .error .ub

/-- A call of `*p` (mapper/StringToIntMapper.h:38-50): `f` is what is done with its table. -/
def useStr {α : Type} (s : MapperHeap) (p : Nat) (f : IntMapper → IntMapper × α) : Cpp (MapperHeap × α) := do
  let m ← s.strs.read p
  let t ← s.tables.read m.1
  let r := f t
  return ({ s with tables := ← s.tables.write m.1 r.1 }, r.2)

/-- A call of `*q` (mapper/StringEventToIntMapper.h:33-35): both lookups go to `*map_`. -/
def useEvent {α : Type} (s : MapperHeap) (q : Nat) (f : IntMapper → IntMapper × α) : Cpp (MapperHeap × α) := do
  let m ← s.events.read q
  s.useStr m.1 f

/-- Execution of a statement, and what a call returns. The type `Int` is given by its maximum value; `queryFirst`
says which lookup of an event comes first (mapper/StringEventToIntMapper.h:34 leaves it open). A `range_error` is
caught by the program and ignored. -/
def exec (queryFirst : Bool) (maxInt : Nat) (s : MapperHeap) : ChainStmt → Cpp (MapperHeap × Option ChainAnswer)
  | .table => return ({ s with tables := s.tables.alloc .new }, none)
  | .tableEnd t => do return ({ s with tables := ← s.tables.delete t }, none)
  -- mapper/StringToIntMapper.h:23
  | .str => return ({ s with tables := s.tables.alloc .new, strs := s.strs.alloc (s.tables.next, true) }, none)
  -- mapper/StringToIntMapper.h:28, 30
  | .strOver t own => do
    known s.tables t
    return ({ s with strs := s.strs.alloc (t, own) }, none)
  -- mapper/StringToIntMapper.h:25-26
  | .strCopy p => do
    let m ← s.strs.read p
    return ({ s with strs := s.strs.alloc (m.1, false) }, none)
  | .strCall p w => do
    let (s, r) ← s.useStr p (fun t => t.lookup maxInt w)
    return (s, some (.id r))
  -- mapper/StringToIntMapper.h:32-36
  | .strEnd p => do
    let m ← s.strs.read p
    let h ← if m.2 then s.tables.delete m.1 else pure s.tables
    return ({ s with tables := h, strs := ← s.strs.delete p }, none)
  -- mapper/StringEventToIntMapper.h:22
  | .event => return ({ s with
      tables := s.tables.alloc .new
      strs := s.strs.alloc (s.tables.next, true)
      events := s.events.alloc (s.strs.next, true) }, none)
  -- mapper/StringEventToIntMapper.h:27-31
  | .eventOver p own => do
    known s.strs p
    return ({ s with events := s.events.alloc (p, own) }, none)
  -- mapper/StringEventToIntMapper.h:24-25
  | .eventCopy q => do
    let m ← s.events.read q
    return ({ s with events := s.events.alloc (m.1, false) }, none)
  -- the implicit copy assignment copies both members
  | .eventAssign q r => do
    let m ← s.events.read r
    return ({ s with events := ← s.events.write q m }, none)
  | .eventCall q e => do
    let (s, r) ← s.useEvent q (fun t => t.mapEvent queryFirst maxInt e)
    return (s, some (.event r))
  -- mapper/StringEventToIntMapper.h:16-42 has no destructor: `own_` is never looked at
  | .eventEnd q => do return ({ s with events := ← s.events.delete q }, none)
  -- mapper/ScoredEventMapper.h:20
  | .scoredOver q => do
    known s.events q
    return ({ s with scored := s.scored.alloc q }, none)
  -- mapper/ScoredEventMapper.h:22-24
  | .scoredCall p e => do
    let q ← s.scored.read p
    let (s, r) ← s.useEvent q (fun t => t.mapScoredEvent queryFirst maxInt e)
    return (s, some (.scored r))
  | .scoredEnd p => do return ({ s with scored := ← s.scored.delete p }, none)

/-- Execution of a program: the final state and what the calls return, in order. -/
def run (queryFirst : Bool) (maxInt : Nat) (s : MapperHeap) : List ChainStmt → Cpp (MapperHeap × List ChainAnswer)
  | [] => return (s, [])
  | c :: cs => do
    let (s, r) ← s.exec queryFirst maxInt c
    let (s, rs) ← s.run queryFirst maxInt cs
    return (s, r.toList ++ rs)

end MapperHeap

end Kws
