import Verif.Model.Match
import Verif.Model.Mapper
import Verif.Model.Cmd
import Mathlib.Logic.Function.Basic

/-!
# Objects that own memory: core/Match.h, mapper/StringToIntMapper.h, cmd/Parser.h

Elsewhere in the model the owned pointers of a `Match` are optional values, and the tables of the
mapper and the options of the parser are plain values. This file models the pointers: memory cells
with addresses, `new` and `delete`. Deleting or reading a cell that is not allocated is undefined
behaviour. Addresses are never used twice, so that a pointer to a deleted cell stays recognisable.
-/

namespace Kws

/-! ## Memory -/

/-- The memory cells of one type: contents of the allocated cells, and the next fresh address. -/
structure Heap (α : Type) where
  cell : Nat → Option α
  next : Nat

namespace Heap
variable {α : Type}

/-- nothing allocated -/
def empty : Heap α := ⟨fun _ => none, 0⟩

/-- `new T(a)`: the new heap; the address is `h.next` -/
def alloc (h : Heap α) (a : α) : Heap α := ⟨Function.update h.cell h.next (some a), h.next + 1⟩

/-- `delete p` -/
def delete (h : Heap α) (p : Nat) : Cpp (Heap α) :=
  match h.cell p with
  | some _ => .ok ⟨Function.update h.cell p none, h.next⟩
  | none => .error .ub

/-- `*p` -/
def read (h : Heap α) (p : Nat) : Cpp α :=
  match h.cell p with
  | some a => .ok a
  | none => .error .ub

/-- `*p = a` -/
def write (h : Heap α) (p : Nat) (a : α) : Cpp (Heap α) :=
  match h.cell p with
  | some _ => .ok ⟨Function.update h.cell p (some a), h.next⟩
  | none => .error .ub

end Heap

/-! ## `std::unique_ptr` members -/

/-- One `std::unique_ptr<α>` member of every object of a class, with the memory they point to.
Objects are numbered. -/
structure Owners (α : Type) where
  heap : Heap α
  ptr : Nat → Option Nat

namespace Owners
variable {α : Type}

/-- no object, nothing allocated -/
def empty : Owners α := ⟨Heap.empty, fun _ => none⟩

/-- `delete` of a pointer that may be null -/
def deleteOpt (h : Heap α) : Option Nat → Cpp (Heap α)
  | some q => h.delete q
  | none => .ok h

/-- the member of an object that is being constructed: null -/
def construct (o : Owners α) (i : Nat) : Owners α := ⟨o.heap, Function.update o.ptr i none⟩

/-- `m.reset(new α(a))`: allocate, replace the pointer, delete the old object -/
def resetNew (o : Owners α) (i : Nat) (a : α) : Cpp (Owners α) := do
  let h ← deleteOpt (o.heap.alloc a) (o.ptr i)
  return ⟨h, Function.update o.ptr i (some o.heap.next)⟩

/-- `m.release()`: the pointer becomes null, nothing is deleted -/
def release (o : Owners α) (i : Nat) : Owners α := ⟨o.heap, Function.update o.ptr i none⟩

/-- `m_i = std::move(m_j)`, i.e. `m_i.reset(m_j.release())` -/
def moveAssign (o : Owners α) (i j : Nat) : Cpp (Owners α) := do
  let p := o.ptr j
  let ptr := Function.update o.ptr j none
  let old := ptr i
  let ptr := Function.update ptr i p
  let h ← deleteOpt o.heap old
  return ⟨h, ptr⟩

/-- `~unique_ptr` -/
def destroy (o : Owners α) (i : Nat) : Cpp (Owners α) := do
  let h ← deleteOpt o.heap (o.ptr i)
  return ⟨h, Function.update o.ptr i none⟩

/-- `m != nullptr` -/
def has (o : Owners α) (i : Nat) : Bool := (o.ptr i).isSome

/-- `assert(m != nullptr); return *m;` (core/Match.h:45-53) -/
def get (o : Owners α) (i : Nat) : Cpp α :=
  match o.ptr i with
  | some p => o.heap.read p
  | none => .error .assertFail

/-- `if (other.Has()) Set(other.Get());` (core/Match.h:21, 22, 58, 59) -/
def copyIfAny (o : Owners α) (i j : Nat) : Cpp (Owners α) := do
  if o.has j then o.resetNew i (← o.get j) else return o

end Owners

/-! ## core/Match.h -/

/-- The `Match` objects of a program. -/
structure MatchStore (RE HE : Type) where
  refs : Owners RE
  hyps : Owners HE
  error : Nat → MatchError
  alive : Nat → Bool

/-- A statement of a program that handles `Match` objects (numbered by the program). -/
inductive MatchStmt (RE HE : Type)
  /-- `Match m_i;` -/
  | construct (i : Nat)
  /-- `Match m_i(ref, hyp, error);` -/
  | make (i : Nat) (ref : RE) (hyp : HE) (error : MatchError)
  /-- `Match m_i(m_j);` -/
  | copy (i j : Nat)
  /-- `m_i = m_j;` -/
  | assign (i j : Nat)
  /-- `m_i = std::move(m_j);` -/
  | moveAssign (i j : Nat)
  /-- `m_i.SetError(error);` -/
  | setError (i : Nat) (error : MatchError)
  /-- `m_i.SetRef(ref);` -/
  | setRef (i : Nat) (ref : RE)
  /-- `m_i.SetHyp(hyp);` -/
  | setHyp (i : Nat) (hyp : HE)
  /-- `m_i.SetRef(m_j.GetRef());` -/
  | setRefFrom (i j : Nat)
  /-- `m_i.SetHyp(m_j.GetHyp());` -/
  | setHypFrom (i j : Nat)
  /-- the end of the life of `m_i` -/
  | destroy (i : Nat)

namespace MatchStore
variable {RE HE : Type}

/-- before the program: no objects -/
def empty : MatchStore RE HE := ⟨.empty, .empty, fun _ => .default, fun _ => false⟩

/-- storage for a new object `m_i` with null pointers -/
def begin (s : MatchStore RE HE) (i : Nat) (e : MatchError) : Cpp (MatchStore RE HE) :=
  if s.alive i then .error .ub
  else .ok ⟨s.refs.construct i, s.hyps.construct i, Function.update s.error i e,
    Function.update s.alive i true⟩

/-- using an object needs it to be alive -/
def require (s : MatchStore RE HE) (i : Nat) : Cpp Unit :=
  if s.alive i then .ok () else .error .ub

/-- Execution of a statement. -/
def exec (s : MatchStore RE HE) : MatchStmt RE HE → Cpp (MatchStore RE HE)
  -- core/Match.h:18
  | .construct i => s.begin i .default
  -- core/Match.h:27-31
  | .make i ref hyp error => do
    let s ← s.begin i error
    let s := { s with refs := ← s.refs.resetNew i ref }
    return { s with hyps := ← s.hyps.resetNew i hyp }
  -- core/Match.h:20-23
  | .copy i j => do
    s.require j
    let s ← s.begin i (s.error j)
    let s := { s with refs := ← s.refs.copyIfAny i j }
    return { s with hyps := ← s.hyps.copyIfAny i j }
  -- core/Match.h:55-61
  | .assign i j => do
    s.require i
    s.require j
    let s := { s with error := Function.update s.error i (s.error j) }
    let s := { s with refs := s.refs.release i, hyps := s.hyps.release i }
    let s := { s with refs := ← s.refs.copyIfAny i j }
    return { s with hyps := ← s.hyps.copyIfAny i j }
  -- core/Match.h:63-68
  | .moveAssign i j => do
    s.require i
    s.require j
    let s := { s with error := Function.update s.error i (s.error j) }
    let s := { s with refs := ← s.refs.moveAssign i j }
    return { s with hyps := ← s.hyps.moveAssign i j }
  -- core/Match.h:37
  | .setError i error => do
    s.require i
    return { s with error := Function.update s.error i error }
  -- core/Match.h:41
  | .setRef i ref => do
    s.require i
    return { s with refs := ← s.refs.resetNew i ref }
  -- core/Match.h:39
  | .setHyp i hyp => do
    s.require i
    return { s with hyps := ← s.hyps.resetNew i hyp }
  -- core/Match.h:41, 50-53
  | .setRefFrom i j => do
    s.require i
    s.require j
    return { s with refs := ← s.refs.resetNew i (← s.refs.get j) }
  -- core/Match.h:39, 45-48
  | .setHypFrom i j => do
    s.require i
    s.require j
    return { s with hyps := ← s.hyps.resetNew i (← s.hyps.get j) }
  -- core/Match.h:97-98: the implicit destructor destroys the members in reverse order
  | .destroy i => do
    s.require i
    let s := { s with hyps := ← s.hyps.destroy i }
    let s := { s with refs := ← s.refs.destroy i }
    return { s with alive := Function.update s.alive i false }

/-- Execution of a program. -/
def run (s : MatchStore RE HE) : List (MatchStmt RE HE) → Cpp (MatchStore RE HE)
  | [] => return s
  | c :: cs => do (← s.exec c).run cs

/-- What the program can see of the object `m_i` (`HasRef`, `GetRef`, `HasHyp`, `GetHyp`,
`GetError`). -/
def observe (s : MatchStore RE HE) (i : Nat) : Cpp (Match RE HE) := do
  s.require i
  let ref ← if s.refs.has i then some <$> s.refs.get i else pure none
  let hyp ← if s.hyps.has i then some <$> s.hyps.get i else pure none
  return ⟨ref, hyp, s.error i⟩

end MatchStore

/-! ## mapper/StringToIntMapper.h -/

/-- The mapper objects of a program and their tables. -/
structure MapperStore where
  tables : Heap IntMapper
  /-- members `impl_` and `own_` of the objects that are alive -/
  obj : Nat → Option (Nat × Bool)

/-- A statement of a program that handles mappers. -/
inductive MapperStmt
  /-- `StringToIntMapper m_i;` -/
  | construct (i : Nat)
  /-- `StringToIntMapper m_i(m_j);` -/
  | copy (i j : Nat)
  /-- `m_i = m_j;` (the implicit copy assignment) -/
  | assign (i j : Nat)
  /-- `m_i(s);` -/
  | call (i : Nat) (s : Str)
  /-- the end of the life of `m_i` -/
  | destroy (i : Nat)

namespace MapperStore

/-- before the program -/
def empty : MapperStore := ⟨.empty, fun _ => none⟩

/-- the members of an object that is alive -/
def member (s : MapperStore) (i : Nat) : Cpp (Nat × Bool) :=
  match s.obj i with
  | some m => .ok m
  | none => .error .ub

/-- Execution of a statement, and the id returned by a call. The type `Int` is given by its maximum
value. A `range_error` is caught by the program and ignored. -/
def exec (maxInt : Nat) (s : MapperStore) : MapperStmt → Cpp (MapperStore × Option (Cpp Nat))
  -- mapper/StringToIntMapper.h:23
  | .construct i =>
    match s.obj i with
    | some _ => .error .ub
    | none =>
      return (⟨s.tables.alloc .new, Function.update s.obj i (some (s.tables.next, true))⟩, none)
  -- mapper/StringToIntMapper.h:25-26
  | .copy i j =>
    match s.obj i with
    | some _ => .error .ub
    | none => do
      let m ← s.member j
      return (⟨s.tables, Function.update s.obj i (some (m.1, false))⟩, none)
  -- the implicit copy assignment copies both members
  | .assign i j => do
    let _ ← s.member i
    let m ← s.member j
    return (⟨s.tables, Function.update s.obj i (some m)⟩, none)
  -- mapper/StringToIntMapper.h:38-50
  | .call i w => do
    let m ← s.member i
    let t ← s.tables.read m.1
    let r := t.lookup maxInt w
    return (⟨← s.tables.write m.1 r.1, s.obj⟩, some r.2)
  -- mapper/StringToIntMapper.h:32-36
  | .destroy i => do
    let m ← s.member i
    let h ← if m.2 then s.tables.delete m.1 else pure s.tables
    return (⟨h, Function.update s.obj i none⟩, none)

/-- Execution of a program: the final state and the ids returned by the calls, in order. -/
def run (maxInt : Nat) (s : MapperStore) : List MapperStmt → Cpp (MapperStore × List (Cpp Nat))
  | [] => return (s, [])
  | c :: cs => do
    let (s, r) ← s.exec maxInt c
    let (s, rs) ← s.run maxInt cs
    return (s, r.toList ++ rs)

end MapperStore

/-! ## cmd/Parser.h -/

/-- The pointers of a parser object (cmd/Parser.h:192-194) -/
structure ParserObj where
  opts : List (Str × Nat)
  args : List Nat
  optArgs : List Nat

/-- A registration. -/
inductive Register
  | option (name : Str) (v : OptVal)
  | argument (v : OptVal)
  | optArgument (v : OptVal)

namespace ParserObj

/-- cmd/Parser.h:17-19 -/
def new : ParserObj := ⟨[], [], []⟩

/-- cmd/Parser.h:165-187: the registration functions; options and arguments live on the heap -/
def register (h : Heap OptVal) (p : ParserObj) : Register → Cpp (Heap OptVal × ParserObj)
  | .option name v =>
    if name = "help".toList then return (h, p)
    else
      let a := h.next
      let h := h.alloc v
      match AMap.find? name p.opts with
      | some _ => do return (← h.delete a, p)
      | none => return (h, { p with opts := p.opts ++ [(name, a)] })
  | .argument v => return (h.alloc v, { p with args := p.args ++ [h.next] })
  | .optArgument v => return (h.alloc v, { p with optArgs := p.optArgs ++ [h.next] })

/-- a sequence of registrations -/
def registerAll (h : Heap OptVal) (p : ParserObj) : List Register → Cpp (Heap OptVal × ParserObj)
  | [] => return (h, p)
  | r :: rs => do
    let (h, p) ← register h p r
    registerAll h p rs

/-- `for (...) delete ...;` -/
def deleteAll (h : Heap OptVal) : List Nat → Cpp (Heap OptVal)
  | [] => return h
  | a :: as => do deleteAll (← h.delete a) as

/-- cmd/Parser.h:21-31: the destructor -/
def destroy (h : Heap OptVal) (p : ParserObj) : Cpp (Heap OptVal) := do
  let h ← deleteAll h (p.opts.map (·.2))
  let h ← deleteAll h p.args
  deleteAll h p.optArgs

/-- The implicit copy constructor copies the pointers. -/
def copy (p : ParserObj) : ParserObj := p

end ParserObj

end Kws
