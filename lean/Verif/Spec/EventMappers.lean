import Verif.Model.EventMappers

/-!
# What programs that handle mappers over mappers mean, without pointers and lifetimes
-/

namespace Kws.Spec
open Function (update)

/-- The tables, for every string and event mapper that was ever made the table that it looks at, and for every scored
event mapper the event mapper that it looks at. Nothing ever ends and nobody owns anything. -/
structure Views where
  tables : List IntMapper
  strs : List Nat
  events : List Nat
  scored : List Nat

/-- The answer of a call, and the table after it. -/
def answer (queryFirst : Bool) (maxInt : Nat) (t : IntMapper) : ChainStmt → Option (IntMapper × ChainAnswer)
  | .strCall _ w => some ((t.lookup maxInt w).1, .id (t.lookup maxInt w).2)
  | .eventCall _ e => some ((t.mapEvent queryFirst maxInt e).1, .event (t.mapEvent queryFirst maxInt e).2)
  | .scoredCall _ e =>
    some ((t.mapScoredEvent queryFirst maxInt e).1, .scored (t.mapScoredEvent queryFirst maxInt e).2)
  | _ => none

/-- The table that a call looks at. -/
def Views.target (v : Views) : ChainStmt → Option Nat
  | .strCall p _ => v.strs[p]?
  | .eventCall q _ => v.events[q]?
  | .scoredCall s _ => v.scored[s]?.bind (v.events[·]?)
  | _ => none

/-- The views after a statement, and the answer of a call. -/
def Views.step (queryFirst : Bool) (maxInt : Nat) (v : Views) (c : ChainStmt) : Views × Option ChainAnswer :=
  match c with
  | .table => ({ v with tables := v.tables ++ [.new] }, none)
  | .str => ({ v with tables := v.tables ++ [.new], strs := v.strs ++ [v.tables.length] }, none)
  | .strOver t _ => ({ v with strs := v.strs ++ [t] }, none)
  | .strCopy p => ({ v with strs := v.strs ++ v.strs[p]?.toList }, none)
  | .event => ({ v with
      tables := v.tables ++ [.new]
      strs := v.strs ++ [v.tables.length]
      events := v.events ++ [v.tables.length] }, none)
  | .eventOver p _ => ({ v with events := v.events ++ v.strs[p]?.toList }, none)
  | .eventCopy q => ({ v with events := v.events ++ v.events[q]?.toList }, none)
  | .eventAssign q r =>
    match v.events[r]? with
    | some t => ({ v with events := v.events.set q t }, none)
    | none => (v, none)
  | .scoredOver q => ({ v with scored := v.scored ++ [q] }, none)
  | .strCall .. | .eventCall .. | .scoredCall .. =>
    match v.target c with
    | none => (v, none)
    | some t =>
      match v.tables[t]? with
      | none => (v, none)
      | some m =>
        match answer queryFirst maxInt m c with
        | none => (v, none)
        | some (m, r) => ({ v with tables := v.tables.set t m }, some r)
  | .tableEnd _ | .strEnd _ | .eventEnd _ | .scoredEnd _ => (v, none)

/-- The answers of the calls of a program. -/
def Views.answers (queryFirst : Bool) (maxInt : Nat) (v : Views) : List ChainStmt → List ChainAnswer
  | [] => []
  | c :: cs => (v.step queryFirst maxInt c).2.toList ++ (v.step queryFirst maxInt c).1.answers queryFirst maxInt cs

/-- The statement makes a table: on its own, with a string mapper, or with an event mapper. -/
def makesTable : ChainStmt → Bool
  | .table | .str | .event => true
  | _ => false

/-- The answers of the calls of a program if all go to the same table, whatever objects they call. -/
def oneTable (queryFirst : Bool) (maxInt : Nat) : IntMapper → List ChainStmt → List ChainAnswer
  | _, [] => []
  | t, c :: cs =>
    match answer queryFirst maxInt t c with
    | none => oneTable queryFirst maxInt t cs
    | some (t, r) => r :: oneTable queryFirst maxInt t cs

/-- The string mapper that each default-constructed event mapper makes for itself, when `n` string mappers have been
made before. -/
def hiddenStrs (n : Nat) : List ChainStmt → List Nat
  | [] => []
  | .event :: cs => n :: hiddenStrs (n + 1) cs
  | .str :: cs | .strOver .. :: cs | .strCopy _ :: cs => hiddenStrs (n + 1) cs
  | _ :: cs => hiddenStrs n cs

/-- The tables that the program makes by itself, when `n` tables have been made before. -/
def ownTables (n : Nat) : List ChainStmt → List Nat
  | [] => []
  | .table :: cs => n :: ownTables (n + 1) cs
  | .str :: cs | .event :: cs => ownTables (n + 1) cs
  | _ :: cs => ownTables n cs

/-- The tables that the statement names. -/
def namesTable : ChainStmt → Option Nat
  | .tableEnd t | .strOver t _ => some t
  | _ => none

end Kws.Spec
