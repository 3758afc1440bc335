import Verif.Model.Ownership

/-!
# What programs that handle `Match` objects and mappers mean, without pointers
-/

namespace Kws.Spec
open Function (update)

/-! ## Match objects as values -/

/-- The meaning of a statement when every object simply has a value: `Step v c v'` says that the
program may execute `c` when the objects have the values `v` (`none`: no such object), and that
they have the values `v'` afterwards. There is no step if the program uses an object that does not
exist, creates one that exists, or asks for an event that is not there. -/
inductive Step {RE HE : Type} (v : Nat → Option (Match RE HE)) :
    MatchStmt RE HE → (Nat → Option (Match RE HE)) → Prop
  | construct {i} : v i = none → Step v (.construct i) (update v i (some ⟨none, none, ⟨0, 0⟩⟩))
  | make {i r h e} : v i = none → Step v (.make i r h e) (update v i (some ⟨some r, some h, e⟩))
  | copy {i j m} : v i = none → v j = some m → Step v (.copy i j) (update v i (some m))
  | assign {i j m₀ m} : i ≠ j → v i = some m₀ → v j = some m →
      Step v (.assign i j) (update v i (some m))
  /-- assigning an object to itself loses its events -/
  | assignSelf {i m} : v i = some m →
      Step v (.assign i i) (update v i (some { m with ref := none, hyp := none }))
  | move {i j m₀ m} : i ≠ j → v i = some m₀ → v j = some m →
      Step v (.moveAssign i j)
        (update (update v i (some m)) j (some { m with ref := none, hyp := none }))
  | moveSelf {i m} : v i = some m → Step v (.moveAssign i i) v
  | setError {i e m} : v i = some m →
      Step v (.setError i e) (update v i (some { m with error := e }))
  | setRef {i r m} : v i = some m →
      Step v (.setRef i r) (update v i (some { m with ref := some r }))
  | setHyp {i h m} : v i = some m →
      Step v (.setHyp i h) (update v i (some { m with hyp := some h }))
  | setRefFrom {i j r m m'} : v i = some m → v j = some m' → m'.ref = some r →
      Step v (.setRefFrom i j) (update v i (some { m with ref := some r }))
  | setHypFrom {i j h m m'} : v i = some m → v j = some m' → m'.hyp = some h →
      Step v (.setHypFrom i j) (update v i (some { m with hyp := some h }))
  | destroy {i m} : v i = some m → Step v (.destroy i) (update v i none)

/-- A program is a sequence of statements. -/
inductive Steps {RE HE : Type} : (Nat → Option (Match RE HE)) → List (MatchStmt RE HE) →
    (Nat → Option (Match RE HE)) → Prop
  | nil {v} : Steps v [] v
  | cons {v c v' cs v''} : Step v c v' → Steps v' cs v'' → Steps v (c :: cs) v''

/-- An allocated cell that no object points to: it can never be freed. -/
def Lost {α : Type} (o : Owners α) (p : Nat) : Prop :=
  o.heap.cell p ≠ none ∧ ∀ i, o.ptr i ≠ some p

/-- The program has lost memory. -/
def Leaks {RE HE : Type} (s : MatchStore RE HE) : Prop :=
  (∃ p, Lost s.refs p) ∨ (∃ p, Lost s.hyps p)

/-! ## Mappers -/

/-- The ids that one mapper gives to a sequence of strings -/
def idsOf (maxInt : Nat) : IntMapper → List Str → List (Cpp Nat)
  | _, [] => []
  | m, w :: ws => (m.lookup maxInt w).2 :: idsOf maxInt (m.lookup maxInt w).1 ws

/-- The strings of the calls of a program, whatever the object -/
def wordsOf (cs : List MapperStmt) : List Str := cs.filterMap fun
  | .call _ w => some w
  | _ => none

/-- The program respects the lifetimes of its objects in the statement `c`: it creates an object
that does not exist, or uses objects that exist. -/
def Respects (alive : Nat → Prop) : MapperStmt → Prop
  | .construct i => ¬ alive i
  | .copy i j => ¬ alive i ∧ alive j
  | .assign i j => alive i ∧ alive j
  | .call i _ => alive i
  | .destroy i => alive i

/-! ## Parsers -/

/-- The registration that gives the option `name` its variable: the first of that name. The name
`help` is reserved. -/
def FirstOption (rs : List Register) (name : Str) (v : OptVal) : Prop :=
  name ≠ "help".toList ∧ ∃ before after, rs = before ++ .option name v :: after ∧
    ∀ w, Register.option name w ∉ before

/-- The mandatory arguments in the order of registration -/
def argumentsOf (rs : List Register) : List OptVal := rs.filterMap fun
  | .argument v => some v
  | _ => none

/-- The optional arguments in the order of registration -/
def optArgumentsOf (rs : List Register) : List OptVal := rs.filterMap fun
  | .optArgument v => some v
  | _ => none

end Kws.Spec
