import Verif.Model.Events

/-!
# core/MatchError.h, core/MatchErrorCounts.h, core/Match.h
-/

namespace Kws

/-- core/MatchError.h:9-13, 34. The members are `float`s; they are finite for every error that the
code base constructs. -/
structure MatchError where
  fp : ℚ
  fn : ℚ
  deriving DecidableEq

namespace MatchError

/-- core/MatchError.h:11: default constructor -/
def default : MatchError := ⟨0, 0⟩

/-- core/MatchError.h:17-19 `operator==` -/
def eq (a b : MatchError) : Bool := decide (a.fp = b.fp) && decide (a.fn = b.fn)

/-- core/MatchError.h:21-23 `operator!=` -/
def ne (a b : MatchError) : Bool := decide (a.fp ≠ b.fp) || decide (a.fn ≠ b.fn)

/-- core/MatchError.h:29 `NH` -/
def nh (e : MatchError) : Nat := if e.fp > 0 ∨ e.fn < 1 then 1 else 0

/-- core/MatchError.h:31 `NR` -/
def nr (e : MatchError) : Nat := if e.fp < 1 ∨ e.fn > 0 then 1 else 0

end MatchError

/-- core/MatchErrorCounts.h:12-24, 54 -/
structure MatchErrorCounts where
  fp : ℚ
  fn : ℚ
  nh : Nat
  nr : Nat
  deriving DecidableEq

namespace MatchErrorCounts

/-- core/MatchErrorCounts.h:17-18 -/
def default : MatchErrorCounts := ⟨0, 0, 0, 0⟩

/-- core/MatchErrorCounts.h:20-21: conversion from a `MatchError` -/
def ofError (m : MatchError) : MatchErrorCounts := ⟨m.fp, m.fn, m.nh, m.nr⟩

/-- core/MatchErrorCounts.h:12: the base-class part, on which `operator==` of core/MatchError.h works
if one of the two is only known as a `MatchError` -/
def base (a : MatchErrorCounts) : MatchError := ⟨a.fp, a.fn⟩

/-- core/MatchErrorCounts.h:26-29 `operator==` -/
def eq (a b : MatchErrorCounts) : Bool :=
  decide (a.fp = b.fp) && decide (a.fn = b.fn) && decide (a.nh = b.nh) && decide (a.nr = b.nr)

/-- core/MatchErrorCounts.h:31-34 `operator!=` -/
def ne (a b : MatchErrorCounts) : Bool :=
  decide (a.fp ≠ b.fp) || decide (a.fn ≠ b.fn) || decide (a.nh ≠ b.nh) || decide (a.nr ≠ b.nr)

/-- core/MatchErrorCounts.h:36-39 `operator+` (`float` additions) -/
def add (R : Rnd) (a b : MatchErrorCounts) : MatchErrorCounts :=
  ⟨R.f32 (a.fp + b.fp), R.f32 (a.fn + b.fn), a.nh + b.nh, a.nr + b.nr⟩

/-- core/MatchErrorCounts.h:41-47 `operator+=` with a `MatchError` (`float` additions) -/
def addError (R : Rnd) (a : MatchErrorCounts) (e : MatchError) : MatchErrorCounts :=
  ⟨R.f32 (a.fp + e.fp), R.f32 (a.fn + e.fn), a.nh + e.nh, a.nr + e.nr⟩

end MatchErrorCounts

/-- The virtual interface `FP() FN() NH() NR()` shared by `MatchError` and `MatchErrorCounts`
(core/MatchError.h:25-31, core/MatchErrorCounts.h:49-51). -/
class IsError (ε : Type) where
  fp : ε → ℚ
  fn : ε → ℚ
  nh : ε → Nat
  nr : ε → Nat

instance : IsError MatchError := ⟨MatchError.fp, MatchError.fn, MatchError.nh, MatchError.nr⟩
instance : IsError MatchErrorCounts :=
  ⟨MatchErrorCounts.fp, MatchErrorCounts.fn, MatchErrorCounts.nh, MatchErrorCounts.nr⟩

/-- core/Match.h:13, 97-99. The owned pointers `ref_`, `hyp_` are optional values. -/
structure Match (RE HE : Type) where
  ref : Option RE
  hyp : Option HE
  error : MatchError
  deriving DecidableEq

namespace Match
variable {RE HE : Type}

/-- core/Match.h:18: default constructor -/
def default : Match RE HE := ⟨none, none, MatchError.default⟩

/-- core/Match.h:27-31 -/
def make (ref : RE) (hyp : HE) (error : MatchError) : Match RE HE := ⟨some ref, some hyp, error⟩

/-- core/Match.h:33 -/
def hasHyp (m : Match RE HE) : Bool := m.hyp.isSome

/-- core/Match.h:35 -/
def hasRef (m : Match RE HE) : Bool := m.ref.isSome

/-- core/Match.h:45-48: asserts that there is a hypothesis -/
def getHyp (m : Match RE HE) : Cpp HE :=
  match m.hyp with
  | some h => .ok h
  | none => .error .assertFail

/-- core/Match.h:50-53: asserts that there is a reference -/
def getRef (m : Match RE HE) : Cpp RE :=
  match m.ref with
  | some r => .ok r
  | none => .error .assertFail

/-- core/Match.h:20-23: copy constructor -/
def copy (other : Match RE HE) : Match RE HE :=
  let m : Match RE HE := ⟨none, none, other.error⟩
  let m := if other.hasRef then { m with ref := other.ref } else m
  if other.hasHyp then { m with hyp := other.hyp } else m

/-- core/Match.h:55-61: copy assignment `v[i] = v[j]` on objects living in memory `v`; source and
destination may be the same object. The statements are executed in order, each reading the current
contents of the source. (`release()` also leaks the old objects, see Model/Ownership.lean.) -/
def assign {n : Nat} (v : Fin n → Match RE HE) (i j : Fin n) : Fin n → Match RE HE :=
  -- error_ = other.error_;
  let v1 := Function.update v i { v i with error := (v j).error }
  -- ref_.release(); hyp_.release();
  let v2 := Function.update v1 i { v1 i with ref := none, hyp := none }
  -- if (other.HasRef()) SetRef(other.GetRef());
  let v3 := if (v2 j).hasRef then Function.update v2 i { v2 i with ref := (v2 j).ref } else v2
  -- if (other.HasHyp()) SetHyp(other.GetHyp());
  if (v3 j).hasHyp then Function.update v3 i { v3 i with hyp := (v3 j).hyp } else v3

/-- core/Match.h:63-68: move assignment `v[i] = std::move(v[j])`, `i ≠ j`: the source loses its
events and keeps its error. -/
def moveAssign {n : Nat} (v : Fin n → Match RE HE) (i j : Fin n) : Fin n → Match RE HE :=
  let src := v j
  if i = j then v
  else Function.update (Function.update v i src) j { src with ref := none, hyp := none }

/-- Comparison of owned events when both sides have one. -/
def optEq {α : Type} [Cmp α] : Option α → Option α → Bool
  | some a, some b => Cmp.eq a b
  | none, _ => true
  | some _, none => false

/-- core/Match.h:70-76 `operator==` -/
def eq [Cmp RE] [Cmp HE] (a b : Match RE HE) : Bool :=
  MatchError.eq a.error b.error &&
  (a.hasRef == b.hasRef) &&
  (a.hasHyp == b.hasHyp) &&
  (!a.hasRef || optEq a.ref b.ref) &&
  (!a.hasHyp || optEq a.hyp b.hyp)

/-- core/Match.h:78-80 `operator!=`: the body `!(*this != other)` calls itself. With a call stack
of depth `fuel` the call runs out of stack. -/
def ne (fuel : Nat) (a b : Match RE HE) : Cpp Bool :=
  match fuel with
  | 0 => .error .diverge
  | fuel + 1 => do return !(← ne fuel a b)

/-- core/Match.h:82-87 -/
def makeFalsePositive (hyp : HE) : Match RE HE := ⟨none, some hyp, ⟨1, 0⟩⟩

/-- core/Match.h:89-94 -/
def makeFalseNegative (ref : RE) : Match RE HE := ⟨some ref, none, ⟨0, 1⟩⟩

end Match

end Kws
