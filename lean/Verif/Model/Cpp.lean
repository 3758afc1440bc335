import Mathlib.Algebra.Order.Ring.Rat
import Mathlib.Algebra.Field.Rat

/-!
# The C++ environment of the model

Outcomes, the standard algorithms and containers used by kws-eval, and floating-point values.
Nothing in this file models a file of /repo; it fixes the meaning of the C++ features that the
code in /repo relies on (see DESIGN.md, trusted base).
-/

namespace Kws

/-- Abnormal outcomes of a C++ call. -/
inductive Fault
  /-- undefined behaviour (out-of-range access, signed overflow, invalid comparator, read of an
  uninitialised variable, ...) -/
  | ub
  /-- a failed `assert` -/
  | assertFail
  /-- a thrown `std::range_error` -/
  | rangeError
  /-- a thrown `std::invalid_argument` -/
  | invalidArgument
  /-- a thrown `std::ios_base::failure` -/
  | ioFailure
  /-- the call never returns (unbounded recursion) -/
  | diverge
  deriving DecidableEq, Repr

/-- Result of a C++ call that may go wrong. -/
abbrev Cpp (α : Type) := Except Fault α

/-! ## Comparison operators -/

/-- The three primitive comparison operators that classes of the code base define by hand:
`operator==`, `operator!=`, `operator<`. -/
class Cmp (α : Type) where
  eq : α → α → Bool
  ne : α → α → Bool
  lt : α → α → Bool

/-- Built-in types (`int`, `uint32_t`, `std::string`): comparison of a linear order. -/
@[reducible] def Cmp.ofLinearOrder (α : Type) [LinearOrder α] : Cmp α where
  eq a b := decide (a = b)
  ne a b := decide (a ≠ b)
  lt a b := decide (a < b)

instance : Cmp Nat := Cmp.ofLinearOrder Nat
instance : Cmp Int := Cmp.ofLinearOrder Int

instance : Cmp UInt32 where
  eq a b := decide (a = b)
  ne a b := decide (a ≠ b)
  lt a b := decide (a < b)

instance : Cmp Int32 where
  eq a b := decide (a = b)
  ne a b := decide (a ≠ b)
  lt a b := decide (a < b)

/-- The operators describe one strict total order whose equality is real equality. -/
class LawfulCmp (α : Type) [Cmp α] : Prop where
  eq_iff : ∀ a b : α, Cmp.eq a b = true ↔ a = b
  ne_iff : ∀ a b : α, Cmp.ne a b = true ↔ a ≠ b
  irrefl : ∀ a : α, Cmp.lt a a = false
  trans : ∀ a b c : α, Cmp.lt a b = true → Cmp.lt b c = true → Cmp.lt a c = true
  tri : ∀ a b : α, Cmp.lt a b = true ∨ a = b ∨ Cmp.lt b a = true

/-! ## `std::sort` -/

/-- The requirement of the C++ standard on a comparator: it is a strict weak order on the
elements being sorted. -/
structure StrictWeakOn {α : Type} (lt : α → α → Bool) (l : List α) : Prop where
  irrefl : ∀ a ∈ l, lt a a = false
  trans : ∀ a ∈ l, ∀ b ∈ l, ∀ c ∈ l, lt a b = true → lt b c = true → lt a c = true
  incomp : ∀ a ∈ l, ∀ b ∈ l, ∀ c ∈ l, lt a b = false → lt b a = false →
    lt b c = false → lt c b = false → lt a c = false ∧ lt c a = false

/-- `l'` is a possible result of sorting `l`: a permutation in which no later element must come
before an earlier one. -/
structure SortedPerm {α : Type} (lt : α → α → Bool) (l l' : List α) : Prop where
  perm : l'.Perm l
  sorted : l'.Pairwise (fun a b => lt b a = false)

/-- An implementation of `std::sort`: an arbitrary function that meets the postcondition whenever
the comparator is valid; an invalid comparator is undefined behaviour. Theorems quantify over all
values of this type, so they hold for every (unstable) sorting algorithm. -/
structure StdSort where
  sort : {α : Type} → (α → α → Bool) → List α → Cpp (List α)
  ok : ∀ {α : Type} (lt : α → α → Bool) (l : List α), StrictWeakOn lt l →
    ∃ l', sort lt l = .ok l' ∧ SortedPerm lt l l'
  bad : ∀ {α : Type} (lt : α → α → Bool) (l : List α), ¬ StrictWeakOn lt l →
    sort lt l = .error .ub

/-! ## `std::set` -/

namespace StdSet
variable {α : Type} (lt : α → α → Bool)

/-- `std::set::insert` / `emplace`: ordered insertion unless an equivalent element is present; the
flag says whether an insertion took place. -/
def insert (x : α) : List α → List α × Bool
  | [] => ([x], true)
  | y :: ys =>
    if lt x y then (x :: y :: ys, true)
    else if lt y x then ((y :: (insert x ys).1), (insert x ys).2)
    else (y :: ys, false)

/-- `std::set::find`: the stored element equivalent to `x`. -/
def find? (x : α) : List α → Option α
  | [] => none
  | y :: ys => if !lt x y && !lt y x then some y else find? x ys

/-- `std::set::erase(key)`: remove the element equivalent to `x`; returns how many were removed. -/
def erase (x : α) : List α → List α × Nat
  | [] => ([], 0)
  | y :: ys => if !lt x y && !lt y x then (ys, 1) else (y :: (erase x ys).1, (erase x ys).2)

/-- `std::set(begin, end)`: insert the elements one by one. -/
def ofList (l : List α) : List α := l.foldl (fun s x => (insert lt x s).1) []

end StdSet

/-! ## `std::unordered_map` and `std::map` -/

namespace AMap
variable {κ ν : Type} [DecidableEq κ]

/-- `find` -/
def find? (k : κ) : List (κ × ν) → Option ν
  | [] => none
  | (k', v) :: m => if k = k' then some v else find? k m

/-- `emplace(k, v)`: keeps an existing entry. The value returned is `emplace(..).first->second`. -/
def emplace (k : κ) (v : ν) (m : List (κ × ν)) : List (κ × ν) × ν :=
  match find? k m with
  | some v' => (m, v')
  | none => (m ++ [(k, v)], v)

/-- `m[k] = v` (or writing through a reference to an existing entry): overwrite or add. -/
def set (k : κ) (v : ν) : List (κ × ν) → List (κ × ν)
  | [] => [(k, v)]
  | (k', v') :: m => if k = k' then (k', v) :: m else (k', v') :: set k v m

end AMap

/-! ## Floating point -/

/-- Rounding applied to the result of every `float` (`f32`) and `double` (`f64`) operation. -/
structure Rnd where
  f32 : ℚ → ℚ
  f64 : ℚ → ℚ

/-- Exact arithmetic. -/
def Rnd.exact : Rnd := ⟨id, id⟩

/-- What the theorems about rounded arithmetic assume of the rounding: it is monotone and exact on
the numbers that the format can represent (significands of 24 bits for `float`, 53 bits for
`double`). IEEE-754 round-to-nearest has these properties (`ieee_faithful`). -/
structure Rnd.Faithful (R : Rnd) : Prop where
  mono32 : ∀ a b, a ≤ b → R.f32 a ≤ R.f32 b
  mono64 : ∀ a b, a ≤ b → R.f64 a ≤ R.f64 b
  dyadic32 : ∀ m k : ℕ, m ≤ 2 ^ 24 → k ≤ 149 → R.f32 (m / 2 ^ k) = m / 2 ^ k
  dyadic64 : ∀ m k : ℕ, m ≤ 2 ^ 53 → k ≤ 1074 → R.f64 (m / 2 ^ k) = m / 2 ^ k

/-- More properties of `double` rounding: rounded numbers stay as they are, the difference of two
different `double`s does not vanish (gradual underflow), the error in [0,1] is at most `2^-54`, and
`t` and the rounded `1 - t` do not add up to more than 1. IEEE-754 has these properties
(`ieee_precise`). -/
structure Rnd.Precise (R : Rnd) : Prop extends R.Faithful where
  idem64 : ∀ a, R.f64 (R.f64 a) = R.f64 a
  gap64 : ∀ a b, R.f64 a = a → R.f64 b = b → a < b → 0 < R.f64 (b - a)
  err64 : ∀ a, 0 ≤ a → a ≤ 1 → |R.f64 a - a| ≤ 1 / 2 ^ 54
  compl64 : ∀ t, 0 ≤ t → t ≤ 1 → R.f64 (t + R.f64 (1 - t)) ≤ 1

/-- A `float` score: NaN, infinities or a finite number (`-0` and `+0` are identified). -/
inductive Flt
  | nan
  | ninf
  | fin (q : ℚ)
  | pinf
  deriving DecidableEq

namespace Flt

/-- `operator<` on floats: every comparison with NaN is false. -/
def lt : Flt → Flt → Bool
  | nan, _ => false
  | _, nan => false
  | ninf, ninf => false
  | ninf, _ => true
  | _, ninf => false
  | pinf, _ => false
  | _, pinf => true
  | fin a, fin b => decide (a < b)

/-- `operator==` on floats: NaN differs from everything, including itself. -/
def eq : Flt → Flt → Bool
  | nan, _ => false
  | _, nan => false
  | a, b => decide (a = b)

/-- `operator!=` on floats. -/
def ne (a b : Flt) : Bool := !eq a b

end Flt

end Kws
