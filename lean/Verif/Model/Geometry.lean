import Verif.Model.Cpp

/-!
# core/BoundingBox.h and core/DocumentBoundingBox.h
-/

namespace Kws

/-- The operations that the template parameter `T` of `BoundingBox<T>` needs. -/
class Coord (T : Type) extends Cmp T where
  zero : T
  add : T → T → Cpp T
  sub : T → T → Cpp T
  mul : T → T → Cpp T

/-- `T = uint32_t` (tools/Icdar17KwsEval.cc:23): arithmetic modulo 2^32. -/
instance : Coord UInt32 where
  zero := 0
  add a b := .ok (a + b)
  sub a b := .ok (a - b)
  mul a b := .ok (a * b)

/-- Signed 32-bit result or overflow. -/
def Int32.checked (z : Int) : Cpp Int32 :=
  if -2 ^ 31 ≤ z ∧ z < 2 ^ 31 then .ok (Int32.ofInt z) else .error .ub

/-- `T = int` (core/BoundingBoxTest.cc): signed overflow is undefined behaviour. -/
instance : Coord Int32 where
  zero := 0
  add a b := Int32.checked (a.toInt + b.toInt)
  sub a b := Int32.checked (a.toInt - b.toInt)
  mul a b := Int32.checked (a.toInt * b.toInt)

/-- `std::max<T>(a, b)`, i.e. `(a < b) ? b : a`. -/
def Cmp.max {T : Type} [Cmp T] (a b : T) : T := if Cmp.lt a b then b else a

/-- `std::min<T>(a, b)`, i.e. `(b < a) ? b : a`. -/
def Cmp.min {T : Type} [Cmp T] (a b : T) : T := if Cmp.lt b a then b else a

/-- core/BoundingBox.h:11-18 -/
structure BBox (T : Type) where
  x : T
  y : T
  w : T
  h : T
  deriving DecidableEq

namespace BBox
variable {T : Type}

/-- core/BoundingBox.h:20-22 `operator==` -/
def eq [Cmp T] (a b : BBox T) : Bool :=
  Cmp.eq a.x b.x && Cmp.eq a.y b.y && Cmp.eq a.w b.w && Cmp.eq a.h b.h

/-- core/BoundingBox.h:24-26 `operator!=` -/
def ne [Cmp T] (a b : BBox T) : Bool :=
  Cmp.ne a.x b.x || Cmp.ne a.y b.y || Cmp.ne a.w b.w || Cmp.ne a.h b.h

/-- core/BoundingBox.h:28-33 `operator<` -/
def lt [Cmp T] (a b : BBox T) : Bool :=
  if Cmp.ne a.x b.x then Cmp.lt a.x b.x
  else if Cmp.ne a.y b.y then Cmp.lt a.y b.y
  else if Cmp.ne a.w b.w then Cmp.lt a.w b.w
  else Cmp.lt a.h b.h

/-- core/BoundingBox.h:35-37 `operator>` -/
def gt [Cmp T] (a b : BBox T) : Bool := lt b a

/-- core/BoundingBox.h:39-41 `operator<=` -/
def le [Cmp T] (a b : BBox T) : Bool := !gt a b

/-- core/BoundingBox.h:43-45 `operator>=` -/
def ge [Cmp T] (a b : BBox T) : Bool := !lt a b

instance [Cmp T] : Cmp (BBox T) := ⟨eq, ne, lt⟩

/-- core/BoundingBox.h:47-49 `Area` -/
def area [Coord T] (a : BBox T) : Cpp T := Coord.mul a.w a.h

/-- core/BoundingBox.h:51-58 `IntersectionArea` -/
def intersectionArea [Coord T] (a b : BBox T) : Cpp T := do
  let x1 := Cmp.max a.x b.x
  let x2 := Cmp.min (← Coord.add a.x a.w) (← Coord.add b.x b.w)
  let y1 := Cmp.max a.y b.y
  let y2 := Cmp.min (← Coord.add a.y a.h) (← Coord.add b.y b.h)
  if Cmp.lt x2 x1 || Cmp.lt y2 y1 then return Coord.zero
  else Coord.mul (← Coord.sub x2 x1) (← Coord.sub y2 y1)

/-- core/BoundingBox.h:60-62 `UnionArea` (the additions associate to the left) -/
def unionArea [Coord T] (a b : BBox T) : Cpp T := do
  Coord.sub (← Coord.add (← a.area) (← b.area)) (← a.intersectionArea b)

end BBox

/-- core/DocumentBoundingBox.h:12-19. `D` is the type of `document`: `std::string` in the code. -/
structure DocBox (D T : Type) extends BBox T where
  document : D
  deriving DecidableEq

namespace DocBox
variable {D T : Type}

/-- core/DocumentBoundingBox.h:21-23 `operator==` -/
def eq [Cmp D] [Cmp T] (a b : DocBox D T) : Bool :=
  Cmp.eq a.document b.document && BBox.eq a.toBBox b.toBBox

/-- core/DocumentBoundingBox.h:25-27 `operator!=` -/
def ne [Cmp D] [Cmp T] (a b : DocBox D T) : Bool :=
  Cmp.ne a.document b.document || BBox.ne a.toBBox b.toBBox

/-- core/DocumentBoundingBox.h:29-32 `operator<` -/
def lt [Cmp D] [Cmp T] (a b : DocBox D T) : Bool :=
  if Cmp.ne a.document b.document then Cmp.lt a.document b.document
  else BBox.lt a.toBBox b.toBBox

/-- core/DocumentBoundingBox.h:34-36 `operator>` -/
def gt [Cmp D] [Cmp T] (a b : DocBox D T) : Bool := lt b a

/-- core/DocumentBoundingBox.h:38-40 `operator<=` -/
def le [Cmp D] [Cmp T] (a b : DocBox D T) : Bool := !gt a b

/-- core/DocumentBoundingBox.h:42-44 `operator>=` -/
def ge [Cmp D] [Cmp T] (a b : DocBox D T) : Bool := !lt a b

instance [Cmp D] [Cmp T] : Cmp (DocBox D T) := ⟨eq, ne, lt⟩

/-- core/DocumentBoundingBox.h:46-51 `IntersectionArea` -/
def intersectionArea [Cmp D] [Coord T] (a b : DocBox D T) : Cpp T :=
  if Cmp.eq a.document b.document then BBox.intersectionArea a.toBBox b.toBBox
  else .ok Coord.zero

/-- core/DocumentBoundingBox.h:53-55 `UnionArea` -/
def unionArea [Cmp D] [Coord T] (a b : DocBox D T) : Cpp T := do
  Coord.sub (← Coord.add (← a.toBBox.area) (← b.toBBox.area)) (← a.intersectionArea b)

end DocBox

end Kws
