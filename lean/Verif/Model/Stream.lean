import Verif.Model.Mapper

/-!
# `std::istream` and `std::ostream` in the "C" locale, and the stream operators of core/*.h

The first part fixes the meaning of the library (libstdc++); the second part models the
`operator>>` and `operator<<` of the code base.
-/

namespace Kws

/-- An input stream: the characters still to be read and the state bits. (`badbit` is treated as
`failbit`.) -/
structure IStream where
  rest : Str
  eof : Bool := false
  fail : Bool := false
  deriving DecidableEq

/-- `isspace` in the "C" locale -/
def isSpace (c : Char) : Bool :=
  c == ' ' || c == '\t' || c == '\n' || c == '\x0b' || c == '\x0c' || c == '\r'

def isDigit (c : Char) : Bool := '0' ≤ c && c ≤ '9'

namespace IStream

def ofStr (s : Str) : IStream := { rest := s }

def good (s : IStream) : Bool := !s.eof && !s.fail

/-- `is >> std::ws` -/
def ws (s : IStream) : IStream :=
  if s.good then
    { s with rest := s.rest.dropWhile isSpace, eof := (s.rest.dropWhile isSpace).isEmpty }
  else { s with fail := true }

/-- `is.peek()`: the next character, if any -/
def peek (s : IStream) : IStream × Option Char :=
  if s.good then
    match s.rest with
    | [] => ({ s with eof := true }, none)
    | c :: _ => (s, some c)
  else ({ s with fail := true }, none)

/-- The sentry of a formatted input operation: fails on a stream that is not good; skips
whitespace if `skip`; fails at the end of the stream after skipping. -/
def sentry (skip : Bool) (s : IStream) : IStream :=
  if s.good then
    if skip then
      if (s.rest.dropWhile isSpace).isEmpty then { rest := [], eof := true, fail := true }
      else { s with rest := s.rest.dropWhile isSpace }
    else s
  else { s with fail := true }

/-- `is >> std::string` -/
def getString (s : IStream) : IStream × Option Str :=
  let s := s.sentry true
  if s.fail then (s, none)
  else
    let w := s.rest.takeWhile (fun c => !isSpace c)
    let r := s.rest.dropWhile (fun c => !isSpace c)
    ({ rest := r, eof := r.isEmpty, fail := w.isEmpty }, some w)

/-- value of a sequence of decimal digits -/
def natVal (ds : Str) : Nat := ds.foldl (fun n c => 10 * n + (c.toNat - '0'.toNat)) 0

/-- An optional sign: `(negative, rest)` -/
def scanSign : Str → Bool × Str
  | '-' :: r => (true, r)
  | '+' :: r => (false, r)
  | r => (false, r)

/-- `is >> n` for an unsigned type with maximum `max`: an optional sign and digits. No digits:
value 0 and `failbit`. Magnitude above `max`: value `max` and `failbit`. A minus sign negates modulo
`max + 1`. -/
def getUnsigned (max : Nat) (skip : Bool) (s : IStream) : IStream × Option Nat :=
  let s := s.sentry skip
  if s.fail then (s, none)
  else
    let (neg, r) := scanSign s.rest
    let ds := r.takeWhile isDigit
    let r := r.dropWhile isDigit
    let n := natVal ds
    if ds.isEmpty then ({ rest := r, eof := r.isEmpty, fail := true }, some 0)
    else if n > max then ({ rest := r, eof := r.isEmpty, fail := true }, some max)
    else ({ rest := r, eof := r.isEmpty }, some (if neg then (max + 1 - n) % (max + 1) else n))

/-- `is >> n` for a signed type with range `-max-1 .. max`. -/
def getSigned (max : Nat) (skip : Bool) (s : IStream) : IStream × Option Int :=
  let s := s.sentry skip
  if s.fail then (s, none)
  else
    let (neg, r) := scanSign s.rest
    let ds := r.takeWhile isDigit
    let r := r.dropWhile isDigit
    let n : Int := if neg then -(natVal ds) else natVal ds
    if ds.isEmpty then ({ rest := r, eof := r.isEmpty, fail := true }, some 0)
    else if n > max then ({ rest := r, eof := r.isEmpty, fail := true }, some max)
    else if n < -max - 1 then ({ rest := r, eof := r.isEmpty, fail := true }, some (-max - 1))
    else ({ rest := r, eof := r.isEmpty }, some n)

/-- The text collected for a floating-point number. -/
structure FloatText where
  neg : Bool
  int : Str
  frac : Str
  /-- exponent sign and digits, if there is an `e` -/
  exp : Option (Bool × Str)

/-- The longest prefix that can belong to a floating-point number, and the rest: sign, digits, an
optional point with digits, and, if there was a digit, an optional exponent. -/
def scanFloat (r : Str) : FloatText × Str :=
  let (neg, r) := scanSign r
  let int := r.takeWhile isDigit
  let r := r.dropWhile isDigit
  let (frac, r) :=
    match r with
    | '.' :: r' => (r'.takeWhile isDigit, r'.dropWhile isDigit)
    | _ => ([], r)
  if int.isEmpty && frac.isEmpty then (⟨neg, int, frac, none⟩, r)
  else
    match r with
    | c :: r' =>
      if c == 'e' || c == 'E' then
        let (eneg, r') := scanSign r'
        (⟨neg, int, frac, some (eneg, r'.takeWhile isDigit)⟩, r'.dropWhile isDigit)
      else (⟨neg, int, frac, none⟩, r)
    | [] => (⟨neg, int, frac, none⟩, [])

/-- The number denoted by a complete text (`strtof`/`strtod` before rounding), if it is complete. -/
def FloatText.value? (t : FloatText) : Option ℚ :=
  if t.int.isEmpty && t.frac.isEmpty then none
  else
    let m : ℚ := natVal (t.int ++ t.frac)
    let m := if t.neg then -m else m
    match t.exp with
    | none => some (m / 10 ^ t.frac.length)
    | some (eneg, ds) =>
      if ds.isEmpty then none
      else
        let e := natVal ds
        some (if eneg then m / 10 ^ t.frac.length / 10 ^ e else m / 10 ^ t.frac.length * 10 ^ e)

/-- `is >> x` for a floating type with rounding `rd` and largest finite value `max`. Incomplete
text: value 0 and `failbit`. Overflow: `±max` and `failbit`. The text `nan` or `inf` is not
accepted. -/
def getFloat (rd : ℚ → ℚ) (max : ℚ) (skip : Bool) (s : IStream) : IStream × Option ℚ :=
  let s := s.sentry skip
  if s.fail then (s, none)
  else
    let (t, r) := scanFloat s.rest
    match t.value? with
    | none => ({ rest := r, eof := r.isEmpty, fail := true }, some 0)
    | some q =>
      if rd q > max then ({ rest := r, eof := r.isEmpty, fail := true }, some max)
      else if rd q < -max then ({ rest := r, eof := r.isEmpty, fail := true }, some (-max))
      else ({ rest := r, eof := r.isEmpty }, some (rd q))

/-- `std::getline(is, line)` -/
def getline (s : IStream) : IStream × Option Str :=
  if s.good then
    match s.rest with
    | [] => ({ s with eof := true, fail := true }, some [])
    | _ =>
      let line := s.rest.takeWhile (· != '\n')
      match s.rest.dropWhile (· != '\n') with
      | [] => ({ rest := [], eof := true }, some line)
      | _ :: r => ({ rest := r }, some line)
  else ({ s with fail := true }, none)

end IStream

/-- largest finite `float` -/
def fltMax : ℚ := (2 ^ 24 - 1) * 2 ^ 104
/-- largest finite `double` -/
def dblMax : ℚ := (2 ^ 53 - 1) * 2 ^ 971

/-! ## Stream operators of the code base -/

/-- Extraction of a value: the new stream and the value, `none` if some part of the object was
left unassigned. -/
abbrev Extractor (α : Type) := IStream → IStream × Option α

/-- `is >> a >> b`: both extractions are attempted -/
def Extractor.pair {α β γ : Type} (f : α → β → γ) (a : Extractor α) (b : Extractor β) :
    Extractor γ := fun s =>
  let (s, x) := a s
  let (s, y) := b s
  (s, match x, y with
      | some x, some y => some (f x y)
      | _, _ => none)

/-- `is >> n` for `uint32_t` -/
def extractU32 : Extractor UInt32 := fun s =>
  let (s, v) := s.getUnsigned (2 ^ 32 - 1) true
  (s, v.map UInt32.ofNat)

/-- `is >> x` for `float` -/
def extractScore (R : Rnd) : Extractor Flt := fun s =>
  let (s, v) := s.getFloat R.f32 fltMax true
  (s, v.map Flt.fin)

/-- core/BoundingBox.h:65-69 -/
def extractBox : Extractor (BBox UInt32) :=
  Extractor.pair (fun (xyw : UInt32 × UInt32 × UInt32) h => ⟨xyw.1, xyw.2.1, xyw.2.2, h⟩)
    (Extractor.pair (fun (xy : UInt32 × UInt32) w => (xy.1, xy.2, w))
      (Extractor.pair Prod.mk extractU32 extractU32) extractU32) extractU32

/-- core/DocumentBoundingBox.h:58-62 -/
def extractDocBox : Extractor (DocBox Str UInt32) :=
  Extractor.pair (fun d b => ⟨b, d⟩) IStream.getString extractBox

/-- core/Event.h:61-65 with a document box location -/
def extractBoxEvent : Extractor (Event Str (DocBox Str UInt32)) :=
  Extractor.pair Event.mk IStream.getString extractDocBox

/-- core/Event.h:61-65 with a string location -/
def extractStrEvent : Extractor (Event Str Str) :=
  Extractor.pair Event.mk IStream.getString IStream.getString

/-- core/ScoredEvent.h:60-64 (query, location, score) -/
def extractScored (R : Rnd) {L : Type} (e : Extractor (Event Str L)) :
    Extractor (ScoredEvent Str L) :=
  Extractor.pair ScoredEvent.mk e (extractScore R)

/-- `os << n` for an unsigned integer -/
def showNat (n : Nat) : Str := (toString n).toList

/-- core/BoundingBox.h:71-75 -/
def showBox (b : BBox UInt32) : Str :=
  showNat b.x.toNat ++ ' ' :: showNat b.y.toNat ++ ' ' :: showNat b.w.toNat ++
    ' ' :: showNat b.h.toNat

/-- core/DocumentBoundingBox.h:64-68 -/
def showDocBox (b : DocBox Str UInt32) : Str := b.document ++ ' ' :: showBox b.toBBox

/-- core/Event.h:67-71 with a document box location -/
def showBoxEvent (e : Event Str (DocBox Str UInt32)) : Str :=
  e.query ++ ' ' :: showDocBox e.location

/-- core/Event.h:67-71 with a string location -/
def showStrEvent (e : Event Str Str) : Str := e.query ++ ' ' :: e.location

end Kws
