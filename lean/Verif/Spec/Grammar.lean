import Verif.Spec.Reading

/-!
# What the lines of the input files look like

Grammars as relations `G text value rest`: a prefix of `text` is the representation of `value`, and
`rest` is what follows.
-/

namespace Kws.Spec

/-- The number written with the given decimal digits. -/
def numeral : Str → Nat
  | [] => 0
  | c :: r => (c.toNat - 48) * 10 ^ r.length + numeral r

/-- An optional sign. -/
inductive Sign : Str → Bool → Prop
  | none : Sign [] false
  | plus : Sign ['+'] false
  | minus : Sign ['-'] true

/-- `w` is an optional sign and a decimal numeral, and denotes `z`. -/
def Denotes (w : Str) (z : Int) : Prop := ∃ sg neg ds, w = sg ++ ds ∧ Sign sg neg ∧ Numeral ds ∧
  z = if neg then -(numeral ds : Int) else numeral ds

/-- `w` is a decimal floating-point literal denoting `q`. -/
def DenotesReal (w : Str) (q : ℚ) : Prop := ∃ sg neg int frac f ex k,
  w = sg ++ (int ++ (frac ++ ex)) ∧ Sign sg neg ∧ (∀ c ∈ int, isDigit c = true) ∧
  (∀ c ∈ f, isDigit c = true) ∧ ((frac = [] ∧ f = []) ∨ frac = '.' :: f) ∧ int ++ f ≠ [] ∧
  ((ex = [] ∧ k = 0) ∨ ∃ e w', ex = e :: w' ∧ (e = 'e' ∨ e = 'E') ∧ Denotes w' k) ∧
  q = (if neg then -1 else 1) * (numeral (int ++ f) : ℚ) * 10 ^ (k - f.length)

/-- Nothing, or something that starts with whitespace. -/
def Ended (r : Str) : Prop := ∀ c, r.head? = some c → isSpace c = true

/-- The rest does not continue a numeral. -/
def NumeralEnded (r : Str) : Prop := ∀ c, r.head? = some c → isDigit c = false

/-- A word, after whitespace. -/
def TextField (r : Str) (w : Str) (r' : Str) : Prop :=
  ∃ sp, r = sp ++ (w ++ r') ∧ Blank sp ∧ Word w ∧ Ended r'

/-- An integer, after whitespace, of magnitude at most `2^32-1`; its value is taken modulo
`2^32`. -/
def CoordField (r : Str) (v : UInt32) (r' : Str) : Prop :=
  ∃ sp w z, r = sp ++ (w ++ r') ∧ Blank sp ∧ Denotes w z ∧ NumeralEnded r' ∧ |z| ≤ 2 ^ 32 - 1 ∧
    (v.toNat : Int) = z % 2 ^ 32

/-- A real number, after whitespace and before whitespace, that does not overflow. -/
def ScoreField (R : Rnd) (r : Str) (v : Flt) (r' : Str) : Prop :=
  ∃ sp w q, r = sp ++ (w ++ r') ∧ Blank sp ∧ DenotesReal w q ∧ Blank r' ∧ |R.f32 q| ≤ fltMax ∧
    v = .fin (R.f32 q)

/-- Four coordinates. -/
def BoxText (r : Str) (b : BBox UInt32) (r' : Str) : Prop :=
  ∃ r1 r2 r3, CoordField r b.x r1 ∧ CoordField r1 b.y r2 ∧ CoordField r2 b.w r3 ∧
    CoordField r3 b.h r'

/-- Query, document and box. -/
def BoxEventText (r : Str) (e : Event Str (DocBox Str UInt32)) (r' : Str) : Prop :=
  ∃ r1 r2, TextField r e.query r1 ∧ TextField r1 e.location.document r2 ∧
    BoxText r2 e.location.toBBox r'

/-- Query and location. -/
def StrEventText (r : Str) (e : Event Str Str) (r' : Str) : Prop :=
  ∃ r1, TextField r e.query r1 ∧ TextField r1 e.location r'

/-- An event and its score. -/
def ScoredText (R : Rnd) {L : Type} (G : Str → Event Str L → Str → Prop) (r : Str)
    (e : ScoredEvent Str L) (r' : Str) : Prop :=
  ∃ r1, G r e.base r1 ∧ ScoreField R r1 e.score r'

/-- The four file formats: references and hypotheses of the two tools. -/
inductive Format (R : Rnd) : {E : Type} → Extractor E → (Str → E → Str → Prop) → Prop
  | boxRefs : Format R extractBoxEvent BoxEventText
  | boxHyps : Format R (extractScored R extractBoxEvent) (ScoredText R BoxEventText)
  | strRefs : Format R extractStrEvent StrEventText
  | strHyps : Format R (extractScored R extractStrEvent) (ScoredText R StrEventText)

/-- The line consists of the representation of `e` and nothing else. -/
def IsEvent {E : Type} (G : Str → E → Str → Prop) (l : Str) (e : E) : Prop :=
  ∃ r, G l e r ∧ Blank r

/-- The events of a list of lines, every line being ignored or one event. -/
inductive Yields {E : Type} (G : Str → E → Str → Prop) : List Str → List E → Prop
  | nil : Yields G [] []
  | skip {l ls es} : Ignored l → Yields G ls es → Yields G (l :: ls) es
  | event {l ls e es} : ¬ Ignored l → IsEvent G l e → Yields G ls es →
      Yields G (l :: ls) (e :: es)

/-- Lines that differ by whitespace around them, and by ignored lines. -/
inductive SameContent : List Str → List Str → Prop
  | nil : SameContent [] []
  | line {l l' ls ls'} : trim l = trim l' → SameContent ls ls' → SameContent (l :: ls) (l' :: ls')
  | left {l ls ls'} : Ignored l → SameContent ls ls' → SameContent (l :: ls) ls'
  | right {l ls ls'} : Ignored l → SameContent ls ls' → SameContent ls (l :: ls')

/-- The same outcome up to the number of the offending line. -/
inductive SameOutcome : ReadStatus → ReadStatus → Prop
  | ok : SameOutcome .ok .ok
  | badLine {n n'} : SameOutcome (.badLine n) (.badLine n')
  | badStream : SameOutcome .badStream .badStream
  | fault {f} : SameOutcome (.fault f) (.fault f)

/-- Mapping events one after the other, up to the first exception. -/
def mapEach {μ E1 E2 : Type} (map : μ → E1 → μ × Cpp E2) : μ → List E1 → μ × List E2 × Option Fault
  | m, [] => (m, [], none)
  | m, e :: es =>
    match map m e with
    | (m', .error f) => (m', [], some f)
    | (m', .ok e') =>
      let r := mapEach map m' es
      (r.1, e' :: r.2.1, r.2.2)

end Kws.Spec
