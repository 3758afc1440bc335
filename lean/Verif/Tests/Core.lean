import Verif.Model.Geometry
import Verif.Model.EventSets
import Verif.Model.Scorers
import Verif.Model.Matcher
import Verif.Model.Mapper
import Verif.Model.Reader
import Verif.Model.Stream

/-!
# The unit tests of /repo, run on the model (core, mapper, matcher, reader, scorer)

These are tests of the model, not proofs about it: every expectation of the project's own unit
tests is evaluated on the definitions of `Verif/Model`. They support the claim that the model
transcribes the code; no property of `properties.jsonl` rests on them. Where a test of /repo uses a
mock, the example uses boxes with the areas that the mock returns, or a hand-written index or
scorer with the answers of the mock.
-/

namespace Kws.Tests

/-! ## core/BoundingBoxTest.cc -/

section BoundingBoxTest

/-- core/BoundingBoxTest.cc:33-35 -/
example : (⟨1, 2, 3, 4⟩ : BBox Int32).area = .ok 12 := by decide +kernel

/-- core/BoundingBoxTest.cc:38-50 -/
example :
    let b1 : BBox Int32 := ⟨1, 2, 3, 4⟩
    let b2 : BBox Int32 := ⟨1, 2, 3, 5⟩
    let b3 := b2
    b1.ne b2 ∧ b2.eq b3 ∧ b1.lt b2 ∧ b2.gt b1 ∧ b1.le b2 ∧ b2.le b3 ∧ b2.ge b1 ∧ b2.ge b3 := by
  decide +kernel

/-- core/BoundingBoxTest.cc:54-75 -/
example :
    let b0 : BBox Int32 := ⟨4, 4, 0, 0⟩
    let b1 : BBox Int32 := ⟨0, 1, 4, 5⟩
    let b3 : BBox Int32 := ⟨99, 99, 99, 99⟩
    let b4 : BBox Int32 := ⟨-1, 0, 3, 4⟩
    b1.intersectionArea b0 = .ok 0 ∧ b1.intersectionArea b1 = b1.area ∧
    b1.intersectionArea b3 = .ok 0 ∧ b1.intersectionArea b4 = .ok 6 ∧
    b1.unionArea b0 = b1.area ∧ b1.unionArea b1 = b1.area ∧
    b1.unionArea b3 = .ok (20 + 9801) ∧ b1.unionArea b4 = .ok (20 + 6) := by
  decide +kernel

/-- core/BoundingBoxTest.cc:78-99 -/
example :
    let b0 : BBox UInt32 := ⟨4, 4, 0, 0⟩
    let b1 : BBox UInt32 := ⟨0, 1, 4, 5⟩
    let b3 : BBox UInt32 := ⟨99, 99, 99, 99⟩
    let b4 : BBox UInt32 := ⟨2, 3, 3, 4⟩
    b1.intersectionArea b0 = .ok 0 ∧ b1.intersectionArea b1 = b1.area ∧
    b1.intersectionArea b3 = .ok 0 ∧ b1.intersectionArea b4 = .ok 6 ∧
    b1.unionArea b0 = b1.area ∧ b1.unionArea b1 = b1.area ∧
    b1.unionArea b3 = .ok (20 + 9801) ∧ b1.unionArea b4 = .ok (20 + 6) := by
  decide +kernel

/-- core/BoundingBoxTest.cc:102-113, with unsigned coordinates -/
example :
    showBox ⟨1, 2, 3, 4⟩ = "1 2 3 4".toList ∧
    extractBox (IStream.ofStr "1 2 3 4".toList) =
      ({ rest := [], eof := true, fail := false }, some ⟨1, 2, 3, 4⟩) := by
  decide +kernel

end BoundingBoxTest

/-! ## core/DocumentBoundingBoxTest.cc -/

section DocumentBoundingBoxTest

/-- A document box, with the arguments of the constructor in the order of the code -/
def docBox {T : Type} (d : String) (x y w h : T) : DocBox Str T := ⟨⟨x, y, w, h⟩, d.toList⟩

/-- core/DocumentBoundingBoxTest.cc:42-58 -/
example :
    let b1 : DocBox Str Int32 := docBox "doc1" 1 2 3 4
    let b2 : DocBox Str Int32 := docBox "doc1" 1 2 3 5
    let b3 := b2
    let b4 : DocBox Str Int32 := docBox "doc2" 1 2 3 4
    b1.ne b2 ∧ b2.eq b3 ∧ b1.lt b2 ∧ b2.gt b1 ∧ b1.le b2 ∧ b2.le b3 ∧ b2.ge b1 ∧ b2.ge b3 ∧
    b1.ne b4 ∧ b1.lt b4 ∧ b4.gt b1 := by
  decide +kernel

/-- core/DocumentBoundingBoxTest.cc:61-86 -/
example :
    let b0 : DocBox Str Int32 := docBox "doc1" 4 4 0 0
    let b1 : DocBox Str Int32 := docBox "doc1" 0 1 4 5
    let b3 : DocBox Str Int32 := docBox "doc1" 99 99 99 99
    let b4 : DocBox Str Int32 := docBox "doc1" (-1) 0 3 4
    let b5 : DocBox Str Int32 := docBox "doc2" 0 1 4 5
    b1.intersectionArea b0 = .ok 0 ∧ b1.intersectionArea b1 = b1.toBBox.area ∧
    b1.intersectionArea b3 = .ok 0 ∧ b1.intersectionArea b4 = .ok 6 ∧
    b1.intersectionArea b5 = .ok 0 ∧
    b1.unionArea b0 = b1.toBBox.area ∧ b1.unionArea b1 = b1.toBBox.area ∧
    b1.unionArea b3 = .ok (20 + 9801) ∧ b1.unionArea b4 = .ok (20 + 6) ∧
    b1.unionArea b5 = .ok (20 + 20) := by
  decide +kernel

/-- core/DocumentBoundingBoxTest.cc:89-114 -/
example :
    let b0 : DocBox Str UInt32 := docBox "doc1" 4 4 0 0
    let b1 : DocBox Str UInt32 := docBox "doc1" 0 1 4 5
    let b3 : DocBox Str UInt32 := docBox "doc1" 99 99 99 99
    let b4 : DocBox Str UInt32 := docBox "doc1" 2 3 3 4
    let b5 : DocBox Str UInt32 := docBox "doc2" 0 1 4 5
    b1.intersectionArea b0 = .ok 0 ∧ b1.intersectionArea b1 = b1.toBBox.area ∧
    b1.intersectionArea b3 = .ok 0 ∧ b1.intersectionArea b4 = .ok 6 ∧
    b1.intersectionArea b5 = .ok 0 ∧
    b1.unionArea b0 = b1.toBBox.area ∧ b1.unionArea b1 = b1.toBBox.area ∧
    b1.unionArea b3 = .ok (20 + 9801) ∧ b1.unionArea b4 = .ok (20 + 6) ∧
    b1.unionArea b5 = .ok (20 + 20) := by
  decide +kernel

/-- core/DocumentBoundingBoxTest.cc:116-127, with unsigned coordinates -/
example :
    showDocBox (docBox "doc" 1 2 3 4) = "doc 1 2 3 4".toList ∧
    extractDocBox (IStream.ofStr "doc 1 2 3 4".toList) =
      ({ rest := [], eof := true, fail := false }, some (docBox "doc" 1 2 3 4)) := by
  decide +kernel

end DocumentBoundingBoxTest

/-! ## core/EventTest.cc

The mock locations of the test answer as the numbers below do. -/

/-- core/EventTest.cc:16-66 -/
example :
    let e1 : Event Nat Nat := ⟨1, 1⟩
    let e2 := e1
    let e3 : Event Nat Nat := ⟨1, 2⟩
    let e4 : Event Nat Nat := ⟨2, 1⟩
    e1.eq e2 ∧ e1.eq e3 = false ∧ e1.eq e4 = false ∧
    e1.ne e2 = false ∧ e1.ne e3 ∧ e1.ne e4 ∧
    e1.lt e2 = false ∧ e1.lt e3 ∧ e1.lt e4 ∧ e3.lt e1 = false ∧ e4.lt e1 = false ∧
    e1.gt e2 = false ∧ e3.gt e1 ∧ e1.gt e4 = false ∧ e4.gt e1 ∧ e1.gt e3 = false := by
  decide +kernel

/-! ## core/EventSetTest.cc -/

/-- core/EventSetTest.cc:13-51 -/
example :
    let e1 : Event Nat Nat := ⟨1, 1⟩
    let e2 : Event Nat Nat := ⟨1, 2⟩
    let e3 : Event Nat Nat := ⟨2, 1⟩
    let s0 : EventSet (Event Nat Nat) := EventSet.new
    let s1 := s0.insert e1
    let s2 := s1.remove e2
    let s3 := s2.insert e1
    let s4 := s3.insert e2
    let s5 := s4.remove e1
    let s6 := s5.insert e2
    let s7 := s6.insert e3
    let s8 := s7.remove e3
    let s9 := s8.insert e2
    let s10 := s9.clear
    s0.size = 0 ∧ s1.size = 1 ∧ s2.size = 1 ∧ s3.size = 1 ∧ s4.size = 2 ∧ s5.size = 1 ∧
    s6.size = 1 ∧ s7.size = 2 ∧ s8.size = 1 ∧ s9.size = 1 ∧ s10.size = 0 := by
  decide +kernel

/-! ## core/DocumentBoundingBoxEventSetTest.cc -/

/-- core/DocumentBoundingBoxEventSetTest.cc:12-54 -/
example :
    let e1 : Event Nat (DocBox Str Int32) := ⟨1, docBox "d1" 1 1 1 1⟩
    let e2 : Event Nat (DocBox Str Int32) := ⟨1, docBox "d1" 2 2 2 2⟩
    let e3 : Event Nat (DocBox Str Int32) := ⟨1, docBox "d2" 2 2 2 2⟩
    let e4 : Event Nat (DocBox Str Int32) := ⟨2, docBox "d1" 2 2 2 2⟩
    let s0 : DocEventSet Nat Str Int32 := DocEventSet.new
    let s1 := s0.insert e1
    let s2 := s1.remove e2
    let s3 := s2.insert e1
    let s4 := s3.insert e2
    let s5 := s4.remove e1
    let s6 := s5.insert e2
    let s7 := (s6.insert e3).insert e4
    let s8 := s7.remove e3
    let s9 := (s8.insert e2).insert e4
    let s10 := s9.clear
    s0.size = .ok 0 ∧ s1.size = .ok 1 ∧ s2.size = .ok 1 ∧ s3.size = .ok 1 ∧ s4.size = .ok 2 ∧
    s5.size = .ok 1 ∧ s6.size = .ok 1 ∧ s7.size = .ok 3 ∧ s8.size = .ok 2 ∧ s9.size = .ok 2 ∧
    s10.size = .ok 0 := by
  decide +kernel

/-! ## mapper/StringToIntMapperTest.cc and mapper/StringEventToIntMapperTest.cc -/

/-- One call of the mapper after another: the ids -/
def lookups (maxInt : Nat) : IntMapper → List Str → List (Cpp Nat)
  | _, [] => []
  | m, s :: ss => (m.lookup maxInt s).2 :: lookups maxInt (m.lookup maxInt s).1 ss

/-- mapper/StringToIntMapperTest.cc:16-23 -/
example : lookups (2 ^ 31 - 1) .new ["s1".toList, "s2".toList, "s1".toList, "s3".toList] =
    [.ok 0, .ok 1, .ok 0, .ok 2] := by decide +kernel

/-- mapper/StringToIntMapperTest.cc:25-32: 128 strings and one more, with 8-bit ids -/
example : lookups 127 .new ((List.range 128).map (fun i => 's' :: showNat i) ++
      ["except".toList]) =
    (List.range 128).map Except.ok ++ [.error .rangeError] := by decide +kernel

/-- mapper/StringEventToIntMapperTest.cc:28-39, whichever lookup comes first. (The third event of
the test has its two ids already.) -/
example : ∀ queryFirst : Bool,
    let m0 := IntMapper.new
    let r1 := m0.mapEvent queryFirst (2 ^ 31 - 1) ⟨"foo".toList, "foo".toList⟩
    let r2 := r1.1.mapEvent queryFirst (2 ^ 31 - 1) ⟨"foo".toList, "bar".toList⟩
    let r3 := r2.1.mapEvent queryFirst (2 ^ 31 - 1) ⟨"bar".toList, "foo".toList⟩
    r1.2 = .ok ⟨0, 0⟩ ∧ r2.2 = .ok ⟨0, 1⟩ ∧ r3.2 = .ok ⟨1, 0⟩ := by
  decide +kernel

/-! ## matcher/SimpleMatcherTest.cc -/

section SimpleMatcherTest

/-- `DummyEvent` -/
abbrev Dummy := Event Nat Nat

/-- The plain event set, with plain events as hypotheses -/
def dummyIndex : RefIndex (EventSet Dummy) Dummy Dummy where
  clear := EventSet.clear
  insert := EventSet.insert
  findOverlapping s h := .ok (s.findOverlapping h)

/-- A mock event set: the answers to `FindOverlapping` are given -/
def mockIndex (f : Dummy → List Dummy) : RefIndex Unit Dummy Dummy where
  clear := id
  insert s _ := s
  findOverlapping _ h := .ok (f h)

/-- A mock scorer that is never called in the test: calling it is an error -/
def noScorer (_ _ : Dummy) : Cpp MatchError := .error .assertFail

/-- `result` of the matcher -/
def resultOf {σ : Type} (ix : RefIndex σ Dummy Dummy) (sc : Dummy → Dummy → Cpp MatchError) (s : σ)
    (refs hyps : List Dummy) : Cpp (List (Match Dummy Dummy)) :=
  (SimpleMatcher.run ix sc s refs hyps).map (·.2.1)

/-- matcher/SimpleMatcherTest.cc:42-47 -/
example : resultOf dummyIndex noScorer .new [] [] = .ok [] := by decide +kernel

/-- matcher/SimpleMatcherTest.cc:49-56 -/
example : resultOf dummyIndex noScorer .new [] [⟨1, 1⟩] =
    .ok [Match.makeFalsePositive ⟨1, 1⟩] := by decide +kernel

/-- matcher/SimpleMatcherTest.cc:58-65 -/
example : resultOf dummyIndex noScorer .new [⟨1, 1⟩] [] =
    .ok [Match.makeFalseNegative ⟨1, 1⟩] := by decide +kernel

/-- matcher/SimpleMatcherTest.cc:67-76 -/
example : resultOf dummyIndex noScorer .new [⟨1, 1⟩] [⟨1, 2⟩] =
    .ok [Match.makeFalsePositive ⟨1, 2⟩, Match.makeFalseNegative ⟨1, 1⟩] := by decide +kernel

/-- matcher/SimpleMatcherTest.cc:78-94 -/
example : resultOf (mockIndex fun _ => [⟨1, 1⟩]) (fun _ _ => .ok ⟨0, 0⟩) () [⟨1, 1⟩] [⟨1, 1⟩] =
    .ok [Match.make ⟨1, 1⟩ ⟨1, 1⟩ ⟨0, 0⟩] := by decide +kernel

/-- matcher/SimpleMatcherTest.cc:101-119 -/
example : resultOf (mockIndex fun _ => [⟨1, 1⟩, ⟨1, 2⟩])
      (fun r _ => .ok (if r = ⟨1, 1⟩ then ⟨1, 1⟩ else ⟨1 / 2, 3 / 10⟩)) ()
      [⟨1, 1⟩, ⟨1, 2⟩] [⟨1, 1⟩] =
    .ok [Match.make ⟨1, 2⟩ ⟨1, 1⟩ ⟨1 / 2, 3 / 10⟩, Match.makeFalseNegative ⟨1, 1⟩] := by
  decide +kernel

/-- matcher/SimpleMatcherTest.cc:121-140: the scorer is not asked about the first reference -/
example : resultOf (mockIndex fun _ => [⟨1, 2⟩, ⟨1, 1⟩])
      (fun r _ => if r = ⟨1, 2⟩ then .ok ⟨0, 1 / 5⟩ else .error .assertFail) ()
      [⟨1, 1⟩, ⟨1, 2⟩] [⟨1, 1⟩] =
    .ok [Match.make ⟨1, 2⟩ ⟨1, 1⟩ ⟨0, 1 / 5⟩, Match.makeFalseNegative ⟨1, 1⟩] := by
  decide +kernel

/-- matcher/SimpleMatcherTest.cc:142-164 -/
example : resultOf (mockIndex fun _ => [⟨1, 1⟩])
      (fun _ h => .ok (if h = ⟨1, 1⟩ then ⟨2 / 5, 1 / 2⟩ else ⟨0, 1 / 5⟩)) ()
      [⟨1, 1⟩] [⟨1, 1⟩, ⟨1, 2⟩] =
    .ok [Match.make ⟨1, 1⟩ ⟨1, 1⟩ ⟨2 / 5, 1 / 2⟩] := by
  decide +kernel

end SimpleMatcherTest

/-! ## reader/PlainTextReaderTest.cc -/

section PlainTextReaderTest

/-- `is >> n` for an `int` -/
def extractI32 : Extractor Int := fun s => s.getSigned (2 ^ 31 - 1) true

/-- reader/PlainTextReaderTest.cc:19-42 -/
example :
    readPlain extractI32
      "# this is a comment line\n# this is also a comment line\n1\n2\n3\n\n".toList =
        ([1, 2, 3], .ok) ∧
    readPlain extractI32 "1\n2\n3\n# this is also a comment line\n1\n2\n3\n\n".toList =
        ([1, 2, 3, 1, 2, 3], .ok) := by
  decide +kernel

/-- The two events of the test -/
def twoEvents : List (Event Str (DocBox Str UInt32)) :=
  [⟨"q1".toList, docBox "d1" 1 2 3 4⟩, ⟨"q1".toList, docBox "d2" 4 3 2 1⟩]

/-- reader/PlainTextReaderTest.cc:46-54, with unsigned coordinates -/
example : readPlain extractBoxEvent
    "# This is a comment line\n# This is another comment line\n".toList = ([], .ok) := by
  decide +kernel

/-- reader/PlainTextReaderTest.cc:55-67 -/
example : readPlain extractBoxEvent "q1 d1 1 2 3 4\nq1 d2 4 3 2 1\n".toList =
    (twoEvents, .ok) := by
  decide +kernel

/-- reader/PlainTextReaderTest.cc:68-81 -/
example : readPlain extractBoxEvent
    "# this is a comment\nq1 d1 1 2 3 4\nq1 d2 4 3 2 1\n".toList = (twoEvents, .ok) := by
  decide +kernel

/-- reader/PlainTextReaderTest.cc:82-97 -/
example : readPlain extractBoxEvent
    ("# this is a comment\r\nq1 d1 1 2 3 4\r\n# this is a comment\nq1 d2 4 3 2 1\r\n" ++
      "# this is a comment\n").toList = (twoEvents, .ok) := by
  decide +kernel

/-- reader/PlainTextReaderTest.cc:98-111: line 4 lacks a coordinate -/
example :
    (readPlain extractBoxEvent
      ("# this is a comment\nq1 d1 1 2 3 4\nq2 d1 5 6 7 8\nq1 d2 9 10 11\n" ++
        "q1 d1 13 14 15 16\n").toList).2 = .badLine 4 := by
  decide +kernel

end PlainTextReaderTest

/-! ## scorer/*Test.cc -/

section ScorerTests

/-- An event of the query 1 in the document `d` -/
def boxAt (x y w h : UInt32) : Event Nat (DocBox Str UInt32) := ⟨1, docBox "d" x y w h⟩

/-- The same event as a hypothesis -/
def hypAt (x y w h : UInt32) : ScoredEvent Nat (DocBox Str UInt32) := ⟨boxAt x y w h, .fin 0⟩

/-- scorer/IntersectionOverHypothesisAreaScorerTest.cc:14-68 -/
example :
    let score := iohScorer (Q := Nat) (D := Str) (T := UInt32) Rnd.exact (1 / 2)
    score (boxAt 0 0 0 0) (hypAt 0 0 0 0) = .ok ⟨1, 1⟩ ∧
    score (boxAt 0 0 10 1) (hypAt 0 0 0 0) = .ok ⟨1, 1⟩ ∧
    score (boxAt 0 0 0 0) (hypAt 0 0 10 1) = .ok ⟨1, 1⟩ ∧
    score (boxAt 20 0 10 1) (hypAt 0 0 10 1) = .ok ⟨1, 1⟩ ∧
    score (boxAt 7 0 10 1) (hypAt 0 0 10 1) = .ok ⟨1, 1⟩ ∧
    score (boxAt 5 0 10 1) (hypAt 0 0 10 1) = .ok ⟨0, 0⟩ ∧
    score (boxAt 0 0 10 1) (hypAt 0 0 10 1) = .ok ⟨0, 0⟩ := by
  decide +kernel

/-- scorer/IntersectionOverUnionAreaScorerTest.cc:14-79. (The areas of the mocks of the last case
cannot belong to boxes; the ratio 8/12 is that of the test.) -/
example :
    let score := iouScorer (Q := Nat) (D := Str) (T := UInt32) Rnd.exact (1 / 2)
    score (boxAt 0 0 0 0) (hypAt 0 0 0 0) = .ok ⟨1, 1⟩ ∧
    score (boxAt 0 0 10 1) (hypAt 0 0 0 0) = .ok ⟨1, 1⟩ ∧
    score (boxAt 0 0 0 0) (hypAt 0 0 10 1) = .ok ⟨1, 1⟩ ∧
    score (boxAt 20 0 10 1) (hypAt 0 0 10 1) = .ok ⟨1, 1⟩ ∧
    score (boxAt 7 0 10 1) (hypAt 0 0 10 1) = .ok ⟨1, 1⟩ ∧
    score (boxAt 4 0 12 1) (hypAt 0 0 12 1) = .ok ⟨0, 0⟩ ∧
    score (boxAt 2 0 10 1) (hypAt 0 0 10 1) = .ok ⟨0, 0⟩ := by
  decide +kernel

/-- scorer/SoftBoundingBoxScorerTest.cc:14-90 -/
example :
    let score := softScorer (Q := Nat) (D := Str) (T := UInt32) Rnd.exact
    score (boxAt 0 0 0 0) (hypAt 0 0 0 0) = .ok ⟨1, 1⟩ ∧
    score (boxAt 0 0 10 1) (hypAt 0 0 0 0) = .ok ⟨1, 1⟩ ∧
    score (boxAt 0 0 0 0) (hypAt 0 0 10 1) = .ok ⟨1, 1⟩ ∧
    score (boxAt 0 0 5 1) (hypAt 5 0 5 1) = .ok ⟨1, 1⟩ ∧
    score (boxAt 0 0 10 1) (hypAt 0 0 10 1) = .ok ⟨0, 0⟩ ∧
    score (boxAt 0 0 10 1) (hypAt 0 0 12 1) = .ok ⟨2 / 12, 0⟩ ∧
    score (boxAt 0 0 12 1) (hypAt 0 0 10 1) = .ok ⟨0, 2 / 12⟩ ∧
    score (boxAt 0 0 8 1) (hypAt 4 0 6 1) = .ok ⟨2 / 6, 4 / 8⟩ := by
  decide +kernel

end ScorerTests

end Kws.Tests
