import Verif.Model.Stream

/-!
# reader/PlainTextMapEventReader.h and reader/PlainTextReader.h
-/

namespace Kws

/-- Outcome of `Read`: the returned flag, or an exception thrown by the mapper. A failure names the
offending line (the number printed on `std::cerr`), or none if the stream itself failed. -/
inductive ReadStatus
  | ok
  | badLine (n : Nat)
  | badStream
  | fault (f : Fault)
  deriving DecidableEq

/-- reader/PlainTextMapEventReader.h:28-40: what one line of text means. -/
inductive LineResult (E : Type)
  | skip
  | event (e : E)
  | bad
  | fault (f : Fault)

/-- reader/PlainTextMapEventReader.h:28-40: processing of the line `buff` -/
def readLine {E : Type} (ex : Extractor E) (buff : Str) : LineResult E :=
  let iss := IStream.ofStr buff
  let iss := iss.ws
  let (iss, c) := iss.peek
  if c = some '#' then .skip
  else if iss.eof then .skip
  else
    let (iss, e) := ex iss
    let iss := if iss.eof then iss else iss.ws
    if iss.fail || !iss.eof then .bad
    else match e with
      | some e => .event e
      | none => .fault .ub  -- an uninitialised event would be used

section
variable {μ E1 E2 : Type}

/-- reader/PlainTextMapEventReader.h:27-43: the loop over lines, `n` being the number of the next
line; `map` is the mapper with its state `μ`. Returns the mapper state, the events pushed (in
order) and the outcome. `fuel` bounds the number of lines; `Read` below supplies enough. -/
def readLoop (ex : Extractor E1) (map : μ → E1 → μ × Cpp E2) :
    Nat → Nat → μ → IStream → μ × List E2 × ReadStatus
  | 0, _, m, s => (m, [], if s.eof then .ok else .badStream)
  | fuel + 1, n, m, s =>
    let (s, line) := s.getline
    match s.fail, line with
    | false, some buff =>
      match readLine ex buff with
      | .skip => readLoop ex map fuel (n + 1) m s
      | .bad => (m, [], .badLine n)
      | .fault f => (m, [], .fault f)
      | .event e =>
        match map m e with
        | (m, .error f) => (m, [], .fault f)
        | (m, .ok e) =>
          let (m, es, st) := readLoop ex map fuel (n + 1) m s
          (m, e :: es, st)
    | _, _ => (m, [], if s.eof then .ok else .badStream)

/-- reader/PlainTextMapEventReader.h:24-44 `Read(std::istream*, ...)` on a stream holding `text` -/
def readEvents (ex : Extractor E1) (map : μ → E1 → μ × Cpp E2) (m : μ) (text : Str) :
    μ × List E2 × ReadStatus :=
  readLoop ex map (text.length + 1) 1 m (IStream.ofStr text)

/-- mapper/IdentityMapper.h:15, used by reader/PlainTextReader.h:18-25 -/
def identityMap {E : Type} (m : Unit) (e : E) : Unit × Cpp E := (m, .ok e)

/-- reader/PlainTextReader.h:18-25: `PlainTextReader<E>::Read` -/
def readPlain {E : Type} (ex : Extractor E) (text : Str) : List E × ReadStatus :=
  (readEvents ex identityMap () text).2

end

end Kws
