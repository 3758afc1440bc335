import Verif.Model.Output

/-!
# Writes that fail: the streams of tools/GenericKwsEvalTool.h and core/Assessment.h

`Model/Output.lean` lists what the program hands over to its streams. Here the streams write to devices that
take a limited number of characters, like a full disk or a closed pipe (no room).
-/

namespace Kws

/-- An output stream: the characters that have arrived, how many more the device takes, whether `badbit` is
set, and whether setting it throws (`exceptions`, core/Assessment.h:363; `false` for `std::cout`, `std::cerr`
and the stream of tools/GenericKwsEvalTool.h:399). -/
structure OStream where
  written : Str
  room : Nat
  bad : Bool
  throws : Bool

namespace OStream

/-- a new stream -/
def new (room : Nat) (throws : Bool) : OStream := ⟨[], room, false, throws⟩

/-- `operator<<` followed by a flush (all output ends with `std::endl`). A stream with `badbit` writes nothing.
If the device does not take all characters, those for which there is room arrive and `badbit` is set. The second
component is the exception. -/
def insert (f : OStream) (s : Str) : OStream × Cpp Unit :=
  if f.bad then (f, .ok ())
  else if s.length ≤ f.room then
    ({ f with written := f.written ++ s, room := f.room - s.length }, .ok ())
  else
    ({ f with written := f.written ++ s.take f.room, room := 0, bad := true },
      if f.throws then .error .ioFailure else .ok ())

/-- core/Assessment.h:365-367 and tools/GenericKwsEvalTool.h:405-411: a loop that writes line after line, left
by the first exception -/
def insertAll : OStream → List Str → OStream × Cpp Unit
  | f, [] => (f, .ok ())
  | f, s :: ss =>
    match f.insert s with
    | (f, .error e) => (f, .error e)
    | (f, .ok _) => insertAll f ss

end OStream

/-- How many characters the devices take: the standard output, the standard error output, and each file. -/
structure Devices where
  out : Nat
  err : Nat
  file : Str → Nat

/-- What has arrived when the program has ended: on the standard output, on the standard error output, in the
files in the order of writing; and how it has ended. -/
structure Observed where
  out : Str
  err : Str
  files : List (Str × Str)
  result : Cpp Nat

/-- The streams of a running program: `std::cout`, `std::cerr`, and the contents of the files so far. -/
structure Streams where
  out : OStream
  err : OStream
  files : List (Str × Str)

/-- The program ends. -/
def Streams.stop (st : Streams) (r : Cpp Nat) : Observed := ⟨st.out.written, st.err.written, st.files, r⟩

/-- The program hands over its output, piece by piece, and ends with `r` unless a stream throws. A file is a new
stream (opening truncates; every file is closed before the next one is opened). -/
def Streams.perform (d : Devices) (r : Cpp Nat) : Streams → List Effect → Observed
  | st, [] => st.stop r
  | st, .out s :: es => Streams.perform d r { st with out := (st.out.insert s).1 } es
  | st, .err s :: es => Streams.perform d r { st with err := (st.err.insert s).1 } es
  | st, .file n s :: es =>
    Streams.perform d r { st with files := st.files ++ [(n, ((OStream.new (d.file n) false).insert s).1.written)] } es
  | st, .curve n s :: es =>
    match (OStream.new (d.file n) true).insert s with
    | (f, .error e) => { st with files := st.files ++ [(n, f.written)] }.stop (.error e)
    | (f, .ok _) => Streams.perform d r { st with files := st.files ++ [(n, f.written)] } es

/-- A run with these devices. -/
def Traced.perform (d : Devices) (t : Traced Nat) : Observed :=
  Streams.perform d t.result ⟨OStream.new d.out false, OStream.new d.err false, []⟩ t.effects

end Kws
