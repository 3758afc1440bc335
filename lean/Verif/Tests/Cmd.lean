import Verif.Model.Help

/-!
# The unit tests of /repo, run on the model (cmd)

See `Verif/Tests/Core.lean`: tests of the model, not proofs.
-/

namespace Kws.Tests

deriving instance DecidableEq for OptVal

/-! ## cmd/ArgumentTest.cc -/

/-- cmd/ArgumentTest.cc:7-15 and cmd/OptionTest.cc:7-15 -/
example : (OptVal.int32 (-1)).isBoolean = false ∧ (OptVal.bool true).isBoolean = true := by
  decide +kernel

/-- cmd/ArgumentTest.cc:17-27 -/
example :
    let int : OptText := ⟨"int".toList, "int help".toList⟩
    let bool : OptText := ⟨"bool".toList, "bool help".toList⟩
    int.argumentHelp 0 (.int32 (-1)) = "int : int help (type = int32_t)".toList ∧
    int.argumentHelp 10 (.int32 (-1)) = "int        : int help (type = int32_t)".toList ∧
    bool.argumentHelp 0 (.bool true) = "bool : bool help (type = bool)".toList ∧
    bool.argumentHelp 10 (.bool true) = "bool       : bool help (type = bool)".toList := by
  decide +kernel

/-- cmd/ArgumentTest.cc:29-54 -/
example :
    let int (s : String) := (OptVal.int32 (-1)).parseArg Rnd.exact s.toList
    let bool (s : String) := (OptVal.bool true).parseArg Rnd.exact s.toList
    int "-1244" = (true, .int32 (-1244)) ∧ (int "-12.4").1 = false ∧
    (int "12 asdsad").1 = false ∧
    (bool "").1 = false ∧ bool "false" = (true, .bool false) ∧ bool "true" = (true, .bool true) ∧
    bool "0" = (true, .bool false) ∧ bool "1" = (true, .bool true) ∧ (bool "FALSE").1 = false ∧
    (bool "TRUE").1 = false ∧ (bool "1234").1 = false ∧ (bool "-inf").1 = false := by
  decide +kernel

/-! ## cmd/OptionTest.cc -/

/-- cmd/OptionTest.cc:17-31 -/
example :
    let int : OptText := ⟨"--int".toList, "int help".toList⟩
    let bool : OptText := ⟨"--bool".toList, "bool help".toList⟩
    int.optionHelp 0 (.int32 (-1)) =
      "--int : int help (type = int32_t, value = \"-1\")".toList ∧
    int.optionHelp 10 (.int32 (-1)) =
      "--int      : int help (type = int32_t, value = \"-1\")".toList ∧
    bool.optionHelp 0 (.bool true) =
      "--bool : bool help (type = bool, value = \"true\")".toList ∧
    bool.optionHelp 10 (.bool true) =
      "--bool     : bool help (type = bool, value = \"true\")".toList := by
  decide +kernel

/-- cmd/OptionTest.cc:33-59 -/
example :
    let int (s : String) := (OptVal.int32 (-1)).parseOpt Rnd.exact s.toList
    let bool (s : String) := (OptVal.bool true).parseOpt Rnd.exact s.toList
    int "-1244" = (true, .int32 (-1244)) ∧ (int "-12.4").1 = false ∧
    (int "12 asdsad").1 = false ∧
    bool "" = (true, .bool true) ∧ bool "false" = (true, .bool false) ∧
    bool "true" = (true, .bool true) ∧ bool "0" = (true, .bool false) ∧
    bool "1" = (true, .bool true) ∧ (bool "FALSE").1 = false ∧ (bool "TRUE").1 = false ∧
    (bool "1234").1 = false ∧ (bool "-inf").1 = false := by
  decide +kernel

/-! ## cmd/ParserTest.cc -/

/-- The texts of a parser without options and arguments -/
def bareTexts (prog desc : String) : ParserTexts := ⟨prog.toList, desc.toList, [], [], []⟩

/-- cmd/ParserTest.cc:7-18 -/
example :
    (bareTexts "prog" "").help .new = "Usage: prog\n".toList ∧
    (bareTexts "prog2" "  This is the description of\n  this program.").help .new =
      ("Usage: prog2\n\nDescription:\n  This is the description of\n" ++
        "  this program.\n").toList := by
  decide +kernel

/-- The three variables of the tests -/
def intVar : OptVal := .int32 (-1)
/-- see `intVar` -/
def boolVar : OptVal := .bool false
/-- see `intVar` -/
def strVar : OptVal := .str []

/-- cmd/ParserTest.cc:20-39 -/
example :
    let r1 := Parser.new.registerOption "int".toList intVar
    let r2 := r1.2.registerOption "int".toList intVar
    let r3 := r2.2.registerOption "bool".toList boolVar
    let r4 := r3.2.registerOption "str".toList strVar
    let texts : ParserTexts := ⟨"prog".toList, [],
      [("int".toList, "help for int option".toList),
       ("bool".toList, "help for bool option".toList),
       ("str".toList, "help for str option".toList)], [], []⟩
    r1.1 = true ∧ r2.1 = false ∧ r3.1 = true ∧ r4.1 = true ∧
    texts.help r4.2 =
      ("Usage: prog [ options ]\n\n" ++
       "Options:\n" ++
       "  --bool : help for bool option (type = bool, value = \"false\")\n" ++
       "  --int  : help for int option (type = int32_t, value = \"-1\")\n" ++
       "  --str  : help for str option (type = string, value = \"\")\n").toList := by
  decide +kernel

/-- The texts of the arguments of the next two tests -/
def argTexts : List OptText :=
  [⟨"int".toList, "help for int option".toList⟩, ⟨"bool".toList, "help for bool option".toList⟩,
   ⟨"str".toList, "help for str option".toList⟩]

/-- cmd/ParserTest.cc:41-58 -/
example :
    ParserTexts.help ⟨"prog".toList, [], [], argTexts, []⟩
      (((Parser.new.registerArgument intVar).registerArgument boolVar).registerArgument strVar) =
      ("Usage: prog int bool str\n\n" ++
       "Arguments:\n" ++
       "  int  : help for int option (type = int32_t)\n" ++
       "  bool : help for bool option (type = bool)\n" ++
       "  str  : help for str option (type = string)\n").toList := by
  decide +kernel

/-- cmd/ParserTest.cc:60-76 -/
example :
    ParserTexts.help ⟨"prog".toList, [], [], [], argTexts⟩
      (((Parser.new.registerOptArgument intVar).registerOptArgument boolVar).registerOptArgument
        strVar) =
      ("Usage: prog [ int [ bool [ str ] ] ]\n\n" ++
       "Arguments:\n" ++
       "  int  : help for int option (type = int32_t)\n" ++
       "  bool : help for bool option (type = bool)\n" ++
       "  str  : help for str option (type = string)\n").toList := by
  decide +kernel

/-- Outcome and options after parsing the words that follow the program name -/
def parsed (opts : List (String × OptVal)) (words : List String) :
    ParseOutcome × List (Str × OptVal) :=
  let r := Parser.parse Rnd.exact ⟨opts.map fun o => (o.1.toList, o.2), [], []⟩
    (words.map String.toList)
  (r.1, r.2.opts)

/-- cmd/ParserTest.cc:78-89 -/
example : parsed [("bool", .bool false), ("int", .int32 (-1))] [] =
    (.accepted, [("bool".toList, .bool false), ("int".toList, .int32 (-1))]) := by
  decide +kernel

/-- cmd/ParserTest.cc:91-128 -/
example :
    parsed [("bool", .bool false)] ["--bool"] = (.accepted, [("bool".toList, .bool true)]) ∧
    parsed [("bool", .bool false)] ["--bool", "true"] =
      (.accepted, [("bool".toList, .bool true)]) ∧
    parsed [("bool", .bool true)] ["--bool", "false"] =
      (.accepted, [("bool".toList, .bool false)]) := by
  decide +kernel

/-- cmd/ParserTest.cc:129-142 -/
example :
    (parsed [("bool", .bool false)] ["--bool", "12314"]).1 = .rejected ∧
    Parser.message Rnd.exact ⟨[("bool".toList, .bool false)], [], []⟩
      ["--bool".toList, "12314".toList] =
        some "ERROR: Invalid value for option '--bool'\n".toList := by
  decide +kernel

/-- cmd/ParserTest.cc:144-171 -/
example :
    let opts := [("str1", OptVal.str []), ("str2", OptVal.str [])]
    parsed opts ["--str1", "this value", "--str2", "  whitespaces are preserved "] =
      (.accepted, [("str1".toList, .str "this value".toList),
        ("str2".toList, .str "  whitespaces are preserved ".toList)]) ∧
    (parsed opts ["--str1", "this value", "--str2"]).1 = .rejected ∧
    Parser.message Rnd.exact ⟨opts.map fun o => (o.1.toList, o.2), [], []⟩
      ["--str1".toList, "this value".toList, "--str2".toList] =
        some "ERROR: Invalid value for option '--str2'\n".toList := by
  decide +kernel

end Kws.Tests
