# Formal model of jpuigcerver/kws-eval in Lean 4

## 1. Layout

```
lean/Verif/Model/*.lean   the model, function by function; every definition cites /repo file:lines
lean/Verif/Spec/*.lean    small independent specifications used in theorem statements
lean/Verif/Lemmas/*.lean  helper lemmas (never cited as results)
lean/Verif/Props/*.lean   the property theorems (C01_..., C02_..., ...) with concrete examples beside them
lean/Verif/Tests/*.lean   the unit tests of /repo, and its examples, evaluated on the model (tests of the model, not proofs)
properties.jsonl          the properties, in terms of the API (generated by tools/mkprops.py)
MANIFEST.json             status and theorems per property (generated by tools/mkmanifest.py; notes in tools/notes.py)
seeded/mutants.py         wrong programs; seeded/LOG.jsonl: what happened to the theorems (tools/seed.py)
```

Naming: `Cnn_…` proves (part of) property `Cnn`. `…_refuted` proves that the property as stated is false of the
code, by a concrete witness. `…_partial` proves a weaker statement; the note in MANIFEST.json says what is missing.
A property is "proved" in the manifest if it has no `_refuted` and no `_partial` theorem.

## 2. Trusted base

* Lean 4.33.0's kernel, and the axioms `propext`, `Classical.choice`, `Quot.sound`. Nothing else: no `sorry`, no
  `native_decide`, no `bv_decide`, no axioms of our own. (`decide +kernel` is used for concrete examples and
  witnesses; it is checked by the kernel.)
* The reading of the C++ source. The model is hand-written from the text of /repo; it is not extracted, and the C++
  is never run. As a check of the transcription, `Verif/Tests` evaluates the expectations of the unit tests of /repo
  on the model (all of them except the constructor tests, the stream test of core/EventTest.cc and
  mapper/ScoredEventMapperTest.cc, whose mocks have no counterpart; box streams with unsigned instead of signed
  coordinates). `Verif/Tests/Examples.lean` runs the model of the box tool on the two examples of /repo whose comments state
  the results of the original program (gAP = 0.25, mAP = 0.166667; AP = 0.464, mAP = 0.761) and gets these numbers (`#guard`,
  evaluated but not proved). No theorem depends on these examples.
* The modelled meaning of the C++ language and library, in `Model/Cpp.lean` and the first half of
  `Model/Stream.lean`:
  - Undefined behaviour, failed assertions, exceptions and non-termination are explicit outcomes (`Fault`) of a
    result type `Cpp α`. A theorem that says `f x = .ok y` says in particular that none of them happens.
  - `std::sort` is *any* function that returns a permutation ordered by the comparator if the comparator is a strict
    weak order on the elements of the range, and undefined behaviour otherwise (structure `StdSort`; theorems
    quantify over all such functions; `insertionStdSort` shows that there is one).
  - `std::set` is an ordered list without equivalent elements. `std::map` and `std::unordered_map` are association
    lists; the iteration order of the unordered maps is never observed by the modelled code.
  - `std::istream` extraction of strings, integers and floating-point numbers follows C++11 as implemented by
    libstdc++ in the "C" locale: sentry, `eofbit`/`failbit`, negative texts for unsigned types wrap as with
    `strtoull`, saturation and `failbit` on overflow, no `nan` or `inf`. `std::getline`, `peek`, `std::ws` likewise.
    `badbit` does not occur (files do not fail half way).
  - `std::ostream` insertion of numbers is that of `printf` (`%g` with precision 6, and `%e` with precision 6 for
    curves): the exact value, rounded to nearest, ties to even. The sign of a zero or NaN is not modelled. Everything
    that a program writes before undefined behaviour is listed as if it had been written.
  - the random number engine is an arbitrary deterministic generator whose draws are in range (`Rng`). C106 and C107
    are about the engine and the distribution of libstdc++, written down in `Model/Engine.lean` after the headers
    of GCC 13 (`bits/random.h`, `bits/random.tcc`, `bits/uniform_int_dist.h`), which are not part of /repo;
    `Tests/Engine.lean` compares the engine with the number that the C++ standard gives.
* Arithmetic:
  - box coordinates: `uint32_t` is `UInt32` (wrap-around), `int` is `Int32` with overflow = undefined behaviour;
  - `size_t` counters are unbounded `Nat` (they count objects in memory), except where the property is about
    overflow (capacity of the mapper, option values);
  - `float` and `double` computations are carried out over `ℚ` with an explicit rounding function after every
    operation (`Rnd.f32`, `Rnd.f64`). `Rnd.exact` does not round. `Rnd.ieee` (`Model/Ieee.lean`) is IEEE-754
    round-to-nearest-even with gradual underflow and without overflow; `ieee_faithful` and `ieee_precise` prove of it
    what the theorems about arbitrary roundings assume (`Rnd.Faithful`, `Rnd.Precise`). That
    overflow never influences what the tools write is C123. NaN and infinities as *computed* values occur only in divisions by
    zero, which are explicit cases (`ratioAtLeast`, `fdiv`, `meanOf`);
  - compilers are assumed to round after each operation (no excess precision, no fused multiply-add);
  - NDCG is computed over `ℝ` with exact `log2` and `exp2` in `Model/Assessment.lean`, `Tool.lean` and `Output.lean`;
    `Model/NdcgDouble.lean` and `Model/ToolDouble.lean` have the same functions and the same program in `double`, with
    `exp2` and `log2` as a parameter (C92, C93);
  - hypothesis *scores* are `Flt` = NaN | -inf | finite rational | +inf with IEEE comparison (−0 = +0).

## 3. What is modelled

| /repo | model |
|-------|-------|
| core/BoundingBox.h, core/DocumentBoundingBox.h | `Model/Geometry.lean` (areas, comparison); stream operators in `Model/Stream.lean` |
| core/Event.h, core/ShapedEvent.h, core/ScoredEvent.h | `Model/Events.lean`; stream operators in `Model/Stream.lean` |
| core/EventSet.h, core/DocumentBoundingBoxEventSet.h | `Model/EventSets.lean` |
| core/MatchError.h, core/MatchErrorCounts.h, core/Match.h | `Model/Match.lean` |
| scorer/*.h | `Model/Scorers.lean` |
| matcher/SimpleMatcher.h | `Model/Matcher.lean` |
| core/Assessment.h | `Model/Assessment.lean` |
| core/Bootstrapping.h | `Model/Bootstrap.lean` |
| `std::default_random_engine`, `std::uniform_int_distribution` (libstdc++), used in core/Bootstrapping.h | `Model/Engine.lean` |
| mapper/*.h | `Model/Mapper.lean` |
| pointers, `new` and `delete` in core/Match.h, mapper/StringToIntMapper.h, cmd/Parser.h | `Model/Ownership.lean` |
| mappers over mappers, with their constructors and lifetimes: mapper/StringToIntMapper.h, mapper/StringEventToIntMapper.h, mapper/ScoredEventMapper.h | `Model/EventMappers.lean` |
| reader/*.h | `Model/Reader.lean` |
| cmd/*.h | `Model/Cmd.lean` |
| `operator<<` of the events, matches and errors, `WriteCurveToFile`, everything that `Main` writes | `Model/Output.lean` (`traceMain`), numbers in `Model/Number.lean` |
| streams that fail (`std::ofstream` with and without exceptions, `std::cout`) | `Model/Writing.lean` |
| the help text and the messages of cmd/Parser.h, core/TypeInfo.h (option types) | `Model/Help.lean` |
| tools/GenericKwsEvalTool.h, tools/Icdar17KwsEval.cc, tools/SimpleKwsEval.cc | `Model/Tool.lean` |
| core/Statistic.h: the four classes as objects with their overloads | `Model/Statistic.lean` |

The comment of every definition names the lines it transcribes and any simplification.

Not modelled: logging (GLOG), virtual dispatch (except that of core/Statistic.h), the CMake files, the mock classes of the tests. Writes that fail are
modelled for C113 only (`Model/Writing.lean`): a device takes a fixed number of characters, and each piece of output is
flushed (all of them end with `std::endl`).

## 4. Findings

Properties that the code does not have, each with a kernel-checked witness:

* C05: areas and intersection areas wrap modulo 2^32 (`uint32_t`) or overflow (`int`) for large boxes.
* C07: `ScoredEvent::operator<=` computes `>=`.
* C08: assigning a `Match` to itself drops its events; `Match::operator!=` calls itself for ever.
* C12: the range constructor of the document event set leaves `size_` uninitialised.
* C29, C30: in double arithmetic average precision exceeds 1 for two hits and six false positives, and is below 1 for a
  perfect submission of 63 hits (C64 bounds the error).
* C41: the flat bootstrap sampler resizes and then appends: half of the sample is default constructed.
* C42: for tiny `alpha` the index `(1 - alpha/2) * repetitions` rounds to `repetitions`: out of range.
* C43: with bootstrapping the matches are re-sorted in descending order, so the value differs from the one without
  bootstrapping for `--sort=asc` (and for ties without collapsing).
* C45: the capacity of a mapper to a 64-bit unsigned type wraps to 0.
* C50: `-1` is accepted as a coordinate and becomes 4294967295.
* C55: `-xname` selects the option `--name`: the second character is not looked at.
* C56: numeric options accept empty, incomplete and out-of-range texts (`failbit` is not tested).
* C61: in double arithmetic the mean AP depends on the order of the groups, hence on the ids.
* C62: an unwritable curve file ends the program with an uncaught exception; `--bootstrap_samples 0` reads
  outside of an empty vector.
* C70: with collapsing, raising the score of a hit to that of a false positive above it can lower NDCG, and average
  precision without interpolation.
* C77: the file with the matches of the segmentation-based tool shows integers instead of the names in its input.
* C80: with options on the command line, a failure on the standard input is reported as that of a file without name.
* C85: copy assignment of a `Match` leaks the events of the target.
* C86: copy assignment of a `StringToIntMapper` makes two owners of one table, which is deleted twice; a copy
  dangles when the original is destroyed.
* C87: a `Parser` can be copied, and the copy deletes the same options again.
* C95: confidence intervals reach out of [0,1] and need not contain the value: the bounds are the quantiles of the samples
  reflected at the value.
* C103: a pixel matched softly to a reference of 2^26 pixels gets the rates (0, 1) of a missed reference and is not
  counted as a hypothesis.
* C113: nobody looks whether writing to the standard output or to the file with the matches has failed; the status is 0.
* C114: with a fixed seed the confidence intervals depend on the order of the lines and on the names of the queries; only
  their distribution does not.
* C116: the global average precision of two collections together can be below (5/6 for 1 and 1) and above those of both.
* C118: in the box tool a box handed in twice can be given two references, which doubles the average precision.
* C121: a flag without value at the end of the options takes the file with the references for its value; if that file is
  called `0` or `true`, the file with the hypotheses is silently read as that with the references.
* C122: the files of queries have no comments: the words of a line `# ...` in a query set are queries, in a file of
  groups the members of a group `#`; a line `#` makes the tool fail.
* C117: a default-constructed `StringEventToIntMapper` never returns the mapper that it makes: it has no destructor.
* C63: box fields need not be separated by whitespace (`1+2+3+4`).

## 5. Properties and proofs

| id | model | proof |
|----|-------|-------|
| C01–C03 | boxes over `UInt32`/`Int32` | spec: finite set of unit cells; interval lengths and `Finset` cardinality |
| C04 | `DocBox` | case split on documents |
| C05 | same | witnesses; exact range of boxes for which the results are right |
| C06, C07 | comparison operators transcribed | `LawfulCmp`: trichotomy and transitivity, lifted through each layer |
| C08 | `Match` objects in memory cells (aliasing), `!=` with a stack bound | witnesses and the remaining cases |
| C09–C12 | event sets as state machines | refinement to mathematical sets over all operation sequences |
| C13 | `MatchError`, `MatchErrorCounts` | case analysis, induction over the sum |
| C14–C20 | `SimpleMatcher::Match` over an abstract reference index and any scorer | invariant of the loop over hypotheses; refinement to a declarative greedy specification (`Spec/Matching.lean`) |
| C21–C24 | scorers with rounding | exact decision; exactness of the rounded quotient for small areas |
| C25–C31 | `ComputePrecisionAndRecall`, `ComputeAP` | induction with generalised accumulators; Abel summation |
| C32–C34 | `CollapseMatches`, sorting | characterisation of runs in sorted lists |
| C35 | grouping | invariant of the loop |
| C36 | NDCG over ℝ | rearrangement of the discounts, `2^r - 1 ≤ r` on [0,1] |
| C37–C39 | curves | induction with the invariant of the moving index; rounded versions for `Rnd.Precise` |
| C40–C43 | bootstrap with an abstract generator | induction; floor arithmetic; C43 through C33, and without ties because re-sorting then restores the sequence of scores and errors |
| C44–C46 | mapper as a state machine | invariant over histories |
| C47–C51, C63 | streams, reader loop | induction over lines; a grammar of lines (`Spec/Grammar.lean`) |
| C52–C57 | command line parser | induction over the words; C56: which texts can be continued to a number of the grammar |
| C58, C59 | query files | line and word specifications (`Spec/Query.lean`) |
| C60–C62 | whole runs (`toolMain`) | composition of the above; relabelling of ids for C61 |
| C64 | IEEE doubles (`Rnd.ieee`) | error bounds of single operations (`Lemmas/Rounding.lean`), added up over the sums |
| C65 | `CollapseMatches`, AP, NDCG | spec: counts of hits and false positives above each score (`Spec/Evaluation.lean`); points that repeat do not change an area (`Lemmas/Threshold.lean`) |
| C66, C67 | whole runs | spec: numbers from the events of the files (C66), or from a greedy matching of cell sets (C67); C65 for all matches and for each group (`Lemmas/SegTally.lean`, `Lemmas/Numbers.lean`) |
| C68 | pairs of runs | sorting, matching, grouping and collapsing commute with a change of scores (`Lemmas/Rescore.lean`) |
| C69, C70, C72 | AP and NDCG of pairs of rankings | AP as a sum over the hits of the precision at the hit (`Lemmas/Monotone.lean`, `Lemmas/Ranking.lean`); spec: counts among the first matches or above a score (`Spec/Ranking.lean`) |
| C71 | pairs of runs | C66 and monotonicity of the specified numbers (`Lemmas/SegMonotone.lean`) |
| C73 | whole runs | with one group both code paths compute the same; the division by 1 is exact |
| C74, C75 | `operator<<` of numbers and events | spec: nearest decimal number (`Spec/Output.lean`); digits of the rounded quotient (`Lemmas/Number.lean`); gaps between decimal numbers against the rounding of `float` |
| C76 | `traceMain`, which lists everything that a run writes | what is written agrees with the outcome of `toolMain` (`Lemmas/Output.lean`, `Lemmas/OutputMain.lean`); C62, C66, C67, C74 |
| C77 | texts of matches | words of a line determine the match (`Lemmas/Dump.lean`); C67, C75 |
| C78 | curves and their files | spec: points of the thresholds, value at a recall (`Spec/Curves.lean`); repeated points do not change a value (`Lemmas/Curve.lean`); rounding keeps the order of recalls and sample points and moves values little (`Lemmas/CurveRounding.lean`); C39, C66, C67, C74, C76 |
| C79, C80 | the messages in `traceMain` | spec: texts from counts over the files (`Spec/Messages.lean`); what each step writes (`Lemmas/Messages.lean`); C17, C24, C48 |
| C81 | `Parser.message`, `traceMain` | spec: inductive definition of wrong command lines with their messages (`Spec/WrongLine.lean`); every line splits into valid items and a rest (`Lemmas/WrongLine.lean`) |
| C82 | `ParserTexts.help`, `OptVal.showValue`, `Parser.parse` | spec: lines about options, texts that show values (`Spec/Help.lean`); printing and reading of each type (C56, C74), items that restate values are absorbed (`Lemmas/Help.lean`) |
| C83 | `toolParser`, `ToolOptions.ofParser`, `toolMain` | spec: how a setting follows from the last text of its option (`Spec/Options.lean`); C52, C54, C56 |
| C84 | `MatchStore`, `Owners`, `Heap` | spec: value semantics of the statements (`Spec.Step`); invariant that every pointer has its own live cell; equivalence both ways |
| C85 | as C84 | spec: a cell that no object points to (`Spec.Leaks`); **refuted** for copy assignment, which is shown to be the only cause |
| C86 | `MapperStore` | invariant that every table has one owner; spec: the ids of one mapper (`Spec.idsOf`); **refuted** for copy assignment and for copies that outlive the original |
| C87 | `ParserObj`, `Parser` | spec: first registration of a name (`Spec.FirstOption`); invariant over the registrations; **refuted** for copies |
| C88 | tool level | spec: matching with the tie rules (`Spec.ExactBoxMatching`); order of the index and of the sort, then uniqueness of strictly ordered lists |
| C89 | tool level | spec: relation between events (`Spec.Moved`); hypotheses of different queries or documents do not interact (`Greedy.part`), within one the order is preserved |
| C90 | tool level | spec: the four ends (`Spec.Ends`); every step of `assess` either succeeds or fails with a known fault (`Lemmas/Endings.lean`) |
| C91 | `matchesByQuerySampler` reading its draws from a sequence | spec: shares of sequences and textbook law (`Spec/Resampling.lean`); induction over the sample, one draw at a time |
| C92 | NDCG functions in `double` (`Model/NdcgDouble.lean`) | spec: accuracy of `exp2` and `log2` (`Spec/Libm.lean`); relative error of a sum of non-negative terms, gains exact or with a bounded relative error (`Lemmas/NdcgDouble.lean`, `NdcgNear`, `NdcgGain`, `NdcgUnit`) |
| C93 | `Main` with NDCG in `double` (`Model/ToolDouble.lean`) | spec: traces that differ in the numbers of NDCG only (`Spec/ToolDouble.lean`); order statistics of two lists that are near each other (`Lemmas/Stable.lean`); C92 on all resamples; C66 and C67 |
| C94 | `ComputePercentileBootstrapCI`, `Main` | spec: containment of intervals (`Spec/Intervals.lean`); both positions are monotone in alpha, also rounded; the samples do not depend on alpha |
| C95 | `ComputePercentileBootstrapCI`, the four metrics | refuted with C91: a positive share of all draws gives an interval outside [0,1]; counts of samples below the value decide whether the interval contains it; reflection of [0,1] at the value |
| C96 | both matchers, `Main` | spec: the query of a match (`Spec/Decompose.lean`); removal of the references of other queries commutes with the search, so the loop restricted to a set of queries simulates the full loop (`Lemmas/Decompose.lean`) |
| C97 | `Main`, `GroupMatchesByQueryGroup` | spec: what the query options select (`Spec/QueryFiles.lean`); the grouping loop simulates itself under another naming of groups (`Lemmas/QueryFiles.lean`) |
| C98 | `SimpleMatcher::Match` | spec: assignments of references to hypotheses and the number of hits (`Spec/Hits.lean`); every hit of the greedy matching blocks at most two of an assignment (`Lemmas/Hits.lean`) |
| C99 | `SimpleMatcher::Match` | taking a reference before the start costs at most one hit (`Lemmas/Hits.lean`); two matchings with all ties resolved (`Spec/Ties.lean`) |
| C100 | `MatchError`, `MatchErrorCounts` | comparison of components |
| C101 | scorers, `SimpleMatcher::Match` with a document event set | a hypothesis accepts a shorter initial part of its overlapping references at a higher threshold; stopping earlier picks at most as often (`Lemmas/Hits.lean`); concrete runs through overlap searches with known results |
| C102 | scorer, box geometry, event set, matching, measures, `Main` | scaling with positive factors keeps which boxes overlap, multiplies every area of a page by the same number and so keeps the scores, and `Placed` is injective on events whose boxes are in range (`Lemmas/Moved.lean`); C89 is the case of scale 1 |
| C103 | `MatchError.nh`, `nr`, matching, scorers | spec: cardinality of the set of references, entries with a hypothesis; which rates an accepted pair can have (C23) |
| C104 | sorting, matching, grouping and all measures | spec `cuts`: counts among the first k matches, at every k or at the ends of runs of equal score; the errors of the code, collapsed or not, stand for numbers of hits, false positives and missed references |
| C105 | curves | spec `listCurves` from `cuts`; the exact curve of any list is that through its cuts, recalls are fractions of the number of references also when rounded, and sampling is as in C78 |
| C106 | `MatchesByQuerySampler`, `Main` with `minstd_rand0` | spec `SameSeed`; the seed is used only through the state that it gives |
| C107 | `std::default_random_engine`, `std::uniform_int_distribution` | no model helpers; 16807 generates the units modulo the prime 2^31 - 1 (Lucas), so that the engine is one cycle; intervals of accepted numbers are counted; for ranges larger than that of the engine, the loop ends because it cannot step over the states 1, 16807, 282475249, which are accepted (`Spec.Draws` is the algorithm as a relation, without bounds on iterations) |
| C108 | `ComputePercentileBootstrapCI`, `Main` | spec: `bounds` of a list of samples, `SameTask`, `SharedParts`; the loop of the bootstrap is a map over samples that do not depend on the statistic |
| C109 | tool level | spec: `HandedIn`, `Unnested`, `Between`; without false positives AP is the recall (`listAP_clean`); greedy matching restricted to a group (`boxMatching_filter`), bound of C98 |
| C110 | pairs of runs | spec: `Fits`, `KeepsRight`, `NoMoreWrong`; hits above a threshold are the hits of a prefix of the turns (`exact_above`), a sublist of turns picks no more (`picked_sublist`) |
| C111 | pairs of runs | spec: `RaisesRight`, `FitsOne`; if no hypothesis has a choice the hits are the references that fit one (`picked_single`); witness: a reference within another |
| C112 | pairs of runs | spec: `AddsQueries`, `MeansDiluted`, `GlobalsDiluted`; `BoxRun` and `SegRun` bundle what is assumed of a run; the matching of the second run restricted to the old groups is that of the first (`exact_old`) |
| C113 | `Model/Writing.lean`: streams with `badbit`, exceptions and limited room; `Traced.perform` | spec: `cut`, `AllWritten`, `CurvesFit`, `EnoughRoom`; induction on what is written; `Agrees.curves` says which files are curves; `CurvesLast` (`Lemmas/CurvesLast.lean`): in every run the curves come after everything else |
| C114 | sampler, statistics, `Main` with `Rng` = given numbers (`diceFrom`) or `MinStd.rng` | spec: `Regrouped`, `probability`; each sample has the law of C91, which only depends on the groups up to order (`Lemmas/IntervalLaw.lean`, `Lemmas/IntervalRuns.lean`); refuted by computing the first draws of the engine |
| C115 | Spec/Layout `SameLayout`, `SameEvents` | every extractor maps streams with the same words ahead to streams with the same words ahead (`Layoutless`), hence a line is read by its words; query files by `words`; the rest of a run uses the file system only to ask what is writable |
| C116 | Spec/Pooling `MeansPooled`, `BetweenParts` | the matches of the joint run filtered by part are those of the parts (`exact_parts`, from `exact_old` for both sides); groups are split likewise, so sums over groups add up (`average_pooled`) |
| C117 | Model/EventMappers, Spec/EventMappers `Views`, `oneTable`, `hiddenStrs` | simulation between heap and views, statement by statement (`sim_exec`, from the inversion `exec_ok`); invariants `Owned`, `Hides` on who owns which table |
| C118 | Spec/Again `Ahead`, `FoundAlready`, `SameButHyps`, `SameButRepeats` | the greedy matching with the hypothesis taken out is one of the rest (`Greedy.without`), which is unique; sorting with one element more (`sort_split`); ids: a repeated word is no new word (`firsts_known`) |
| C119 | Model/Statistic (core/Statistic.h), Spec/Statistic `Pools`, `Averages`, `SameGroups` | induction over the groups, one round of the loop of a mean is a call of the global object (`meanAPLoop_cons`); C33 for the independence of the order |
| C120 | matcher and assessment as in C116; Spec/Copies `Copies`, `CopiedQueries`, `SameButGlobalNDCG` | the tally of the copies is k times that of one (`Copies.tally`, `tallyOf_copies`), which average precision does not see (`times_ap`); each copy of a group is a single copy; the matching of copy i is the part about its queries (`exactBoxMatching_filter`), renamed (`matching_placed`) |
| C121 | `Parser.parse`, `traceMain`, `traceMainD`, Spec/OptionOrder `ReorderedItems`, `NotSwallowed` | whether an item is valid depends on its neighbour only if it has no value (`itemOk_next`); the settings depend on the last text of each option (C52) |
| C122 | query set and query groups of both tools | `CommentsAdded` inserts comment lines; partial: the comments do not mention queries of events (then the selection is the same, C97); refuted otherwise |
| C123 | `traceMain`, `traceMainD` of both tools with a rounding that overflows | `Overflowing R`: equal to IEEE-754 with unbounded exponents where the result fits, anything beyond the largest number otherwise; every intermediate number is bounded (`OverflowArith`, `OverflowAP`, `OverflowRun`, `OverflowNdcg`), options by their types (`OverflowInput`) |
| C124 | `GlobalAP`, `GlobalNDCG` on lists, both tools | `recallOf`, `precisionOf`, `gainShare` from the numbers of hits, false positives and references; `CountBounds` lists the bounds of a report. From C104: the curve between points is at most 1 and, interpolated, at least its last precision; the gains of the ranks sum up to at most the hits |
| C125 | both tools with confidence intervals | `ShowsIntervals`: the samples are a `Successive` sequence of the sampler on the groups of the matching, each a `Resample`; `OfSamples` says which interval their numbers give. From C104 applied to each sample; constant numbers have constant bounds |
| C126 | `traceMainD` for both tools, down to the text | `resultLines` says what should be printed. Every value on every resample is within ε of 0 or 1 (ε = 0 for 0), so the percentiles are, and `showGeneral` rounds that away |
| C127 | `mainWith` for both tools, two runs | A wrong hypothesis adds one to the number of false positives at all lower scores. Precision at rank i falls by at most 1/(n+1) there, so the area does; the gains move down by one rank and the last discount is the only loss. For boxes: the greedy matching without a hypothesis that takes nothing is the same for the others |
| C128 | `traceMainWithD`, `traceMainD` for both tools, two runs | A relation between the effects of two runs that is kept by every step: conditions on names are on their emptiness, on contents and on whether they can be written |
| C129 | `traceMainD` for both tools, run twice | Effects name the files written, which are the three of the options (by the relation of C128 between a run and itself). What a run reads of the world is then the same the second time; the last text written to a file does not depend on what was written before |
| C130 | `mainWith` for both tools, twice | The tallies agree at the old thresholds and the new ones come after them (`descending` of the longer list is the shorter list and more). More points at the end of a curve add a non-negative area, and raise precisions if they are interpolated; gains at the end are non-negative and the ideal gain is the same. Box matching: the greedy run on the old hypotheses is a prefix of that on all |
| C131 | `readEvents`, `mainWith`, `traceMain` | `lines (a ++ b) = lines a ++ lines b` if `a` ends a line; reading a list of lines is compositional, and the line number is only added to. Messages from C79, the order of the parts from C60 |
| C132 | `mainWith`, both kits | The curve of the longer ranking is that of the shorter one and points of larger recall. Precision is at most 1, so that the area past the old end is at most the recall that is added; interpolation lifts earlier points at most by what lies past the end. The gain of a hit past rank `n` is at most `1 / log2 (n + 2)` |
| C133 | `mainWith`, both kits | The points of the longer ranking are those of the shorter one and more; the value of a curve at a recall that is reached depends only on the points up to there, and interpolation only lifts points. The matching of the box tool is determined (C88), and its turns begin with those of the shorter submission |
| C134 | `mainWith`, both kits | References that are not accepted can be left out of a greedy matching without changing it, and the matching is determined (C88); hits and false positives above each score stay the same, so average precision and NDCG change like the numbers of references and their ideal gains, in each group as well |

## 6. Wrong programs

`tools/seed.py` applies each edit of `seeded/mutants.py` to a scratch copy of the model, re-elaborates all dependent
modules and lists the property theorems that have no proof any more. Modules with errors are kept, with the failing
proofs replaced by `sorry`, so the list contains every theorem that depends on a broken lemma. `claims_not_detected`
in the log names properties that the edit makes false although all of their theorems are still proved.
