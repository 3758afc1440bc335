#!/usr/bin/env python3
"""Regenerates /verif/properties.jsonl (kept as a script so that the text is easy to edit)."""
import json, os
P = []
def add(title, statement, quantifier, why, anchors):
    P.append(dict(id="C%02d" % (len(P)+1), title=title, statement=statement,
                  quantifier=quantifier, why_tests_cant=why, anchors=anchors))

# ---------------------------------------------------------------- geometry
add("Intersection area is the geometric overlap",
    "For two axis-aligned integer boxes whose right and bottom edges are representable, and whose areas are representable, IntersectionArea returns exactly the number of unit cells that belong to both boxes.",
    "all pairs of boxes with uint32 coordinates within the stated range; all pairs of int boxes within range",
    "There are 2^256 pairs of boxes; tests check a handful.",
    ["core/BoundingBox.h: BoundingBox::IntersectionArea, IntersectionArea", "core/BoundingBox.h: BoundingBox::Area"])
add("Intersection area is symmetric and bounded by both areas",
    "IntersectionArea(a,b) = IntersectionArea(b,a) for every pair of boxes (even when coordinates wrap around); within range it is at most Area(a) and at most Area(b), and IntersectionArea(a,a) = Area(a).",
    "all pairs of uint32 boxes", "Symmetry must hold for all pairs, including wrap-around.",
    ["core/BoundingBox.h: BoundingBox::IntersectionArea"])
add("Union area is the geometric union",
    "UnionArea returns the number of unit cells covered by at least one of the two boxes whenever that number is representable in the coordinate type, even if an intermediate sum wraps.",
    "all pairs of uint32 boxes with representable edges", "Intermediate overflow only appears for huge boxes that tests never use.",
    ["core/BoundingBox.h: BoundingBox::UnionArea"])
add("Boxes on different documents never overlap",
    "For boxes on different documents IntersectionArea is 0 and UnionArea is the sum of the areas; on the same document both equal the plain box results.",
    "all pairs of document boxes", "Universally quantified over document names and coordinates.",
    ["core/DocumentBoundingBox.h: IntersectionArea, UnionArea"])
add("Area arithmetic never silently wraps",
    "Area() and IntersectionArea() of any box that can be read from a file equal the mathematical values (no wrap-around, no undefined behaviour).",
    "all boxes with uint32 coordinates; all boxes with int coordinates",
    "Wrap-around needs adversarial sizes; signed overflow is undefined behaviour a test cannot observe reliably.",
    ["core/BoundingBox.h: Area, IntersectionArea", "tools/Icdar17KwsEval.cc: RefEvent"])
# ---------------------------------------------------------------- comparison
add("Boxes and events have one consistent total order",
    "For plain boxes, document boxes and events, the operators ==, !=, <, >, <=, >= all agree with a single strict total order whose equality is component-wise equality.",
    "all pairs and triples of boxes/events", "Transitivity and totality quantify over triples of values.",
    ["core/BoundingBox.h: operator<", "core/DocumentBoundingBox.h: operator<", "core/Event.h: operator<"])
add("Scored events have one consistent total order",
    "For scored events with non-NaN scores the six comparison operators agree with one strict total order: first by score, then by query and location.",
    "all pairs and triples of scored events without NaN scores", "Quantifies over all scores and events.",
    ["core/ScoredEvent.h: operator<, operator>, operator<=, operator>="])
add("Match objects copy and compare like values",
    "Copying or assigning a match (including assigning it to itself) yields a match equal to the source; a == b and a != b are always opposite and always return.",
    "all matches, all aliasings of source and destination", "Self-assignment and termination for all inputs are not established by sampling.",
    ["core/Match.h: Match(const Match&), operator=, operator==, operator!="])
# ---------------------------------------------------------------- event sets
add("A plain event set behaves like a mathematical set",
    "After any sequence of Insert, Remove and Clear, Size() is the number of distinct events inserted and not removed since, and FindOverlapping(e) returns exactly e when it is present and nothing otherwise.",
    "all operation sequences, all events", "Unbounded histories.",
    ["core/EventSet.h: EventSet"])
add("A document event set counts distinct events",
    "After any sequence of Insert, Remove and Clear on a default-constructed document event set, Size() is the number of distinct events present.",
    "all operation sequences", "Unbounded histories; the counter is maintained separately from the stored data.",
    ["core/DocumentBoundingBoxEventSet.h: Insert, Remove, Clear, Size"])
add("Overlap search is exact, duplicate-free and ordered",
    "After any sequence of operations, FindOverlapping(e) on a document event set returns each stored event with the same query, the same document and a positive intersection area exactly once, and nothing else, ordered by decreasing intersection area with ties broken by decreasing event order.",
    "all operation sequences and all query events, every conforming sort implementation", "Unbounded histories and the sort algorithm is unspecified.",
    ["core/DocumentBoundingBoxEventSet.h: FindOverlapping"])
add("A document event set built from a range reports its size",
    "A document event set constructed from a range of events reports as Size() the number of distinct events in the range.",
    "all ranges", "Reads of an uninitialised member are not reliably caught by tests.",
    ["core/DocumentBoundingBoxEventSet.h: EventSet(I begin, I end)"])
# ---------------------------------------------------------------- match errors
add("Error counts classify and add up",
    "A hit counts one hypothesis and one reference, a false positive one hypothesis and no reference, a false negative no hypothesis and one reference; the false-positive mass never exceeds the hypothesis count nor the false-negative mass the reference count; accumulating errors is addition of each of the four components, so the order of accumulation is irrelevant in exact arithmetic.",
    "all errors with rates in [0,1], all sequences of errors", "All sequences of accumulations.",
    ["core/MatchError.h: NH, NR", "core/MatchErrorCounts.h: operator+, operator+="])
# ---------------------------------------------------------------- matcher
add("Every distinct reference is accounted for exactly once",
    "The result of Match contains every distinct reference exactly once, either matched to a hypothesis or as a false negative, and no other references.",
    "all reference lists, hypothesis lists and scorers", "All inputs, all scorers.",
    ["matcher/SimpleMatcher.h: SimpleMatcher::Match"])
add("Hypotheses are accounted for at most once",
    "Each hypothesis occurrence produces at most one entry in the result of Match, in input order; entries with hypotheses come first, then the false negatives in increasing order of reference.",
    "all reference lists, hypothesis lists and scorers", "All inputs, all scorers.",
    ["matcher/SimpleMatcher.h: SimpleMatcher::Match"])
add("False positives are exactly the hypotheses no reference accepts",
    "A hypothesis is reported as a false positive if and only if the scorer rejects (fp >= 1) every reference overlapping it; in particular this does not depend on the other hypotheses.",
    "all reference lists, hypothesis lists and scorers", "All inputs, all scorers, all positions.",
    ["matcher/SimpleMatcher.h: SimpleMatcher::Match"])
add("Hypotheses take the best free acceptable reference, greedily",
    "Processing hypotheses in order, each hypothesis is paired with the first accepted overlapping reference not taken by an earlier hypothesis (for boxes: the one with the largest intersection area), and is dropped from the result exactly when accepted references exist but all were taken earlier.",
    "all reference lists, hypothesis lists and scorers", "All inputs, all scorers.",
    ["matcher/SimpleMatcher.h: SimpleMatcher::Match"])
add("Repeated matches are reported completely",
    "GetRepeatedMatches lists, in order, exactly the (hypothesis, reference) pairs that the scorer accepts, whose reference was already taken by an earlier hypothesis, and that precede the hypothesis' own match; if no hypothesis is listed twice, none of them appears in the result.",
    "all reference lists, hypothesis lists and scorers", "All inputs.",
    ["matcher/SimpleMatcher.h: GetRepeatedMatches, Match"])
add("Matching ignores order and duplication of references and past calls",
    "The result of Match depends only on the set of references (not on their order or repetition) and on the hypothesis list; it does not depend on earlier calls to Match on the same object.",
    "all permutations/duplications of references, all histories of calls", "Unbounded permutations and histories.",
    ["matcher/SimpleMatcher.h: SimpleMatcher::Match"])
add("The effective number of hypotheses never exceeds the given number",
    "The sum of NH over the result of Match never exceeds the number of hypotheses passed, so the tool never reports the internal error 'Effective number of hypotheses IS GREATER than the original number'.",
    "all inputs and scorers", "The author relies on it ('should not happen ever').",
    ["tools/GenericKwsEvalTool.h: Main", "matcher/SimpleMatcher.h: Match"])
# ---------------------------------------------------------------- scorers
add("Intersection-over-hypothesis scorer decides the stated ratio",
    "The ICDAR scorer accepts (fp = fn = 0) exactly when the queries are equal, the hypothesis area is positive and intersection/hypothesis-area >= threshold, and otherwise rejects (fp = fn = 1); with threshold 0.5 this is twice the intersection >= area. With threshold 0.5 single-precision rounding does not change the decision for hypothesis areas up to 2^24; for thresholds with few binary digits the same holds within a computable bound on the area, and for other thresholds it can change the decision.",
    "all pairs of events within range, all thresholds; every faithful rounding for areas up to 2^24", "Rounding near the threshold.",
    ["scorer/IntersectionOverHypothesisAreaScorer.h: operator()"])
add("Intersection-over-union scorer decides the stated ratio",
    "The IoU scorer accepts exactly when the queries are equal, the hypothesis area is positive and intersection/union >= threshold; its decision is symmetric in the two events when both areas are positive, and raising the threshold never turns a rejection into an acceptance.",
    "all pairs of events, all thresholds", "All pairs; division by a wrapped-to-zero union.",
    ["scorer/IntersectionOverUnionAreaScorer.h: operator()"])
add("Soft scorer returns complementary area fractions",
    "The soft scorer returns fp = 1 - intersection/hyp-area and fn = 1 - intersection/ref-area, both in [0,1]; fp = 0 exactly when the hypothesis box (non-empty) lies inside the reference box, and both are 1 for different queries.",
    "all pairs of events", "All pairs.",
    ["scorer/SoftBoundingBoxScorer.h: operator()"])
add("Trivial scorer accepts exactly equal events",
    "The trivial scorer accepts exactly when query and location are both equal. Consequently, with the plain event set, the segmentation-based evaluation yields: a hit for the first hypothesis of each referenced event, nothing for its repetitions, a false positive for each hypothesis of an unreferenced event, and a false negative for each referenced event never hypothesised.",
    "all event lists", "All inputs.",
    ["scorer/TrivialScorer.h: operator()", "tools/SimpleKwsEval.cc: main"])
# ---------------------------------------------------------------- assessment
add("Precision and recall are rates and recall never decreases",
    "The precision and recall curves have one point per (collapsed) match; every value lies in [0,1]; recall is non-decreasing; in exact arithmetic the last recall is one minus the missed mass over the number of references. The [0,1] bounds survive floating-point rounding, and so does the monotonicity of recall for the errors that the scorers produce (without collapsing, or for hard errors).",
    "all match lists with error rates in [0,1]; every monotone rounding that is exact on small integers", "All lists; rounding.",
    ["core/Assessment.h: ComputePrecisionAndRecall, NumTotalReferences"])
add("Precision and recall are the textbook ratios at each rank",
    "In exact arithmetic, for hits, false positives and false negatives (hard errors) the k-th precision is (#hits among the first k)/(#hypotheses among the first k), or 1 if there are none, and the k-th recall is (#hits among the first k)/(#references), or 1 if there are none.",
    "all lists of hard errors, all ranks", "All lists.",
    ["core/Assessment.h: ComputePrecisionAndRecall"])
add("Interpolated precision is the least non-increasing majorant",
    "With interpolation each precision becomes the maximum of the precisions at that and all later points; the result is non-increasing, dominates the raw curve and is the smallest such curve. Recall is unchanged.",
    "all error lists", "All lists.",
    ["core/Assessment.h: ComputePrecisionAndRecall"])
add("Average precision is the area under the curve",
    "In exact arithmetic AP equals the sum of precision (or mean of adjacent precisions, in trapezoid mode) times the recall increment, the first increment being the first recall.",
    "all curves of equal length", "All lists.",
    ["core/Assessment.h: ComputeAP"])
add("Average precision and its means are in [0,1]",
    "Global AP and mean AP of any list of matches with rates in [0,1] lie in [0,1]; the mean AP is 0 if there are no groups, and otherwise the arithmetic mean of the AP of the groups.",
    "all match lists, all option combinations", "All lists and options.",
    ["core/Assessment.h: ComputeGlobalAP, ComputeMeanAP"])
add("Perfect and worthless submissions get the extreme scores",
    "If every reference is hit and there are no false positives, AP = 1; if there is no hit at all (only false positives and false negatives), AP = 0.",
    "all match lists of those kinds, all options", "All lists.",
    ["core/Assessment.h: ComputeGlobalAP"])
add("Both average-precision formulas agree",
    "In exact arithmetic the AP computed from errors and precisions equals the AP computed from the precision and recall curves whenever each match removes as much from precision as from recall (all hard scorers) and there is at least one reference.",
    "all error lists with NH - FP = NR - FN", "All lists.",
    ["core/Assessment.h: ComputeAP (both overloads)"])
add("Collapsing conserves totals and yields one point per score",
    "Collapsing equal-score matches preserves the total false-positive mass, false-negative mass, hypothesis and reference counts, in order; on a list sorted by score there is exactly one collapsed point per distinct score, each being the sum of the errors with that score.",
    "all match lists", "All lists.",
    ["core/Assessment.h: CollapseMatches"])
add("Collapsed metrics do not depend on how ties are broken",
    "With collapsing, two score-sorted arrangements of the same matches give identical collapsed points, and hence identical precision/recall curves, AP and NDCG; therefore the result does not depend on the sorting algorithm.",
    "all pairs of score-sorted permutations, every conforming sort; exact arithmetic, and IEEE arithmetic for up to 2^24 hard matches", "All permutations; std::sort is unstable and implementation-defined on ties.",
    ["core/Assessment.h: CollapseMatches, SortMatchesDecreasingScore, ComputeGlobalAP"])
add("Sorting by score is correct and has its precondition",
    "Sorting matches by decreasing score yields a permutation of the matches in which scores never increase and all matches without hypothesis come last; the comparison used is a strict weak order exactly if no score is NaN or all the other scores are equal; otherwise sorting is undefined behaviour.",
    "all match lists, every conforming sort implementation", "Undefined behaviour of std::sort with an invalid comparator.",
    ["core/Assessment.h: SortMatchesDecreasingScore"])
add("Grouping partitions the matches by query group",
    "Grouping puts each match in exactly one group, preserves the relative order, puts two matches in the same group exactly when their queries map to the same group, orders groups by first appearance, and never produces an empty group.",
    "all match lists and query-to-group maps", "All lists and maps.",
    ["core/Assessment.h: GroupMatchesByQueryGroup"])
add("NDCG is in [0,1]",
    "In exact arithmetic, for any list of matches with rates in [0,1], NDCG lies in [0,1], with or without collapsing; it is 1 when all hypotheses are hits and all references are hit, and 0 without references.",
    "all match lists", "Requires a rearrangement inequality over lists of any length and real logarithms.",
    ["core/Assessment.h: ComputeNDCG, ComputeGlobalNDCG, ComputeMeanNDCG"])
# ---------------------------------------------------------------- curves
add("Curve sampling is piecewise-linear interpolation",
    "Sampling a curve at non-decreasing abscissae returns, for each abscissa, the linear interpolation between the two neighbouring source points (or the next source ordinate if not interpolating or before the first point), and 0 beyond the last source abscissa; the division is never by zero and the sampled values stay within the range of the source ordinates and 0.",
    "all source curves and all sorted sample points", "All lists.",
    ["core/Assessment.h: SampleCurveAtGivenPoints"])
add("Sample points are an even grid on [0,1]",
    "For n >= 2 the sample abscissae are the n values k/(n-1), strictly increasing from 0 to 1; for n < 2 there are none.",
    "all n", "All sizes.", ["core/Assessment.h: GetEvenlyDistributedPoints01Interval"])
add("Written curves are well-formed",
    "The global and mean recall-precision curves have as many ordinates as abscissae, so writing them never throws for a non-empty file name; each ordinate of the mean curve is the arithmetic mean of the sampled group curves and is in [0,1] when there is at least one group.",
    "all match lists and sample counts", "All inputs; 0/0 without groups.",
    ["tools/GenericKwsEvalTool.h: WriteGlobalRPCurve, WriteMeanRPCurve", "core/Assessment.h: WriteCurveToFile"])
# ---------------------------------------------------------------- bootstrap
add("Bootstrap samples have the right shape",
    "Each bootstrap sample by query has as many groups as the original, and each sampled group is drawn with replacement from one original group and has that group's size; only original matches occur. No out-of-range access happens.",
    "all grouped matches without empty groups, every random generator honouring its range", "All random outcomes.",
    ["core/Bootstrapping.h: MatchesByQuerySampler"])
add("Flat bootstrap samples have the right shape",
    "A flat bootstrap sample has as many matches as the original and contains only original matches.",
    "all match lists, every random generator", "All random outcomes.",
    ["core/Bootstrapping.h: MatchesSampler"])
add("Confidence bounds are ordered and well-defined",
    "For any repetitions > 0 and 0 < alpha < 2 the confidence interval computation reads only existing elements, the lower bound does not exceed the upper bound for alpha <= 1, and the bounds are differences of the observed value and order statistics of the bootstrap deviations.",
    "all samples, statistics, random generators, repetitions and alphas", "Index computation at every boundary.",
    ["core/Bootstrapping.h: ComputePercentileBootstrapCI"])
add("Asking for confidence intervals does not change the reported value",
    "The value reported with bootstrapping enabled equals the value reported without it.",
    "all match lists, all option combinations", "All inputs; the two code paths sort differently.",
    ["tools/GenericKwsEvalTool.h: ComputeGlobalStatistic, ComputeMeanStatistic", "core/Statistic.h"])
# ---------------------------------------------------------------- mapper
add("String ids are stable, injective and dense",
    "Along any sequence of lookups, a string always gets the same id, different strings get different ids, and the ids in use are exactly 0..n-1 in order of first lookup.",
    "all lookup histories", "Unbounded histories.", ["mapper/StringToIntMapper.h: operator()"])
add("String ids overflow is reported, never wrapped",
    "For an integer type with maximum M the mapper accepts exactly M+1 distinct strings; the next new string raises range_error and leaves the mapping unchanged; known strings still resolve.",
    "all lookup histories, all integer types", "Capacity 2^31 cannot be reached in a test.",
    ["mapper/StringToIntMapper.h: operator(), kMaxSize"])
add("Event mapping preserves identity",
    "Mapping string events to integer events maps equal events to equal events and different events to different events, regardless of the order in which query and location are looked up; mapping scored events keeps the score.",
    "all event histories, both argument evaluation orders", "The evaluation order is unspecified by the language.",
    ["mapper/StringEventToIntMapper.h: operator()", "mapper/ScoredEventMapper.h: operator()"])
# ---------------------------------------------------------------- reader
add("Comments, blank lines and surrounding whitespace are irrelevant",
    "Reading a file gives the events of its non-comment, non-blank lines in order; deleting or inserting comment or blank lines, or adding whitespace (including carriage returns) around a line, does not change the events.",
    "all files", "All files.", ["reader/PlainTextMapEventReader.h: Read"])
add("Malformed lines are rejected at the first offending line",
    "Reading succeeds exactly when every non-comment, non-blank line consists of one event and nothing else; otherwise it fails, naming the first offending line, and the events of all earlier lines have been produced.",
    "all files", "All files.", ["reader/PlainTextMapEventReader.h: Read"])
add("Writing an event and reading it back is the identity",
    "Printing an unscored event and reading the text yields the same event, for queries and documents that are non-empty, contain no whitespace (and the query does not start with '#').",
    "all events", "All values.", ["core/Event.h: operator<<, operator>>", "core/DocumentBoundingBox.h: operator<<, operator>>", "core/BoundingBox.h: operator<<, operator>>"])
add("Only in-range numbers are accepted as coordinates",
    "A coordinate text is accepted only if it denotes a number between 0 and 2^32-1, and the stored coordinate is that number.",
    "all texts", "All strings; '-1' is a trap.", ["core/BoundingBox.h: operator>>", "tools/Icdar17KwsEval.cc"])
add("Scores read from a file are finite numbers",
    "A hypothesis file that is accepted contains only finite scores (never NaN or infinite), so sorting and collapsing are well defined.",
    "all files", "All strings.", ["core/ScoredEvent.h: operator>>", "reader/PlainTextMapEventReader.h: Read"])
# ---------------------------------------------------------------- cmd
add("Well-formed command lines are parsed as intended",
    "For a command line consisting of option/value pairs for registered options, an optional '--', and at least all mandatory and at most all positional arguments, parsing succeeds, each option holds the value of its last occurrence, options not given keep their defaults and positionals are assigned in order.",
    "all registries and all well-formed command lines", "Unbounded command lines.", ["cmd/Parser.h: Parse, RegisterOption"])
add("Bad command lines are rejected",
    "Parsing fails on an unknown option, a missing or invalid option value, a missing mandatory argument or a surplus positional argument.",
    "all registries and command lines", "Unbounded command lines.", ["cmd/Parser.h: Parse"])
add("Option names are unique and 'help' is reserved",
    "Registering an option fails exactly when the name is 'help' or already registered, and then changes nothing.",
    "all registration histories", "All histories.", ["cmd/Parser.h: RegisterOption"])
add("Only double-dash option names select options",
    "An argument selects a registered option only if it is '--' followed by the option name.",
    "all arguments", "All strings.", ["cmd/Parser.h: Parse"])
add("Numeric option values are validated",
    "A numeric option accepts a text exactly when the text is a complete number in range, and then holds that number.",
    "all texts", "All strings.", ["cmd/Option.h: Option<T>::Parse"])
add("Boolean options accept exactly the documented spellings",
    "A boolean option accepts exactly '', 'true', '1' (true) and 'false', '0' (false); a boolean positional argument accepts the same except ''; anything else is rejected and leaves the value unchanged; string options accept every text verbatim.",
    "all texts", "All strings.", ["cmd/Option.h: Option<bool>::Parse, Option<std::string>::Parse", "cmd/Argument.h: Argument<bool>::Parse"])
# ---------------------------------------------------------------- tool
add("Query filtering keeps exactly the requested queries",
    "With a query set or query groups file that lists at least one query, exactly the reference and hypothesis events whose query is listed are kept, in order; with an empty file nothing is filtered.",
    "all files", "All files.", ["tools/GenericKwsEvalTool.h: filter_events, Main"])
add("Query groups files define the grouping",
    "In a query groups file the first word of each line names the group of the remaining words; a later line overrides an earlier one; a line with fewer than two words (also an empty one) is rejected.",
    "all files", "All files.", ["tools/GenericKwsEvalTool.h: Main"])
add("The evaluation does not depend on the order of lines (box tool)",
    "For the ICDAR tool, permuting the reference lines, repeating reference lines, or permuting the hypothesis lines does not change any reported metric (with the default sorting).",
    "all permutations of both files, every conforming sort", "All permutations.", ["tools/GenericKwsEvalTool.h: Main", "tools/Icdar17KwsEval.cc"])
add("The evaluation does not depend on id assignment (segmentation tool)",
    "For the segmentation-based tool with collapsing, the reported metrics do not depend on which integer ids the strings get, hence not on the order of lines in the files.",
    "all injective relabelings, all permutations of lines", "All relabelings.", ["tools/SimpleKwsEval.cc", "mapper/StringEventToIntMapper.h"])
add("The tool reports errors through its exit status",
    "The tool returns 1 and reports no metrics on a bad command line, an unreadable or malformed input file; otherwise it returns 0 after reporting exactly the four metrics.",
    "all command lines and file contents", "All inputs.", ["tools/GenericKwsEvalTool.h: Main"])
# ---------------------------------------------------------------- additions
add("Fields of a line are separated by whitespace",
    "A line that is accepted as an event consists of whitespace-separated fields: two words and, for hypotheses, a number; or two words, four coordinates and, for hypotheses, a number.",
    "all lines", "All lines.", ["core/BoundingBox.h: operator>>", "core/ScoredEvent.h: operator>>", "reader/PlainTextMapEventReader.h: Read"])
add("Rounding changes average precision only slightly",
    "For n matches with hard errors (n <= 2^24), or with errors of the soft scorer and without collapsing (n <= 2^29), ComputeGlobalAP in IEEE double arithmetic returns the value of exact arithmetic up to n(n+4)/2^52, with any options; the points of the curves are exact up to 2^-53; the mean AP of g groups of at most n matches is exact up to n(n+4)/2^52 + (g+1)/2^52.",
    "all lists of matches of the stated sizes, all options", "Tests compare a few values with a tolerance; the bound holds for all lists.",
    ["core/Assessment.h: ComputePrecisionAndRecall, ComputeAP, ComputeMeanAP", "scorer/SoftBoundingBoxScorer.h"])

add("The measures are functions of counts above thresholds",
    "For matches that are hits, false positives or false negatives, in decreasing order of score, ComputeGlobalAP and ComputeGlobalNDCG with collapsing are the area under the curve, respectively the normalised gain, computed from the numbers of hits and false positives with a score of at least s, for the scores s that occur, and the number of references; the order among equal scores, the queries and the locations do not matter. In IEEE arithmetic AP is off by at most n(n+4)/2^52.",
    "all such lists of matches, all options", "The same number is computed in two independent ways for every list; tests compare a few.",
    ["core/Assessment.h: CollapseMatches, ComputePrecisionAndRecall, ComputeAP, ComputeGlobalAP, ComputeGlobalNDCG"])
add("The segmentation-based tool reports the numbers that its files define",
    "With the default sorting and collapsing, a run of the segmentation-based tool that ends with a report shows the four numbers defined directly from the events in its files: a reference is found at threshold s if one of its hypotheses has a score of at least s, a hypothesis that is no reference is a false positive, only listed queries count, and means are over the groups of the query files. In IEEE arithmetic the average precisions are off by at most (n+3)^2/2^52 for n <= 2^24 events.",
    "all files, options, ids and random generators, every conforming sort", "End-to-end for all input files; tests run a few files.",
    ["tools/SimpleKwsEval.cc", "tools/GenericKwsEvalTool.h: Main", "core/Assessment.h", "matcher/SimpleMatcher.h"])
add("The box tool reports the numbers of a greedy matching by covered area",
    "With the default sorting and collapsing, a run of the ICDAR tool that ends with a report shows the four numbers of the following matching: hypotheses take turns in decreasing order of score; each one is given, among the references of its query and document that cover at least half of its cells, the free one with most cells in common; without any such reference it is a false positive; the references that nobody got are false negatives. Boxes are sets of cells and must not wrap around; in IEEE arithmetic their areas must be at most 2^24.",
    "all files with boxes in range, options and random generators, every conforming sort", "End-to-end for all input files; tests run a few files.",
    ["tools/Icdar17KwsEval.cc", "tools/GenericKwsEvalTool.h: Main", "scorer/IntersectionOverHypothesisAreaScorer.h", "matcher/SimpleMatcher.h", "core/DocumentBoundingBoxEventSet.h", "core/Assessment.h"])
add("Only the order of the scores matters",
    "Replacing every score in the hypothesis file by a strictly increasing function of it changes neither the four reported numbers nor the curves (descending order, collapsing); the dumped matches are the same up to the scores.",
    "all files, options and strictly increasing functions, both tools, every conforming sort", "A relation between two runs, for all files and all increasing functions.",
    ["tools/GenericKwsEvalTool.h: Main", "core/Assessment.h: CollapseMatches, GroupMatchesByQueryGroup", "matcher/SimpleMatcher.h", "core/ScoredEvent.h: operator<"])

add("False positives after the last hit cost nothing",
    "False positives whose score is lower than that of every hit do not change ComputeGlobalAP or ComputeGlobalNDCG, whatever the options (exact arithmetic): a submission may be extended by less certain hypotheses without a penalty, except through the hits they contain.",
    "all lists of hits, false positives and false negatives in decreasing order of score, all options", "A relation between two evaluations for all lists.",
    ["core/Assessment.h: ComputeGlobalAP, ComputeGlobalNDCG, CollapseMatches"])
add("Better rankings are not punished",
    "A list of matches that has found at least as many references after each number of matches (without collapsing), or that has at each score at least as many hits and at most as many false positives with at least this score (with collapsing), out of no more references, gets no lower AP and no lower NDCG.",
    "all pairs of such lists, all options", "A relation between two evaluations for all pairs of lists.",
    ["core/Assessment.h: ComputeGlobalAP, ComputeGlobalNDCG, CollapseMatches"])
add("Better hypotheses are not punished by the segmentation-based tool",
    "With the default options, adding right hypotheses, dropping wrong ones, raising scores of right ones and lowering scores of wrong ones does not lower the global and the mean average precision that the segmentation-based tool reports (in IEEE arithmetic: except for rounding errors of at most ((n+3)^2+(n'+3)^2)/2^52).",
    "all pairs of runs with such files, every conforming sort", "A relation between two runs for all files.",
    ["tools/SimpleKwsEval.cc", "tools/GenericKwsEvalTool.h: Main", "core/Assessment.h", "matcher/SimpleMatcher.h"])
add("How the four formulas of average precision compare",
    "ComputeGlobalAP with interpolation is at least the value without it, with or without trapezoids and collapsing; for hits, false positives and (last) false negatives without collapsing, trapezoids give at most the value of rectangles, and exactly the same value with interpolation. Exact arithmetic.",
    "all lists of matches with rates as errors", "A relation between two evaluations for all lists.",
    ["core/Assessment.h: ComputeGlobalAP, ComputePrecisionAndRecall, ComputeAP"])
add("With one group the mean is the global value",
    "If all queries considered belong to one group, the mean AP and mean NDCG that a run reports, with their confidence intervals, and the mean curve equal the global ones; also in IEEE arithmetic, without any rounding difference.",
    "all files, options and random generators, both tools, every conforming sort", "An identity between two code paths for all inputs.",
    ["core/Assessment.h: ComputeMeanAP, ComputeMeanNDCG", "core/Bootstrapping.h", "tools/GenericKwsEvalTool.h: ComputeMeanStatistic, ComputeGlobalStatistic, WriteMeanRPCurve"])

add("Printed numbers are the nearest ones with six or seven digits",
    "A number written with operator<< (metrics, scores, errors) is read as a number with at most six significant digits such that no other one is nearer to it; with std::scientific (curves) as one with at most seven digits. Hence printing keeps the order, is exact for numbers with so few digits, and has a relative error of at most 1/(2*10^5) or 1/(2*10^6).",
    "all numbers", "All numbers.", ["tools/GenericKwsEvalTool.h: ComputeGlobalStatistic, ComputeMeanStatistic", "core/ScoredEvent.h: operator<<", "core/Assessment.h: WriteCurveToFile"])
add("Printed scored events are read back",
    "Writing scored events with operator<<, one per line, and reading the text with the plain text reader gives events with the same query and location in the same order; the score is the float of the nearest number with six digits. Scores that were read from texts of at most six digits are read back exactly.",
    "all lists of events whose names are words", "All events and scores.", ["core/ScoredEvent.h: operator<<, operator>>", "core/Event.h", "core/BoundingBox.h", "reader/PlainTextMapEventReader.h: Read"])
add("What the tools print on the standard output",
    "A run that ends with a report prints exactly four lines, gAP, mAP, gNDCG and mNDCG, each with its value to six digits and, if asked for, its interval, and returns 0; other runs that end normally print nothing and write no file, and return 0 only for --help; an aborted run has printed the first metrics only. With valid files the printed values are the nearest six-digit numbers of those that C66 and C67 define from the files.",
    "all command lines, files, and both tools", "All inputs.", ["tools/GenericKwsEvalTool.h: Main, ComputeGlobalStatistic, ComputeMeanStatistic"])
add("The file with the matches shows the matching",
    "With --dump_matches a run of the ICDAR tool that ends with a report writes a file with one line for each match of the matching that C67 describes, in order, a separating line, and one line for each repeated match; each line shows hypothesis, score, reference and errors. The file determines the matching: files of different matchings differ unless they differ in digits of the scores that are not printed. This also holds for the names in the file of the segmentation-based tool.",
    "all command lines, files, matchings", "All pairs of matchings.", ["tools/GenericKwsEvalTool.h: Main", "core/Match.h: operator<<", "core/MatchError.h: operator<<", "core/ScoredEvent.h: operator<<"])
add("The files with the recall-precision curves",
    "With the default sorting and collapsing, --output_grp and --output_mrp write one line per sample point k/(n-1) of recall with its two coordinates to seven digits. The value is that of the curve through the points (recall, precision) of the thresholds, counted from the files (segmentation-based tool) or from the matching of C67 (ICDAR tool), and the mean over the groups of their curves. With interpolation the values do not increase; without trapezoids each value is the best precision of a threshold with at least this recall.",
    "all command lines, files and random generators, every conforming sort", "End-to-end for all input files; tests look at a few points.",
    ["tools/GenericKwsEvalTool.h: WriteGlobalRPCurve, WriteMeanRPCurve", "core/Assessment.h: SampleCurveAtGivenPoints, WriteCurveToFile", "core/Assessment.h: ComputePrecisionAndRecall"])

add("What the tools say on the standard error",
    "With an accepted command line, a run says on the standard error exactly the following. If the name of the references is empty, or references, hypotheses or query file cannot be read or have a wrong format: the numbers of events read before, the number of the first line that is no event, which file it was; then it returns 1, prints nothing and writes no file. Otherwise: the numbers of events read, of different queries and groups listed, of events kept if some are dropped, a warning for an unknown sorting criterion, and, unless the match file cannot be opened (which it says), the number of hits and false positives if some hypotheses are repetitions. The numbers are counted from the files; for the segmentation-based tool hits are referenced events with a hypothesis.",
    "all command lines and files, both tools, every conforming sort", "All input files.",
    ["tools/GenericKwsEvalTool.h: Main", "reader/PlainTextMapEventReader.h: Read"])
add("A failure to read the hypotheses names their source",
    "If the hypotheses cannot be read, the tools say that they come from the standard input if that is where they were read from, and otherwise the name of their file.",
    "all command lines and files, both tools", "All command lines.",
    ["tools/GenericKwsEvalTool.h: Main (lines 286-300)"])

add("What is said about wrong command lines",
    "Every command line is well formed, asks for help, or is wrong, and only one of these. A wrong one is rejected with the message that the first problem calls for: an unknown option, an option without valid value, an invalid positional argument, and the number of missing or of superfluous arguments. The tools then write this message, an empty line and the help to the standard error, nothing else, and return 1; for --help they write the help and return 0.",
    "all command lines, all registries with distinct names, both tools", "All command lines.",
    ["cmd/Parser.h: Parse, Help", "cmd/Option.h: Parse", "cmd/Argument.h: Parse", "tools/GenericKwsEvalTool.h: Main"])
add("The values in the help can be given back",
    "The help lists each option once, in the order of the names, with its type and the value that the command line gave to it, or its default. Options given with the value that the help shows keep their value, if it is a text, flag, integer, or number of six digits; stating defaults does not change what a tool prints, writes and returns.",
    "all command lines, all registries with distinct names, both tools", "All command lines and values.",
    ["cmd/Parser.h: Help, Parse", "cmd/Option.h: Help, Parse", "core/TypeInfo.h", "tools/GenericKwsEvalTool.h: Main"])
add("What the options and arguments of the tools mean",
    "On a command line that a tool accepts, each setting of the tool has the value that the option of its name was last given on the line, or its documented default: texts as they are given, flags true for an empty text, true and 1 and false for false and 0, numbers that are in range as they are written. The first argument names the references, the second one the hypotheses. What a run does depends on the line only through these: order of options, earlier texts of an option and -- before the arguments make no difference.",
    "all accepted command lines, both tools", "All command lines.",
    ["tools/GenericKwsEvalTool.h: Main", "cmd/Parser.h: Parse, RegisterOption", "cmd/Option.h: Parse"])

add("Match objects behave like values",
    "A program that creates, copies, assigns, moves, changes and destroys Match objects runs without undefined behaviour and without a failed assertion exactly if it uses only objects that exist and events that are there. What it then observes is what it would observe if every object were a plain value, except that an object assigned to itself loses its events.",
    "all sequences of statements on any number of Match objects", "All programs, with pointers and lifetimes.",
    ["core/Match.h: Match, operator=, SetRef, SetHyp, SetError, GetRef, GetHyp, HasRef, HasHyp"])
add("Match objects return their memory",
    "A program that has ended the life of all its Match objects has returned the memory of all their events, and while it runs every event that is allocated is held by an object.",
    "all sequences of statements on any number of Match objects", "All programs; a leak is no observable result of a test.",
    ["core/Match.h: Match, operator=, SetRef, SetHyp"])
add("Copies of a mapper share its table, which is deleted once",
    "A StringToIntMapper and its copies act as one mapper: the ids are those that one mapper gives to the strings in the order of the calls. Tables are deleted exactly once, when their owner is destroyed. A program may copy, assign, use and destroy mappers that exist in any order without undefined behaviour.",
    "all sequences of statements on any number of mappers", "All programs, with pointers and lifetimes.",
    ["mapper/StringToIntMapper.h: StringToIntMapper, ~StringToIntMapper, operator()"])
add("The parser owns what is registered in it",
    "Whatever is registered in a Parser, in whatever order and however often, every option name has the variable of its first registration (help none), the arguments are those registered in their order, and the destructor returns all the memory and deletes nothing twice. This also holds if the parser is copied.",
    "all sequences of registrations", "All sequences of registrations, with pointers.",
    ["cmd/Parser.h: RegisterOption, RegisterArgument, RegisterOptArgument, ~Parser"])
add("The matching of the box tool is determined, ties included",
    "The matches that a run of the box tool reports, and their order, are a function of the set of references and of the multiset of hypotheses: hypotheses take turns by decreasing score and, if the scores are the same, by decreasing query, document, left edge, top edge, width and height; a hypothesis is given the first free reference that covers half of it, in the order of decreasing shared area and, if this is the same, of the decreasing event; the missed references follow in increasing order.",
    "all files, options with sort=desc and collapse", "All files, with all ties.",
    ["core/DocumentBoundingBoxEventSet.h: FindOverlapping", "core/ScoredEvent.h: operator<", "matcher/SimpleMatcher.h: Match", "tools/GenericKwsEvalTool.h: Main"])
add("Names and positions do not matter to the box tool",
    "If queries, documents and groups are renamed one-to-one in all files, and all boxes of a document are moved by the same distance (different documents by different ones) without leaving the range of the coordinates, the box tool reports the same numbers, and the same matches with the new names and positions, in some order.",
    "all files, all one-to-one renamings, all distances, options with sort=desc and collapse", "All files and renamings; ties are broken by names and positions.",
    ["core/DocumentBoundingBoxEventSet.h: FindOverlapping", "core/ScoredEvent.h: operator<", "matcher/SimpleMatcher.h: Match", "tools/GenericKwsEvalTool.h: Main"])
add("There are four ways for a run to end, and the inputs decide which",
    "A command line that asks for help ends with status 0 and one that is wrong with status 1. Otherwise: if an input file is missing or invalid or the file for the matches cannot be written, the run ends with status 1; else, if a confidence interval is asked for and bootstrap_samples and bootstrap_alpha do not give positions among the samples, it reads out of range; else, if a file for a curve cannot be written, it ends with an uncaught exception; else it reports everything it was asked for.",
    "all command lines, files, options and random generators", "All inputs; undefined behaviour need not show in a test.",
    ["tools/GenericKwsEvalTool.h: Main", "core/Bootstrapping.h: ComputePercentileBootstrapCI", "core/Assessment.h: WriteCurveToFile"])
add("Bootstrap samples have the right distribution",
    "If the drawn numbers are uniform and independent, MatchesByQuerySampler returns each sample with the probability of the two-stage bootstrap: every group of the sample is a uniformly chosen group of the original, with as many matches drawn uniformly and with replacement from it, all choices being independent, also between successive samples.",
    "all groups of matches, all samples and sequences of samples, all uniform sources", "A distribution cannot be observed with a fixed seed; statistical tests only reject some errors.",
    ["core/Bootstrapping.h: MatchesByQuerySampler", "core/Bootstrapping.h: ComputePercentileBootstrapCI"])
add("Rounding hardly changes NDCG",
    "For up to 2^24 matches, ComputeNDCG in double precision, with exp2 and log2 accurate to one unit in the last place, differs from the exact NDCG by at most (n + 2) / 2^48 and, with collapsing, by at most (k - 1) / 2^20 more where k hypotheses share a score; for hits, false positives and false negatives without shared scores it stays in [0,1], it is exactly 1 if everything is found and nothing else, and exactly 0 if there is no hit. The mean over g groups adds at most (g + 1) / 2^52.",
    "all lists of up to 2^24 matches, all groups, all accurate mathematical libraries", "Rounding errors add up over all lists.",
    ["core/Assessment.h: ComputeNDCG", "core/Assessment.h: ComputeGlobalNDCG", "core/Assessment.h: ComputeMeanNDCG"])
add("The program prints what it should, with every number in double precision",
    "For files of up to N lines (N at most 2^24, with collapsing 2^19; if an interval of the global NDCG is asked for, the square of the number of lines is at most N), the program in which NDCG and its intervals are computed in double ends in the same way and does the same as the program with exact NDCG, except for the numbers of NDCG: values differ by at most e = (N + 2) / 2^48 + (N + 1) / 2^52, with collapsing (N - 1) / 2^20 more, and bounds of intervals by at most 3 e + 2^-48. So the four numbers that a run of either tool prints are near those of the definitions applied to its files.",
    "all command lines, files, random generators and accurate mathematical libraries within the limits", "All files; rounding errors could change the order of bootstrap statistics.",
    ["tools/GenericKwsEvalTool.h: Main", "core/Assessment.h: ComputeNDCG", "core/Bootstrapping.h: ComputePercentileBootstrapCI"])
add("Raising alpha shrinks the confidence intervals",
    "Two runs that differ in bootstrap_alpha only (and not above 1) report the same values, files and curves, and every confidence interval of the run with the larger alpha is contained in that of the other run; if the run with the smaller alpha ends with a report, so does the other one.",
    "all command lines, files, random generators and seeds, all alpha up to 1, up to 2^53 repetitions in double precision", "All inputs and all pairs of alpha.",
    ["core/Bootstrapping.h: ComputePercentileBootstrapCI", "tools/GenericKwsEvalTool.h: Main"])
add("Confidence intervals lie in [0,1] and contain the value",
    "Every confidence interval that is printed is a part of [0,1] and contains the value printed with it.",
    "all matches, options and random draws", "All draws: most intervals of a test do so.",
    ["core/Bootstrapping.h: ComputePercentileBootstrapCI", "tools/GenericKwsEvalTool.h: ComputeGlobalStatistic", "tools/GenericKwsEvalTool.h: ComputeMeanStatistic"])
add("An evaluation is made up of the evaluations of its queries",
    "Matching only the references and hypotheses of some queries gives those matches of the full run that are about these queries, in the same order. So, with no intervals and curves asked for, mean AP and mean NDCG of a run are the means of global AP and NDCG of the runs whose query set names a single query (or lists the queries of a single group), over all queries (groups) with an event, and the dumped matches of these runs are those of the full run about the query (group).",
    "all references, hypotheses, query sets and groups, sorts, scorers and roundings", "All inputs: a dependence between queries shows only for some combinations of events.",
    ["core/Assessment.h: ComputeMeanAP", "core/Assessment.h: ComputeMeanNDCG", "matcher/SimpleMatcher.h: Match", "core/DocumentBoundingBoxEventSet.h: FindOverlapping", "tools/GenericKwsEvalTool.h: Main"])
add("Query files matter only through what they select",
    "A run depends on the query set or the file of query groups only through which of the queries that occur in the events it lists and which of these share a group: order, repetitions, other queries and the names of groups do not matter, a query set that lists all queries that occur is as good as none, and so is a file that makes each of them a group of its own. This includes confidence intervals, curves and the dumped matches.",
    "all events, query files, options and random generators", "All pairs of files.",
    ["tools/GenericKwsEvalTool.h: Main", "core/Assessment.h: GroupMatchesByQueryGroup"])
add("Greedy matching finds at least half of what can be found",
    "However the hypotheses are given references of the same query and document that cover at least half of them, each reference at most once, the number of hypotheses that get one is at most twice the number of hits of the matching. Twice is reached. For the segmentation-based tool it is at most the number of hits.",
    "all references, hypotheses, assignments and sorts; both arithmetics", "All assignments: there are exponentially many.",
    ["matcher/SimpleMatcher.h: Match", "tools/GenericKwsEvalTool.h: Main"])
add("One more event changes the number of hits by at most one, upwards",
    "If one hypothesis, of whatever score, or one reference is added, the number of hits of the matching stays or grows by one, although the hit hypotheses and references may change.",
    "all references, hypotheses and sorts; both arithmetics", "All inputs: a new event can change the pairing of all later hypotheses.",
    ["matcher/SimpleMatcher.h: Match", "tools/GenericKwsEvalTool.h: Main"])
add("Error values compare by their components",
    "Two match errors are == exactly if both rates are equal, two error counts exactly if both sums and both effective numbers are, != is the negation of ==, counts made from errors compare like the errors, and the accumulated counts of the same errors are equal in whatever order they are added.",
    "all errors, counts and lists of errors", "All values.",
    ["core/MatchError.h: operator==, operator!=", "core/MatchErrorCounts.h: operator==, operator!=, operator+="])
add("A lower threshold loses no hits when overlaps are divided by the hypothesis area",
    "With IntersectionOverHypothesisAreaScorer and the document event set, a lower threshold gives at least as many hits, at most as many missed references and no new false positive, for all boxes, even when areas wrap around. With IntersectionOverUnionAreaScorer a lower threshold can lose hits, although at equal thresholds whatever it accepts the other one accepts as well.",
    "all references, hypotheses, thresholds, roundings and earlier states of the matcher", "All pairs of thresholds: accepting more can give a reference to a hypothesis that another one needs.",
    ["scorer/IntersectionOverHypothesisAreaScorer.h: operator()", "scorer/IntersectionOverUnionAreaScorer.h: operator()", "matcher/SimpleMatcher.h: Match"])
add("The resolution of a page does not matter to the box tool",
    "If all boxes of a page are scaled by positive whole numbers, one for x and one for y and others for other pages, moved, and the queries, documents and query groups renamed, the box tool reports the same numbers and the images of the same matches, as long as the box edges and areas of both runs fit in 32 bits.",
    "all references, hypotheses, scales, moves, renamings, sorts and random generators", "All pairs of inputs.",
    ["scorer/IntersectionOverHypothesisAreaScorer.h: operator()", "core/BoundingBox.h: IntersectionArea", "core/DocumentBoundingBoxEventSet.h: FindOverlapping", "tools/GenericKwsEvalTool.h: Main"])
add("Effective counts are numbers of references and hypotheses",
    "In the result of Match the sum of NR is the number of different references, whatever the scorer, and with each of the four scorers the sum of NH is the number of entries with a hypothesis, so that no matched hypothesis is lost from the denominators of precision.",
    "all references, hypotheses, scorers, event sets and earlier states of the matcher", "All inputs: NH and NR are guessed from the two rates of an entry, and some rates do not tell a hit from a missed reference.",
    ["core/MatchError.h: NH, NR", "matcher/SimpleMatcher.h: Match", "scorer/SoftBoundingBoxScorer.h: operator()"])
add("With every sorting, collapsing and interval option the tools report the numbers of the ranked list",
    "Whatever --sort, --collapse_matches and the confidence intervals asked for, both tools process the hypotheses in the order asked for, match them greedily in that order, and report the average precisions and NDCGs that follow from counting hits and false positives among the first matches of the list, after every match or after the last of each run of equal scores; a number with a confidence interval is that of the list sorted by decreasing score.",
    "all input files, options, sorts and random generators; exact and IEEE arithmetic", "All inputs and options: the measures are computed by running sums over collapsed or plain errors.",
    ["core/Assessment.h: CollapseMatches, ComputePrecisionAndRecall, ComputeAP, ComputeNDCG, ComputeMeanAP, ComputeMeanNDCG", "tools/GenericKwsEvalTool.h: Main"])
add("With every sorting and collapsing the curves are those of the ranked list",
    "Whatever --sort and --collapse_matches, the recall-precision curves that both tools report and write sample, at evenly spaced recalls, the curve through the recalls and precisions that follow from counting hits and false positives among the first matches of the same list whose average precisions and NDCGs are reported; the mean curve is the mean over the groups in that list. With interpolation the curves do not increase, and without trapezoids each value is the best precision with at least that recall.",
    "all input files, options, sorts and random generators; exact and IEEE arithmetic", "All inputs and options: the curve goes through running sums over collapsed or plain errors, interpolation and sampling.",
    ["core/Assessment.h: ComputePrecisionAndRecall, SampleCurveAtGivenPoints, WriteCurveToFile", "tools/GenericKwsEvalTool.h: WriteGlobalRPCurve, WriteMeanRPCurve"])
add("The bootstrap seed matters only modulo 2^31 - 1",
    "Two values of --bootstrap_seed that are equal modulo 2^31 - 1, where 0 counts as 1, make a tool write exactly the same; the random engine starts in different states for all other pairs. For seeds from 1 up to (2^31 - 3) / n / 16807 the first group of the first of the samples of n groups is drawn from the first group.",
    "all seeds, inputs, options, sorts and mathematical libraries", "All 2^64 seeds and all inputs.",
    ["core/Bootstrapping.h: MatchesByQuerySampler, ComputePercentileBootstrapCI", "tools/GenericKwsEvalTool.h: Main"])
add("Drawing from a vector ends and is nearly uniform",
    "From every state of the random engine, std::uniform_int_distribution draws an index of a vector of n < 2^31 - 2 elements after at most n + 1 numbers of the engine. The engine runs through all its 2^31 - 2 states before it repeats one. Each index is drawn from at least (2^31 - 3) / n, rounded down, and at most n more of these states, the same number of them with the first number. From ten or more different groups there are samples of the right shape that no seed leads to. For all n up to 2^64 the loops of the distribution end, with the draw that its algorithm describes without any bound; of n > 2^31 - 2 elements at least n - (2^31 - 2) are never drawn.",
    "all vector sizes, indices and engine states", "All 2^31 - 2 states and all sizes.",
    ["core/Bootstrapping.h: MatchesSampler, MatchesByQuerySampler"])
add("Every output depends only on its own options",
    "All confidence intervals of a run are computed from the same list of samples, which depends only on the groups, the number of samples and the seed. Asking for other intervals, for the file with the matches or for the files with the curves changes neither the numbers and intervals that are reported anyway nor the contents of the other files.",
    "all inputs, options, statistics, sorts and random generators", "All pairs of options and all inputs: the four statistics could share a generator.",
    ["core/Bootstrapping.h: ComputePercentileBootstrapCI", "tools/GenericKwsEvalTool.h: ComputeGlobalStatistic, ComputeMeanStatistic, Main"])
add("Handing in the references gets the best numbers",
    "If the hypotheses are the references, each once, in any order and with any scores, both tools report 1 for the global and mean average precision and NDCG, whatever the options.",
    "all reference files with at least one selected reference, all scores, options, query files, sorts and random generators; both arithmetics",
    "The box tool gives a hypothesis the reference with the largest common area, with ties broken by the order of boxes; whether this is the reference it is a copy of depends on the geometry of all references, which a test fixes.",
    ["matcher/SimpleMatcher.h:34-82", "core/DocumentBoundingBoxEventSet.h:68-89", "scorer/IntersectionOverHypothesisAreaScorer.h:22-34", "tools/GenericKwsEvalTool.h:86-330"])
add("More right and fewer wrong hypotheses are not punished by the box tool",
    "With the default order, collapsing and interpolation, a run of the box tool whose hypotheses include all right ones of another run (those that some reference of the same query may be given to) with the same scores, and in each query no more wrong ones with at least any given score, reports no lower global and mean average precision.",
    "all references, pairs of hypothesis files, query files and groups, sorts and random generators; both arithmetics (up to rounding)",
    "A hypothesis that is added with a high score takes a reference from others, which then take references from yet others; that hits are never lost in the chain, above any threshold, is a statement about all lists of boxes.",
    ["matcher/SimpleMatcher.h:34-82", "core/DocumentBoundingBoxEventSet.h:68-89", "core/Assessment.h", "tools/GenericKwsEvalTool.h:86-330"])
add("Raising the scores of right hypotheses does not lower the numbers of the box tool",
    "With the default order, collapsing and interpolation, raising the scores of right hypotheses of the box tool, and lowering those of wrong ones, does not lower the global and mean average precision.",
    "all references, pairs of hypothesis files, query files and groups, sorts and random generators; both arithmetics (up to rounding)",
    "Raising a score changes the order of the turns, and thereby which hypothesis takes which reference; tests with references that lie apart do not show the effect.",
    ["matcher/SimpleMatcher.h:34-82", "core/DocumentBoundingBoxEventSet.h:68-89", "tools/GenericKwsEvalTool.h:86-330"])
add("Queries for which nothing is found count as zero in the means",
    "With the default order and collapsing, further references and hypotheses of other queries (or groups of queries) none of which is a hit change the mean average precision and the mean NDCG exactly like dividing the same sum by the greater number of groups. Queries that have only references and queries that have only hypotheses both count. Further references without hypotheses change the global average precision like dividing by the greater number of references, and the global NDCG like the greater ideal gain.",
    "all inputs, further events, query files and groups, interpolation and trapezoid options, sorts and random generators; both arithmetics (average precision up to rounding)",
    "Which queries the means are taken over is seen only by comparing runs, for arbitrary further queries in arbitrary places of the files.",
    ["tools/GenericKwsEvalTool.h:86-330", "core/Assessment.h:240-330", "matcher/SimpleMatcher.h:34-82", "scorer/IntersectionOverHypothesisAreaScorer.h:22-34"])
add("A run that ends with status 0 has written everything",
    "Whatever the devices take (a full disk, a closed pipe), a run that ends with status 0 has written its whole output: the four lines on the standard output, the file with the matches and the files with the curves.",
    "all command lines, inputs, options, and numbers of characters that the standard output and each file take",
    "Tests run with enough room; the claim is about every number of characters after which a write fails.",
    ["core/Assessment.h:352-369 WriteCurveToFile", "tools/GenericKwsEvalTool.h:399-412, 72-102: Main, ComputeGlobalStatistic, ComputeMeanStatistic"])
add("Neither the order of the lines nor the names of the queries influence the confidence intervals",
    "With the default order and collapsing and the same seed, two runs whose files have the same lines in another order, or in which queries and documents have other names, report the same confidence intervals of the four metrics.",
    "all reference and hypothesis files, their reorderings and injective renamings, query files and groups, options, sorts and seeds; both tools",
    "Which groups a sample consists of depends on the order in which the groups are stored, which depends on names and on the order of lines; whether this changes the distribution of the intervals is a statement about all sequences of random numbers.",
    ["core/Bootstrapping.h:33-60 MatchesByQuerySampler, 62-90", "tools/GenericKwsEvalTool.h:160-330", "mapper/StringToIntMapper.h"])
add("Of the input files only the words on their lines matter",
    "Two runs whose event files have, line by line, the same words - whatever spaces, tabs, vertical tabs, form feeds or carriage returns precede, separate or follow them, with or without a line feed at the end, comments being free to differ - and whose query files have the same words (a groups file line by line, a query set altogether) write exactly the same: the same messages with the same line numbers, results, files and exit code. If moreover blank lines and comments are put into or left out of the event files, the result of the run is still the same.",
    "For all texts with the same words on their lines, all four formats of event files, all mapper states, both programs, all command lines and options, all sorts, engines and arithmetics.",
    "A test converts a few files; the claim is that no text with other whitespace can make any extractor stop elsewhere.",
    ["/repo/reader/PlainTextMapEventReader.h:24-44", "/repo/core/Event.h:61-65", "/repo/core/ScoredEvent.h:60-64", "/repo/core/BoundingBox.h:65-69", "/repo/core/DocumentBoundingBox.h:58-62", "/repo/tools/GenericKwsEvalTool.h:302-348"])
add("The means of a joint evaluation are the means of its parts",
    "If the references and hypotheses of a run are those of two runs with the same query options that are about queries of different groups, its groups are those of both, and its mean average precision and mean NDCG are the means of those of the two runs, weighted with their numbers of groups - in particular not below both, and not above both. This does not hold for global average precision: that of the joint run can be below and it can be above those of both parts.",
    "For all pairs of evaluations about different groups, in any order of the lines, both tools with descending order and collapsing, all query files, interpolation and trapezoid settings, sorts, engines; with boxes without ties that matter (exact matching); within the tolerance of rounding in IEEE arithmetic.",
    "A test evaluates a few collections separately and together; the claim is that no hypothesis of one collection can influence how another is matched, sorted or grouped.",
    ["/repo/core/Assessment.h:20-48", "/repo/core/Assessment.h:253-269", "/repo/core/Assessment.h:301-316", "/repo/matcher/SimpleMatcher.h:34-80"])
add("Mappers over mappers act as one mapper, and who returns their memory",
    "Whatever tables, string mappers, event mappers and scored event mappers a program makes over each other, by whatever constructors, copies and assignments of event mappers: if it does not use objects that are gone, its calls return what they return if every mapper is a view of its table; with one table they all act as one mapper. What is left at the end is what the program made itself and did not return, and what default-constructed event mappers made: a string mapper and a table each, which only the program can return, through GetMapper, because the event mapper does not. The mappers of the segmentation-based tool act as one and everything is returned.",
    "For all programs over the public interface of the three mapper classes, all strings, events and scores, all sizes of the id type, and both orders of evaluation of the constructor's arguments.",
    "A test tries one chain of mappers; the claim is about all programs, with lifetimes and ownership.",
    ["/repo/mapper/StringToIntMapper.h:23-57", "/repo/mapper/StringEventToIntMapper.h:22-41", "/repo/mapper/ScoredEventMapper.h:20-27", "/repo/tools/SimpleKwsEval.cc:31-36"])
add(
    "One more hypothesis for what has been found already changes nothing but the list of repeated matches",
    "If a line is inserted anywhere into the file of hypotheses, whose hypothesis is right, and every reference it may be given is one that another hypothesis treated before it (better score under --sort, read before without) may be given, and that one may be given no other reference, then the run ends in the same way: the values, confidence intervals, curves and dumped matches are the same, and a list of repeated matches that is dumped gets entries but loses none. In the segmentation-based tool this is the case for every right hypothesis that repeats one with a better score. For the matcher alone it holds whatever the search and the scorer. In the box tool the second condition is needed: the same box handed in twice can take two references, and the average precision doubles.",
    "all inputs, positions of the line, sort criteria, roundings (segmentation; exact and faithful for boxes), bootstrap generators, both evaluation orders; any search and scorer for the matcher",
    "compares two runs that differ in one line, over all inputs and positions; a test sees the few pairs it was given",
    ["matcher/SimpleMatcher.h:44-83", "tools/GenericKwsEvalTool.h:376-475", "tools/Icdar17KwsEval.cc:20-41", "tools/SimpleKwsEval.cc:20-48"])
add(
    "Statistic objects: the call operators of a class agree, and means are means of the global statistic",
    "For every GlobalAP and GlobalNDCG object, the call on groups of matches equals the call on all their matches together, which, if sorting is asked for, are arranged by decreasing score first. For every MeanAP and MeanNDCG object, the call on groups is the mean of what the global object with the same flags returns for the single groups, 0 without groups; if one of these calls has no defined result, nor does the mean. Asked to sort, objects that collapse depend on nothing but which matches there are (global) and which are together in a group (mean), neither on an order nor on the sorting algorithm. The numbers of a run are those of the four objects that the tool makes from its options.",
    "all flags, lists of groups, roundings (exact arithmetic for independence of the order) and sorting algorithms",
    "relates different classes and overloads on all inputs, including those that make sorting undefined; a test compares them on samples",
    ["core/Statistic.h:11-117", "core/Assessment.h:222-316", "tools/GenericKwsEvalTool.h:57-104", "tools/GenericKwsEvalTool.h:435-460"])
add("Copies of a collection under other names of the queries",
    "Evaluating k >= 1 copies of all references and hypotheses, each with names of the queries of its own (and groups of its own), gives the same global average precision, mean average precision and mean NDCG as evaluating one copy, for both tools with the default order and collapsing; the matches and repeated matches of the box-based tool are those of the single copy, once per copy. Global NDCG is not invariant.",
    "all k >= 1, all names that keep queries and copies apart, all files, orders of lines, query sets and groups that treat the copies alike, exact and IEEE arithmetic (average precisions within the tolerances), any std::sort and random generator",
    "a test doubles one file; the property is about any number of copies in any order with any names, and rests on the matcher treating queries independently, on ties being collapsed and on averages over groups",
    ["core/Assessment.h:107-316", "matcher/SimpleMatcher.h", "tools/GenericKwsEvalTool.h:376-460"])
add("The order of the options does not matter",
    "Two command lines with the same valid options, where only options of different names have changed places, and the same arguments after them, leave the parser in the same state; the tools then write the same and return the same.",
    "all parsers without repeated names, all lists of valid options and reorderings of them, all arguments; all worlds, sorts, engines, both tools",
    "A test compares a few orders. Whether a word is a value, an option or an argument depends on its neighbours, so each order is another path through the loop.",
    ["cmd/Parser.h", "cmd/Option.h", "tool/GenericKwsEvalTool.h"])
add("Comments in files of queries",
    "Lines whose first visible character is # can be added to a query set or to a file of query groups, as to the files of references and hypotheses, without any change in the evaluation.",
    "all input files, query sets, groups and comments; exact and IEEE arithmetic",
    "All files and all comments; what a comment does depends on the queries in the other files.",
    ["tools/GenericKwsEvalTool.h: Main (lines 302-348)"])
add("Overflow never influences an evaluation",
    "Whatever the machine gives as the result of a float or double operation that exceeds the largest finite number, a run of the tools on files of less than 2^60 characters writes the same output, reports the same errors and returns the same code as with unbounded exponents.",
    "all roundings that agree with IEEE-754 on results that fit and give anything larger otherwise (per operation), all files and standard inputs below 2^60 characters, all command lines, sorts, engines; both tools, NDCG over the reals and in double with any library that is right within a factor of two",
    "Needs a bound on every intermediate number for inputs of every size and every option value, such as alpha = 1e308.",
    ["core/Assessment.h", "core/Bootstrapping.h", "scorer/IntersectionOverHypothesisAreaScorer.h", "tools/GenericKwsEvalTool.h: Main"])
add("What hits and false positives say about the measures",
    "For every list of matches in any order: average precision is at most the recall, and equal to it exactly if the curve has a point after all hits and before all false positives (so it is 1 exactly if it has such a point after all references); with interpolation it is at least precision times recall of the whole list; average precision and NDCG are 0 exactly if there is no hit; NDCG is at most that of a list with as many hits and no false positive. The four numbers that the tools report are within these bounds for the hits and false positives of their matching.",
    "all lists of hits, false positives and missed references, all options, sortings, files, query sets and groups, with or without confidence intervals; exact and IEEE arithmetic (average precisions within the tolerance)",
    "Bounds and both directions of the equivalences are about all lists; a test evaluates a few of them.",
    ["core/Assessment.h:107-316", "tools/GenericKwsEvalTool.h:376-460"])
add("The confidence intervals of a run",
    "A run reports an interval for exactly those of the four numbers for which one is asked. All intervals come from the same sequence of samples, as many as asked for, drawn one after the other from the groups of the run's matching with an engine started from the given seed; each has as many groups as the matching, each of them filled with as many draws from one group as it has matches. For each sample the number is computed in the same way as that of the run, with its matches put in order of score again. The interval is the number of the run minus the differences, in ascending order, after shares 1 - alpha/2 and alpha/2 of them. If nothing is found all numbers and all bounds are 0, if everything is found without a false positive they are all 1.",
    "all files, options, seeds, query sets and groups, both tools; exact arithmetic",
    "The bounds depend on pseudo-random samples; a test fixes a seed and compares with recorded numbers.",
    ["tools/GenericKwsEvalTool.h: ComputeGlobalStatistic, ComputeMeanStatistic", "core/Bootstrapping.h: MatchesByQuerySampler, ComputePercentileBootstrapCI"])
add("What is printed for submissions that are all wrong or all right",
    "If no hypothesis is right (box tool: none is covered by at least half by a reference of its query; segmentation-based tool: none is a reference) and the program returns 0, the text on standard output consists of exactly the four lines 'gAP = 0', 'mAP = 0', 'gNDCG = 0' and 'mNDCG = 0', each with ' [0, 0]' if an interval was asked for. If the hypotheses are the references (box tool: each once and none within another one of the same query) and there is one for the queries used, the lines say 1 and ' [1, 1]' instead. Rounding never shows, whatever the scores, order, groups, seeds and options.",
    "all files with at most 2^24 events (all wrong) or 2^14 events (all right), or as many pairs of events if an interval is asked for gAP or gNDCG; all options, scores, seeds, engines; both tools; boxes with areas up to 2^24, at most 2^31 different names; IEEE double precision and an accurate mathematical library",
    "Rounding errors depend on the number of events, their order, the groups and the samples; a test that compares the output of a few perfect submissions says nothing about those of other sizes.",
    ["tools/GenericKwsEvalTool.h: Main, ComputeGlobalStatistic, ComputeMeanStatistic", "core/Assessment.h: ComputeAP, ComputeNDCG, ComputeMeanAP, ComputeMeanNDCG", "core/Bootstrapping.h: ComputePercentileBootstrapCI"])
add("One more wrong hypothesis costs at most one divided by its rank",
    "Take two runs of the same tool, with descending order and collapsing, that differ in one hypothesis x that is wrong (segmentation-based tool: not a reference; box tool: no reference of its query covers at least half of it) and whose group has references. No number that is reported is higher with x. Let n be the number of hypotheses counted that have at least the score of x, m the number of those of its group, k the number of groups and N the number of references. Then gAP is lower by at most 1/(n+1), mAP by at most 1/(k(m+1)), and, if no other hypothesis has the score of x, gNDCG by at most 1/(log2(n+2) I(N)), where I(N) is the gain of a perfect ranking; likewise mNDCG by at most 1/(k log2(m+2) I(M)), if its group has M references and no other hypothesis of the group has its score. In the box tool the matches of the other hypotheses stay the same. This holds with and without interpolation and for both kinds of area.",
    "all pairs of files, options, queries, groups, scores and places of x; both tools; exact arithmetic, and IEEE arithmetic up to rounding of (events+3)^2/2^52 for each run",
    "How much a wrong hypothesis costs depends on all other scores and on ties; tests show the cost for a few rankings only.",
    ["core/Assessment.h: ComputePrecisionAndRecall, ComputeAP, ComputeNDCG, CollapseMatches", "matcher/SimpleMatcher.h: Match", "tools/GenericKwsEvalTool.h: Main"])
add("The names of the files do not matter",
    "Take two runs of the same tool with the same options but for the names of files. The references, the hypotheses, the set of queries and the file with groups have the same contents (or are both missing), the hypotheses possibly from a file in one run and from the standard input in the other; the same output files are requested and can be written in both runs. Then both runs end with the same exit code or fault, print the same, write the same texts to the corresponding files in the same order, and give the same messages in the same places, apart from the file names mentioned in them and from what is said if the hypotheses cannot be read. If the hypotheses can be read, a run on the standard input does the same as the run on the file, each message included.",
    "all pairs of file systems, options, names and numbers of arguments; both tools; every rounding",
    "A test compares a few names; that no decision depends on a name is a statement about all pairs of runs.",
    ["tools/GenericKwsEvalTool.h: Main, WriteGlobalRPCurve, WriteMeanRPCurve", "reader/PlainTextMapEventReader.h: Read", "core/Assessment.h: WriteCurveToFile"])
add("Files after a run, and running again",
    "A run changes no file but those named by --dump_matches, --output_grp and --output_mrp; a command line that is not accepted changes none. A file that is written holds the last text written to it, whatever it held before. If no file is both read and written, and the hypotheses come from a file or are given again on the standard input, then running the same command again does the same in every respect (messages, output, files, exit code or fault) and leaves the files as they are. If output files have names of input files, the run itself still ends in the same way, prints the same and writes the same texts as with other names.",
    "all file systems, command lines, names and faults; both tools; every rounding",
    "A test runs the program in a fresh directory with a few names; it cannot show that no other file is touched or that every repetition agrees.",
    ["tools/GenericKwsEvalTool.h: Main", "core/Assessment.h: WriteCurveToFile"])
add("Hypotheses at the end of the ranking never lower a number",
    "If hypotheses are added that all have lower scores than those already handed in, and none of them brings in a group that was not there, then none of the four numbers (global and mean average precision, global and mean NDCG) is lower than before, whether the added hypotheses are right or wrong. With the box-based tool the matches and repeated matches of the other hypotheses stay as they are, in the same places. Both conditions are needed: a wrong hypothesis with the same score as a right one, or one of a new group, can lower a number.",
    "all reference and hypothesis files, query sets and groups, with descending order and collapsing; with or without interpolation; both areas; every sort; exact and IEEE arithmetic (average precisions within the rounding bound)",
    "Whether a system can safely hand in more low-scored hypotheses is a statement about all pairs of submissions; a test compares a few pairs.",
    ["tools/GenericKwsEvalTool.h: Main", "core/Assessment.h:107-316", "matcher/SimpleMatcher.h:34-82"])
add("Files of events can be put together and taken apart",
    "Reading a file that is put together from several files, all of which but the last end with a line feed, is reading one after the other with the same mapper: the events of all, in this order. If one cannot be read, the events of those before it have been produced and the line that is named is its line plus the line feeds of the files before it; a run of either tool says so, prints nothing and writes no file. The order in which the files of a submission, or of the references, are put together does not matter to the box-based tool with descending or ascending order. Without the line feed, two files that can be read may give one that cannot, and two that cannot may give one that can.",
    "all lists of files, all extractors and mappers with any state, all four formats of event files; all worlds, options, sorts, engines and arithmetics",
    "A test concatenates a few files; the claim is about all of them, about all states of the mapper and all places at which a file can be cut.",
    ["reader/PlainTextMapEventReader.h:24-44", "tools/GenericKwsEvalTool.h: Main"])
add("Hypotheses at the end of the ranking gain at most the recall that they add",
    "If hypotheses of lower scores than all others are added to a submission, global AP rises by at most the number of references that are found only then, divided by the number of references, with or without interpolation and for both kinds of area; global NDCG rises by at most that number divided by log2(n + 2) times the ideal gain, where n is the number of hypotheses that counted before. So a submission that is cut off at a score loses at most the recall below that score. The bound for AP is reached. Hypotheses of higher scores can gain more.",
    "all references, submissions and added hypotheses without NaN scores, at least one reference, collapsed matches in descending order; both tools, all groupings, sorts and engines; exact arithmetic, and IEEE arithmetic within the rounding bounds",
    "A test cuts off a few submissions; the bound is about all of them, all cuts, ties, interpolation and both areas.",
    ["tools/GenericKwsEvalTool.h: Main", "core/Assessment.h:107-316", "matcher/SimpleMatcher.h:34-82"])
add("What comes first in a ranking is not changed by what comes later",
    "If hypotheses of lower scores than all others are added to a submission, the file with the matches of the box-based tool begins with the same matches, those of the added hypotheses come next, and the repeated matches are only added to. Without interpolation the file with the global recall-precision curve has the same values up to the recall that had been reached; beyond it, the values had been 0. With interpolation no value is lower, but earlier ones may be higher. There must have been a hypothesis: the curve of an empty submission begins with precision 1.",
    "all references, submissions and added hypotheses without NaN scores, collapsed matches in descending order; all numbers of samples, with and without trapezoids, all sorts and engines; curves of both tools in exact arithmetic, matches in exact and IEEE arithmetic",
    "A test cuts off a few submissions and compares files; the claim is about all cuts, ties, numbers of samples and ways to sort.",
    ["tools/GenericKwsEvalTool.h: Main", "core/Assessment.h:107-160", "core/Assessment.h:318-369", "matcher/SimpleMatcher.h:34-82"])
add("References that nothing finds only lower the numbers, by known factors",
    "If references are added that no hypothesis of the submission fits, also references of queries that were there before, global average precision is multiplied by the old and divided by the new number of references, and global NDCG likewise with the gains of ideal rankings. None of the four numbers rises. In the file with the matches of the box-based tool, the matches of the hypotheses and the repeated matches stay as they are, even if the added references overlap hypotheses; only the added references appear among those without a hypothesis.",
    "all references, added references and submissions without NaN scores, collapsed matches in descending order; with and without interpolation and trapezoids, all sorts and engines, exact and IEEE arithmetic (average precisions within the rounding bound)",
    "A test adds a few references; the claim is about all of them, including those that partly overlap hypotheses and stand before others in the order in which references are tried.",
    ["tools/GenericKwsEvalTool.h: Main", "core/Assessment.h:107-160", "core/Assessment.h:318-369", "matcher/SimpleMatcher.h:34-82"])

out = os.path.join(os.path.dirname(__file__), "..", "properties.jsonl")
with open(out, "w") as f:
    for p in P: f.write(json.dumps(p) + "\n")
print(len(P))
for p in P: print(p["id"], p["title"])
