import Verif.Lemmas.Sort
import Verif.Model.ToolDouble
import Verif.Model.Engine
import Verif.Model.Ieee

/-!
# The example of /repo, run on the model (examples/Icdar17KwsEval)

The comments of `hyp.txt` say what the evaluation gives.
-/

namespace Kws.Tests

/-- examples/Icdar17KwsEval/ref.txt -/
def exampleRefs : String :=
    "# QueryID DocumentID x y width height\n\
    q1 d1 3 5 400 40\n\
    q1 d1 6 100 350 35\n\
    q2 d1 6 100 350 35\n\
    q2 d1 3 5 400 40\n\
    q2 d2 3 5 400 40\n\
    q99 d99 0 0 300 20\n\
    "

/-- examples/Icdar17KwsEval/hyp.txt -/
def exampleHyps : String :=
    "# QueryID DocumentID x y width height score\n\
    # 1st hypothesis is a perfect match with the BB of the whole line.\n\
    # 2nd hypothesis is a repeated spot. This is ignored.\n\
    # 3rd hypothesis is a false positive\n\
    # 4th hypothesis is a true positive, since the overlap area > 0.5\n\
    # 5th hypothesis is a false positive, since the overlap area < 0.5\n\
    # 6th hypothesis is a repeated spot (4th). This is ignored.\n\
    # 7th hypothesis is a false positive: matches bounding box, but diff query!\n\
    # gAP = 0.25, mAP = 0.166667 = (0.5 + 0.166667 + 0 + 0) / 4\n\
    q1 d1 3 5 400 40  -1.0\n\
    q1 d1 3 5 400 40  -2.0\n\
    q3 d1 5 5 35 55   -3.0\n\
    q2 d1 50 90 60 35  -4.0\n\
    q2 d1 50 80 60 35  -4.0\n\
    q2 d1 50 100 60 35 -5.0\n\
    q1 d2 3 5 400 40   -6.0\n\
    "

instance {α : Type} (lt : α → α → Bool) (l : List α) : Decidable (StrictWeakOn lt l) :=
  decidable_of_iff ((∀ a ∈ l, lt a a = false) ∧
      (∀ a ∈ l, ∀ b ∈ l, ∀ c ∈ l, lt a b = true → lt b c = true → lt a c = true) ∧
      ∀ a ∈ l, ∀ b ∈ l, ∀ c ∈ l, lt a b = false → lt b a = false → lt b c = false → lt c b = false →
        lt a c = false ∧ lt c a = false)
    ⟨fun h => ⟨h.1, h.2.1, h.2.2⟩, fun h => ⟨h.irrefl, h.trans, h.incomp⟩⟩

/-- insertion sort that checks the comparator -/
def exampleSort : StdSort where
  sort := fun lt l => if StrictWeakOn lt l then .ok (insSort lt l) else .error .ub
  ok := fun lt l h => ⟨insSort lt l, by simp [h],
    ⟨insSort_perm lt l, insSort_sorted lt l l h (fun _ hy => hy)⟩⟩
  bad := fun lt l h => by simp [h]

def exampleWorld : World where
  file f := if f = "ref.txt".toList then some exampleRefs.toList
    else if f = "hyp.txt".toList then some exampleHyps.toList else none
  stdin := []
  writable _ := true

/-- The two numbers that do not need logarithms. -/
def exampleRun (R : Rnd) (args : List String) : List Str :=
  (outsOf (traceMainD R ⟨fun _ => 1, fun _ => 1⟩ exampleSort MinStd.rng (icdarKit R exampleSort) icdarTexts
    exampleWorld "Icdar17KwsEval".toList (args.map String.toList)).effects).take 2

-- examples/Icdar17KwsEval/hyp.txt:9: `gAP = 0.25, mAP = 0.166667`
#guard exampleRun Rnd.exact ["ref.txt", "hyp.txt"] = ["gAP = 0.25\n".toList, "mAP = 0.166667\n".toList]

-- The same in IEEE arithmetic.
#guard exampleRun Rnd.ieee ["ref.txt", "hyp.txt"] = ["gAP = 0.25\n".toList, "mAP = 0.166667\n".toList]

-- The same from the standard input, and with some defaults spelt out.
#guard (outsOf (traceMainD Rnd.ieee ⟨fun _ => 1, fun _ => 1⟩ exampleSort MinStd.rng (icdarKit Rnd.ieee exampleSort)
    icdarTexts { exampleWorld with stdin := exampleHyps.toList } "Icdar17KwsEval".toList
    (["--sort", "desc", "--trapezoid_integral", "true", "ref.txt"].map String.toList)).effects).take 2 =
    ["gAP = 0.25\n".toList, "mAP = 0.166667\n".toList]

/-- The lines of the queries DONNERSTAGS, HUJUS, KUSNACHT and KUSSNACHT of
examples/Icdar17KwsEval/Valid_KWS_GT.ALL.2x.txt -/
def examRefs : String :=
    "DONNERSTAGS MM_1_076_001 285 227 854 76\n\
    DONNERSTAGS MM_2_062_001 813 517 992 88\n\
    DONNERSTAGS MM_2_068_001 773 551 1081 94\n\
    DONNERSTAGS MM_2_115_001 660 350 1495 164\n\
    HUJUS MM_1_001_009 350 2308 693 86\n\
    HUJUS MM_1_062_004 317 1457 703 180\n\
    HUJUS MM_1_062_007 329 956 738 80\n\
    HUJUS MM_1_066_003 296 2489 809 98\n\
    HUJUS MM_1_066_003 314 1231 788 92\n\
    HUJUS MM_1_066_007 299 1961 807 72\n\
    HUJUS MM_1_069_004 312 901 763 82\n\
    HUJUS MM_1_069_009 260 904 807 80\n\
    HUJUS MM_1_073_005 330 481 747 94\n\
    HUJUS MM_1_073_006 278 2584 785 76\n\
    HUJUS MM_1_073_006 319 386 760 108\n\
    HUJUS MM_1_073_009 302 1201 804 76\n\
    HUJUS MM_1_076_001 320 864 779 78\n\
    HUJUS MM_1_094_009 296 1258 836 98\n\
    HUJUS MM_1_094_009 305 2325 857 100\n\
    HUJUS MM_1_098_010 302 2652 777 136\n\
    HUJUS MM_2_016_004 629 2166 442 86\n\
    HUJUS MM_2_029_005 575 1762 1576 138\n\
    KUSNACHT MM_2_147_008 820 2776 1244 94\n\
    KUSNACHT MM_2_147_009 536 1385 1487 102\n\
    KUSNACHT MM_2_147_009 555 708 1484 84\n\
    KUSSNACHT MM_1_032_008 326 822 713 100\n\
    KUSSNACHT MM_2_054_008 676 2504 1339 96\n\
    "

/-- examples/Icdar17KwsEval/examQueryResults.txt -/
def examHyps : String :=
    "## Query set: {DONNERSTAGS, HUJUS, KUSNACHT, KUSSNACHT} ##\n\
    #\n\
    # WordID      ImageID        BBx  BBy  BBw BBh  Score\n\
    #\n\
    DONNERSTAGS   MM_2_068_001  1000  510  323 116  0.987\n\
    HUJUS         MM_2_029_005  1004 1778  152 122  0.900\n\
    DONNERSTAGS   MM_2_115_001   966  339  526 157  0.898\n\
    KUSSNACHT     MM_1_032_008   848  809  189 101  0.888\n\
    DONNERSTAGS   MM_1_076_001   495  218  222  64  0.780\n\
    HUJUS         MM_1_098_010   358 2695  157  64  0.777\n\
    KUSSNACHT     MM_2_054_008  1261 2471  284 138  0.770\n\
    DONNERSTAGS   MM_2_062_001  1049  482  389 120  0.766\n\
    HUJUS         MM_1_073_005   778  467  182 103  0.765\n\
    HUJUS         MM_1_073_005   780  465  185 100  0.760\n\
    KUSNACHT      MM_2_147_009  1017 1384  276  88  0.699\n\
    KUSNACHT      MM_1_032_008   848  809  189 101  0.677\n\
    HUJUS         MM_1_001_009   463 2206  260 278  0.666\n\
    KUSNACHT      MM_2_147_009  1774  718  243  73  0.655\n\
    HUJUS         MM_1_066_003   271 1228  161  85  0.633\n\
    KUSSNACHT     MM_2_147_009  1017 1384  276  88  0.456\n\
    KUSNACHT      MM_2_147_008  1742 2787  325  60  0.444\n\
    KUSNACHT      MM_2_211_007   520 2936  419  95  0.333\n\
    KUSSNACHT     MM_2_147_008  1742 2787  325  60  0.111\n\
    KUSNACHT      MM_2_123_006   769  680  333 215  0.011\n\
    #\n\
    # The following occurrences appear in the Validation set:\n\
    # 4 DONNERSTAGS, 18 HUJUS, 3 KUSNACHT, 2 KUSSNACHT.\n\
    # \n\
    # Some bounding boxes fail to meet the 50% overlapping\n\
    # criterion: the fifth spot of HUJUS and the last of KUSNACHT\n\
    # \n\
    # Six spots are false positives: 3 KUSNACHT and 3 KUSSNACHT\n\
    # \n\
    # The third and the fourth spots of HUJUS are hits for the \n\
    # very same line (and approximately the same BB).  Only the \n\
    # first one is considered (as a hit).\n\
    #\n\
    # 12 instances of HUJUS have not been spotted\n\
    # \n\
    # Using the evaluation tools, the results achieved are:\n\
    # AP=0.464, mAP=0.761\n\
    "

def examWorld : World where
  file f := if f = "ref.txt".toList then some examRefs.toList
    else if f = "hyp.txt".toList then some examHyps.toList else none
  stdin := []
  writable _ := true

-- examples/Icdar17KwsEval/examQueryResults.txt:40-41: `Using the evaluation tools, the results achieved are: AP=0.464,
-- mAP=0.761`. One of the 20 hypotheses is a repetition (lines 34-36).
#guard
    let run := traceMainD Rnd.exact ⟨fun _ => 1, fun _ => 1⟩ exampleSort MinStd.rng (icdarKit Rnd.exact exampleSort)
      icdarTexts examWorld "Icdar17KwsEval".toList (["ref.txt", "hyp.txt"].map String.toList)
    (outsOf run.effects).take 2 = ["gAP = 0.463955\n".toList, "mAP = 0.761111\n".toList] ∧
      (errsOf run.effects).getLast? = some ("INFO: Effective number of hypotheses is 19. The rest of hypotheses were " ++
        "considered repetitions of some other match, and ignored.\n").toList

end Kws.Tests
