import Verif.Model.EventSets
import Verif.Model.Scorers

/-!
# matcher/SimpleMatcher.h
-/

namespace Kws

/-- The interface of `EventSet<RE>` that the matcher uses through its pointer `refs_set_`
(matcher/SimpleMatcher.h:28-32, 91). `σ` is the state of the set object. -/
structure RefIndex (σ RE HE : Type) where
  clear : σ → σ
  insert : σ → RE → σ
  findOverlapping : σ → HE → Cpp (List RE)

/-- The plain `EventSet` (core/EventSet.h) used by tools/SimpleKwsEval.cc. A scored hypothesis is
passed as its base event. -/
def plainIndex (Q L : Type) [Cmp Q] [Cmp L] :
    RefIndex (EventSet (Event Q L)) (Event Q L) (ScoredEvent Q L) where
  clear := EventSet.clear
  insert := EventSet.insert
  findOverlapping s h := .ok (s.findOverlapping h.base)

/-- The document event set (core/DocumentBoundingBoxEventSet.h) used by tools/Icdar17KwsEval.cc. -/
def docIndex (S : StdSort) (Q D T : Type) [DecidableEq Q] [DecidableEq D] [Cmp Q] [Cmp D]
    [Coord T] :
    RefIndex (DocEventSet Q D T) (Event Q (DocBox D T)) (ScoredEvent Q (DocBox D T)) where
  clear := DocEventSet.clear
  insert := DocEventSet.insert
  findOverlapping s h := s.findOverlapping S h.base

namespace SimpleMatcher
variable {σ RE HE : Type} [Cmp RE]

/-- matcher/SimpleMatcher.h:47-68: the loop over the overlapping references of one hypothesis.
Input: the set of unmatched references. Output: `matched_hyp`, the new set of unmatched references,
the match pushed to `result` (if any) and the matches pushed to `repeated_matches_`. -/
def tryRefs (scorer : RE → HE → Cpp MatchError) (hyp : HE) :
    List RE → List RE → Cpp (Bool × List RE × Option (Match RE HE) × List (Match RE HE))
  | unmatched, [] => return (false, unmatched, none, [])
  | unmatched, ref :: refs => do
    let errors ← scorer ref hyp
    if errors.fp < 1 then
      let m := Match.make ref hyp errors
      if (StdSet.find? Cmp.lt ref unmatched).isSome then
        return (true, (StdSet.erase Cmp.lt ref unmatched).1, some m, [])
      else
        let (_, u, res, rep) ← tryRefs scorer hyp unmatched refs
        return (true, u, res, m :: rep)
    else tryRefs scorer hyp unmatched refs

/-- matcher/SimpleMatcher.h:44-74: the loop over the hypotheses. Output: unmatched references, the
matches pushed to `result` and to `repeated_matches_`. -/
def loop (ix : RefIndex σ RE HE) (scorer : RE → HE → Cpp MatchError) (s : σ) :
    List RE → List HE → Cpp (List RE × List (Match RE HE) × List (Match RE HE))
  | unmatched, [] => return (unmatched, [], [])
  | unmatched, hyp :: hyps => do
    let overlapping ← ix.findOverlapping s hyp
    let (matched, u, res, rep) ← tryRefs scorer hyp unmatched overlapping
    let here := res.toList ++ (if matched then [] else [Match.makeFalsePositive hyp])
    let (u', results, repeated) ← loop ix scorer s u hyps
    return (u', here ++ results, rep ++ repeated)

/-- matcher/SimpleMatcher.h:34-83 `Match`. Input: the state of `refs_set_` left by earlier calls.
Output: the new state, the result and the new contents of `repeated_matches_`. -/
def run (ix : RefIndex σ RE HE) (scorer : RE → HE → Cpp MatchError) (s : σ)
    (refs : List RE) (hyps : List HE) :
    Cpp (σ × List (Match RE HE) × List (Match RE HE)) := do
  -- refs_set_->Clear(); for (ref : refs) refs_set_->Insert(ref);
  let s := refs.foldl ix.insert (ix.clear s)
  -- std::set<RE> unmatched_refs(refs.begin(), refs.end());
  let unmatched := StdSet.ofList Cmp.lt refs
  let (u, result, repeated) ← loop ix scorer s unmatched hyps
  -- for (ref : unmatched_refs) result.push_back(MakeFalseNegative(ref));
  return (s, result ++ u.map Match.makeFalseNegative, repeated)

end SimpleMatcher

end Kws
