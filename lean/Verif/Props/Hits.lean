import Verif.Lemmas.Hits
import Verif.Props.Ties
import Verif.Props.Dump
import Verif.Props.Improvement

/-!
# C98, C99: the number of hits
-/

namespace Kws
open Spec Classical

variable {RE HE : Type}

theorem hitCount_missed {Q L : Type} (entries : List (KwsMatch Q L)) (missed : List (Event Q L))
    (e : MatchError) :
    hitCount (entries ++ missed.map (fun r => (⟨some r, none, e⟩ : KwsMatch Q L))) =
      hitCount entries := by
  unfold hitCount
  rw [List.countP_append, Nat.add_eq_left, List.countP_eq_zero]
  intro m hm
  obtain ⟨r, _, rfl⟩ := List.mem_map.1 hm
  simp

theorem taken_nil : {r : RE | Taken ([] : List (Match RE HE)) r} = ∅ := by
  ext r
  simp [Taken]

theorem filter_freeOf_empty (l : List RE) : l.filter (freeOf ∅) = l := by
  rw [List.filter_eq_self]
  simp

theorem verdict_lt (p : Prop) [Decidable p] : (verdict p).fp < 1 ↔ p := by
  unfold verdict
  split <;> simp_all

/-- An assignment to a list is one to every rearrangement. -/
theorem assignment_perm {ok : RE → HE → Prop} {l hyps : List HE} (hp : l.Perm hyps)
    {given : List (Option RE)} (h : Assignment ok hyps given) :
    ∃ given', Assignment ok l given' ∧ given'.reduceOption.length = given.reduceOption.length := by
  obtain ⟨g', h1, h2⟩ := List.perm_comp_forall₂ hp h.1
  have hr : g'.reduceOption.Perm given.reduceOption := h2.filterMap id
  exact ⟨g', ⟨h1, hr.nodup_iff.2 h.2⟩, hr.length_eq⟩

theorem forall₂_mono {p q : HE → Option RE → Prop} {l : List HE} {g : List (Option RE)}
    (h : List.Forall₂ p l g) (hpq : ∀ x ∈ l, ∀ y, p x y → q x y) : List.Forall₂ q l g := by
  induction h with
  | nil => exact .nil
  | cons h1 _ ih => exact .cons (hpq _ (by simp) _ h1) (ih fun x hx => hpq x (by simp [hx]))

theorem assignment_mono {ok ok' : RE → HE → Prop} {l : List HE} {given : List (Option RE)}
    (hok : ∀ h ∈ l, ∀ r, ok r h → ok' r h) (h : Assignment ok l given) : Assignment ok' l given :=
  ⟨forall₂_mono h.1 fun x hx _ hy r hr => hok x hx r (hy r hr), h.2⟩

/-! ## C98 -/

/-- C98 for any index and scorer: no way to give hypotheses references that they overlap and that the
scorer accepts has more than twice the hits of the matcher. -/
theorem C98_matcher [Cmp RE] [LawfulCmp RE] {σ : Type} (ix : RefIndex σ RE HE)
    (scorer : RE → HE → Cpp MatchError) (s : σ)
    (overl : HE → List RE) (score : RE → HE → MatchError) (refs : List RE) (hyps : List HE)
    (hov : ∀ h ∈ hyps, ix.findOverlapping (refs.foldl ix.insert (ix.clear s)) h = .ok (overl h))
    (hsub : ∀ h ∈ hyps, ∀ r ∈ overl h, r ∈ refs)
    (hsc : ∀ h ∈ hyps, ∀ r ∈ overl h, scorer r h = .ok (score r h)) :
    ∃ s' ms rep, SimpleMatcher.run ix scorer s refs hyps = .ok (s', ms, rep) ∧
      ∀ given, Assignment (fun r h => r ∈ overl h ∧ (score r h).fp < 1) hyps given →
        given.reduceOption.length ≤ 2 * hitCount ms := by
  obtain ⟨entries, missed, rep, h1, h2, _, _⟩ := run_spec ix scorer s overl score refs hyps hov hsub hsc
  refine ⟨_, _, _, h1, fun given hg => ?_⟩
  have hc : hitCount (entries ++ missed.map Match.makeFalseNegative) = hitCount entries := by
    unfold hitCount
    rw [List.countP_append, Nat.add_eq_left, List.countP_eq_zero]
    intro m hm
    obtain ⟨r, _, rfl⟩ := List.mem_map.1 hm
    simp [Match.makeFalseNegative]
  rw [hc, h2.hits, taken_nil]
  have := picked_half (fun h => (overl h).filter (fun r => (score r h).fp < 1)) hyps ∅ given (by
    simpa only [List.mem_filter, decide_eq_true_eq] using hg)
  rwa [filter_freeOf_empty] at this

/-- The hits of the box-based matching, as the number of hypotheses that pick something. -/
theorem exact_hits {refs : List (Event Str (DocBox Str UInt32))}
    {hyps : List (ScoredEvent Str (DocBox Str UInt32))}
    {ms rep : List (Match (Event Str (DocBox Str UInt32)) (ScoredEvent Str (DocBox Str UInt32)))}
    (h : ExactBoxMatching refs hyps ms rep) : ∃ l pref, l.Perm hyps ∧
      l.Pairwise (fun a b => TurnBefore a b ∨ a = b) ∧
      (∀ h ∈ l, (∀ r, r ∈ pref h ↔ r ∈ refs ∧ BoxPair r h) ∧
        (pref h).Pairwise (OverlapBefore (· < ·) BoxEventLt (commonU · h.base))) ∧
      hitCount ms = picked pref ∅ l := by
  obtain ⟨l, overl, entries, missed, h1, h2, h3, h4, h5, h6, rfl⟩ := h
  refine ⟨l, fun h => (overl h).filter
    (fun r => (verdict (areaU h.base ≤ 2 * commonU r h.base)).fp < 1), h1, h2,
    fun x hx => ⟨fun r => ?_, (h3 x hx).2.filter _⟩, ?_⟩
  · rw [List.mem_filter, decide_eq_true_eq, verdict_lt, (h3 x hx).1]
    unfold BoxPair
    tauto
  · rw [hitCount_missed, h4.hits, taken_nil]

/-- C98 for the box-based matching: no way to give the hypotheses references has more than twice its
hits. -/
theorem C98_matching (refs : List (Event Str (DocBox Str UInt32)))
    (hyps : List (ScoredEvent Str (DocBox Str UInt32)))
    (ms rep : List (Match (Event Str (DocBox Str UInt32)) (ScoredEvent Str (DocBox Str UInt32))))
    (h : ExactBoxMatching refs hyps ms rep) (given : List (Option (Event Str (DocBox Str UInt32))))
    (hg : Assignment (fun r h => r ∈ refs ∧ BoxPair r h) hyps given) :
    given.reduceOption.length ≤ 2 * hitCount ms := by
  obtain ⟨l, pref, h1, _, h3, h4⟩ := exact_hits h
  obtain ⟨g', a1, a2⟩ := assignment_perm h1 hg
  have := picked_half pref l ∅ g' (assignment_mono (fun x hx r hr => ((h3 x hx).1 r).2 hr) a1)
  rw [filter_freeOf_empty] at this
  rw [h4, ← a2]
  exact this

section
variable {G : Type}

/-- The matches that a run writes are those of the box-based matching. -/
theorem box_dump (R : Rnd) (S : StdSort) (rng : Rng G) (w : World) (o : ToolOptions) (t u : Str)
    (refs : List (Event Str (DocBox Str UInt32))) (hyps : List (ScoredEvent Str (DocBox Str UInt32)))
    (ht : w.file o.refFilename = some t) (hu : hypText w o = some u)
    (hrefs : Yields BoxEventText (lines t) refs)
    (hhyps : Yields (ScoredText R BoxEventText) (lines u) hyps)
    (hr : ∀ r ∈ refs, EdgesOkU r.location.toBBox) (hh : ∀ h ∈ hyps, InRangeU h.base)
    (hR : R = Rnd.exact ∨ R = Rnd.ieee ∧ (∀ h ∈ hyps, areaU h.base ≤ 2 ^ 24) ∧
      refs.length + hyps.length ≤ 2 ^ 24)
    (hd : o.sort = "desc".toList) (hc : o.collapse = true) (r : Report Str (DocBox Str UInt32))
    (h : mainWith R S rng (icdarKit R S) w o = .ok (.done r))
    (ms rep : List (Match (Event Str (DocBox Str UInt32)) (ScoredEvent Str (DocBox Str UInt32))))
    (hdump : r.dump = some (ms, rep)) :
    ExactBoxMatching (keep (·.query) (listedQueries w o) refs)
        (keep (·.base.query) (listedQueries w o) hyps) ms rep := by
  have key : ∃ ms rep, ExactBoxMatching (keep (·.query) (listedQueries w o) refs)
        (keep (·.base.query) (listedQueries w o) hyps) ms rep ∧
      r.dump = (if o.dumpMatches = [] then none else some (ms, rep)) := by
    rcases hR with rfl | ⟨rfl, h24, hl⟩
    · obtain ⟨ms, rep, h1, h2, _⟩ := C88_box S rng w o t u refs hyps ht hu hrefs hhyps hr hh hd hc r h
      exact ⟨ms, rep, h1, h2⟩
    · obtain ⟨ms, rep, h1, h2, _⟩ := C88_box_rounded S rng w o t u refs hyps ht hu hrefs hhyps hr
        (fun x hx => ⟨(hh x hx).1, h24 x hx⟩) hl hd hc r h
      exact ⟨ms, rep, h1, h2⟩
  obtain ⟨ms', rep', h1, h2⟩ := key
  rw [hdump] at h2
  split at h2
  · cases h2
  · cases h2
    exact h1

/-- C98: the matches that the box-based tool writes have at least half as many hits as can be had by
giving hypotheses references, each at most once, of which each hypothesis is half covered. -/
theorem C98_box (R : Rnd) (S : StdSort) (rng : Rng G) (w : World) (o : ToolOptions) (t u : Str)
    (refs : List (Event Str (DocBox Str UInt32))) (hyps : List (ScoredEvent Str (DocBox Str UInt32)))
    (ht : w.file o.refFilename = some t) (hu : hypText w o = some u)
    (hrefs : Yields BoxEventText (lines t) refs)
    (hhyps : Yields (ScoredText R BoxEventText) (lines u) hyps)
    (hr : ∀ r ∈ refs, EdgesOkU r.location.toBBox) (hh : ∀ h ∈ hyps, InRangeU h.base)
    (hR : R = Rnd.exact ∨ R = Rnd.ieee ∧ (∀ h ∈ hyps, areaU h.base ≤ 2 ^ 24) ∧
      refs.length + hyps.length ≤ 2 ^ 24)
    (hd : o.sort = "desc".toList) (hc : o.collapse = true) (r : Report Str (DocBox Str UInt32))
    (h : mainWith R S rng (icdarKit R S) w o = .ok (.done r))
    (ms rep : List (Match (Event Str (DocBox Str UInt32)) (ScoredEvent Str (DocBox Str UInt32))))
    (hdump : r.dump = some (ms, rep)) (given : List (Option (Event Str (DocBox Str UInt32))))
    (hg : Assignment (fun r h => r ∈ keep (·.query) (listedQueries w o) refs ∧ BoxPair r h)
      (keep (·.base.query) (listedQueries w o) hyps) given) :
    given.reduceOption.length ≤ 2 * hitCount ms :=
  C98_matching _ _ ms rep
    (box_dump R S rng w o t u refs hyps ht hu hrefs hhyps hr hh hR hd hc r h ms rep hdump) given hg

/-- C98 for the segmentation-based tool's matcher: no way to give the hypotheses equal references, each
at most once, has more hits. -/
theorem C98_segmentation {Q L : Type} [DecidableEq Q] [DecidableEq L] [Cmp Q] [LawfulCmp Q] [Cmp L]
    [LawfulCmp L] (s : EventSet (Event Q L)) (refs : List (Event Q L)) (hyps : List (ScoredEvent Q L)) :
    ∃ s' ms rep, SimpleMatcher.run (plainIndex Q L) trivialScorer s refs hyps = .ok (s', ms, rep) ∧
      ∀ given, Assignment (fun r h => r ∈ refs ∧ r = h.base) hyps given →
        given.reduceOption.length ≤ hitCount ms := by
  obtain ⟨entries, missed, rep, h1, h2, _, _⟩ := run_spec (plainIndex Q L) trivialScorer s
    (fun h => if h.base ∈ refs then [h.base] else []) (fun _ _ => ⟨0, 0⟩) refs hyps
    (fun h _ => C17_plain_search s refs h)
    (fun h _ r hr => by
      split at hr <;> simp at hr
      subst hr
      assumption)
    (fun h _ r hr => by
      split at hr <;> simp at hr
      subst hr
      simp [trivialScorer, LawfulCmp.eq_iff])
  refine ⟨_, _, _, h1, fun given hg => ?_⟩
  rw [show hitCount (entries ++ missed.map Match.makeFalseNegative) = hitCount entries from
    hitCount_missed entries missed _, h2.hits, taken_nil]
  have := picked_most (fun h => (if h.base ∈ refs then [h.base] else []).filter
      (fun _ => ((⟨0, 0⟩ : MatchError)).fp < 1)) hyps (fun h _ => by
        split <;> simp) ∅ given (assignment_mono (fun x _ r hr => by
          obtain ⟨h1, rfl⟩ := hr
          simp [h1]) hg)
  rwa [filter_freeOf_empty] at this

end

/-! ## C99 -/

theorem sorted_insert {l l' hyps : List (ScoredEvent Str (DocBox Str UInt32))}
    {x : ScoredEvent Str (DocBox Str UInt32)} (hn : ∀ h ∈ hyps, h.score ≠ .nan)
    (h1 : l.Perm hyps) (h1' : l'.Perm (x :: hyps))
    (h2 : l.Pairwise (fun a b => TurnBefore a b ∨ a = b))
    (h2' : l'.Pairwise (fun a b => TurnBefore a b ∨ a = b)) :
    ∃ a b, l' = a ++ x :: b ∧ l = a ++ b := by
  obtain ⟨a, b, rfl⟩ := List.append_of_mem (h1'.mem_iff.2 (List.mem_cons_self))
  refine ⟨a, b, rfl, ?_⟩
  have hp : (a ++ b).Perm hyps := (List.perm_middle.symm.trans h1').cons_inv
  have hs : (a ++ b).Pairwise (fun a b => TurnBefore a b ∨ a = b) :=
    h2'.sublist (List.Sublist.append_left (List.sublist_cons_self x b) a)
  refine (h1.trans hp.symm).eq_of_pairwise ?_ h2 hs
  intro c d hc hd hcd hdc
  rcases hcd with hcd | rfl
  · rcases hdc with hdc | rfl
    · exact absurd hdc (turnBefore_asymm (hn c (h1.mem_iff.1 hc)) (hn d (hp.mem_iff.1 hd)) hcd)
    · rfl
  · rfl

theorem sorted_same {l l' hyps hyps' : List (ScoredEvent Str (DocBox Str UInt32))}
    (hn : ∀ h ∈ hyps, h.score ≠ .nan) (hp : hyps.Perm hyps')
    (h1 : l.Perm hyps) (h1' : l'.Perm hyps')
    (h2 : l.Pairwise (fun a b => TurnBefore a b ∨ a = b))
    (h2' : l'.Pairwise (fun a b => TurnBefore a b ∨ a = b)) : l = l' := by
  refine (h1.trans (hp.trans h1'.symm)).eq_of_pairwise ?_ h2 h2'
  intro a b ha hb hab hba
  rcases hab with hab | rfl
  · rcases hba with hba | rfl
    · exact absurd hba (turnBefore_asymm (hn a (h1.mem_iff.1 ha))
        (hn b (hp.mem_iff.2 (h1'.mem_iff.1 hb))) hab)
    · rfl
  · rfl

/-- C99 for the box-based matching: one more hypothesis, of whatever score, gives as many hits or one
more. -/
theorem C99_hypothesis (refs : List (Event Str (DocBox Str UInt32)))
    (hyps hyps' : List (ScoredEvent Str (DocBox Str UInt32))) (x : ScoredEvent Str (DocBox Str UInt32))
    (ms rep ms' rep' : List (Match (Event Str (DocBox Str UInt32))
      (ScoredEvent Str (DocBox Str UInt32))))
    (hn : ∀ h ∈ hyps, h.score ≠ .nan) (hp : hyps'.Perm (x :: hyps))
    (h : ExactBoxMatching refs hyps ms rep) (h' : ExactBoxMatching refs hyps' ms' rep') :
    hitCount ms ≤ hitCount ms' ∧ hitCount ms' ≤ hitCount ms + 1 := by
  obtain ⟨l, pref, h1, h2, h3, h4⟩ := exact_hits h
  obtain ⟨l', pref', h1', h2', h3', h4'⟩ := exact_hits h'
  obtain ⟨a, b, rfl, rfl⟩ := sorted_insert hn h1 (h1'.trans hp) h2 h2'
  rw [h4, h4', picked_congr (pref := pref) (pref' := pref') (a ++ b) (fun y hy => ?_)]
  · exact picked_more pref' a x b ∅
  · have hy' : y ∈ a ++ x :: b := by
      rcases List.mem_append.1 hy with hy | hy <;> simp [hy]
    refine eq_of_strict (overlapBefore_irrefl y.base) (overlapBefore_asymm y.base) (h3 y hy).2
      (h3' y hy').2 fun r => ?_
    rw [(h3 y hy).1, (h3' y hy').1]

/-- C99 for the box-based matching: one more reference gives as many hits or one more. -/
theorem C99_reference (refs refs' : List (Event Str (DocBox Str UInt32)))
    (x : Event Str (DocBox Str UInt32)) (hyps hyps' : List (ScoredEvent Str (DocBox Str UInt32)))
    (ms rep ms' rep' : List (Match (Event Str (DocBox Str UInt32))
      (ScoredEvent Str (DocBox Str UInt32))))
    (hn : ∀ h ∈ hyps, h.score ≠ .nan) (hp : hyps.Perm hyps')
    (hm : ∀ r, r ∈ refs' ↔ r = x ∨ r ∈ refs)
    (h : ExactBoxMatching refs hyps ms rep) (h' : ExactBoxMatching refs' hyps' ms' rep') :
    hitCount ms ≤ hitCount ms' ∧ hitCount ms' ≤ hitCount ms + 1 := by
  by_cases hx : x ∈ refs
  · rw [(C88_determined refs refs' hyps hyps' ms rep ms' rep' (fun r => by
      rw [hm]
      constructor
      · exact Or.inr
      · rintro (rfl | h)
        · exact hx
        · exact h) hp hn h h').1]
    omega
  obtain ⟨l, pref, h1, h2, h3, h4⟩ := exact_hits h
  obtain ⟨l', pref', h1', h2', h3', h4'⟩ := exact_hits h'
  obtain rfl := sorted_same hn hp h1 h1' h2 h2'
  rw [h4, h4', picked_congr (pref := pref)
    (pref' := fun h => (pref' h).filter (freeOf {x})) l (fun y hy => ?_)]
  · rw [picked_without]
    exact picked_less pref' l ∅ x
  · refine eq_of_strict (overlapBefore_irrefl y.base) (overlapBefore_asymm y.base) (h3 y hy).2
      ((h3' y hy).2.filter _) fun r => ?_
    rw [(h3 y hy).1, List.mem_filter, (h3' y hy).1, hm, freeOf_iff, Set.mem_singleton_iff]
    constructor
    · rintro ⟨a, b⟩
      exact ⟨⟨Or.inr a, b⟩, fun e => hx (e ▸ a)⟩
    · rintro ⟨⟨a | a, b⟩, c⟩
      · exact absurd a c
      · exact ⟨a, b⟩

section
variable {G : Type}

theorem scores_finite {R : Rnd} (S : StdSort) {u : Str}
    {hyps : List (ScoredEvent Str (DocBox Str UInt32))}
    (hhyps : Yields (ScoredText R BoxEventText) (lines u) hyps) : ∀ h ∈ hyps, h.score ≠ .nan := by
  have hfin := (icdar_plain R S).finite u (yields_valid hhyps)
  rwa [yields_events Format.boxHyps hhyps] at hfin

/-- C99: with one more hypothesis, the matches that the box-based tool writes have as many hits or one
more. -/
theorem C99_box_hypothesis (R : Rnd) (S : StdSort) (rng rng' : Rng G) (w w' : World) (o : ToolOptions)
    (t t' u u' : Str) (refs : List (Event Str (DocBox Str UInt32)))
    (hyps hyps' : List (ScoredEvent Str (DocBox Str UInt32))) (x : ScoredEvent Str (DocBox Str UInt32))
    (ht : w.file o.refFilename = some t) (hu : hypText w o = some u)
    (ht' : w'.file o.refFilename = some t') (hu' : hypText w' o = some u')
    (hrefs : Yields BoxEventText (lines t) refs) (hrefs' : Yields BoxEventText (lines t') refs)
    (hhyps : Yields (ScoredText R BoxEventText) (lines u) hyps)
    (hhyps' : Yields (ScoredText R BoxEventText) (lines u') hyps') (hp : hyps'.Perm (x :: hyps))
    (hq : listedQueries w' o = listedQueries w o)
    (hr : ∀ r ∈ refs, EdgesOkU r.location.toBBox) (hh : ∀ h ∈ hyps', InRangeU h.base)
    (hR : R = Rnd.exact ∨ R = Rnd.ieee ∧ (∀ h ∈ hyps', areaU h.base ≤ 2 ^ 24) ∧
      refs.length + hyps'.length ≤ 2 ^ 24)
    (hd : o.sort = "desc".toList) (hc : o.collapse = true) (r r' : Report Str (DocBox Str UInt32))
    (h : mainWith R S rng (icdarKit R S) w o = .ok (.done r))
    (h' : mainWith R S rng' (icdarKit R S) w' o = .ok (.done r'))
    (ms rep ms' rep' : List (Match (Event Str (DocBox Str UInt32))
      (ScoredEvent Str (DocBox Str UInt32))))
    (hdump : r.dump = some (ms, rep)) (hdump' : r'.dump = some (ms', rep')) :
    hitCount ms ≤ hitCount ms' ∧ hitCount ms' ≤ hitCount ms + 1 := by
  have hsub : ∀ y ∈ hyps, y ∈ hyps' := fun y hy => hp.mem_iff.2 (List.mem_cons_of_mem _ hy)
  have a := box_dump R S rng w o t u refs hyps ht hu hrefs hhyps hr (fun y hy => hh y (hsub y hy))
    (hR.imp id fun ⟨e, b, c⟩ => ⟨e, fun y hy => b y (hsub y hy), by
      have := hp.length_eq
      simp only [List.length_cons] at this
      omega⟩) hd hc r h ms rep hdump
  have b := box_dump R S rng' w' o t' u' refs hyps' ht' hu' hrefs' hhyps' hr hh hR hd hc r' h' ms' rep'
    hdump'
  have hn := scores_finite S hhyps
  rw [hq] at b
  rw [keep_filter _ _ hyps] at a
  rw [keep_filter _ _ hyps'] at b
  have hn' : ∀ y ∈ hyps.filter (fun e => decide (listedQueries w o = [] ∨
      e.base.query ∈ listedQueries w o)), y.score ≠ .nan := fun y hy => hn y (List.mem_filter.1 hy).1
  have hp' := hp.filter (fun e => decide (listedQueries w o = [] ∨ e.base.query ∈ listedQueries w o))
  rw [List.filter_cons] at hp'
  split at hp'
  · exact C99_hypothesis _ _ _ x ms rep ms' rep' hn' hp' a b
  · rw [(C88_determined _ _ _ _ ms rep ms' rep' (fun _ => Iff.rfl) hp'.symm hn' a b).1]
    omega

/-- C99: with one more reference, the matches that the box-based tool writes have as many hits or one
more. -/
theorem C99_box_reference (R : Rnd) (S : StdSort) (rng rng' : Rng G) (w w' : World) (o : ToolOptions)
    (t t' u u' : Str) (refs refs' : List (Event Str (DocBox Str UInt32)))
    (x : Event Str (DocBox Str UInt32)) (hyps : List (ScoredEvent Str (DocBox Str UInt32)))
    (ht : w.file o.refFilename = some t) (hu : hypText w o = some u)
    (ht' : w'.file o.refFilename = some t') (hu' : hypText w' o = some u')
    (hrefs : Yields BoxEventText (lines t) refs) (hrefs' : Yields BoxEventText (lines t') refs')
    (hhyps : Yields (ScoredText R BoxEventText) (lines u) hyps)
    (hhyps' : Yields (ScoredText R BoxEventText) (lines u') hyps) (hp : refs'.Perm (x :: refs))
    (hq : listedQueries w' o = listedQueries w o)
    (hr : ∀ r ∈ refs', EdgesOkU r.location.toBBox) (hh : ∀ h ∈ hyps, InRangeU h.base)
    (hR : R = Rnd.exact ∨ R = Rnd.ieee ∧ (∀ h ∈ hyps, areaU h.base ≤ 2 ^ 24) ∧
      refs'.length + hyps.length ≤ 2 ^ 24)
    (hd : o.sort = "desc".toList) (hc : o.collapse = true) (r r' : Report Str (DocBox Str UInt32))
    (h : mainWith R S rng (icdarKit R S) w o = .ok (.done r))
    (h' : mainWith R S rng' (icdarKit R S) w' o = .ok (.done r'))
    (ms rep ms' rep' : List (Match (Event Str (DocBox Str UInt32))
      (ScoredEvent Str (DocBox Str UInt32))))
    (hdump : r.dump = some (ms, rep)) (hdump' : r'.dump = some (ms', rep')) :
    hitCount ms ≤ hitCount ms' ∧ hitCount ms' ≤ hitCount ms + 1 := by
  have hsub : ∀ y ∈ refs, y ∈ refs' := fun y hy => hp.mem_iff.2 (List.mem_cons_of_mem _ hy)
  have a := box_dump R S rng w o t u refs hyps ht hu hrefs hhyps (fun y hy => hr y (hsub y hy)) hh
    (hR.imp id fun ⟨e, b, c⟩ => ⟨e, b, by
      have := hp.length_eq
      simp only [List.length_cons] at this
      omega⟩) hd hc r h ms rep hdump
  have b := box_dump R S rng' w' o t' u' refs' hyps ht' hu' hrefs' hhyps' hr hh hR hd hc r' h' ms' rep'
    hdump'
  have hn := scores_finite S hhyps
  rw [hq] at b
  have hn' : ∀ y ∈ keep (·.base.query) (listedQueries w o) hyps, y.score ≠ .nan :=
    fun y hy => hn y (keep_subset _ _ _ y hy)
  rw [keep_filter _ _ refs] at a
  rw [keep_filter _ _ refs'] at b
  have hp' := hp.filter (fun e => decide (listedQueries w o = [] ∨ e.query ∈ listedQueries w o))
  rw [List.filter_cons] at hp'
  split at hp'
  · exact C99_reference _ _ x _ _ ms rep ms' rep' hn' (.refl _)
      (fun r => by rw [hp'.mem_iff, List.mem_cons]) a b
  · rw [(C88_determined _ _ _ _ ms rep ms' rep' (fun r => hp'.symm.mem_iff) (.refl _) hn' a b).1]
    omega

/-- C99 for the segmentation-based tool's matcher: one more hypothesis, at any place, and one more
reference. -/
theorem C99_segmentation {Q L : Type} [DecidableEq Q] [DecidableEq L] [Cmp Q] [LawfulCmp Q] [Cmp L]
    [LawfulCmp L] (s s₁ s₂ s₃ s₄ : EventSet (Event Q L)) (refs : List (Event Q L)) (y : Event Q L)
    (a b : List (ScoredEvent Q L)) (x : ScoredEvent Q L) (ms msx msy rep repx repy : List (KwsMatch Q L))
    (h : SimpleMatcher.run (plainIndex Q L) trivialScorer s refs (a ++ b) = .ok (s₁, ms, rep))
    (hx : SimpleMatcher.run (plainIndex Q L) trivialScorer s refs (a ++ x :: b) = .ok (s₂, msx, repx))
    (hy : SimpleMatcher.run (plainIndex Q L) trivialScorer s₄ (y :: refs) (a ++ b) =
      .ok (s₃, msy, repy)) :
    hitCount ms ≤ hitCount msx ∧ hitCount msx ≤ hitCount ms + 1 ∧
    hitCount ms ≤ hitCount msy ∧ hitCount msy ≤ hitCount ms + 1 := by
  have key : ∀ (s s' : EventSet (Event Q L)) refs hyps (ms rep : List (KwsMatch Q L)),
      SimpleMatcher.run (plainIndex Q L) trivialScorer s refs hyps = .ok (s', ms, rep) →
      hitCount ms = picked (fun h => if h.base ∈ refs then [h.base] else []) ∅ hyps := by
    intro s s' refs hyps ms rep h
    obtain ⟨entries, missed, rep', h1, h2, _, _⟩ := run_spec (plainIndex Q L) trivialScorer s
      (fun h => if h.base ∈ refs then [h.base] else []) (fun _ _ => ⟨0, 0⟩) refs hyps
      (fun h _ => C17_plain_search s refs h)
      (fun h _ r hr => by
        split at hr <;> simp at hr
        subst hr
        assumption)
      (fun h _ r hr => by
        split at hr <;> simp at hr
        subst hr
        simp [trivialScorer, LawfulCmp.eq_iff])
    rw [h, Except.ok.injEq, Prod.mk.injEq, Prod.mk.injEq] at h1
    obtain ⟨_, rfl, _⟩ := h1
    rw [show hitCount (entries ++ missed.map Match.makeFalseNegative) = hitCount entries from
      hitCount_missed entries missed _, h2.hits, taken_nil]
    refine picked_congr _ (fun z _ => ?_) _
    simp
  rw [key _ _ _ _ _ _ h, key _ _ _ _ _ _ hx, key _ _ _ _ _ _ hy]
  obtain ⟨h1, h2⟩ := picked_more (fun h : ScoredEvent Q L => if h.base ∈ refs then [h.base] else []) a x b ∅
  refine ⟨h1, h2, ?_⟩
  by_cases hm : y ∈ refs
  · have : ∀ e, e ∈ y :: refs ↔ e ∈ refs := fun e => by
      rw [List.mem_cons]
      constructor
      · rintro (rfl | h)
        · exact hm
        · exact h
      · exact Or.inr
    simp only [this]
    omega
  · rw [picked_congr (pref := fun h : ScoredEvent Q L => if h.base ∈ refs then [h.base] else [])
      (pref' := fun h => (if h.base ∈ y :: refs then [h.base] else []).filter (freeOf {y}))
      (a ++ b) (fun z _ => ?_)]
    · rw [picked_without (fun h : ScoredEvent Q L => if h.base ∈ y :: refs then [h.base] else [])]
      exact picked_less _ _ ∅ y
    · by_cases hz : z.base = y
      · rw [hz, if_neg hm, if_pos (by simp)]
        simp
      · by_cases hr : z.base ∈ refs
        · rw [if_pos hr, if_pos (by simp [hr])]
          simp [hz]
        · rw [if_neg hr, if_neg (by simp [hr, hz])]
          simp

end

/-! ## The bound of C98 is reached -/

/-- Two references and two hypotheses of one row: the better hypothesis takes the reference that the
other one needs. -/
theorem half_matching :
    let e (x w : UInt32) : Event Str (DocBox Str UInt32) := ⟨['q'], ⟨⟨x, 0, w, 1⟩, ['d']⟩⟩
    ExactBoxMatching [e 0 5, e 4 4] [⟨e 2 4, .fin 2⟩, ⟨e 0 2, .fin 1⟩]
      [⟨some (e 0 5), some ⟨e 2 4, .fin 2⟩, ⟨0, 0⟩⟩, ⟨some (e 4 4), none, ⟨0, 1⟩⟩]
      [⟨some (e 0 5), some ⟨e 0 2, .fin 1⟩, ⟨0, 0⟩⟩] := by
  intro e
  refine ⟨[⟨e 2 4, .fin 2⟩, ⟨e 0 2, .fin 1⟩],
    fun h => if h = ⟨e 2 4, .fin 2⟩ then [e 0 5, e 4 4] else [e 0 5],
    [⟨some (e 0 5), some ⟨e 2 4, .fin 2⟩, ⟨0, 0⟩⟩], [e 4 4],
    List.Perm.refl _, ?_, ?_, ?_, by simp, ?_, rfl⟩
  · simp only [List.pairwise_cons, List.mem_singleton, forall_eq, List.not_mem_nil, false_implies,
      implies_true, List.Pairwise.nil, and_true]
    exact Or.inl ((turnBefore_iff _ _ (by decide)).1 (by decide +kernel))
  · intro h hh
    simp only [List.mem_cons, List.not_mem_nil, or_false] at hh
    have key : ∀ (ov refs : List (Event Str (DocBox Str UInt32))) (b : Event Str (DocBox Str UInt32)),
        (∀ r ∈ ov, r ∈ refs) → (∀ r ∈ refs, r ∈ ov ↔ r.query = b.query ∧ 0 < commonU r b) →
        ∀ r, r ∈ ov ↔ r ∈ refs ∧ r.query = b.query ∧ 0 < commonU r b := by
      intro ov refs b h1 h2 r
      exact ⟨fun h => ⟨h1 r h, (h2 r (h1 r h)).1 h⟩, fun h => (h2 r h.1).2 h.2⟩
    rcases hh with rfl | rfl
    · refine ⟨key _ _ _ (by decide +kernel) (by decide +kernel), ?_⟩
      change List.Pairwise _ (if _ then _ else _)
      rw [if_pos rfl]
      simp only [List.pairwise_cons, List.mem_singleton, forall_eq, List.not_mem_nil, false_implies,
        implies_true, List.Pairwise.nil, and_true]
      exact Or.inl (by decide +kernel)
    · refine ⟨key _ _ _ (by decide +kernel) (by decide +kernel), ?_⟩
      change List.Pairwise _ (if (⟨e 0 2, .fin 1⟩ : ScoredEvent Str (DocBox Str UInt32)) =
        ⟨e 2 4, .fin 2⟩ then _ else _)
      rw [if_neg (by decide +kernel)]
      exact List.pairwise_singleton _ _
  · refine .cons _ _ _ [_] [] [] _ (Or.inr (Or.inl ⟨[], e 0 5, [e 4 4], by decide +kernel,
      by decide +kernel, by simp [Taken], by simp, by decide +kernel⟩))
      ⟨[], [e 0 5, e 4 4], by decide +kernel, by simp, ?_, by simp⟩ ?_
    · intro r hr
      simp only [List.head?_cons, Option.some.injEq] at hr
      subst hr
      exact ⟨by decide +kernel, by simp [Taken]⟩
    refine .cons _ _ _ [] [_] [] [] (Or.inr (Or.inr ⟨⟨e 0 5, by decide +kernel, by decide +kernel⟩,
      by unfold Taken; decide +kernel, rfl⟩))
      ⟨[e 0 5], [], by decide +kernel, by unfold Taken; decide +kernel, by simp, by decide +kernel⟩
      (.nil _)
  · intro r
    simp only [Taken, List.mem_cons, List.not_mem_nil, or_false, exists_eq_left, Option.some.injEq]
    constructor
    · rintro rfl
      exact ⟨Or.inr rfl, by decide +kernel⟩
    · rintro ⟨rfl | rfl, h⟩
      · exact absurd rfl h
      · rfl

theorem half_yields :
    Yields BoxEventText (lines "q d 0 0 5 1\nq d 4 0 4 1\n".toList)
      [⟨['q'], ⟨⟨0, 0, 5, 1⟩, ['d']⟩⟩, ⟨['q'], ⟨⟨4, 0, 4, 1⟩, ['d']⟩⟩] ∧
    Yields (ScoredText Rnd.exact BoxEventText) (lines "q d 2 0 4 1 2\nq d 0 0 2 1 1\n".toList)
      [⟨⟨['q'], ⟨⟨2, 0, 4, 1⟩, ['d']⟩⟩, .fin 2⟩, ⟨⟨['q'], ⟨⟨0, 0, 2, 1⟩, ['d']⟩⟩, .fin 1⟩] :=
  ⟨(C48_accepts (Format.boxRefs (R := Rnd.exact)) _ _).1 (by decide +kernel),
    (C48_accepts (Format.boxHyps (R := Rnd.exact)) _ _).1 (by decide +kernel)⟩

/-- C98 cannot be improved: there is a run of the box-based tool that writes one hit although two can be
had. -/
theorem C98_attained {G : Type} (S : StdSort) (rng : Rng G) : ∃ (w : World) (t u : Str)
    (refs : List (Event Str (DocBox Str UInt32))) (hyps : List (ScoredEvent Str (DocBox Str UInt32)))
    (r : Report Str (DocBox Str UInt32))
    (ms rep : List (Match (Event Str (DocBox Str UInt32)) (ScoredEvent Str (DocBox Str UInt32))))
    (given : List (Option (Event Str (DocBox Str UInt32)))),
    w.file dumpOptions.refFilename = some t ∧ hypText w dumpOptions = some u ∧
    Yields BoxEventText (lines t) refs ∧ Yields (ScoredText Rnd.exact BoxEventText) (lines u) hyps ∧
    (∀ r ∈ refs, EdgesOkU r.location.toBBox) ∧ (∀ h ∈ hyps, InRangeU h.base) ∧
    listedQueries w dumpOptions = [] ∧
    mainWith Rnd.exact S rng (icdarKit Rnd.exact S) w dumpOptions = .ok (.done r) ∧
    r.dump = some (ms, rep) ∧ Assignment (fun r h => r ∈ refs ∧ BoxPair r h) hyps given ∧
    given.reduceOption.length = 2 ∧ hitCount ms = 1 := by
  obtain ⟨y1, y2⟩ := half_yields
  obtain ⟨r, hr, _⟩ := (C62_box_partial Rnd.exact S rng (dumpExample "q d 0 0 5 1\nq d 4 0 4 1\n".toList
      "q d 2 0 4 1 2\nq d 0 0 2 1 1\n".toList) dumpOptions
    (fun t u _ _ => ⟨fun h => by simp [dumpOptions] at h, fun h => absurd rfl h,
      fun h => absurd rfl h, fun h => by simp [dumpOptions] at h⟩)).1
    ⟨⟨by decide, ⟨_, dumpExample_file _ _, yields_valid y1⟩, ⟨_, if_pos rfl, yields_valid y2⟩,
      fun h => absurd rfl h, fun h => absurd rfl h⟩, Or.inr rfl⟩
  have hr1 : ∀ r ∈ ([⟨['q'], ⟨⟨0, 0, 5, 1⟩, ['d']⟩⟩, ⟨['q'], ⟨⟨4, 0, 4, 1⟩, ['d']⟩⟩] :
      List (Event Str (DocBox Str UInt32))), EdgesOkU r.location.toBBox := by
    intro r hr
    simp only [List.mem_cons, List.not_mem_nil, or_false] at hr
    rcases hr with rfl | rfl <;> exact ⟨by decide, by decide⟩
  have hh1 : ∀ h ∈ ([⟨⟨['q'], ⟨⟨2, 0, 4, 1⟩, ['d']⟩⟩, .fin 2⟩, ⟨⟨['q'], ⟨⟨0, 0, 2, 1⟩, ['d']⟩⟩, .fin 1⟩] :
      List (ScoredEvent Str (DocBox Str UInt32))), InRangeU h.base := by
    intro r hr
    simp only [List.mem_cons, List.not_mem_nil, or_false] at hr
    rcases hr with rfl | rfl <;> exact ⟨⟨by decide, by decide⟩, by decide +kernel⟩
  obtain ⟨ms, rep, h1, h2, _⟩ := C88_box S rng _ dumpOptions _ _ _ _ (dumpExample_file _ _) (if_pos rfl)
    y1 y2 hr1 hh1 rfl rfl r hr
  have hl : ∀ a b, listedQueries (dumpExample a b) dumpOptions = [] := fun _ _ => rfl
  rw [hl] at h1
  obtain ⟨rfl, rfl⟩ := C88_determined _ _ _ _ _ _ _ _ (fun _ => Iff.rfl) (.refl _)
    (by simp [keep]) h1 half_matching
  refine ⟨_, _, _, _, _, r, _, _, [some ⟨['q'], ⟨⟨4, 0, 4, 1⟩, ['d']⟩⟩,
    some ⟨['q'], ⟨⟨0, 0, 5, 1⟩, ['d']⟩⟩], dumpExample_file _ _, if_pos rfl, y1, y2, hr1, hh1, hl _ _, hr,
    h2.trans (if_neg (by decide)), ⟨.cons ?_ (.cons ?_ .nil), by decide +kernel⟩, rfl, rfl⟩
  · rintro _ ⟨⟩
    exact ⟨by simp, by decide +kernel, by decide +kernel, by decide +kernel⟩
  · rintro _ ⟨⟩
    exact ⟨by simp, by decide +kernel, by decide +kernel, by decide +kernel⟩

/-- Two runs to which C99 applies: the second has the reference `0 0 5 1` in addition, with which the
first hypothesis is a hit. -/
example {G : Type} (S : StdSort) (rng : Rng G) : ∃ (r r' : Report Str (DocBox Str UInt32))
    (ms rep ms' rep' : List (Match (Event Str (DocBox Str UInt32)) (ScoredEvent Str (DocBox Str UInt32)))),
    let u := "q d 2 0 4 1 2\nq d 0 0 2 1 1\n".toList
    mainWith Rnd.exact S rng (icdarKit Rnd.exact S) (dumpExample "q d 4 0 4 1\n".toList u) dumpOptions =
      .ok (.done r) ∧
    mainWith Rnd.exact S rng (icdarKit Rnd.exact S) (dumpExample "q d 0 0 5 1\nq d 4 0 4 1\n".toList u)
      dumpOptions = .ok (.done r') ∧
    r.dump = some (ms, rep) ∧ r'.dump = some (ms', rep') ∧ hitCount ms ≤ hitCount ms' ∧
    hitCount ms' ≤ hitCount ms + 1 := by
  obtain ⟨y1', y2⟩ := half_yields
  have y1 : Yields BoxEventText (lines "q d 4 0 4 1\n".toList) [⟨['q'], ⟨⟨4, 0, 4, 1⟩, ['d']⟩⟩] :=
    (C48_accepts (Format.boxRefs (R := Rnd.exact)) _ _).1 (by decide +kernel)
  have run : ∀ (t : Str) (refs : List (Event Str (DocBox Str UInt32))), Yields BoxEventText (lines t) refs →
      ∃ r, mainWith Rnd.exact S rng (icdarKit Rnd.exact S)
        (dumpExample t "q d 2 0 4 1 2\nq d 0 0 2 1 1\n".toList) dumpOptions = .ok (.done r) := by
    intro t refs y
    obtain ⟨r, hr, _⟩ := (C62_box_partial Rnd.exact S rng
        (dumpExample t "q d 2 0 4 1 2\nq d 0 0 2 1 1\n".toList) dumpOptions
      (fun t u _ _ => ⟨fun h => by simp [dumpOptions] at h, fun h => absurd rfl h,
        fun h => absurd rfl h, fun h => by simp [dumpOptions] at h⟩)).1
      ⟨⟨by decide, ⟨_, dumpExample_file _ _, yields_valid y⟩, ⟨_, if_pos rfl, yields_valid y2⟩,
        fun h => absurd rfl h, fun h => absurd rfl h⟩, Or.inr rfl⟩
    exact ⟨r, hr⟩
  have hr1 : ∀ r ∈ ([⟨['q'], ⟨⟨0, 0, 5, 1⟩, ['d']⟩⟩, ⟨['q'], ⟨⟨4, 0, 4, 1⟩, ['d']⟩⟩] :
      List (Event Str (DocBox Str UInt32))), EdgesOkU r.location.toBBox := by
    intro r hr
    simp only [List.mem_cons, List.not_mem_nil, or_false] at hr
    rcases hr with rfl | rfl <;> exact ⟨by decide, by decide⟩
  have hh1 : ∀ h ∈ ([⟨⟨['q'], ⟨⟨2, 0, 4, 1⟩, ['d']⟩⟩, .fin 2⟩, ⟨⟨['q'], ⟨⟨0, 0, 2, 1⟩, ['d']⟩⟩, .fin 1⟩] :
      List (ScoredEvent Str (DocBox Str UInt32))), InRangeU h.base := by
    intro r hr
    simp only [List.mem_cons, List.not_mem_nil, or_false] at hr
    rcases hr with rfl | rfl <;> exact ⟨⟨by decide, by decide⟩, by decide +kernel⟩
  obtain ⟨r, hr⟩ := run _ _ y1
  obtain ⟨r', hr'⟩ := run _ _ y1'
  obtain ⟨ms, rep, _, h2, _⟩ := C88_box S rng _ dumpOptions _ _ _ _ (dumpExample_file _ _) (if_pos rfl)
    y1 y2 (fun r hr => hr1 r (List.mem_cons_of_mem _ hr)) hh1 rfl rfl r hr
  obtain ⟨ms', rep', _, h2', _⟩ := C88_box S rng _ dumpOptions _ _ _ _ (dumpExample_file _ _) (if_pos rfl)
    y1' y2 hr1 hh1 rfl rfl r' hr'
  rw [if_neg (by decide)] at h2 h2'
  exact ⟨r, r', ms, rep, ms', rep', hr, hr', h2, h2', C99_box_reference Rnd.exact S rng rng _ _ dumpOptions
    _ _ _ _ _ _ _ _ (dumpExample_file _ _) (if_pos rfl) (dumpExample_file _ _) (if_pos rfl) y1 y1' y2 y2
    (.refl _) rfl hr1 hh1 (Or.inl rfl) rfl rfl r r' hr hr' ms rep ms' rep' h2 h2'⟩

/-- Runs of the segmentation-based tool's matcher to which C99 applies: the hypothesis in the middle
brings a hit, a new reference does not. -/
example :
    let hit (m : KwsMatch Nat Nat) := m.ref.isSome && m.hyp.isSome
    let run (refs : List (Event Nat Nat)) hyps :=
      (SimpleMatcher.run (plainIndex Nat Nat) trivialScorer EventSet.new refs hyps).map
        (fun x => x.2.1.countP hit)
    run [⟨1, 1⟩, ⟨2, 2⟩] ([⟨⟨1, 1⟩, .fin 3⟩] ++ [⟨⟨5, 5⟩, .fin 1⟩]) = .ok 1 ∧
    run [⟨1, 1⟩, ⟨2, 2⟩] ([⟨⟨1, 1⟩, .fin 3⟩] ++ ⟨⟨2, 2⟩, .fin 2⟩ :: [⟨⟨5, 5⟩, .fin 1⟩]) = .ok 2 ∧
    run [⟨3, 3⟩, ⟨1, 1⟩, ⟨2, 2⟩] ([⟨⟨1, 1⟩, .fin 3⟩] ++ [⟨⟨5, 5⟩, .fin 1⟩]) = .ok 1 := by
  exact ⟨rfl, rfl, rfl⟩

end Kws
