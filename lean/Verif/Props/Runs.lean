import Verif.Props.Ties
import Verif.Props.Evaluation
import Verif.Props.Hits
import Verif.Props.Improvement

/-!
# Runs that read events and report numbers

What many properties assume of a run, in one place.
-/

namespace Kws
open Spec

/-- A run of the box tool that reads these events and ends with the report `r`. The numbers of a box are
small enough for its edges, and those of a hypothesis for its area. In IEEE arithmetic the areas of
hypotheses are at most `2^24` and there are up to `2^24` events; then average precisions are off by at most
`ε = (n + 3)^2 / 2^52` for `n` events. In exact arithmetic `ε` is 0. -/
structure BoxRun (R : Rnd) (w : World) (o : ToolOptions) (refs : List (Event Str (DocBox Str UInt32)))
    (hyps : List (ScoredEvent Str (DocBox Str UInt32))) (r : Report Str (DocBox Str UInt32)) (ε : ℚ) :
    Prop where
  readRefs : ∃ t, w.file o.refFilename = some t ∧ Yields BoxEventText (lines t) refs
  readHyps : ∃ u, hypText w o = some u ∧ Yields (ScoredText R BoxEventText) (lines u) hyps
  edges : ∀ r ∈ refs, EdgesOkU r.location.toBBox
  areas : ∀ h ∈ hyps, InRangeU h.base
  small : R = Rnd.ieee → ∀ h ∈ hyps, areaU h.base ≤ 2 ^ 24
  tolerance : R = Rnd.exact ∧ ε = 0 ∨ R = Rnd.ieee ∧ refs.length + hyps.length ≤ 2 ^ 24 ∧
    ε = ((refs.length : ℚ) + hyps.length + 3) ^ 2 / 2 ^ 52
  run : ∃ (G : Type) (S : StdSort) (rng : Rng G), mainWith R S rng (icdarKit R S) w o = .ok (.done r)

/-- A run of the segmentation-based tool that reads these events and ends with the report `r`. -/
structure SegRun (R : Rnd) (w : World) (o : ToolOptions) (refs : List (Event Str Str))
    (hyps : List (ScoredEvent Str Str)) (r : Report Nat Nat) (ε : ℚ) : Prop where
  readRefs : ∃ t, w.file o.refFilename = some t ∧ Yields StrEventText (lines t) refs
  readHyps : ∃ u, hypText w o = some u ∧ Yields (ScoredText R StrEventText) (lines u) hyps
  names : (vocabulary w o).dedup.length ≤ 2 ^ 31
  tolerance : R = Rnd.exact ∧ ε = 0 ∨ R = Rnd.ieee ∧ refs.length + hyps.length ≤ 2 ^ 24 ∧
    ε = ((refs.length : ℚ) + hyps.length + 3) ^ 2 / 2 ^ 52
  run : ∃ (G : Type) (S : StdSort) (rng : Rng G) (qf : Bool),
    mainWith R S rng (simpleKit R qf) w o = .ok (.done r)

theorem tolerance_of {R : Rnd} {a b : ℕ} {ε : ℚ} (h : R = Rnd.exact ∧ ε = 0 ∨ R = Rnd.ieee ∧
    a + b ≤ 2 ^ 24 ∧ ε = ((a : ℚ) + b + 3) ^ 2 / 2 ^ 52) : Tolerance R (a + b) ε := by
  rcases h with h | ⟨h1, h2, h3⟩
  · exact .inl h
  · exact .inr ⟨h1, h2, by rw [h3]; push_cast; rfl⟩

theorem BoxRun.scores {R : Rnd} {w : World} {o : ToolOptions} {refs : List (Event Str (DocBox Str UInt32))}
    {hyps : List (ScoredEvent Str (DocBox Str UInt32))} {r : Report Str (DocBox Str UInt32)} {ε : ℚ}
    (h : BoxRun R w o refs hyps r ε) : ∀ x ∈ hyps, x.score ≠ .nan := by
  obtain ⟨_, S, _, _⟩ := h.run
  obtain ⟨u, _, hu⟩ := h.readHyps
  exact scores_finite S hu

theorem SegRun.scores {R : Rnd} {w : World} {o : ToolOptions} {refs : List (Event Str Str)}
    {hyps : List (ScoredEvent Str Str)} {r : Report Nat Nat} {ε : ℚ}
    (h : SegRun R w o refs hyps r ε) : ∀ x ∈ hyps, x.score ≠ .nan := by
  obtain ⟨u, _, hu⟩ := h.readHyps
  exact yields_finite R u hyps hu

/-- The matching and the numbers of a run with descending order and collapsing (the defaults). -/
theorem BoxRun.numbers {R : Rnd} {w : World} {o : ToolOptions} {refs : List (Event Str (DocBox Str UInt32))}
    {hyps : List (ScoredEvent Str (DocBox Str UInt32))} {r : Report Str (DocBox Str UInt32)} {ε : ℚ}
    (h : BoxRun R w o refs hyps r ε) (hd : o.sort = "desc".toList) (hc : o.collapse = true) :
    ∃ ms rep, ExactBoxMatching (keep (·.query) (listedQueries w o) refs)
        (keep (·.base.query) (listedQueries w o) hyps) ms rep ∧
      Shows r (matchNumbers (groupFor w o) o.interp o.trapezoid ms) ε := by
  obtain ⟨⟨t, t1, t2⟩, ⟨u, u1, u2⟩, h1, h2, h3, h4, G, S, rng, h5⟩ := h
  obtain ⟨ms, rep, a, _, b⟩ := box_ties R S rng w o t u refs hyps t1 u1 t2 u2 h1 h2 h3 hd hc r ε
    (tolerance_of h4) h5
  exact ⟨ms, rep, a, b⟩

/-- The numbers of a run with descending order and collapsing (the defaults). -/
theorem SegRun.numbers {R : Rnd} {w : World} {o : ToolOptions} {refs : List (Event Str Str)}
    {hyps : List (ScoredEvent Str Str)} {r : Report Nat Nat} {ε : ℚ}
    (h : SegRun R w o refs hyps r ε) (hd : o.sort = "desc".toList) (hc : o.collapse = true) :
    Shows r (segNumbers (groupFor w o) o.interp o.trapezoid (keep (·.query) (listedQueries w o) refs)
      (keep (·.base.query) (listedQueries w o) hyps)) ε := by
  obtain ⟨⟨t, t1, t2⟩, ⟨u, u1, u2⟩, h1, h4, G, S, rng, qf, h5⟩ := h
  exact segmentation_numbers R S rng qf w o h1 t u refs hyps t1 u1 t2 u2 hd hc r ε (tolerance_of h4) h5

end Kws
