import Verif.Spec.Evaluation

/-!
# Specification of better rankings

A ranking is compared with another one by the numbers of hits among its first matches, or by the numbers
of hits and false positives with at least a given score.
-/

namespace Kws.Spec
variable {Q L : Type}

/-- A reference that was found. -/
def IsHit (m : Match (Event Q L) (ScoredEvent Q L)) : Bool := m.ref.isSome && m.hyp.isSome

/-- Number of references found by the first `n` matches. -/
def found (n : ℕ) (ms : List (Match (Event Q L) (ScoredEvent Q L))) : ℕ := (ms.take n).countP IsHit

/-- Number of references. -/
def references (ms : List (Match (Event Q L) (ScoredEvent Q L))) : ℕ := ms.countP (fun m => m.ref.isSome)

/-- References that are not found come last. -/
def MissedLast (ms : List (Match (Event Q L) (ScoredEvent Q L))) : Prop :=
  ms.Pairwise (fun a b => a.hyp = none → b.hyp = none)

/-- Number of references found with a score of at least `s`. -/
def foundAbove (s : Flt) (ms : List (Match (Event Q L) (ScoredEvent Q L))) : ℕ :=
  ms.countP (fun m => m.ref.isSome && m.hyp.any (fun h => !Flt.lt h.score s))

/-- Number of false positives with a score of at least `s`. -/
def wrongAbove (s : Flt) (ms : List (Match (Event Q L) (ScoredEvent Q L))) : ℕ :=
  ms.countP (fun m => m.ref.isNone && m.hyp.any (fun h => !Flt.lt h.score s))

/-- The hypotheses `hyps'` are no worse than `hyps`: references that were found are found with at least the
same score, and no query has more hypotheses that are no references with at least a given score. -/
structure Improved [DecidableEq Q] [DecidableEq L] (refs : List (Event Q L))
    (hyps hyps' : List (ScoredEvent Q L)) : Prop where
  right : ∀ h ∈ hyps, h.base ∈ refs → ∃ h' ∈ hyps', h'.base = h.base ∧ Flt.lt h'.score h.score = false
  wrong : ∀ q s, s ≠ .nan →
    hyps'.countP (fun h => h.base ∉ refs ∧ h.base.query = q ∧ Flt.lt h.score s = false) ≤
      hyps.countP (fun h => h.base ∉ refs ∧ h.base.query = q ∧ Flt.lt h.score s = false)

end Kws.Spec
