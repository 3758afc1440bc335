import Verif.Model.Match

/-!
# Specification of greedy matching

The specification never removes references from a set: a reference is taken if it occurs in the
entries produced so far.
-/

namespace Kws.Spec

variable {RE HE : Type}

/-- A reference occurs in one of the entries. -/
def Taken (entries : List (Match RE HE)) (r : RE) : Prop := ∃ m ∈ entries, m.ref = some r

/-- The entry (or absence of an entry) that hypothesis `h` deserves, given the entries of the
earlier hypotheses. `overl` are the references overlapping `h`, best first; `score r` is the error
of pairing `h` with `r`; a pair is accepted if its false-positive rate is below 1. -/
def Deserves (earlier : List (Match RE HE)) (overl : List RE) (score : RE → MatchError) (h : HE)
    (entry : List (Match RE HE)) : Prop :=
  -- nothing is accepted: a false positive
  (∀ r ∈ overl, 1 ≤ (score r).fp) ∧ entry = [⟨none, some h, ⟨1, 0⟩⟩] ∨
  -- the first accepted reference that is still free
  (∃ l1 r l2, overl = l1 ++ r :: l2 ∧ (score r).fp < 1 ∧ ¬ Taken earlier r ∧
    (∀ r' ∈ l1, (score r').fp < 1 → Taken earlier r') ∧ entry = [⟨some r, some h, score r⟩]) ∨
  -- accepted references exist, but all are taken: nothing
  (∃ r ∈ overl, (score r).fp < 1) ∧ (∀ r ∈ overl, (score r).fp < 1 → Taken earlier r) ∧ entry = []

/-- The repeated matches that hypothesis `h` deserves: its accepted references up to the first one
that is still free. -/
def DeservesRepeated (earlier : List (Match RE HE)) (overl : List RE) (score : RE → MatchError)
    (h : HE) (repeats : List (Match RE HE)) : Prop :=
  ∃ l1 l2, overl = l1 ++ l2 ∧
    (∀ r ∈ l1, (score r).fp < 1 → Taken earlier r) ∧
    (∀ r, l2.head? = some r → (score r).fp < 1 ∧ ¬ Taken earlier r) ∧
    repeats = (l1.filter (fun r => (score r).fp < 1)).map (fun r => ⟨some r, some h, score r⟩)

/-- Processing the hypotheses one after the other, starting with entries `earlier`. -/
inductive Greedy (overl : HE → List RE) (score : RE → HE → MatchError) :
    List (Match RE HE) → List HE → List (Match RE HE) → List (Match RE HE) → Prop
  | nil (earlier) : Greedy overl score earlier [] [] []
  | cons (earlier h hs entry repeats entries repeated) :
    Deserves earlier (overl h) (fun r => score r h) h entry →
    DeservesRepeated earlier (overl h) (fun r => score r h) h repeats →
    Greedy overl score (earlier ++ entry) hs entries repeated →
    Greedy overl score earlier (h :: hs) (entry ++ entries) (repeats ++ repeated)

end Kws.Spec
