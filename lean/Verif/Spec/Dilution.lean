import Verif.Spec.BoxRanking

/-!
# Specification of more queries, for which nothing is found
-/

namespace Kws.Spec
variable {Q L : Type}

/-- The queries of some events. -/
def queriesOf (refs : List (Event Q L)) (hyps : List (ScoredEvent Q L)) : List Q :=
  refs.map (·.query) ++ hyps.map (·.base.query)

/-- The number of groups of the queries of some events. -/
def groupCount [DecidableEq Q] (grp : Q → Q) (refs : List (Event Q L)) (hyps : List (ScoredEvent Q L)) : ℕ :=
  ((queriesOf refs hyps).map grp).dedup.length

/-- The events `refs'` and `hyps'` are `refs` and `hyps`, and `more` and `others`, which are about queries
of other groups. -/
structure AddsQueries (grp : Q → Q) (refs more refs' : List (Event Q L))
    (hyps others hyps' : List (ScoredEvent Q L)) : Prop where
  allRefs : ∀ r, r ∈ refs' ↔ r ∈ refs ∨ r ∈ more
  allHyps : hyps'.Perm (hyps ++ others)
  apart : ∀ a ∈ queriesOf refs hyps, ∀ b ∈ queriesOf more others, grp a ≠ grp b

/-- The gain if `n` references are found and ranked first. -/
noncomputable def idealGain (n : ℕ) : ℝ := ∑ k ∈ Finset.range n, 1 / Real.logb 2 (k + 2)

/-- With `g'` instead of `g` groups the means are `g / g'` times what they were, average precisions within
`ε` and `ε'`. -/
structure MeansDiluted {Q' L' : Type} (r : Report Q L) (g : ℕ) (ε : ℚ) (r' : Report Q' L') (g' : ℕ)
    (ε' : ℚ) : Prop where
  mAP : |r'.mAP.value * g' - r.mAP.value * g| ≤ ε' * g' + ε * g
  mNDCG : r'.mNDCG.value * g' = r.mNDCG.value * g

/-- With `n'` instead of `n` references the global average precision is `n / n'` times what it was, within
`ε` and `ε'`, and the global NDCG changes like the ideal gain. -/
structure GlobalsDiluted {Q' L' : Type} (r : Report Q L) (n : ℕ) (ε : ℚ) (r' : Report Q' L') (n' : ℕ)
    (ε' : ℚ) : Prop where
  gAP : |r'.gAP.value * n' - r.gAP.value * n| ≤ ε' * n' + ε * n
  gNDCG : r'.gNDCG.value * idealGain n' = r.gNDCG.value * idealGain n

end Kws.Spec
