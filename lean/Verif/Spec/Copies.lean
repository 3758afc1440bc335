import Verif.Spec.Dilution

/-!
# Specification of several copies of a collection under different names of the queries
-/

namespace Kws.Spec
variable {Q L : Type} {k : ℕ}

/-- The event with another name of its query. -/
def byName (ρ : Q → Q) (e : Event Q L) : Event Q L := ⟨ρ e.query, e.location⟩

/-- The hypothesis with another name of its query. -/
def scoredByName (ρ : Q → Q) (h : ScoredEvent Q L) : ScoredEvent Q L := ⟨byName ρ h.base, h.score⟩

/-- The match with another name of the query. -/
def matchedByName (ρ : Q → Q) (m : Match (Event Q L) (ScoredEvent Q L)) : Match (Event Q L) (ScoredEvent Q L) :=
  ⟨m.ref.map (byName ρ), m.hyp.map (scoredByName ρ), m.error⟩

/-- Different copies have different names for these queries, and so have different queries in a copy. -/
def ApartOn (s : List Q) (ρ : Fin k → Q → Q) : Prop :=
  ∀ i j, ∀ q ∈ s, ∀ q' ∈ s, ρ i q = ρ j q' → i = j ∧ q = q'

/-- The events `refs'` and `hyps'` are `k` copies of `refs` and `hyps`, in any order, where copy `i` has the
names `ρ i` for the queries, different ones for different queries and in different copies. -/
structure Copies (ρ : Fin k → Q → Q) (refs refs' : List (Event Q L)) (hyps hyps' : List (ScoredEvent Q L)) :
    Prop where
  apart : ApartOn (queriesOf refs hyps) ρ
  refs : ∀ r, r ∈ refs' ↔ ∃ i, ∃ r₀ ∈ refs, r = byName (ρ i) r₀
  hyps : hyps'.Perm ((List.finRange k).flatMap fun i => hyps.map (scoredByName (ρ i)))

/-- The query options ask for all copies of a query or for none, and two copies of queries are in the same group if
they are in the same copy and were in the same group. -/
structure CopiedQueries (s : List Str) (ρ : Fin k → Str → Str) (w w' : World) (o : ToolOptions) : Prop where
  listed : ∀ i, ∀ q ∈ s, (listedQueries w' o = [] ∨ ρ i q ∈ listedQueries w' o) ↔
    (listedQueries w o = [] ∨ q ∈ listedQueries w o)
  group : ∀ i j, ∀ q ∈ s, ∀ q' ∈ s, (listedQueries w o = [] ∨ q ∈ listedQueries w o) →
    (listedQueries w o = [] ∨ q' ∈ listedQueries w o) →
    (groupFor w' o (ρ i q) = groupFor w' o (ρ j q') ↔ i = j ∧ groupFor w o q = groupFor w o q')

/-- All numbers but global NDCG are the same, average precisions within the tolerances. -/
structure SameButGlobalNDCG {Q' L' : Type} (r : Report Q L) (ε : ℚ) (r' : Report Q' L') (ε' : ℚ) : Prop where
  gAP : |r'.gAP.value - r.gAP.value| ≤ ε' + ε
  mAP : |r'.mAP.value - r.mAP.value| ≤ ε' + ε
  mNDCG : r'.mNDCG.value = r.mNDCG.value

end Kws.Spec
