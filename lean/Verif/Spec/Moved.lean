import Verif.Spec.Ties

/-!
# Specification of renamed queries and documents and moved and scaled boxes
-/

namespace Kws.Spec

/-- The event `e'` is `e` with another query and document, and its box is moved by `τ` of the
document. -/
structure Moved (ρ δ : Str → Str) (τ : Str → ℤ × ℤ) (e e' : Event Str (DocBox Str UInt32)) :
    Prop where
  query : e'.query = ρ e.query
  document : e'.location.document = δ e.location.document
  x : (e'.location.x.toNat : ℤ) = e.location.x.toNat + (τ e.location.document).1
  y : (e'.location.y.toNat : ℤ) = e.location.y.toNat + (τ e.location.document).2
  w : e'.location.w = e.location.w
  h : e'.location.h = e.location.h

/-- The same for a hypothesis, which keeps its score. -/
structure MovedScored (ρ δ : Str → Str) (τ : Str → ℤ × ℤ) (e e' : ScoredEvent Str (DocBox Str UInt32)) :
    Prop where
  base : Moved ρ δ τ e.base e'.base
  score : e'.score = e.score

/-- The same for a match. -/
structure MovedMatch (ρ δ : Str → Str) (τ : Str → ℤ × ℤ)
    (m m' : Match (Event Str (DocBox Str UInt32)) (ScoredEvent Str (DocBox Str UInt32))) : Prop where
  ref : Option.Rel (Moved ρ δ τ) m.ref m'.ref
  hyp : Option.Rel (MovedScored ρ δ τ) m.hyp m'.hyp
  error : m'.error = m.error

/-- The event `e'` is `e` with another query and document, and its box is scaled by `κ` of the document
and then moved by `τ` of the document. -/
structure Placed (ρ δ : Str → Str) (κ : Str → ℕ × ℕ) (τ : Str → ℤ × ℤ)
    (e e' : Event Str (DocBox Str UInt32)) : Prop where
  query : e'.query = ρ e.query
  document : e'.location.document = δ e.location.document
  x : (e'.location.x.toNat : ℤ) =
    (κ e.location.document).1 * e.location.x.toNat + (τ e.location.document).1
  y : (e'.location.y.toNat : ℤ) =
    (κ e.location.document).2 * e.location.y.toNat + (τ e.location.document).2
  w : e'.location.w.toNat = (κ e.location.document).1 * e.location.w.toNat
  h : e'.location.h.toNat = (κ e.location.document).2 * e.location.h.toNat

/-- The same for a hypothesis, which keeps its score. -/
structure PlacedScored (ρ δ : Str → Str) (κ : Str → ℕ × ℕ) (τ : Str → ℤ × ℤ)
    (e e' : ScoredEvent Str (DocBox Str UInt32)) : Prop where
  base : Placed ρ δ κ τ e.base e'.base
  score : e'.score = e.score

/-- The same for a match. -/
structure PlacedMatch (ρ δ : Str → Str) (κ : Str → ℕ × ℕ) (τ : Str → ℤ × ℤ)
    (m m' : Match (Event Str (DocBox Str UInt32)) (ScoredEvent Str (DocBox Str UInt32))) : Prop where
  ref : Option.Rel (Placed ρ δ κ τ) m.ref m'.ref
  hyp : Option.Rel (PlacedScored ρ δ κ τ) m.hyp m'.hyp
  error : m'.error = m.error

/-- The files with queries and groups say the same about the renamed queries: `ρ` renames queries and
`γ` groups. -/
structure RenamedQueries (ρ γ : Str → Str) (w : World) (o : ToolOptions) (w' : World)
    (o' : ToolOptions) : Prop where
  listed : listedQueries w' o' = (listedQueries w o).map ρ
  group : ∀ q, listedQueries w o = [] ∨ q ∈ listedQueries w o →
    groupFor w' o' (ρ q) = γ (groupFor w o q)

/-- The words of a line of a groups file with other names. -/
def renamedLine {α : Type} (ρ γ : α → α) : List α → List α
  | [] => []
  | g :: qs => γ g :: qs.map ρ

end Kws.Spec
