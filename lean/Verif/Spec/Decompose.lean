import Verif.Model.Tool

/-!
# Specification of evaluations restricted to some queries
-/

namespace Kws.Spec
variable {Q L : Type}

/-- The query that a match is about. -/
def queryOf (m : KwsMatch Q L) : Option Q := (m.ref.map (·.query)).or (m.hyp.map (·.base.query))

/-- The match is about a query with property `P`. -/
def about (P : Q → Bool) (m : KwsMatch Q L) : Bool := (queryOf m).any P

/-- `q` is the query of one of the events, and listed by the query set or groups (if given). -/
def Asked (q2g : List (Q × Q)) (refs : List (Event Q L)) (hyps : List (ScoredEvent Q L)) (q : Q) :
    Prop :=
  ((∃ e ∈ refs, e.query = q) ∨ ∃ h ∈ hyps, h.base.query = q) ∧ (q2g = [] ∨ ∃ g, (q, g) ∈ q2g)

/-- Only the four numbers (and perhaps the matches) are asked for. -/
structure PlainOptions (o : ToolOptions) : Prop where
  gap : o.ciGap = false
  map : o.ciMap = false
  gndcg : o.ciGndcg = false
  mndcg : o.ciMndcg = false
  grp : o.outputGrp = []
  mrp : o.outputMrp = []

end Kws.Spec
