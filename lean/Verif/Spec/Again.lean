import Verif.Spec.Tool

/-!
# Specification of one more hypothesis for what has been found already
-/

namespace Kws.Spec
variable {Q L : Type}

/-- With the criterion `sort`, hypothesis `y` is treated before `x`: it has the better score or is the
same, and if hypotheses are not sorted, it is read before. -/
def Ahead (sort : Str) (before : List (ScoredEvent Q L)) (y x : ScoredEvent Q L) : Prop :=
  if sort = "desc".toList then Flt.lt x.score y.score = true ∨ y = x
  else if sort = "asc".toList then Flt.lt y.score x.score = true ∨ y = x
  else y ∈ before

/-- `x`, which is put between `before` and `after`, is right, and every reference it may be given is also
one that a hypothesis ahead of it may be given, which may be given no other reference. -/
structure FoundAlready (pair : Event Q L → ScoredEvent Q L → Prop) (sort : Str) (refs : List (Event Q L))
    (before after : List (ScoredEvent Q L)) (x : ScoredEvent Q L) : Prop where
  right : ∃ r ∈ refs, pair r x
  found : ∀ r ∈ refs, pair r x → ∃ y ∈ before ++ after, Ahead sort before y x ∧ pair r y ∧
    ∀ r' ∈ refs, pair r' y → r' = r

/-- The two worlds differ in the hypotheses only. -/
structure SameButHyps (o : ToolOptions) (w w' : World) : Prop where
  refs : w'.file o.refFilename = w.file o.refFilename
  querySet : w'.file o.querySet = w.file o.querySet
  queryGroups : w'.file o.queryGroups = w.file o.queryGroups
  writable : w'.writable = w.writable

/-- The two runs end in the same way, with the same report, except that, if matches are dumped, the second one
has more repeated matches among them. -/
def SameButRepeats (o : ToolOptions) (a b : Cpp (RunResult Q L)) : Prop :=
  a = b ∨ o.dumpMatches ≠ [] ∧ ∃ r ms rep rep', r.dump = some (ms, rep) ∧ rep.Sublist rep' ∧ a = .ok (.done r) ∧
    b = .ok (.done { r with dump := some (ms, rep') })

end Kws.Spec
