import Verif.Model.Cpp

/-!
# Specification of bootstrap resampling
-/

namespace Kws.Spec

/-- `s` is drawn with replacement from `o`: same size, only elements of `o`. -/
def DrawnFrom {M : Type} (o s : List M) : Prop := s.length = o.length ∧ ∀ m ∈ s, m ∈ o

/-- A resample by groups: as many groups as the original, each drawn with replacement from some
original group. -/
def Resample {M : Type} (original sample : List (List M)) : Prop :=
  sample.length = original.length ∧ ∀ s ∈ sample, ∃ o ∈ original, DrawnFrom o s

/-- `cs` are the samples produced one after the other by a sampler with state `g`. -/
inductive Successive {C G : Type} (sampler : G → Cpp (C × G)) : G → List C → Prop
  | nil (g) : Successive sampler g []
  | cons (g g' c cs) : sampler g = .ok (c, g') → Successive sampler g' cs →
    Successive sampler g (c :: cs)

end Kws.Spec
