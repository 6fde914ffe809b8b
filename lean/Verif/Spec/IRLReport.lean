import Verif.Spec.IRL

/-! # Vocabulary for the errors of a fit -/

namespace MaMDP.Spec

variable {K : Type} [Field K] [LinearOrder K] [IsStrictOrderedRing K]

/-- Mean absolute value over the first `n` entries. -/
def meanAbs (n : Nat) (x : Nat → K) : K := (∑ f ∈ Finset.range n, |x f|) / n

/-- Every state has the same total of features, `c`. -/
def TotalIs (m : Mdp K) (c : K) : Prop :=
  ∀ s, s < m.nStates → ∑ f ∈ Finset.range m.nFeatures, m.features.get f s = c

end MaMDP.Spec
