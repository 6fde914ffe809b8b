import Verif.Model.Mdp

/-! # Vocabulary for MDP objects -/

namespace MaMDP.Spec

variable {K : Type} [Field K] [LinearOrder K] [IsStrictOrderedRing K]

/-- A transition array: as many source states as target states, at least one state and one action, all
entries between 0 and 1. -/
def ValidTransitions (x : Arr3 K) : Prop :=
  x.d0 = x.d2 ∧ 0 < x.d0 ∧ 0 < x.d1 ∧
    ∀ s a t, s < x.d0 → a < x.d1 → t < x.d0 → 0 ≤ x.get s a t ∧ x.get s a t ≤ 1

/-- The parts of an MDP have matching sizes: one feature column and one wall entry per state. -/
def Fitting (m : Mdp K) : Prop := m.features.d1 = m.nStates ∧ m.walls.d0 = m.nStates

end MaMDP.Spec
