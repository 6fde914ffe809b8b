import Verif.Model.SuccessorRepresentation

namespace MaMDP

variable {K : Type} [Field K] [LinearOrder K] [IsStrictOrderedRing K]

/-- `t` is the first state that action `a` can lead to from `s`. -/
def Spec.IsFirstSuccessor (M : Trans K) (s a t : Nat) : Prop :=
  t < M.nS ∧ M.p s a t ≠ 0 ∧ ∀ u, u < t → M.p s a u = 0

end MaMDP
