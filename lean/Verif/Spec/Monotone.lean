import Verif.Spec.Values

/-! # Vocabulary for comparing worlds -/

namespace MaMDP.Spec

variable {K : Type} [Field K] [LinearOrder K] [IsStrictOrderedRing K]

/-- `M'` has the states and actions of `M`, but in `M'` some moves are blocked or less likely. -/
structure Fewer (M M' : Trans K) : Prop where
  nS : M'.nS = M.nS
  nA : M'.nA = M.nA
  p : ∀ s a t, s < M.nS → a < M.nA → t < M.nS → M'.p s a t ≤ M.p s a t

end MaMDP.Spec
