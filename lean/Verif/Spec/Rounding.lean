import Verif.Model.Rounding
import Verif.Spec.Values

/-! # Vocabulary for inexact arithmetic -/

namespace MaMDP.Spec

variable {K : Type} [Field K] [LinearOrder K] [IsStrictOrderedRing K]

/-- As long as no number exceeds `B`, action values and changes are computed with an error of at most `ε`. -/
structure Accurate (M : Trans K) (r : Nat → K) (γ B ε : K) (ar : Arith K) : Prop where
  action : ∀ v s a, (∀ t, t < M.nS → |v t| ≤ B) → s < M.nS → a < M.nA → |ar.action v s a - Q M r γ v s a| ≤ ε
  change : ∀ x y, |x| ≤ B → |y| ≤ B → abs (ar.change x y - |x - y|) ≤ ε

end MaMDP.Spec
