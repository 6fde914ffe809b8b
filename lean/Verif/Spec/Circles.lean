import Verif.Spec.Policy
import Verif.Spec.Values

/-! # Reading aid for C168 -/

namespace MaMDP.Spec

variable {K : Type} [Field K] [LinearOrder K] [IsStrictOrderedRing K]

/-- Only one of the `nA` actions of a state is best. -/
def NoTie (nA : Nat) (q : Nat → Nat → Ext K) (s : Nat) : Prop :=
  ∃ x, x < nA ∧ ∀ y, y < nA → (∀ b, b < nA → NoBetter (q s b) (q s y)) → y = x

end MaMDP.Spec
