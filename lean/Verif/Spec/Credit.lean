import Verif.Spec.MCTS

/-! # Vocabulary for what a walk is worth -/

namespace MaMDP.Spec

variable {K : Type} [Field K] [LinearOrder K] [IsStrictOrderedRing K]

/-- What someone collects who takes the reward `r t` of a state with them when they first come there. -/
def gather (r : Nat → K) (l : List Nat) : K := (l.dedup.map r).sum

end MaMDP.Spec
