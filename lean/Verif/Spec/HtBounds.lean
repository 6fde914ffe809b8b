/- Reading C159: learning rates that never move an estimate past the evidence. -/
import Verif.Spec.IRL

namespace MaMDP.Spec

variable {K : Type} [Field K] [LinearOrder K] [IsStrictOrderedRing K]

/-- The largest learning rate in use is at most 1: the rate itself without decay, otherwise the rate times the
asymmetry (the rate at the first move for evidence weaker than the estimate). -/
def Gentle (set : HtSettings K) : Prop :=
  (if set.decay = 0 then set.lr else set.lr * set.asymmetry) ≤ 1

end MaMDP.Spec
