import Verif.Model.IRL
import Verif.Model.PolicyLearning

/-! # Arguments of the learners' constructors, with the checks on them -/

namespace MaMDP

variable {K : Type} [Field K] [LinearOrder K] [IsStrictOrderedRing K]

/-- `MaxCausalEntIRL.__init__` (irl.py:78-131) with a decay that may be negative: the checks at irl.py:118-119. -/
def MceIrl.create (lr : K) (decay : Int) (maxIter : Nat) (tol : K) (theta : Option (Nat → K)) : Py (MceIrl K) :=
  if ¬ 0 < lr then .error .assertionError
  else if ¬ 0 ≤ decay then .error .assertionError
  else MceIrl.init ⟨decay.toNat, maxIter, tol⟩ lr theta

/-- `HyptestIRL.__init__` (irl.py:302-341) with a decay that may be negative: the checks at irl.py:333-335. -/
def HtIrl.create (lr : K) (decay : Int) (asymmetry : K) (norm : Normalisation) (theta : Option (Nat → Ext K)) :
    Py (HtIrl K) :=
  if ¬ 0 < lr then .error .assertionError
  else if ¬ 0 ≤ decay then .error .assertionError
  else HtIrl.init ⟨lr, decay.toNat, asymmetry, norm⟩ theta

end MaMDP
