import Verif.Spec.Policy
import Mathlib.Analysis.SpecialFunctions.Exp

/-! # The softmax rule, in words of probabilities (C105) -/

namespace MaMDP.Spec

/-- The weight of an estimate at temperature `T`: `exp (x / T)`; none for -inf and for no estimate. -/
noncomputable def weight (T : ℝ) : Ext ℝ → ℝ
  | .fin x => Real.exp (x / T)
  | _ => 0

/-- The number of actions of state `s` with a finite estimate. -/
def choices (q : Arr2 (Ext ℝ)) (s : Nat) : Nat :=
  ((List.range q.d1).filter fun a => match q.get s a with | .fin _ => true | _ => false).length

end MaMDP.Spec
