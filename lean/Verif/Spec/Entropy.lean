import Mathlib.Analysis.SpecialFunctions.Log.NegMulLog
import Verif.Spec.IRL

/-! # Vocabulary for reward plus entropy -/

namespace MaMDP.Spec

/-- What a policy gathers in `n` steps from a state: the expected reward of every step and the entropy of the choice of
its action, discounted. -/
noncomputable def gains (M : Trans ℝ) (r : Nat → ℝ) (γ : ℝ) (π : Nat → Nat → ℝ) : Nat → Nat → ℝ
  | 0, _ => 0
  | n + 1, s => ∑ a ∈ Finset.range M.nA, (π s a * Q M r γ (gains M r γ π n) s a + Real.negMulLog (π s a))

end MaMDP.Spec
