import Verif.Model.SoftRounding
import Verif.Spec.Rounding

/-! # Vocabulary for inexact soft value iteration -/

namespace MaMDP.Spec

/-- The soft Bellman equation: the value of a state is the logarithm of the summed exponentials of its action values (and
of the constant of the code). -/
def SoftBellman (M : Trans ℝ) (r : Nat → ℝ) (γ : ℝ) (V : Nat → ℝ) : Prop :=
  ∀ s, s < M.nS → V s = Real.log ((∑ a ∈ Finset.range M.nA, Real.exp (Q M r γ V s a)) + 1 / 10 ^ 200)

/-- As long as no number exceeds `B`, action values, the value of a state computed from them, and changes have an error of
at most `ε`. -/
structure SoftAccurate (M : Trans ℝ) (r : Nat → ℝ) (γ B ε : ℝ) (ar : SoftArith) : Prop where
  action : ∀ v s a, (∀ t, t < M.nS → |v t| ≤ B) → s < M.nS → a < M.nA → |ar.action v s a - Q M r γ v s a| ≤ ε
  backup : ∀ v s, (∀ t, t < M.nS → |v t| ≤ B) → s < M.nS → |ar.backup (ar.action v s) -
    Real.log ((∑ a ∈ Finset.range M.nA, Real.exp (Q M r γ v s a)) + 1 / 10 ^ 200)| ≤ ε
  change : ∀ x y, |x| ≤ B → |y| ≤ B → abs (ar.change x y - |x - y|) ≤ ε

end MaMDP.Spec
