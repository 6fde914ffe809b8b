import Verif.Spec.Values
import Mathlib.Logic.Relation

/-! # Vocabulary for what can be reached -/

namespace MaMDP.Spec

variable {K : Type} [Field K] [LinearOrder K] [IsStrictOrderedRing K]

/-- Some sequence of actions may lead from `s` to `t`. -/
def CanReach (M : Trans K) : Nat → Nat → Prop :=
  Relation.ReflTransGen fun s t => t < M.nS ∧ ∃ a, a < M.nA ∧ M.p s a t ≠ 0

/-- Two worlds of the same size look the same to someone at `s`: actions have the same effects, and states the same
rewards, everywhere they can get. -/
structure SameAround (M M' : Trans K) (r r' : Nat → K) (s : Nat) : Prop where
  nS : M'.nS = M.nS
  nA : M'.nA = M.nA
  p : ∀ t, CanReach M s t → ∀ a u, a < M.nA → u < M.nS → M'.p t a u = M.p t a u
  r : ∀ t, CanReach M s t → r' t = r t

end MaMDP.Spec
