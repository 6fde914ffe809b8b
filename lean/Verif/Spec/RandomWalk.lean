import Verif.Spec.SuccessorRepresentation
import Mathlib.Algebra.BigOperators.Fin

/-! # Walking at random (C106) -/

namespace MaMDP.Spec

variable {K : Type} [Field K] [LinearOrder K] [IsStrictOrderedRing K]

/-- The probability that a walker who starts with action `a` in state `s` and from then on chooses action `a'`
in state `u` with probability `pol u a'` is about to take action `b` in state `t` after `n` moves. A walker
whose action leads nowhere is gone. -/
def walkProb (M : Trans K) (pol : Nat → Nat → K) : Nat → Nat → Nat → Nat → Nat → K
  | 0, s, a, t, b => if s = t ∧ a = b then 1 else 0
  | n + 1, s, a, t, b =>
    ∑ u ∈ Finset.range M.nS, M.p s a u * ∑ a' ∈ Finset.range M.nA, pol u a' * walkProb M pol n u a' t b

/-- The expected number of times within the first `N` moves, the `n`-th move counting `γ ^ n`. -/
def walkVisits (M : Trans K) (pol : Nat → Nat → K) (γ : K) (N s a t b : Nat) : K :=
  ∑ n ∈ Finset.range N, γ ^ n * walkProb M pol n s a t b

/-- Some state can be reached from `s` with action `a`. -/
def Available (M : Trans K) (s a : Nat) : Prop := ∃ t, t < M.nS ∧ M.p s a t ≠ 0

open Classical in
/-- Choosing with equal probabilities among the actions that lead somewhere. -/
noncomputable def amongAvailable (M : Trans K) (s a : Nat) : K :=
  if Available M s a then 1 / ((Finset.range M.nA).filter fun b => Available M s b).card else 0

end MaMDP.Spec
