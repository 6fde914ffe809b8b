import Verif.Model.PolicyLearning
import Verif.Props.Mdp
import Mathlib.Algebra.BigOperators.Intervals

/-! # Specification of policy learning -/

namespace MaMDP.Spec

variable {K : Type} [Field K] [LinearOrder K] [IsStrictOrderedRing K]

/-- Running estimates: the `n`-th observed action moves every estimate towards its reward by a share `rate n`. -/
def tdEstimate (rate : Nat → K) (reward : Nat → Nat → K) : Nat → List Nat → (Nat → K) → Nat → K
  | _, [], q => q
  | n, a :: l, q => tdEstimate rate reward (n + 1) l fun j => q j + rate n * (reward a j - q j)

/-- Reward 1 for the action taken. -/
def oneHot (a j : Nat) : K := if j = a then 1 else 0

/-- `as` are actions that lead through the states `t`: one per step, each possible there. -/
def Follows (m : Mdp K) (t as : List Nat) : Prop :=
  as.length = t.length - 1 ∧ ∀ i s a u, t[i]? = some s → as[i]? = some a → t[i + 1]? = some u →
    a < m.nActions ∧ 0 < m.sas s a u

end MaMDP.Spec

namespace MaMDP

variable {K : Type} [Field K] [LinearOrder K] [IsStrictOrderedRing K]

/-- The decay factor of the `n`-th update. -/
def Decay.fac : Decay K → Nat → K
  | .int _, _ => 1
  | .float _ fac, n => fac n

/-- The decay does not make NumPy raise. -/
def Decay.usable : Decay K → Prop
  | .int d => d ≤ 0
  | .float _ _ => True

/-- The rate of the `n`-th update of a fit that starts with adjusted rate `adj`. -/
def TdLearner.rate (o : TdLearner K) (adj : K) (n : Nat) : K :=
  if o.decay.positive then adj * ∏ i ∈ Finset.range n, o.decay.fac (i + 1) else o.lr

/-- The reward used for action `a` of `n`. -/
def TdLearner.reward (o : TdLearner K) (n a : Nat) : Nat → K :=
  match o.kernel with
  | none => Spec.oneHot a
  | some k => k n a

/-- A learner that can be fitted to models with `nA` actions: its decay does not make NumPy raise, its values are
not set yet or there are `nA` of them, and a shared saved array is the current one. -/
structure TdLearner.Ready (o : TdLearner K) (nA : Nat) : Prop where
  usable : o.decay.usable
  q : o.q = .none ∨ ∃ x, o.q = .vec ⟨nA, x⟩
  shared : o.aliased = true → o.original = o.q

/-- The values a fit starts from. -/
def TdLearner.start (o : TdLearner K) : Nat → K :=
  match o.q with
  | .vec x => x.get
  | _ => fun _ => 0

/-- Trajectories that are empty or lists of adjacent states. -/
def Spec.Observed (m : Mdp K) (ts : List (List Nat)) : Prop := ∀ t ∈ ts, t = [] ∨ Spec.IsTrajectory m t

/-- Trajectories as the code gets them. -/
def toInts (ts : List (List Nat)) : List (List Int) := ts.map fun t => t.map fun (n : Nat) => (n : Int)

/-- Non-negative estimates, at most 1 together, zero for actions outside `S`. -/
def Spec.Bounded (nA : Nat) (S : Nat → Prop) (x : Nat → K) : Prop :=
  (∀ j, j < nA → 0 ≤ x j) ∧ ∑ j ∈ Finset.range nA, x j ≤ 1 ∧ ∀ j, j < nA → ¬ S j → x j = 0

end MaMDP
