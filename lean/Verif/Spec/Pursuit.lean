import Verif.Spec.Environment
import Verif.Spec.Foraging

/-! # Pursuit (C145) -/

namespace MaMDP.Spec

/-- In `e`, the agent named `x` is in state `s` (of `N`). -/
def StandsIn {δ : Type} (N : Nat) (e : Env ℝ δ) (x : String) (s : Nat) : Prop :=
  ∃ a ∈ e.agents, a.name = x ∧ stateOf N a.position = s

/-- `a` gets reward from the presence of `b` and from nothing else, and consumes `b`. The agents have the last rows of the
features, in order. -/
structure Hunter {δ : Type} (e : Env ℝ δ) (a b : Agent ℝ δ) : Prop where
  likes : 0 < a.reward.get (e.mdp.features.d0 - e.mdp.nAgents + b.idx)
  only : ∀ f, f < a.reward.d0 → f ≠ e.mdp.features.d0 - e.mdp.nAgents + b.idx → a.reward.get f = 0
  eats : ((e.mdp.features.d0 - e.mdp.nAgents + b.idx : Nat) : Int) ∈ a.consumes
  known : ∀ f ∈ a.consumes, -(a.reward.d0 : Int) ≤ f

/-- `n` turns. In turn `n` first the calls `others n` are made, whether or not they raise. Then `k` times the agent named `x`
is fitted with value iteration on the MDP as it is then, and takes a step. -/
noncomputable def hunt (maxIter : Nat) (γ tol : ℝ) (x : String) (k : Nat) (fitDraws stepDraws : Nat → Nat → Nat → Nat)
    (others : Nat → List (EnvOp ℝ Nat)) (e : Env ℝ Nat) : Nat → Env ℝ Nat
  | 0 => e
  | n + 1 => forage maxIter γ tol x (fitDraws n) (stepDraws n)
      ((hunt maxIter γ tol x k fitDraws stepDraws others e n).run (others n)) k

/-- If the call puts the agent named `y` somewhere, it is not below minus the number of states `N`. -/
def Placed {δ : Type} (N : Nat) (y : String) (op : EnvOp ℝ δ) : Prop :=
  ∀ p, op = .setAgentPosition y p → -(N : Int) ≤ p

/-- How many of the calls are `step` calls for the agent named `x`. -/
def stepsOf {δ : Type} (x : String) : List (EnvOp ℝ δ) → Nat
  | [] => 0
  | .step y _ :: l => (if y = x then 1 else 0) + stepsOf x l
  | _ :: l => stepsOf x l

/-- No call of `step_multi` for the agent named `x`. -/
def NoMulti {δ : Type} (x : String) : EnvOp ℝ δ → Prop
  | .stepMulti y .. => y ≠ x
  | _ => True

end MaMDP.Spec
