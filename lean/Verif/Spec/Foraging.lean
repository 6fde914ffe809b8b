import Verif.Model.Algorithm
import Verif.Model.Environment

/-! # Foraging (C143) -/

namespace MaMDP.Spec

/-- `n` rounds in which the agent named `x` is first fitted with value iteration on the MDP as it is now, and then takes a
step. The two sequences are the draws of its action selector. -/
noncomputable def forage (maxIter : Nat) (γ tol : ℝ) (x : String) (fitDraws stepDraws : Nat → Nat → Nat) (e : Env ℝ Nat) :
    Nat → Env ℝ Nat
  | 0 => e
  | n + 1 =>
    let now := forage maxIter γ tol x fitDraws stepDraws e n
    let fitted := (now.fit x (valueIterationFit now.mdp maxIter γ tol) (fitDraws n)).1
    (fitted.step x (stepDraws n)).1

/-- A call that concerns another agent than `x`: fitting it, letting it step, putting it somewhere, or changing its
algorithm. -/
def OfOthers {δ : Type} (x : String) : EnvOp ℝ δ → Prop
  | .fit y _ _ | .step y _ | .stepProba y _ _ | .stepMulti y _ _ _ _ _ _ | .setAgentPosition y _ | .setAlgorithm y _ => y ≠ x
  | .stepMultiInteractive .. | .reset | .setWalls _ | .addWallXY .. | .resetWalls => False

/-- As `forage`, but before round `n` the calls `others n` are made, whether or not they raise. -/
noncomputable def forageAmong (maxIter : Nat) (γ tol : ℝ) (x : String) (fitDraws stepDraws : Nat → Nat → Nat)
    (others : Nat → List (EnvOp ℝ Nat)) (e : Env ℝ Nat) : Nat → Env ℝ Nat
  | 0 => e
  | n + 1 =>
    let now := (forageAmong maxIter γ tol x fitDraws stepDraws others e n).run (others n)
    let fitted := (now.fit x (valueIterationFit now.mdp maxIter γ tol) (fitDraws n)).1
    (fitted.step x (stepDraws n)).1

/-- An agent that likes or ignores everything, gets no reward from itself, and consumes what it likes. -/
structure Forager {δ : Type} (e : Env ℝ δ) (a : Agent ℝ δ) : Prop where
  likes : ∀ f, f < a.reward.d0 → 0 ≤ a.reward.get f
  self : a.reward.get (e.mdp.features.d0 - e.mdp.nAgents + a.idx) = 0
  eats : ∀ f, f < a.reward.d0 → 0 < a.reward.get f → (f : Int) ∈ a.consumes
  known : ∀ f ∈ a.consumes, -(a.reward.d0 : Int) ≤ f

end MaMDP.Spec
