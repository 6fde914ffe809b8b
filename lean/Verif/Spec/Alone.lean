import Verif.Spec.Indifferent
import Verif.Model.Algorithm
import Mathlib.Algebra.BigOperators.Group.Finset.Basic

/-! # Vocabulary for the life of one agent among others -/

namespace MaMDP.Spec

variable {K δ : Type} [Field K] [LinearOrder K] [IsStrictOrderedRing K]

/-- A planner that sees the transition table and what every state is worth. -/
abbrev Planner (K : Type) := Trans K → (Nat → K) → Py (PyArr (Ext K) × PyArr (Ext K))

/-- What happens in an environment as one agent sees it: it plans, takes a step, is asked where it would go, or is put
somewhere; or something happens elsewhere. -/
inductive LifeOp (K δ : Type)
  | plan (solver : Planner K) (draws : Nat → δ)
  | step (draws : Nat → δ)
  | ask (position : Option (Arr1 K)) (draws : Nat → δ)
  | put (position : Int)
  | elsewhere (op : EnvOp K δ)

/-- What a call about the agent returns or raises. -/
inductive LifeAnswer (K : Type)
  | done (r : Py Unit)
  | state (r : Py Int)
  | chances (r : Py (Arr1 (Ext K)))

/-- The agent's planner applied to the MDP as it is now: each state is worth the weighted sum of its features. -/
def plannerOn (solver : Planner K) (m : Mdp K) : FitOut K :=
  fun w => solver ⟨m.nStates, m.nActions, m.sas⟩
    fun s => ∑ f ∈ Finset.range w.d0, w.get f * m.features.get f s

/-- The environment after the calls, and the answers to those about the agent. -/
def lifeOf (name : String) : List (LifeOp K δ) → Env K δ → Env K δ × List (LifeAnswer K)
  | [], e => (e, [])
  | .plan solver d :: l, e =>
    let x := e.fit name (plannerOn solver e.mdp) d
    let y := lifeOf name l x.1
    (y.1, .done x.2 :: y.2)
  | .step d :: l, e =>
    let x := e.step name d
    let y := lifeOf name l x.1
    (y.1, .state x.2 :: y.2)
  | .ask p d :: l, e =>
    let x := e.stepProba name p d
    let y := lifeOf name l x.1
    (y.1, .chances x.2 :: y.2)
  | .put p :: l, e =>
    let x := e.setAgentPosition name p
    let y := lifeOf name l x.1
    (y.1, .done x.2 :: y.2)
  | .elsewhere op :: l, e => lifeOf name l (e.apply op)

/-- The calls about the agent itself. -/
def alone : List (LifeOp K δ) → List (LifeOp K δ)
  | [] => []
  | .elsewhere _ :: l => alone l
  | op :: l => op :: alone l

end MaMDP.Spec
