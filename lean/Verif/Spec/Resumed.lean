import Verif.Spec.Relisted

/-! # Going on in an environment built anew from how things stand -/

namespace MaMDP.Spec

variable {K δ : Type} [Field K] [LinearOrder K] [IsStrictOrderedRing K]

/-- The features of the MDP as they are now, without the rows of the agents. -/
def featuresNow (e : Env K δ) : Arr2 K := ⟨e.mdp.features.d0 - e.mdp.nAgents, e.mdp.features.d1, e.mdp.features.get⟩

/-- The agent as it is now: where it stands, and with what its algorithm has found. -/
def agentNow (a : Agent K δ) : AgentSpec K δ where
  name := a.name
  nMoves := a.nMoves
  selector := a.selector
  alg := a.alg
  position := some a.position
  reward := .of1 a.reward
  consumes := a.consumes

/-- Every agent can be seen where it stands (none has been eaten since it last moved). -/
def AllInSight (e : Env K δ) : Prop :=
  ∀ a ∈ e.agents, e.mdp.features.get (e.mdp.features.d0 - e.mdp.nAgents + a.idx) (stateOf e.mdp.nStates a.position) = 1

/-- Anything but starting again. -/
def GoesOn : PlayOp K δ → Prop
  | .again => False
  | _ => True

/-- From now on `e2` does what `e` does, whatever is called except starting again: every call has the same answer; the
agents stand at the same places, have the same action values and go on with the same steps; what they eat from now on and
the number of steps made from now on are the same; features and walls are the same. -/
structure SameFromNow (e e2 : Env K δ) : Prop where
  answers : ∀ (l : List (PlayOp K δ)) (op : PlayOp K δ), (∀ o ∈ l, GoesOn o) → GoesOn op →
    answer (play e2 l) (op.call (play e2 l)) = answer (play e l) (op.call (play e l))
  agents : ∀ (l : List (PlayOp K δ)) n a, (∀ o ∈ l, GoesOn o) → e.agent? n = some a →
    ∃ b b2, (play e l).agent? n = some b ∧ (play e2 l).agent? n = some b2 ∧
      b2.position = b.position ∧ b2.alg = b.alg ∧
      (∃ new, b.history = a.history ++ new ∧ b2.history = a.position :: new) ∧
      ∀ f, b.consumed f = a.consumed f + b2.consumed f
  steps : ∀ l : List (PlayOp K δ), (∀ o ∈ l, GoesOn o) → (play e l).nSteps = e.nSteps + (play e2 l).nSteps
  features : ∀ (l : List (PlayOp K δ)) f s, (∀ o ∈ l, GoesOn o) → f < (play e l).mdp.features.d0 →
    s < (play e l).mdp.nStates → (play e2 l).mdp.features.get f s = (play e l).mdp.features.get f s
  walls : ∀ l : List (PlayOp K δ), (∀ o ∈ l, GoesOn o) → (play e2 l).mdp.walls = (play e l).mdp.walls

end MaMDP.Spec
