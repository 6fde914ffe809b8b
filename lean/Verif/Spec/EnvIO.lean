import Verif.Model.EnvIO
import Verif.Spec.Environment

/-! # Vocabulary for saving and loading -/

namespace MaMDP.Spec

variable {K : Type} [Field K] [LinearOrder K] [IsStrictOrderedRing K] {δ κ : Type}

/-- What `info` and the constructors say about an agent is true of it: it plans by value iteration, and building the
named selector with the stored arguments gives the agent's selector. -/
def Described (info : String → AgentMeta κ) (L : Loader K δ κ) (a : Agent K δ) : Prop :=
  (info a.name).algorithm = some "value_iteration" ∧ (∃ alg, L.alg (info a.name).algorithmKwargs = .ok alg) ∧
  ∃ s, (s = "max" ∨ s = "softmax") ∧ (info a.name).selector = some s ∧
    L.sel s (info a.name).selectorKwargs = .ok a.selector

/-- The whole number next to `x` on the side of zero. -/
def Truncated (x y : K) : Prop :=
  ∃ z : Int, y = z ∧ |x - y| < 1 ∧ |y| ≤ |x| ∧ 0 ≤ x * y

/-- Same grid, walls and transitions. -/
structure SameGrid (e e' : Env K δ) : Prop where
  shape : e'.mdp.shape = e.mdp.shape
  selfTransitions : e'.mdp.selfTransitions = e.mdp.selfTransitions
  nStates : e'.mdp.nStates = e.mdp.nStates
  nActions : e'.mdp.nActions = e.mdp.nActions
  walls : ∀ s, s < e.mdp.nStates → e'.mdp.walls.get s = e.mdp.walls.get s
  sas : ∀ s a t, s < e.mdp.nStates → t < e.mdp.nStates → e'.mdp.sas s a t = e.mdp.sas s a t

/-- The same agents in the same order at the same positions, starting afresh there. -/
structure SameAgents (e e' : Env K δ) : Prop where
  count : e'.agents.length = e.agents.length
  agents : ∀ (i : Nat) (a a' : Agent K δ), e.agents[i]? = some a → e'.agents[i]? = some a' →
    a'.name = a.name ∧ a'.idx = a.idx ∧ a'.position = a.position ∧ a'.nMoves = a.nMoves ∧ a'.consumes = a.consumes ∧
    a'.selector = a.selector ∧ a'.reward.d0 = a.reward.d0 ∧
    (∀ k, k < a.reward.d0 → Truncated (a.reward.get k) (a'.reward.get k)) ∧
    (∀ k, k < a.reward.d0 → ∀ z : Int, a.reward.get k = z → a'.reward.get k = z) ∧
    a'.featIdx = e.mdp.features.d0 - e.agents.length + i ∧ a'.start = a.position ∧ a'.history = [a.position] ∧ (∀ f, a'.consumed f = 0) ∧
    ∀ s, e'.mdp.features.get (e.mdp.features.d0 - e.agents.length + i) s =
      if s = stateOf e.mdp.nStates a.position then 1 else 0

/-- The coordinates a saved list of cells stands for. -/
def coordinates : Cells → List (Int × Int)
  | .states _ => []
  | .pairs l => l
  | .pair x y => [(x, y)]

/-- Cell `(x, y)` of a grid with `H` cells per column is in the list exactly when `row` is not zero there. -/
def ListsCells (W H : Nat) (c : Cells) (row : Nat → K) : Prop :=
  ∀ x y : Int, (x, y) ∈ coordinates c ↔ ∃ i j : Nat, x = i ∧ y = j ∧ i < W ∧ j < H ∧ row (i * H + j) ≠ 0

end MaMDP.Spec
