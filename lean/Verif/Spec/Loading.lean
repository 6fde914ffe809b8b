import Verif.Spec.EnvIO
import Verif.Spec.IRL

/-! # Vocabulary for descriptions of environments -/

namespace MaMDP.Spec

variable {K : Type} [Field K] [LinearOrder K] [IsStrictOrderedRing K] {δ κ : Type}

/-- Every number in the list is that of one of `n` cells (negative numbers count from the end). -/
def CellsIn (n : Nat) (c : Cells) : Prop := ∀ i ∈ c.numbers, InRange n i

/-- State `s` of `n` is in the list. -/
def Lists (n : Nat) (c : Cells) (s : Nat) : Prop := ∃ i ∈ c.numbers, InRange n i ∧ stateOf n i = s

/-- The `i`-th feature asked for is in the description, with cells of the grid; unless it has no cells, there is a row
for it. -/
def SoundFeature (d : EnvDict κ) (i : Nat) (name : String) : Prop :=
  ∃ c, (name, c) ∈ d.features ∧ CellsIn (d.size.1 * d.size.2) c ∧ (c.numbers = [] ∨ i < d.features.length)

/-- An agent that can be built: by value iteration, with one of the two selectors. -/
def BuildableAgent (L : Loader K δ κ) (a : AgentDict κ) : Prop :=
  a.algorithm = "value_iteration" ∧ (a.selector = "max" ∨ a.selector = "softmax") ∧
  (∃ alg, L.alg a.algorithmKwargs = .ok alg) ∧ ∃ sel, L.sel a.selector a.selectorKwargs = .ok sel

/-- An agent that fits the environment: it starts on a state, has a reward for each feature and agent, and consumes
nothing else. -/
def FittingAgent (d : EnvDict κ) (a : AgentDict κ) : Prop :=
  (∃ p, a.position = .index p ∧ InRange (d.size.1 * d.size.2) p) ∧
  a.reward.length = d.features.length + d.agents.length ∧ ∀ f ∈ a.consumes, f < (d.features.length + d.agents.length : Nat)

/-- A description without mistakes. -/
structure SoundDescription (L : Loader K δ κ) (d : EnvDict κ) (names : List String) : Prop where
  type : d.type = "hex"
  size : 0 < d.size.1 * d.size.2
  features : ∀ i name, names[i]? = some name → SoundFeature d i name
  walls : CellsIn (d.size.1 * d.size.2) d.walls
  buildable : ∀ a ∈ d.agents, BuildableAgent L a
  fitting : ∀ a ∈ d.agents, FittingAgent d a

end MaMDP.Spec
