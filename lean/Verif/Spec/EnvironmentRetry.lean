import Verif.Spec.Environment

/-! # Vocabulary for rejected environments -/

namespace MaMDP.Spec

variable {K : Type} [Field K] [LinearOrder K] [IsStrictOrderedRing K] {δ : Type}

/-- Two MDP objects present the same features, agent rows, transitions and walls. -/
def SameMdp (m m' : Mdp K) : Prop :=
  m'.nStates = m.nStates ∧ m'.nActions = m.nActions ∧ m'.nAgents = m.nAgents ∧
  m'.features.d0 = m.features.d0 ∧ m'.features.d1 = m.features.d1 ∧
  (∀ f s, f < m.features.d0 → m'.features.get f s = m.features.get f s) ∧
  m'.sas = m.sas ∧ m'.walls = m.walls

/-- Two environments present the same MDP and the same agents. -/
def SameEnv (e e' : Env K δ) : Prop :=
  SameMdp e.mdp e'.mdp ∧ e'.agents = e.agents ∧ e'.agentNames = e.agentNames ∧ e'.nSteps = e.nSteps

/-- A start position, if it is a number at all, that denotes a state. -/
def StartInRange (nStates : Nat) (sp : AgentSpec K δ) : Prop :=
  ∀ p, sp.position = some p → -(nStates : Int) ≤ p ∧ p < nStates

end MaMDP.Spec
