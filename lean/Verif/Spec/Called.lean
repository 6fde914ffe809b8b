import Verif.Spec.Replay

/-! # Agents called by other names -/

namespace MaMDP.Spec

variable {K δ : Type} [Field K] [LinearOrder K] [IsStrictOrderedRing K]

/-- The agent, called by its other name. -/
def callAgent (ρ : String → String) (a : Agent K δ) : Agent K δ := { a with name := ρ a.name }

/-- The description of the agent, with its other name. -/
def callSpec (ρ : String → String) (sp : AgentSpec K δ) : AgentSpec K δ := { sp with name := ρ sp.name }

/-- The environment, with the other names. -/
def callEnv (ρ : String → String) (e : Env K δ) : Env K δ :=
  { e with agentNames := e.agentNames.map ρ, agents := e.agents.map (callAgent ρ) }

/-- The same call, with the other names. -/
def callOp (ρ : String → String) : EnvOp K δ → EnvOp K δ
  | .fit n o d => .fit (ρ n) o d
  | .step n d => .step (ρ n) d
  | .stepProba n p d => .stepProba (ρ n) p d
  | .stepMulti n s p t r c o => .stepMulti (ρ n) s p t r c o
  | .stepMultiInteractive n m => .stepMultiInteractive (n.map fun l => l.map ρ) m
  | .reset => .reset
  | .setAgentPosition n p => .setAgentPosition (ρ n) p
  | .setAlgorithm n st => .setAlgorithm (ρ n) st
  | .setWalls w => .setWalls w
  | .addWallXY x y => .addWallXY x y
  | .resetWalls => .resetWalls

end MaMDP.Spec
