import Verif.Model.Environment

/-! # Vocabulary for agents that do not affect each other -/

namespace MaMDP.Spec

variable {K δ : Type}

/-- A call about some agent other than `name`. -/
def Elsewhere (name : String) : EnvOp K δ → Prop
  | .fit n _ _ => n ≠ name
  | .step n _ => n ≠ name
  | .stepProba n _ _ => n ≠ name
  | .stepMulti n _ _ _ _ _ _ => n ≠ name
  | .setAgentPosition n _ => n ≠ name
  | .setAlgorithm n _ => n ≠ name
  | _ => False

/-- Agent `b` can change the feature row: it is the row of its position, or one it consumes. The MDP has `nF` rows,
the last `nAgents` of which are positions. -/
def Changes (nF nAgents : Nat) (b : Agent K δ) (row : Nat) : Prop :=
  row = nF - nAgents + b.idx ∨ ∃ f ∈ b.consumes, f = row ∨ f = row - (nF : Int)

end MaMDP.Spec
