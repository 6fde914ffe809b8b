import Verif.Model.SharedSearch

/-! # Vocabulary for C173 -/

namespace MaMDP.Spec

variable {K δ : Type}

/-- Two agents, possibly of different environments, that stand on the same state, have as many moves per turn, consume the same
features and have the same feature of their own. -/
structure LooksLike (a b : Agent K δ) : Prop where
  position : a.position = b.position
  moves : a.nMoves = b.nMoves
  consumes : a.consumes = b.consumes
  feature : a.featIdx = b.featIdx

/-- The others of agent `a` in `e` and of agent `b` in `last`, one by one, look alike and want the same. -/
def SameOthers (e : Env K δ) (a : Agent K δ) (last : Env K δ) (b : Agent K δ) : Prop :=
  List.Forall₂ (fun c c' => LooksLike c c' ∧ c.reward = c'.reward)
    (e.agents.filter fun c => c.name ≠ a.name) (last.agents.filter fun c => c.name ≠ b.name)

end MaMDP.Spec
