import Verif.Model.Environment

/-! # Two agents moving one after the other (C140) -/

namespace MaMDP.Spec

variable {K : Type} [Field K] [LinearOrder K] [IsStrictOrderedRing K] {δ : Type}

/-- Agent `a` consumes feature row `row` of `nF` rows, counted from either end. -/
def Feeds (nF : Nat) (a : Agent K δ) (row : Nat) : Prop := ∃ f ∈ a.consumes, f = row ∨ f = (row : Int) - nF

/-- Neither agent consumes the other. The agents have the last rows of the features, in order. -/
def Peaceful (e : Env K δ) (a b : Agent K δ) : Prop :=
  ¬ Feeds e.mdp.features.d0 a (e.mdp.features.d0 - e.mdp.nAgents + b.idx) ∧
    ¬ Feeds e.mdp.features.d0 b (e.mdp.features.d0 - e.mdp.nAgents + a.idx)

/-- The two agents, landing on `p` and `q`, both reach for the same food. -/
def Contested (e : Env K δ) (a b : Agent K δ) (p q : Int) : Prop :=
  p = q ∧ ∃ row, row < e.mdp.features.d0 ∧ Feeds e.mdp.features.d0 a row ∧ Feeds e.mdp.features.d0 b row ∧
    0 < e.mdp.features.get row p.toNat

/-- The agent, forgetting how much it has consumed. -/
def bodyOf (a : Agent K δ) : Agent K δ := { a with consumed := fun _ => 0 }

end MaMDP.Spec
