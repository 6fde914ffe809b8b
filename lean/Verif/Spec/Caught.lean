import Verif.Spec.MCTS

/-! # Vocabulary for C174 -/

namespace MaMDP.Spec

variable {K : Type}

/-- Some agent that consumes the primary agent (number 0) stands on the same state. -/
def Seized (A : SimAgents K) (st : Sim K) : Prop :=
  ∃ i, i < A.n ∧ A.consumesAgents i 0 = true ∧ st.nodes i = st.nodes 0

/-- Some agent that consumes the primary agent, and has not been eaten itself, stands on the same state. -/
def SeizedAlive (A : SimAgents K) (st : Sim K) : Prop :=
  ∃ i, i < A.n ∧ A.consumesAgents i 0 = true ∧ st.nodes i = st.nodes 0 ∧ st.active i = true

instance (A : SimAgents K) (st : Sim K) : Decidable (Seized A st) :=
  inferInstanceAs (Decidable (∃ i, i < A.n ∧ A.consumesAgents i 0 = true ∧ st.nodes i = st.nodes 0))

instance (A : SimAgents K) (st : Sim K) : Decidable (SeizedAlive A st) :=
  inferInstanceAs (Decidable (∃ i, i < A.n ∧ A.consumesAgents i 0 = true ∧ st.nodes i = st.nodes 0 ∧ st.active i = true))

end MaMDP.Spec
