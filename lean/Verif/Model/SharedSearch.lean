import Verif.Model.SearchAgent

/-! # A tree search that belongs to an agent of several environments

`Agent._attach` hands the agent's one algorithm object to every environment the agent is added to
(`/repo/maMDP/agents.py`, lines 58-61), and each time the object's references to an agent and an environment are
overwritten (agents.py:104-112, base.py:20-23). `MCTS.create_agent_info` reads where the agent stands and who else is there
from these references (mcts.py:906-931); everything else a fit uses is given by the environment that is asked
(agents.py:156-159). -/

namespace MaMDP

variable {K : Type} [Field K] [LinearOrder K] [IsStrictOrderedRing K] {δ : Type}

/-- `Environment.fit` (environments.py:167-182) and `AttachedAgent.fit` (agents.py:156-162) in environment `e` for the agent
called `name`, whose algorithm is the tree search `obj`, if the last environment the agent was added to is `last`, where it is
`b`. As `Env.fitSearch`, which is the case of an agent added to no other environment since. -/
def Env.fitShared (e last : Env K δ) (b : Agent K δ) (name : String) (obj : MctsObj K) (x : SearchArgs K)
    (selDraws : Nat → δ) : Option (Env K δ × MctsObj K × Py Unit) :=
  match e.lookup name with
  | .error err => some (e, obj, .error err)
  | .ok a => match obj.fit ⟨some (last, b), e.mdp, .of1 a.reward, a.position, x.plan, x.draws, x.fuel, x.after⟩ with
    | none => none
    | some (obj, .error err) => some (e.put e.mdp { a with alg := obj.st }, obj, .error err)
    | some (obj, .ok ()) => match Agent.getPolicy { a with alg := obj.st } selDraws with
      | (a, r) => some (e.put e.mdp a, obj, r)

end MaMDP
