import Verif.Model.MCTSObject

/-! # Model of `Environment.fit` in `/repo/maMDP/environments.py` for an agent that plans by tree search -/

namespace MaMDP

variable {K : Type} [Field K] [LinearOrder K] [IsStrictOrderedRing K] {δ : Type}

/-- What a tree search in an environment depends on besides the environment: the argument `n_moves`, the outcomes of the
random generator, the allowance of rounds, and what a kept cache contains after an exception. See `FitCall` and
environments.py:167-182. -/
structure SearchArgs (K : Type) where
  plan : Option (List (List Nat))
  draws : Nat → Nat → Draw K
  fuel : Nat
  after : QCache K

/-- `Environment.fit` (environments.py:167-182) and `AttachedAgent.fit` (agents.py:156-162) for the agent called `name`,
whose algorithm is the tree search `obj`: the environment and the object left behind, and the outcome; `none` if the search
does not end within the given number of rounds. `selDraws`: the draws of the action selector. -/
def Env.fitSearch (e : Env K δ) (name : String) (obj : MctsObj K) (x : SearchArgs K) (selDraws : Nat → δ) :
    Option (Env K δ × MctsObj K × Py Unit) :=
  match e.lookup name with
  | .error err => some (e, obj, .error err)
  | .ok a => match obj.fit ⟨some (e, a), e.mdp, .of1 a.reward, a.position, x.plan, x.draws, x.fuel, x.after⟩ with
    | none => none
    | some (obj, .error err) => some (e.put e.mdp { a with alg := obj.st }, obj, .error err)
    | some (obj, .ok ()) => match Agent.getPolicy { a with alg := obj.st } selDraws with
      | (a, r) => some (e.put e.mdp a, obj, r)

end MaMDP
