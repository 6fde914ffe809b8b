import Verif.Model.IRL

/-! # Features or transitions given as arrays of integers

The `features` and `sas` setters keep the array they are given (mdp.py:77, 98), of whatever type. The compiled solver multiplies
`reward_function.astype(np.float64)` by the features and rows of `sas` by floats with `np.dot` (dynamic_programming.py:44, 164), which
numba compiles only for two arrays of the same type of floats; otherwise the call raises before anything is computed (numba's error is
represented by `TypeError`). The other models are about arrays of floats. Here flags say which stored arrays hold integers.
`add_agent_feature` stacks a row of floats onto the features (mdp.py:154-157), which makes floats of all of them; the other operations on
features write into the array or copy it. Assigning walls brings back a copy of the transitions made by the constructor (mdp.py:132),
which are floats (mdp.py:500, 611). -/

namespace MaMDP

variable {K : Type} [Field K] [LinearOrder K] [IsStrictOrderedRing K]

/-- Which of an MDP's arrays hold integers. See mdp.py:77, 98. -/
structure Whole where
  features : Bool
  sas : Bool

/-- An operation on an MDP; `given` says whether the array passed to it, if any, holds integers. An operation that raises keeps the stored
arrays. See mdp.py:53-200, 390-422. -/
def Mdp.applyWhole (p : Mdp K × Whole) (op : MdpOp K × Bool) : Mdp K × Whole :=
  (p.1.apply op.1, match op.1 with
    | .setFeatures f => match (p.1.setFeatures f).2 with
      | .ok () => { p.2 with features := op.2 }
      | .error _ => p.2
    | .addAgentFeature i => match (p.1.addAgentFeature i).2 with
      | .ok () => { p.2 with features := false }
      | .error _ => p.2
    | .setSas x => match (p.1.setSas x).2 with
      | .ok () => { p.2 with sas := op.2 }
      | .error _ => p.2
    | .setWalls w => match (p.1.setWalls w).2 with
      | .ok () => { p.2 with sas := false }
      | .error _ => p.2
    | .addWallXY x y => match (p.1.addWallXY x y).2 with
      | .ok () => { p.2 with sas := false }
      | .error _ => p.2
    | .resetWalls => match p.1.resetWalls.2 with
      | .ok () => { p.2 with sas := false }
      | .error _ => p.2
    | .updateAgentFeature _ _ => p.2
    | .removeAgentFeatures => p.2
    | .consumeFeatures _ _ => p.2
    | .reset => p.2)

/-- A history of operations. See mdp.py:53-200, 390-422. -/
def Mdp.runWhole (p : Mdp K × Whole) (ops : List (MdpOp K × Bool)) : Mdp K × Whole := ops.foldl Mdp.applyWhole p

/-- `solve_value_iteration` (dynamic_programming.py:134-185) on arrays of these types; `solve` is what it does on floats. -/
def solveOf {α β : Type} (w : Whole) (solve : α → Py β) : α → Py β :=
  if w.features || w.sas then fun _ => .error .typeError else solve

/-- `ValueIteration.fit` (base.py:25-69 with dynamic_programming.py:222-238) on an MDP with arrays of these types. -/
def Mdp.fitVIOf (w : Whole) (m : Mdp K) (maxIter : Nat) (γ tol : K) (reward : PyArr K) (st : AlgState K) : AlgState K × Py Unit :=
  algFit (solveOf w (valueIterationFit m maxIter γ tol)) m.nFeatures m.nStates m.nActions reward st

end MaMDP
