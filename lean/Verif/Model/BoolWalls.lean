import Verif.Model.Mdp

/-! # Walls given as an array of booleans

The `walls` setter accepts an array of booleans, since `np.isin(walls, [0, 1])` holds for its entries (mdp.py:130), and keeps it
as it is (mdp.py:135). `add_wall_xy` writes into a copy of the same type (mdp.py:402, 415). `reset_walls` multiplies the stored
array by 0 in place (mdp.py:421), which NumPy refuses for booleans: the product is one of integers (`UFuncTypeError`, a
`TypeError`). It raises before anything is written, and before the setter is called. `Model/Mdp.lean` is about arrays of numbers.
Here a flag says that the stored array is one of booleans. -/

namespace MaMDP

variable {K : Type} [Field K] [LinearOrder K] [IsStrictOrderedRing K]

/-- `reset_walls` (mdp.py:419-421). -/
def Mdp.resetWallsOf (bools : Bool) (m : Mdp K) : Mdp K × Py Unit :=
  if bools then (m, .error .typeError) else m.resetWalls

/-- An operation on an MDP whose wall array is one of booleans if the flag is set; `given` says the same of the array passed to the
operation, if it is an assignment of walls. An assignment that raises keeps the stored array. See mdp.py:53-200, 390-422. -/
def Mdp.applyOf (p : Mdp K × Bool) : MdpOp K × Bool → Mdp K × Bool
  | (.setWalls w, given) => match p.1.setWalls w with
    | (m, .error _) => (m, p.2)
    | (m, .ok ()) => (m, given)
  | (.resetWalls, _) => ((p.1.resetWallsOf p.2).1, p.2)
  | (op, _) => (p.1.apply op, p.2)

/-- A history of operations. See mdp.py:53-200, 390-422. -/
def Mdp.runOf (p : Mdp K × Bool) (ops : List (MdpOp K × Bool)) : Mdp K × Bool := ops.foldl Mdp.applyOf p

end MaMDP
