import Verif.Spec.Environment

/-! # Playing an episode again -/

namespace MaMDP.Spec

variable {K δ : Type} [Field K] [LinearOrder K] [IsStrictOrderedRing K]

/-- What a call hands to its caller: a returned value or an exception. -/
inductive EnvAnswer (K : Type)
  | done (r : Py Unit)
  | moved (r : Py Int)
  | spread (r : Py (Arr1 (Ext K)))
  | walked (r : Py (Option (List Int)))

/-- What the call returns or raises in environment `e`. -/
def answer (e : Env K δ) : EnvOp K δ → EnvAnswer K
  | .fit n o d => .done (e.fit n o d).2
  | .step n d => .moved (e.step n d).2
  | .stepProba n p d => .spread (e.stepProba n p d).2
  | .stepMulti n s p t r c o => .walked (e.stepMulti n s p t r c o).2
  | .stepMultiInteractive n m => .done (e.stepMultiInteractive n m).2
  | .reset => .done e.reset.2
  | .setAgentPosition n p => .done (e.setAgentPosition n p).2
  | .setAlgorithm n st => .done (e.setAlgorithm n st).2
  | .setWalls w => .done (e.setWalls w).2
  | .addWallXY x y => .done (e.addWallXY x y).2
  | .resetWalls => .done e.resetWalls.2

/-- The calls leave the walls alone. -/
def KeepsWalls : EnvOp K δ → Prop
  | .setWalls .. => False
  | .addWallXY .. => False
  | .resetWalls => False
  | _ => True

/-- The call goes by the plan that agent `n` has when it is made. -/
def UsesPlan (n : String) : EnvOp K δ → Prop
  | .step n' _ => n' = n
  | .stepProba n' _ _ => n' = n
  | .stepMulti n' _ _ _ refit _ _ => n' = n ∧ refit = false
  | _ => False

/-- In the calls `l`, made on `e`, agent `n` has been planned for by a `fit` that did not raise. -/
def Planned (e : Env K δ) (n : String) (l : List (EnvOp K δ)) : Prop :=
  ∃ l1 o d l2, l = l1 ++ .fit n o d :: l2 ∧ ((e.run l1).fit n o d).2 = .ok ()

/-- In the calls `l`, made on `e`, no agent goes by a plan before it has been planned for. -/
def PlansFirst (e : Env K δ) (l : List (EnvOp K δ)) : Prop :=
  ∀ n l1 op l2, l = l1 ++ op :: l2 → UsesPlan n op → Planned e n l1

end MaMDP.Spec
