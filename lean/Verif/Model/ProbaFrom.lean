import Verif.Model.Environment

/-! # The documented forms of the `position` argument of `Environment.step_proba`

The signature and the documentation of `Environment.step_proba` (environments.py:208-218) announce a state number, the
method of the agent that it calls (agents.py:181-202) takes an array of probabilities. -/

namespace MaMDP

variable {K : Type} [Field K] [LinearOrder K] [IsStrictOrderedRing K] {δ : Type}

/-- What is given as `position`: nothing, an array, or a state number. See environments.py:208-218. -/
inductive ProbaArg (K : Type)
  | default
  | dist (p : Arr1 K)
  | state (s : Int)

/-- `Environment.step_proba` (environments.py:208-228) for each of them. After the check of the name a number goes to
`len(position)` (agents.py:199), which raises `TypeError`. -/
def Env.stepProbaArg (e : Env K δ) (name : String) (position : ProbaArg K) (draws : Nat → δ) :
    Env K δ × Py (Arr1 (Ext K)) :=
  match position with
  | .default => e.stepProba name none draws
  | .dist p => e.stepProba name (some p) draws
  | .state _ => match e.lookup name with
    | .error err => (e, .error err)
    | .ok _ => (e, .error .typeError)

end MaMDP
