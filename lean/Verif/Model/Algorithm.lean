import Verif.Model.DynamicProgramming
import Verif.Model.Mdp

/-! # Model of `/repo/maMDP/algorithms/base.py` and the `ValueIteration` class -/

namespace MaMDP

/-- A Python value where an array is expected: something else, or an array given by its shape and
entries. See base.py:41-64. -/
inductive PyArr (α : Type)
  | notArray
  | nd (shape : List Nat) (get : List Nat → α)

/-- A rank-1 array as a Python value. See base.py:41-64. -/
def PyArr.of1 {α : Type} (x : Arr1 α) : PyArr α := .nd [x.d0] fun i => x.get (i.getD 0 0)

/-- A rank-2 array as a Python value. See base.py:54-64. -/
def PyArr.of2 {α : Type} (x : Arr2 α) : PyArr α := .nd [x.d0, x.d1] fun i => x.get (i.getD 0 0) (i.getD 1 0)

/-- What an algorithm object stores (base.py:10-16). -/
structure AlgState (K : Type) where
  fitComplete : Bool
  values : Option (Arr1 (Ext K))
  qValues : Option (Arr2 (Ext K))

/-- `Algorithm.__init__` (base.py:10-18) and `Algorithm.reset` (base.py:80-88). -/
def AlgState.fresh {K : Type} : AlgState K := ⟨false, none, none⟩

variable {K : Type}

/-- The input checks of `Algorithm.fit` (base.py:41-48) on the reward function. -/
def checkReward (nFeatures : Nat) (reward : PyArr K) : Py (Arr1 K) :=
  match reward with
  | .notArray => .error .typeError
  | .nd [n] get => if n = nFeatures then .ok ⟨n, fun i => get [i]⟩ else .error .attributeError
  | .nd _ _ => .error .attributeError

/-- The output checks of `Algorithm.fit` (base.py:54-64). -/
def checkOutput (nStates nActions : Nat) (values q : PyArr (Ext K)) :
    Py (Arr1 (Ext K) × Arr2 (Ext K)) :=
  match values with
  | .nd [n] vget =>
    if n ≠ nStates then .error .assertionError
    else match q with
      | .nd [a, b] qget =>
        if a ≠ nStates then .error .assertionError
        else if b ≠ nActions then .error .assertionError
        else .ok (⟨n, fun i => vget [i]⟩, ⟨a, b, fun i j => qget [i, j]⟩)
      | _ => .error .assertionError
  | _ => .error .assertionError

/-- `Algorithm.fit` (base.py:25-69); `fit` is the subclass's `_fit`, a function of the checked reward
array. The result is the algorithm object left behind and whether an exception was raised. -/
def algFit (fit : Arr1 K → Py (PyArr (Ext K) × PyArr (Ext K))) (nFeatures nStates nActions : Nat)
    (reward : PyArr K) (st : AlgState K) : AlgState K × Py Unit :=
  match checkReward nFeatures reward with
  | .error e => (st, .error e)
  | .ok w => match fit w with
    | .error e => (st, .error e)
    | .ok (v, q) => match checkOutput nStates nActions v q with
      | .error e => (st, .error e)
      | .ok (v, q) => (⟨true, some v, some q⟩, .ok ())

/-- `Null._fit` (base.py:102-107). -/
def nullFit [One K] (nStates nActions : Nat) (_ : Arr1 K) : Py (PyArr (Ext K) × PyArr (Ext K)) :=
  .ok (.of1 ⟨nStates, fun _ => .fin 1⟩, .of2 ⟨nStates, nActions, fun _ _ => .fin 1⟩)

variable [Field K] [LinearOrder K] [IsStrictOrderedRing K]

/-- The transition array of an MDP object as read by value iteration (`mdp.sas`). See dynamic_programming.py:235. -/
def Mdp.trans (m : Mdp K) : Trans K := ⟨m.nStates, m.nActions, m.sas⟩

/-- `ValueIteration._fit` (dynamic_programming.py:222-238). -/
def valueIterationFit (m : Mdp K) (maxIter : Nat) (γ tol : K) (w : Arr1 K) :
    Py (PyArr (Ext K) × PyArr (Ext K)) :=
  match solveHard m.trans (stateReward w.d0 w.get m.features.get) maxIter γ tol with
  | .error e => .error e
  | .ok (v, q) => .ok (.of1 ⟨m.nStates, fun s => .fin (v s)⟩, .of2 ⟨m.nStates, m.nActions, q⟩)

/-- `ValueIteration.fit` as called on an MDP object. See base.py:25-69. -/
def Mdp.fitVI (m : Mdp K) (maxIter : Nat) (γ tol : K) (reward : PyArr K) (st : AlgState K) :
    AlgState K × Py Unit :=
  algFit (valueIterationFit m maxIter γ tol) m.nFeatures m.nStates m.nActions reward st

end MaMDP
