import Verif.Model.Py
import Mathlib.Analysis.SpecialFunctions.Log.Basic

/-! # Model of `/repo/maMDP/algorithms/dynamic_programming.py`

Exact arithmetic: the `np.isinf(values)` guard (dynamic_programming.py:106-108) can never fire; `Model/Overflow.lean` has
it, with exponentials that overflow. -/

namespace MaMDP

variable {K : Type} [Field K] [LinearOrder K] [IsStrictOrderedRing K]

/-- What value iteration reads of an MDP: sizes and the transition array. See dynamic_programming.py:135-181. -/
structure Trans (K : Type) where
  nS : Nat
  nA : Nat
  p : Nat → Nat → Nat → K

/-- `np.dot(reward_function, features)` (dynamic_programming.py:164): reward of each state. -/
def stateReward (nF : Nat) (w : Nat → K) (features : Nat → Nat → K) : Nat → K :=
  fun s => npDot nF w fun f => features f s

/-- `get_state_action_values` (dynamic_programming.py:12-45), entry `a`. -/
def actionValue (M : Trans K) (r : Nat → K) (γ : K) (v : Nat → K) (s a : Nat) : K :=
  npDot M.nS (M.p s a) fun t => r t + γ * v t

/-- `action_values.max()` (dynamic_programming.py:119). -/
def hardBackup (nA : Nat) (x : Nat → K) : K := npMax nA x

/-- `np.log(np.sum(np.exp(action_values)) + 1e-200)` (dynamic_programming.py:124). -/
noncomputable def softBackup (nA : Nat) (x : Nat → ℝ) : ℝ :=
  Real.log (npSum nA (fun a => Real.exp (x a)) + 1 / 10 ^ 200)

/-- Values, delta and Q values while a sweep is running. See dynamic_programming.py:99-132. -/
structure SweepState (K : Type) where
  values : Nat → K
  delta : K
  q : Nat → Nat → K

/-- Body of the state loop of `state_value_iterator` (dynamic_programming.py:104-130), with
`delta_update` (48-67). Values are updated in place. -/
def sweepStep (backup : (Nat → K) → K) (M : Trans K) (r : Nat → K) (γ : K) (st : SweepState K)
    (s : Nat) : SweepState K :=
  let av := actionValue M r γ st.values s
  let v' := backup av
  { values := upd1 st.values s v'
    delta := max st.delta |st.values s - v'|
    q := fun s' a => if s' = s then av a else st.q s' a }

/-- `state_value_iterator` (dynamic_programming.py:70-132) called with `delta = 0`. -/
def sweep (backup : (Nat → K) → K) (M : Trans K) (r : Nat → K) (γ : K) (v : Nat → K) :
    SweepState K :=
  (List.range M.nS).foldl (sweepStep backup M r γ) ⟨v, 0, fun _ _ => 0⟩

/-- The iteration loop of `solve_value_iteration` (dynamic_programming.py:166-175): at most `k` more
sweeps, stopping when `delta < tol`. The Q values are unbound before the first sweep. -/
def viLoop (backup : (Nat → K) → K) (M : Trans K) (r : Nat → K) (γ tol : K) :
    Nat → (Nat → K) → Option (Nat → Nat → K) → (Nat → K) × Option (Nat → Nat → K)
  | 0, v, q => (v, q)
  | k + 1, v, _ =>
    let st := sweep backup M r γ v
    if st.delta < tol then (st.values, some st.q) else viLoop backup M r γ tol k st.values (some st.q)

/-- Masking of transitions without successor (dynamic_programming.py:177-183). -/
def maskQ (M : Trans K) (q : Nat → Nat → K) : Nat → Nat → Ext K :=
  fun s a => if npSum M.nS (M.p s a) = 0 then .ninf else .fin (q s a)

/-- `solve_value_iteration` (dynamic_programming.py:134-185) with the given backup; with
`max_iter = 0` the Q values are unbound. -/
def solveVI (backup : (Nat → K) → K) (M : Trans K) (r : Nat → K) (maxIter : Nat) (γ tol : K) :
    Py ((Nat → K) × (Nat → Nat → Ext K)) :=
  if ¬ (γ < 1 ∧ 0 < γ) then .error .assertionError
  else match viLoop backup M r γ tol maxIter (fun _ => 0) none with
    | (_, none) => .error .unboundLocalError
    | (v, some q) => .ok (v, maskQ M q)

/-- `solve_value_iteration(..., soft=False)`; `max()` of an empty action list raises
`ValueError`. See dynamic_programming.py:135-181. -/
def solveHard (M : Trans K) (r : Nat → K) (maxIter : Nat) (γ tol : K) :
    Py ((Nat → K) × (Nat → Nat → Ext K)) :=
  if (γ < 1 ∧ 0 < γ) ∧ M.nA = 0 ∧ 0 < M.nS ∧ 0 < maxIter then .error .valueError
  else solveVI (hardBackup M.nA) M r maxIter γ tol

/-- `solve_value_iteration(..., soft=True)`. See dynamic_programming.py:135-181. -/
noncomputable def solveSoft (M : Trans ℝ) (r : Nat → ℝ) (maxIter : Nat) (γ tol : ℝ) :
    Py ((Nat → ℝ) × (Nat → Nat → Ext ℝ)) :=
  solveVI (softBackup M.nA) M r maxIter γ tol

end MaMDP
