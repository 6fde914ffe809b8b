import Verif.Model.Rounding

/-! # Soft value iteration in inexact arithmetic

`Model/Rounding.lean` is about `soft=False`. With `soft=True` the value of a state is not the largest action value but the
logarithm of a sum of exponentials (`/repo/maMDP/algorithms/dynamic_programming.py:124`), which rounds as well. -/

namespace MaMDP

/-- What rounds in soft value iteration: action values (dynamic_programming.py:12-45), differences (64), and the value of a
state computed from its action values (124). -/
structure SoftArith extends Arith ℝ where
  backup : (Nat → ℝ) → ℝ

/-- Exact arithmetic. See dynamic_programming.py:43, 64, 124. -/
noncomputable def SoftArith.exact (M : Trans ℝ) (r : Nat → ℝ) (γ : ℝ) : SoftArith :=
  { Arith.exact M r γ with backup := softBackup M.nA }

/-- `np.log(np.sum(np.exp(action_values)) + 1e-200)` (dynamic_programming.py:124): `ex` and `lg` are the exponential and
the logarithm of the library, additions and the constant are rounded by `rnd`. -/
noncomputable def roundedBackup (rnd ex lg : ℝ → ℝ) (nA : Nat) (x : Nat → ℝ) : ℝ :=
  lg (rnd ((List.range nA).foldl (fun sum a => rnd (sum + ex (x a))) 0 + rnd (1 / 10 ^ 200)))

/-- Arithmetic in which the result of every elementary operation is rounded by `rnd`, with `ex` and `lg` for exponential
and logarithm. See dynamic_programming.py:43, 64, 124. -/
noncomputable def SoftArith.rounded (rnd ex lg : ℝ → ℝ) (M : Trans ℝ) (r : Nat → ℝ) (γ : ℝ) : SoftArith :=
  { Arith.rounded rnd M r γ with backup := roundedBackup rnd ex lg M.nA }

/-- Body of the state loop of `state_value_iterator` (dynamic_programming.py:104-130) with `soft=True`. -/
noncomputable def SoftArith.step (ar : SoftArith) (st : SweepState ℝ) (s : Nat) : SweepState ℝ :=
  let av := ar.action st.values s
  let v' := ar.backup av
  { values := upd1 st.values s v'
    delta := max st.delta (ar.change (st.values s) v')
    q := fun s' a => if s' = s then av a else st.q s' a }

/-- `state_value_iterator` (dynamic_programming.py:70-132) called with `delta = 0` and `soft=True`. -/
noncomputable def SoftArith.sweep (ar : SoftArith) (M : Trans ℝ) (v : Nat → ℝ) : SweepState ℝ :=
  (List.range M.nS).foldl ar.step ⟨v, 0, fun _ _ => 0⟩

/-- The iteration loop of `solve_value_iteration` (dynamic_programming.py:166-175). -/
noncomputable def SoftArith.loop (ar : SoftArith) (M : Trans ℝ) (tol : ℝ) :
    Nat → (Nat → ℝ) → Option (Nat → Nat → ℝ) → (Nat → ℝ) × Option (Nat → Nat → ℝ)
  | 0, v, q => (v, q)
  | k + 1, v, _ =>
    let st := ar.sweep M v
    if st.delta < tol then (st.values, some st.q) else ar.loop M tol k st.values (some st.q)

/-- `solve_value_iteration(..., soft=True)` (dynamic_programming.py:134-185) in the given arithmetic. A sum of
probabilities is 0 in floats exactly if all of them are. -/
noncomputable def SoftArith.solve (ar : SoftArith) (M : Trans ℝ) (maxIter : Nat) (γ tol : ℝ) :
    Py ((Nat → ℝ) × (Nat → Nat → Ext ℝ)) :=
  if ¬ (γ < 1 ∧ 0 < γ) then .error .assertionError
  else match ar.loop M tol maxIter (fun _ => 0) none with
    | (_, none) => .error .unboundLocalError
    | (v, some q) => .ok (v, maskQ M q)

end MaMDP
