import Verif.Model.DynamicProgramming
import Verif.Model.ActionSelection

/-! # Exponentials that can overflow

`Model/DynamicProgramming.lean` and `Model/ActionSelection.lean` compute exactly, so that exponentials are always
numbers. Floats end somewhere: an exponential, or a sum of exponentials, above the largest float is `inf`. Here everything
else is still exact. -/

namespace MaMDP

/-- A float that should be `x`, if floats end at `big`. -/
noncomputable def capped (big x : ℝ) : Ext ℝ := if x ≤ big then .fin x else .pinf

/-- `np.log(np.sum(np.exp(action_values)) + 1e-200)` (dynamic_programming.py:124). All terms of the sum are positive, so
it is `inf` if one of them is; the logarithm of `inf` is `inf`. -/
noncomputable def capBackup (big : ℝ) (nA : Nat) (x : Nat → ℝ) : Ext ℝ :=
  match capped big (npSum nA fun a => Real.exp (x a)) with
  | .fin y => .fin (Real.log (y + 1 / 10 ^ 200))
  | _ => .pinf

/-- `np.isinf`. See dynamic_programming.py:106. -/
def Ext.isInf {K : Type} : Ext K → Bool
  | .pinf => true
  | .ninf => true
  | _ => false

/-- The number, where it is known to be one. See dynamic_programming.py:110-114. -/
def Ext.num : Ext ℝ → ℝ
  | .fin x => x
  | _ => 0

/-- Values, delta and Q values while a sweep is running. See dynamic_programming.py:99-132. -/
structure CapState where
  values : Nat → Ext ℝ
  delta : Ext ℝ
  q : Nat → Nat → ℝ

/-- `delta_update` (dynamic_programming.py:48-67) from a number to one that may be `inf`. -/
noncomputable def capDelta (delta : Ext ℝ) (old : ℝ) (new : Ext ℝ) : Ext ℝ :=
  match delta, new with
  | .fin d, .fin y => .fin (max d |old - y|)
  | _, _ => .pinf

/-- Body of the state loop of `state_value_iterator` (dynamic_programming.py:104-130) with `soft=True`, with the check of
the values (106-108). -/
noncomputable def capStep (big : ℝ) (M : Trans ℝ) (r : Nat → ℝ) (γ : ℝ) (st : CapState) (s : Nat) : Py CapState :=
  if (List.range M.nS).any fun t => (st.values t).isInf then .error .valueError
  else
    let av := actionValue M r γ (fun t => (st.values t).num) s
    let v' := capBackup big M.nA av
    .ok { values := upd1 st.values s v'
          delta := capDelta st.delta (st.values s).num v'
          q := fun s' a => if s' = s then av a else st.q s' a }

/-- `state_value_iterator` (dynamic_programming.py:70-132) called with `delta = 0` and `soft=True`. -/
noncomputable def capSweep (big : ℝ) (M : Trans ℝ) (r : Nat → ℝ) (γ : ℝ) (v : Nat → Ext ℝ) : Py CapState :=
  (List.range M.nS).foldlM (m := Except PyErr) (capStep big M r γ) ⟨v, .fin 0, fun _ _ => 0⟩

/-- `delta_ < tol` (dynamic_programming.py:174). -/
noncomputable def Ext.below (tol : ℝ) : Ext ℝ → Bool
  | .fin d => decide (d < tol)
  | _ => false

/-- The iteration loop of `solve_value_iteration` (dynamic_programming.py:166-175). -/
noncomputable def capLoop (big : ℝ) (M : Trans ℝ) (r : Nat → ℝ) (γ tol : ℝ) :
    Nat → (Nat → Ext ℝ) → Option (Nat → Nat → ℝ) → Py ((Nat → Ext ℝ) × Option (Nat → Nat → ℝ))
  | 0, v, q => .ok (v, q)
  | k + 1, v, _ =>
    match capSweep big M r γ v with
    | .error e => .error e
    | .ok st => if st.delta.below tol then .ok (st.values, some st.q) else capLoop big M r γ tol k st.values (some st.q)

/-- `solve_value_iteration(..., soft=True)` (dynamic_programming.py:134-185). -/
noncomputable def solveSoftCap (big : ℝ) (M : Trans ℝ) (r : Nat → ℝ) (maxIter : Nat) (γ tol : ℝ) :
    Py ((Nat → Ext ℝ) × (Nat → Nat → Ext ℝ)) :=
  if ¬ (γ < 1 ∧ 0 < γ) then .error .assertionError
  else match capLoop big M r γ tol maxIter (fun _ => .fin 0) none with
    | .error e => .error e
    | .ok (_, none) => .error .unboundLocalError
    | .ok (v, some q) => .ok (v, maskQ M q)

/-- `x / y` for what an exponential and a sum of exponentials can be. See action_selection.py:14. -/
noncomputable def capDiv : Ext ℝ → Ext ℝ → Ext ℝ
  | .fin x, .fin y => .fin (x / y)
  | .fin _, .pinf => .fin 0
  | _, _ => .nan

/-- `softmax` (action_selection.py:6-15) of a row of length `n`. -/
noncomputable def softmaxCap (big : ℝ) (n : Nat) (x : Nat → WithBot (WithTop ℝ)) (T : ℝ) : Nat → Ext ℝ :=
  if ∀ a, a < n → x a = ⊥ then fun _ => .fin (1 / (n : ℝ))
  else match npMax n x with
    | some (some m) => fun a =>
        capDiv (capped big (expShift m T (x a))) (capped big (npSum n fun b => expShift m T (x b)))
    | _ => fun _ => .nan

end MaMDP
