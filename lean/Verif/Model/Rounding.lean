import Verif.Model.DynamicProgramming

/-! # Value iteration in inexact arithmetic

`Model/DynamicProgramming.lean` computes exactly. In `/repo/maMDP/algorithms/dynamic_programming.py` the same operations
are carried out on floats, each of which may round. Here the loop is the same, but action values and differences are
whatever `Arith` says; choosing the largest of several numbers does not round. -/

namespace MaMDP

variable {K : Type} [Field K] [LinearOrder K] [IsStrictOrderedRing K]

/-- The two computations of value iteration that round: `action values s a` is what `get_state_action_values` gives for
action `a` of state `s` (dynamic_programming.py:12-45), `change old new` is `np.abs(old_v - new_v)` (64). -/
structure Arith (K : Type) where
  action : (Nat → K) → Nat → Nat → K
  change : K → K → K

/-- Exact arithmetic. See dynamic_programming.py:43, 64. -/
def Arith.exact (M : Trans K) (r : Nat → K) (γ : K) : Arith K := ⟨actionValue M r γ, fun x y => |x - y|⟩

/-- Arithmetic in which the result of every elementary operation is rounded by `rnd`: `discount*values`, adding the
reward, multiplying with the probability, adding up state by state (dynamic_programming.py:43), and the difference (64). -/
def Arith.rounded (rnd : K → K) (M : Trans K) (r : Nat → K) (γ : K) : Arith K where
  action v s a := (List.range M.nS).foldl
    (fun sum t => rnd (sum + rnd (M.p s a t * rnd (r t + rnd (γ * v t))))) 0
  change x y := |rnd (x - y)|

/-- Body of the state loop of `state_value_iterator` (dynamic_programming.py:104-130). -/
def Arith.step (ar : Arith K) (nA : Nat) (st : SweepState K) (s : Nat) : SweepState K :=
  let av := ar.action st.values s
  let v' := npMax nA av
  { values := upd1 st.values s v'
    delta := max st.delta (ar.change (st.values s) v')
    q := fun s' a => if s' = s then av a else st.q s' a }

/-- `state_value_iterator` (dynamic_programming.py:70-132) called with `delta = 0`. -/
def Arith.sweep (ar : Arith K) (M : Trans K) (v : Nat → K) : SweepState K :=
  (List.range M.nS).foldl (ar.step M.nA) ⟨v, 0, fun _ _ => 0⟩

/-- The iteration loop of `solve_value_iteration` (dynamic_programming.py:166-175). -/
def Arith.loop (ar : Arith K) (M : Trans K) (tol : K) :
    Nat → (Nat → K) → Option (Nat → Nat → K) → (Nat → K) × Option (Nat → Nat → K)
  | 0, v, q => (v, q)
  | k + 1, v, _ =>
    let st := ar.sweep M v
    if st.delta < tol then (st.values, some st.q) else ar.loop M tol k st.values (some st.q)

/-- `solve_value_iteration(..., soft=False)` (dynamic_programming.py:134-185) in the given arithmetic. A sum of
probabilities is 0 in floats exactly if all of them are. -/
def Arith.solve (ar : Arith K) (M : Trans K) (maxIter : Nat) (γ tol : K) : Py ((Nat → K) × (Nat → Nat → Ext K)) :=
  if (γ < 1 ∧ 0 < γ) ∧ M.nA = 0 ∧ 0 < M.nS ∧ 0 < maxIter then .error .valueError
  else if ¬ (γ < 1 ∧ 0 < γ) then .error .assertionError
  else match ar.loop M tol maxIter (fun _ => 0) none with
    | (_, none) => .error .unboundLocalError
    | (v, some q) => .ok (v, maskQ M q)

end MaMDP
