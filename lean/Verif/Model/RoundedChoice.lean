import Verif.Model.ActionSelection

/-! # Softmax choices in inexact arithmetic

`Model/ActionSelection.lean` computes exactly. In `/repo/maMDP/algorithms/action_selection.py` and
`/repo/maMDP/algorithms/mcts.py` the same operations are carried out on floats, each of which may round. Here the
operations are the same, but every result is rounded. Overflow does not occur: all exponentials are at most 1. -/

namespace MaMDP

/-- The operations on floats: `rnd` gives the float a result is rounded to, `expo` is `np.exp`, `total` the sum NumPy
computes in `rng.choice` to check probabilities, and `tol` the deviation from 1 it accepts. See action_selection.py:14, 289. -/
structure FloatOps where
  rnd : ℝ → ℝ
  expo : ℝ → ℝ
  total : Nat → (Nat → ℝ) → ℝ
  tol : ℝ

namespace FloatOps

variable (fl : FloatOps)

/-- `np.sum(x)` and `x.sum()`, adding from left to right; also the last entry of `np.cumsum(x[:n])`. NumPy adds up arrays of
eight and more numbers in another order. See action_selection.py:14, 286; mcts.py:22-23. -/
noncomputable def sum (n : Nat) (x : Nat → ℝ) : ℝ := (List.range n).foldl (fun s a => fl.rnd (s + x a)) 0

/-- `np.exp((q - m) / temperature)` (action_selection.py:14); `exp(-inf) = 0`. -/
noncomputable def expShift (m T : ℝ) : WithBot (WithTop ℝ) → ℝ
  | some (some x) => fl.expo (fl.rnd (fl.rnd (x - m) / T))
  | _ => 0

/-- `softmax` (action_selection.py:6-15) of a row of length `n`. -/
noncomputable def softmax (n : Nat) (x : Nat → WithBot (WithTop ℝ)) (T : ℝ) : Nat → Ext ℝ :=
  if ∀ a, a < n → x a = ⊥ then fun _ => .fin (fl.rnd (1 / (n : ℝ)))
  else match npMax n x with
    | some (some m) => fun a =>
        .fin (fl.rnd (fl.expShift m T (x a) / fl.sum n fun b => fl.expShift m T (x b)))
    | _ => fun _ => .nan

/-- `rng.choice(range(n), p=p)` in NumPy: negative probabilities, or a sum too far from 1, raise `ValueError`; otherwise the
cumulative sums, divided by the last of them, are searched for the uniform draw `u`. See action_selection.py:289. -/
noncomputable def choice (n : Nat) (p : Nat → ℝ) (u : ℝ) : Py Nat :=
  if ∃ a, a < n ∧ p a < 0 then .error .valueError
  else if fl.tol < |fl.rnd (fl.total n p - 1)| then .error .valueError
  else .ok (searchRight n (fun i => fl.rnd (fl.sum (i + 1) p / fl.sum n p)) u)

/-- One iteration of the loop of `SoftmaxActionSelector._get_pi` (action_selection.py:280-293). -/
noncomputable def softmaxChoice (n : Nat) (p : Nat → Ext ℝ) (u : ℝ) : Py Nat :=
  match finRow n p with
  | none => .error .valueError
  | some f =>
    let ps := if ∀ a, a < n → f a = 0 then fun _ => fl.rnd (1 / (n : ℝ)) else fun a => fl.rnd (f a / fl.sum n f)
    fl.choice n ps u

/-- `SoftmaxActionSelector` (action_selection.py:223-295) with temperature `T`. -/
noncomputable def selector (T : ℝ) : Selector ℝ ℝ where
  getPiP _ m q := .ok fun s => fl.softmax m (q s) T
  getPi n m q draws := forStates n (fun s => fl.softmaxChoice m (fl.softmax m (q s) T) (draws s)) 0

/-- `rand_choice_nb` (mcts.py:14-23) with `arr = range(n)`: index `n` is outside the array. -/
noncomputable def randChoiceNb (n : Nat) (p : Nat → ℝ) (u : ℝ) : Py Nat :=
  let i := searchRight n (fun i => fl.sum (i + 1) fun a => fl.rnd (p a / fl.sum n p)) u
  if i < n then .ok i else .error .indexError

end FloatOps

end MaMDP
