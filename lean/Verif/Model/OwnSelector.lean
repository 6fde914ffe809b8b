import Verif.Model.ActionSelection
import Verif.Model.Algorithm

/-! # Model of `ActionSelector` (`/repo/maMDP/algorithms/action_selection.py`) with a subclass of the user's own

`_get_pi` and `_get_pi_p` are any functions. What they return need not be an array, and may be an array the selector
keeps as an attribute, which is then written to. -/

namespace MaMDP

variable {K α : Type} [Field K] [LinearOrder K] [IsStrictOrderedRing K]

/-- `check_q_values` (action_selection.py:17-23) on any Python value. -/
def checkQArray (q : PyArr (Ext K)) : Py (Arr2 (Ext K)) :=
  match q with
  | .notArray => .error .typeError
  | .nd [n, m] get =>
    if ∀ s, s < n → ∀ a, a < m → get [s, a] = .nan then .error .valueError else .ok ⟨n, m, fun s a => get [s, a]⟩
  | .nd _ _ => .error .attributeError

/-- `ActionSelector.get_nstates_actions` (action_selection.py:134-153). -/
def nStatesActions (q : PyArr (Ext K)) : Py (Nat × Nat) :=
  match q with
  | .notArray => .error .typeError
  | .nd [n, m] _ => .ok (n, m)
  | .nd _ _ => .error .attributeError

/-- What `_get_pi` or `_get_pi_p` of the user's class returns: a value that cannot be assigned to with an array of
booleans as index (`None`, a number, a list, a tuple, a string, a dictionary); an object that can but is not an array;
the array the selector keeps; or a new array. See action_selection.py:120-132. -/
inductive Reply (α : Type)
  | plain
  | container
  | kept
  | new (shape : List Nat) (get : List Nat → α)

/-- Entries in the rows marked by `mask` become `v`. See action_selection.py:74, 111. -/
def markRows (mask : Nat → Bool) (v : α) (get : List Nat → α) : List Nat → α :=
  fun i => if mask (i.getD 0 0) then v else get i

/-- `x[mask] = v` (action_selection.py:74, with `rank = 1`) or `x[mask, :] = v` (action_selection.py:111, with
`rank = 2`) for a mask of length `n`: the array needs at least `rank` axes and `n` rows. -/
def writeMask (rank n : Nat) (mask : Nat → Bool) (v : α) : PyArr α → Py (PyArr α)
  | .notArray => .error .typeError
  | .nd shape get =>
    if shape.length < rank then .error .indexError
    else if shape.getD 0 0 ≠ n then .error .indexError
    else .ok (.nd shape (markRows mask v get))

/-- The assertions on the shape (action_selection.py:78-80, 115-117). -/
def assertShape (shape : List Nat) (x : PyArr α) : Py (PyArr α) :=
  match x with
  | .notArray => .error .assertionError
  | .nd shape' get => if shape' = shape then .ok (.nd shape' get) else .error .assertionError

/-- The part of `get_pi` and `get_pi_p` after the subclass has replied (action_selection.py:73-82, 110-118). First
component: the array the selector keeps, afterwards. -/
def afterReply (rank : Nat) (shape : List Nat) (mask : Nat → Bool) (v : α) (kept : PyArr α) :
    Py (Reply α) → PyArr α × Py (PyArr α)
  | .error e => (kept, .error e)
  | .ok .plain => (kept, .error .typeError)
  | .ok .container => (kept, .error .assertionError)
  | .ok (.new s get) =>
    match writeMask rank (shape.getD 0 0) mask v (.nd s get) with
    | .error e => (kept, .error e)
    | .ok x => (kept, assertShape shape x)
  | .ok .kept =>
    match writeMask rank (shape.getD 0 0) mask v kept with
    | .error e => (kept, .error e)
    | .ok x => (x, assertShape shape x)

/-- `ActionSelector.get_pi` (action_selection.py:48-82) of a subclass whose `_get_pi` is `reply`. The selector keeps
the array `kept`. -/
def ownPi (reply : PyArr Int → (n m : Nat) → (Nat → Nat → WithBot (WithTop K)) → Py (Reply Int))
    (kept : PyArr Int) (q : PyArr (Ext K)) : PyArr Int × Py (PyArr Int) :=
  match checkQArray q with
  | .error e => (kept, .error e)
  | .ok q => afterReply 1 [q.d0] (nanState q) (-1) kept
      (reply kept q.d0 q.d1 fun s a => (q.get s a).clean)

/-- `ActionSelector.get_pi_p` (action_selection.py:85-118) of a subclass whose `_get_pi_p` is `reply`. -/
def ownPiP (reply : PyArr (Ext K) → (n m : Nat) → (Nat → Nat → WithBot (WithTop K)) → Py (Reply (Ext K)))
    (kept : PyArr (Ext K)) (q : PyArr (Ext K)) : PyArr (Ext K) × Py (PyArr (Ext K)) :=
  match checkQArray q with
  | .error e => (kept, .error e)
  | .ok q => afterReply 2 [q.d0, q.d1] (nanState q) .nan kept
      (reply kept q.d0 q.d1 fun s a => (q.get s a).clean)

end MaMDP
