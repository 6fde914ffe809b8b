import Verif.Model.Py
import Mathlib.Data.Rat.Defs
import Mathlib.Algebra.Order.Ring.Rat

/-! # Model of `/repo/maMDP/grid_utils.py` -/

namespace MaMDP

/-- `grid_coords` (grid_utils.py:6-27) on a `W × H` grid whose NaN cells are given by `isNan`:
`np.where(~np.isnan(grid))` lists the remaining cells in row-major order, IDs are `0 .. len-1`.
Not modelled: the isinstance / ndim checks (lines 18-22). -/
def gridCoords (W H : Nat) (isNan : Nat → Nat → Bool) : List Nat × List (Nat × Nat) :=
  let gridIdx := (List.range W).flatMap fun x =>
    ((List.range H).filter fun y => !isNan x y).map fun y => (x, y)
  (List.range gridIdx.length, gridIdx)

/-- `offset_to_cube` (grid_utils.py:88-105). `np.bitwise_and(col, 1)` is `col mod 2` (two's
complement); the true division is exact, modelled in `Rat`. Returns `[x, y, z]`. -/
def offsetToCube (col row : Int) : List Rat :=
  let x : Rat := col
  let z : Rat := row - ((col : Rat) + ((col % 2 : Int) : Rat)) / 2
  let y : Rat := -x - z
  [x, y, z]

/-- `cube_distance` (grid_utils.py:50-65). The assertion reads `len(a) == 3 & len(b) == 3`, which
Python parses as the chain `len(a) == (3 & len(b)) and (3 & len(b)) == 3`. -/
def cubeDistance (a b : List Rat) : Py Rat :=
  if a.length = (3 &&& b.length) ∧ (3 &&& b.length) = 3 then
    match a, b with
    | a0 :: a1 :: a2 :: _, b0 :: b1 :: b2 :: _ =>
        .ok ((|a0 - b0| + |a1 - b1| + |a2 - b2|) / 2)
    | _, _ => .error .indexError
  else .error .assertionError

/-- `offset_distance` (grid_utils.py:29-48). -/
def offsetDistance (x1 y1 x2 y2 : Int) : Py Rat :=
  cubeDistance (offsetToCube x1 y1) (offsetToCube x2 y2)

/-- `hex_adjacency` (grid_utils.py:196-210, using `hex_dist`, 67-86): entry `(i, j)` of
`hex_dist(grid_idx, grid_idx) == 1`. The 0/1 integer is modelled as a `Bool`. -/
def hexAdjacency (coords : List (Nat × Nat)) (i j : Nat) : Bool :=
  match coords[i]?, coords[j]? with
  | some p, some q => decide (offsetDistance p.1 p.2 q.1 q.2 = .ok 1)
  | _, _ => false

/-- `square_adjacency` (grid_utils.py:212-222): `cdist(..) == 1`. The Euclidean distance
`sqrt(dx²+dy²)` of integer points equals 1 iff `dx²+dy² = 1`; the square root is not modelled. -/
def squareAdjacency (coords : List (Nat × Nat)) (i j : Nat) : Bool :=
  match coords[i]?, coords[j]? with
  | some p, some q =>
      decide (((p.1 : Int) - q.1) ^ 2 + ((p.2 : Int) - q.2) ^ 2 = 1)
  | _, _ => false

/-- The branch structure of `get_action_from_states_hex` (grid_utils.py:130-157), after
`dx, dy` have been computed. Falling through every branch leaves `action` unbound. -/
def hexActionOf (x1 dx dy : Int) : Py Nat :=
  if dx = 0 then
    if dy < 0 then .ok 3
    else if dy > 0 then .ok 0
    else .error .unboundLocalError
  else if x1 % 2 ≠ 0 then
    if dx > 0 ∧ dy = 0 then .ok 1
    else if dx < 0 ∧ dy = 0 then .ok 5
    else if dx > 0 ∧ dy < 0 then .ok 2
    else if dx < 0 ∧ dy < 0 then .ok 4
    else .error .unboundLocalError
  else
    if dx > 0 ∧ dy > 0 then .ok 1
    else if dx < 0 ∧ dy > 0 then .ok 5
    else if dx > 0 ∧ dy = 0 then .ok 2
    else if dx < 0 ∧ dy = 0 then .ok 4
    else .error .unboundLocalError

/-- `get_action_from_states_hex` (grid_utils.py:108-157). -/
def getActionHex (A B : Nat) (T : Nat → Nat → Bool) (coords : List (Nat × Nat)) : Py Nat :=
  match coords[A]?, coords[B]? with
  | some p, some q =>
      if !T A B then .error .valueError
      else hexActionOf p.1 ((q.1 : Int) - p.1) ((q.2 : Int) - p.2)
  | _, _ => .error .indexError

/-- The branch structure of `get_action_from_states_square` (grid_utils.py:182-194). -/
def squareActionOf (dx dy : Int) : Py Nat :=
  if dx = 0 then
    if dy < 0 then .ok 2
    else if dy > 0 then .ok 0
    else .error .unboundLocalError
  else if dx > 0 then .ok 1
  else if dx < 0 then .ok 3
  else .error .unboundLocalError

/-- `get_action_from_states_square` (grid_utils.py:159-194). -/
def getActionSquare (A B : Nat) (T : Nat → Nat → Bool) (coords : List (Nat × Nat)) : Py Nat :=
  match coords[A]?, coords[B]? with
  | some p, some q =>
      if !T A B then .error .valueError
      else squareActionOf ((q.1 : Int) - p.1) ((q.2 : Int) - p.2)
  | _, _ => .error .indexError

/-- Which of the two grid classes (mdp.py:473 and mdp.py:584). -/
inductive GridKind | square | hex
  deriving DecidableEq, Repr

/-- `n_actions` before self transitions (mdp.py:490, 601). -/
def GridKind.nMoves : GridKind → Nat
  | .square => 4
  | .hex => 6

/-- The adjacency matrix used by `_get_sas` (mdp.py:496, 607). -/
def GridKind.adjacency : GridKind → List (Nat × Nat) → Nat → Nat → Bool
  | .square => squareAdjacency
  | .hex => hexAdjacency

/-- The action lookup used by `_get_sas` (mdp.py:505, 616). -/
def GridKind.getAction : GridKind → Nat → Nat → (Nat → Nat → Bool) → List (Nat × Nat) → Py Nat
  | .square => getActionSquare
  | .hex => getActionHex

/-- The double loop shared by both `_get_sas` methods (mdp.py:500-510, 611-621). -/
def sasLoop {K : Type _} [Zero K] [One K] (n nActions : Nat) (selfTransitions : Bool)
    (adj : Nat → Nat → Bool) (act : Nat → Nat → Py Nat) : Py (Nat → Nat → Nat → K) :=
  (List.range n).foldlM (fun sas i => do
    let sas ← (List.range n).foldlM (fun sas j =>
      if adj i j then do
        let a ← act i j
        pure (upd3 sas i a j 1)
      else pure sas) sas
    pure (if selfTransitions then upd3 sas i (nActions - 1) i 1 else sas)) (fun _ _ _ => 0)

/-- `SquareGridMDP._get_sas` / `HexGridMDP._get_sas` (mdp.py:488-510, 599-621). -/
def getSas {K : Type _} [Zero K] [One K] (kind : GridKind) (W H : Nat) (selfTransitions : Bool) :
    Py (Arr3 K) := do
  let nActions := kind.nMoves + (if selfTransitions then 1 else 0)
  let coords := (gridCoords W H fun _ _ => false).2
  let adj := kind.adjacency coords
  let n := W * H
  let sas ← sasLoop n nActions selfTransitions adj fun i j => kind.getAction i j adj coords
  pure ⟨n, nActions, n, sas⟩

/-- `np.unravel_index(state, shape)` as used by `state_to_idx` (mdp.py:383-384): `ValueError`
outside `0 .. W*H-1`. -/
def unravelIndex (W H : Nat) (s : Int) : Py (Nat × Nat) :=
  if 0 ≤ s ∧ s < W * H then .ok (s.toNat / H, s.toNat % H) else .error .valueError

/-- `np.ravel_multi_index(idx, shape)` as used by `idx_to_state` (mdp.py:386-387): `ValueError`
for a coordinate outside the grid (mode `raise`). -/
def ravelMultiIndex (W H : Nat) (x y : Int) : Py Nat :=
  if 0 ≤ x ∧ x < W ∧ 0 ≤ y ∧ y < H then .ok (x.toNat * H + y.toNat) else .error .valueError

/-- `get_state_coords` (mdp.py:371-375): row `state` of the coordinate array. -/
def getStateCoords (W H : Nat) (s : Int) : Py (Nat × Nat) :=
  let coords := (gridCoords W H fun _ _ => false).2
  match pyIdx coords.length s with
  | none => .error .indexError
  | some k => match coords[k]? with
    | some p => .ok p
    | none => .error .indexError

end MaMDP
