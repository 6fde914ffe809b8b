import Verif.Model.IRL

/-!
# What looking along a direction means

Written from the English only: cells have centres, an action looks along a fixed vector, and the line of sight goes on
until the next cell is a wall or off the grid.
-/

namespace MaMDP.Spec

/-- Centre of the cell in column `x` and row `y`. Hexagonal columns are two units per row, and even columns are
shifted by one unit. -/
def centre : GridKind → Nat × Nat → Int × Int
  | .square, (x, y) => (x, y)
  | .hex, (x, y) => (x, 2 * y + if x % 2 = 0 then 1 else 0)

/-- The vector from the centre of a cell to that of its neighbour in direction `a`. -/
def heading : GridKind → Nat → Int × Int
  | .square, 0 => (0, 1)
  | .square, 1 => (1, 0)
  | .square, 2 => (0, -1)
  | .square, _ => (-1, 0)
  | .hex, 0 => (0, 2)
  | .hex, 1 => (1, 1)
  | .hex, 2 => (1, -1)
  | .hex, 3 => (0, -2)
  | .hex, 4 => (-1, -1)
  | .hex, _ => (-1, 1)

/-- Centre of state `s` on a grid with columns of length `H`. -/
def at' (kind : GridKind) (H s : Nat) : Int × Int := centre kind (s / H, s % H)

/-- The state `i` cells further along direction `a`. -/
def Ahead (kind : GridKind) (H a s i t : Nat) : Prop :=
  at' kind H t = ((at' kind H s).1 + i * (heading kind a).1, (at' kind H s).2 + i * (heading kind a).2)

/-- `l` is what is seen from `s` in direction `a` on a grid of `n` states with walls where `wall` says so: the cells
0, 1, 2, ... steps ahead; more than the cell itself is seen only if no cell of it is a wall; and it ends where the next
cell is a wall or off the grid, or at once when standing on a wall. -/
structure LineOfSight (kind : GridKind) (H n : Nat) (wall : Nat → Prop) (a s : Nat) (l : List Nat) : Prop where
  nonempty : l ≠ []
  inside : ∀ t ∈ l, t < n
  straight : ∀ i t, l[i]? = some t → Ahead kind H a s i t
  free : 1 < l.length → ∀ t ∈ l, ¬ wall t
  ends : wall s ∨ ∀ t, t < n → Ahead kind H a s l.length t → wall t

/-- Directions that lead from each state of a trajectory to the next. -/
def Directions (step : Nat → Nat → Nat → Prop) : List Nat → List (Nat × Nat) → Prop
  | s :: t :: l, p :: ps => p.1 = s ∧ step s p.2 t ∧ Directions step (t :: l) ps
  | _ :: _ :: _, [] => False
  | _, ps => ps = []

/-- The share of feature `f` in the total over all `n` features; 0 when the total is 0. -/
def share {K : Type} [Field K] [DecidableEq K] (n : Nat) (c : Nat → K) (f : Nat) : K :=
  if ∑ g ∈ Finset.range n, c g = 0 then 0 else c f / ∑ g ∈ Finset.range n, c g

end MaMDP.Spec
