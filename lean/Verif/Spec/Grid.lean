/-!
# Specification of the two grids

Written from the documentation of the package only (no reference to the model): which cell a
move leads to.
-/

namespace MaMDP.Spec

/-- Compass directions of the square grid: 0 = +y, 1 = +x, 2 = -y, 3 = -x. -/
def squareDir : Nat → Option (Int × Int)
  | 0 => some (0, 1)
  | 1 => some (1, 0)
  | 2 => some (0, -1)
  | 3 => some (-1, 0)
  | _ => none

/-- Directions of the hexagonal grid in "even-q" offset coordinates (even columns are shifted
by half a cell towards +y), numbered clockwise from +y. -/
def hexDir (x : Int) : Nat → Option (Int × Int)
  | 0 => some (0, 1)
  | 1 => if x % 2 = 0 then some (1, 1) else some (1, 0)
  | 2 => if x % 2 = 0 then some (1, 0) else some (1, -1)
  | 3 => some (0, -1)
  | 4 => if x % 2 = 0 then some (-1, 0) else some (-1, -1)
  | 5 => if x % 2 = 0 then some (-1, 1) else some (-1, 0)
  | _ => none

/-- One hexagon move between cells of the infinite plane. -/
def HexStep (p q : Int × Int) : Prop :=
  ∃ a d, hexDir p.1 a = some d ∧ q = (p.1 + d.1, p.2 + d.2)

/-- One square move between cells of the infinite plane. -/
def SquareStep (p q : Int × Int) : Prop :=
  ∃ a d, squareDir a = some d ∧ q = (p.1 + d.1, p.2 + d.2)

/-- `q` can be reached from `p` in exactly `n` moves. -/
inductive Path {α : Type _} (Step : α → α → Prop) : Nat → α → α → Prop
  | nil (p : α) : Path Step 0 p p
  | cons {n : Nat} {p q r : α} : Step p q → Path Step n q r → Path Step (n + 1) p r

/-- `n` is the least number of moves from `p` to `q`. -/
def IsDist {α : Type _} (Step : α → α → Prop) (p q : α) (n : Nat) : Prop :=
  Path Step n p q ∧ ∀ m, Path Step m p q → n ≤ m

/-- Coordinates of state `s` on a grid with rows of length `H`. -/
def cell (H s : Nat) : Int × Int := ((s / H : Nat), (s % H : Nat))

/-- On a square grid with rows of length `H`, action `a < 4` takes state `s` to state `t`; action
4 exists only with self transitions and stays. -/
def SquareMove (H : Nat) (selfT : Bool) (s a t : Nat) : Prop :=
  (∃ d, squareDir a = some d ∧ cell H t = ((cell H s).1 + d.1, (cell H s).2 + d.2)) ∨
  (selfT = true ∧ a = 4 ∧ t = s)

/-- On a hex grid with rows of length `H`, action `a < 6` takes state `s` to state `t`; action
6 exists only with self transitions and stays. -/
def HexMove (H : Nat) (selfT : Bool) (s a t : Nat) : Prop :=
  (∃ d, hexDir (cell H s).1 a = some d ∧ cell H t = ((cell H s).1 + d.1, (cell H s).2 + d.2)) ∨
  (selfT = true ∧ a = 6 ∧ t = s)

end MaMDP.Spec
