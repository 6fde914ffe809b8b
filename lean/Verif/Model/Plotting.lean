import Verif.Model.Mdp

/-! # Model of the arithmetic in `/repo/maMDP/plotting.py` and of the plotting methods in `/repo/maMDP/mdp.py`

Drawing itself is not modelled: only where things are drawn, and which array is drawn. `imshow(A)` draws entry
`A[row, col]` at the point `(col, row)`. -/

namespace MaMDP

variable {K : Type} [Field K] [LinearOrder K] [IsStrictOrderedRing K]

/-- The entries of an array of length `n` that are numbers (`none`: NaN). See plotting.py:11. -/
def defined (n : Nat) (x : Nat → Option K) : List K := (List.range n).filterMap x

/-- `np.nanmin` of a list: `none` when there is no number. See plotting.py:11. -/
def nanMin : List K → Option K
  | [] => none
  | v :: l => some (l.foldl min v)

/-- `np.nanmax`. See plotting.py:11. -/
def nanMax : List K → Option K
  | [] => none
  | v :: l => some (l.foldl max v)

/-- `normalise` (plotting.py:9-11) of an array with `n` entries. Only NaN gives NaN (with a warning), an empty array
`ValueError`; `0 / 0` is NaN. -/
def normalise (n : Nat) (x : Nat → Option K) : Py (Nat → Option K) :=
  if n = 0 then .error .valueError
  else match nanMin (defined n x) with
    | none => .ok fun _ => none
    | some lo =>
      let y : Nat → Option K := fun i => (x i).map fun v => v - lo
      match nanMax (defined n y) with
      | none => .ok fun _ => none
      | some hi => .ok fun i => (y i).bind fun v => if hi = 0 then none else some (v / hi)

/-- Inner radius of the hexagons (plotting.py:204). -/
def innerRadius (r : K) : K := 86602540 / 100000000 * r

/-- Where the hexagon of cell `(x, z)` is drawn (plotting.py:220-226). -/
def hexPoint (r : K) (x z : Nat) : K × K :=
  (x * r * (3 / 2), if x % 2 = 1 then z * (innerRadius r * 2) else z * (innerRadius r * 2) + innerRadius r * 2 / 2)

/-- The cells in the order they are drawn, hidden ones left out (plotting.py:217-219). -/
def drawnCells (W H : Nat) (hide : List (Int × Int)) : List (Nat × Nat) :=
  ((List.range W).flatMap fun x => (List.range H).map fun z => (x, z)).filter fun p =>
    decide (((p.1 : Int), (p.2 : Int)) ∉ hide)

/-- `draw_hexagons(..., return_coords=True)` (plotting.py:185-257): `coords` starts with zeros, each drawn cell writes
its entry; the axis limits need at least one drawn cell (`np.max([])` raises `ValueError`). -/
def drawHexagons (r : K) (W H : Nat) (hide : List (Int × Int)) : Py (Nat → Nat → K × K) :=
  let cells := drawnCells W H hide
  if cells = [] then .error .valueError
  else .ok (cells.foldl (fun c p => upd2 c p.1 p.2 (hexPoint r p.1 p.2)) fun _ _ => (0, 0))

/-- `HexGridMDP.state_to_position` (mdp.py:643-648). `coords = none`: nothing was plotted yet. -/
def hexStateToPosition (W H : Nat) (coords : Option (Nat → Nat → K × K)) (s : Int) : Py (K × K) :=
  match unravelIndex W H s with
  | .error e => .error e
  | .ok (x, z) => match coords with
    | none => .error .attributeError
    | some c => .ok (c x z)

/-- `SquareGridMDP.state_to_position` (mdp.py:577-581). -/
def squareStateToPosition (W H : Nat) (s : Int) : Py (Nat × Nat) := unravelIndex W H s

/-- The layers `plot` draws (mdp.py:526, 636): `features_as_grid()[:-n_agents]`; with no agents the slice is empty. -/
def plottedLayers (m : Mdp K) : Py (Arr3 K) :=
  match m.featuresAsGrid with
  | .error e => .error e
  | .ok g => .ok { g with d0 := if m.nAgents = 0 then 0 else g.d0 - m.nAgents }

/-- The image drawn for one layer of a square grid (plotting.py:55-64): the grid transposed. -/
def layerImage (g : Arr3 K) (f : Nat) : Arr2 K := ⟨g.d2, g.d1, fun row col => g.get f col row⟩

/-- The image drawn by `SquareGridMDP.plot_state_values` (mdp.py:557-575, plotting.py:99): the grid as it is. -/
def valuesImage (W H : Nat) (v : Arr1 K) : Py (Arr2 K) := Mdp.flatToGrid W H v

/-- What `imshow(A)` shows at the point `(x, y)`; `none`: outside the image. See plotting.py:64, 99. -/
def imshowAt (A : Arr2 K) (x y : Nat) : Option K := if y < A.d0 ∧ x < A.d1 then some (A.get y x) else none

end MaMDP
