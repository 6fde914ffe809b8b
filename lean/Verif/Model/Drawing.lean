import Verif.Model.Plotting
import Verif.Model.Environment

/-! # Model of the drawing calls in `/repo/maMDP/plotting.py`, `/repo/maMDP/mdp.py` and `/repo/maMDP/environments.py`

A picture is the list of what is put on the axes, oldest first. Of matplotlib it is assumed that `imshow(A)` draws
entry `A[row, col]` at the point `(col, row)`, with RGBA entries clipped to 0..1 and their opacity multiplied by
`alpha`; that `tab10` called with an integer above 9 gives its last colour; and that `Normalize(0, 1, clip=True)` clips.
Not modelled: line colours and sizes, ticks, axis limits, labels, further keyword arguments, the axes object itself, and
what a call that raises has already drawn. `coords` is the array a hexagonal MDP remembers from its latest plot. -/

namespace MaMDP

variable {K : Type} [Field K] [LinearOrder K] [IsStrictOrderedRing K] {δ : Type}

/-- A colour: an entry of the default palette, a colour named by the caller, or nothing. See plotting.py:46-49, 313. -/
inductive Paint
  | tab10 (i : Nat)
  | named (s : String)
  | clear
  deriving DecidableEq

/-- Something put on the axes: a coloured cell (plotting.py:64, 231-241), a cell coloured by a number (plotting.py:99,
359-365), an arrow (142), a numeral (177), a marker (118). -/
inductive Mark (K : Type)
  | cell (at_ : K × K) (paint : Paint) (opacity : K)
  | value (at_ : K × K) (v : Ext K)
  | arrow (start move : K × K)
  | numeral (at_ : K × K) (n : Nat)
  | marker (at_ : K × K) (shape colour : String)

/-- Colour and opacity of a layer (plotting.py:46-49, 59-62, 289-292, 301-304). -/
def layerStyle (colours : Option (List String)) (alphas : Option (List K)) (f : Nat) : Py (Paint × K) :=
  match (match colours with
    | none => Except.ok (.tab10 (min f 9))
    | some l => match l[f]? with
      | none => .error .indexError
      | some c => .ok (.named c) : Py Paint) with
  | .error e => .error e
  | .ok c => match alphas with
    | none => .ok (c, 1 / 2)
    | some l => match l[f]? with
      | none => .error .indexError
      | some a => .ok (c, a)

/-- `colors.Normalize(0, 1, clip=True)` (plotting.py:55, 306). -/
def clip01 (x : K) : K := max 0 (min 1 x)

/-- The cells of one layer of a square grid: `imshow` row by row (plotting.py:55-64). -/
def squareCells (g : Arr3 K) (f : Nat) (c : Paint) (alpha : K) : List (Mark K) :=
  let A := layerImage g f
  (List.range A.d0).flatMap fun (row : Nat) => (List.range A.d1).map fun (col : Nat) =>
    .cell ((col : K), (row : K)) c (clip01 (A.get row col) * alpha)

/-- `plot_grids` (plotting.py:17-78). -/
def plotGrids (g : Arr3 K) (colours : Option (List String)) (alphas : Option (List K)) : Py (List (Mark K)) :=
  match (List.range g.d0).mapM (m := Except PyErr) fun f => match layerStyle colours alphas f with
    | .error e => .error e
    | .ok (c, a) => .ok (squareCells g f c a) with
  | .error e => .error e
  | .ok l => .ok l.flatten

/-- The hexagons of one layer (plotting.py:298-308, 217-241). -/
def hexCells (g : Arr3 K) (f : Nat) (c : Paint) (alpha : K) : List (Mark K) :=
  (drawnCells g.d1 g.d2 []).map fun p => .cell (hexPoint 1 p.1 p.2) c (clip01 (g.get f p.1 p.2) * alpha)

/-- `plot_hex_grids` (plotting.py:260-327): the layers, then outlines without filling, whose coordinates are returned.
A grid without cells raises `ValueError` (252) before or after a missing colour does; this is not distinguished. -/
def plotHexGrids (g : Arr3 K) (colours : Option (List String)) (alphas : Option (List K)) :
    Py (List (Mark K) × (Nat → Nat → K × K)) :=
  match (List.range g.d0).mapM (m := Except PyErr) fun f => match layerStyle colours alphas f with
    | .error e => .error e
    | .ok (c, a) => .ok (hexCells g f c a) with
  | .error e => .error e
  | .ok l => match drawHexagons 1 g.d1 g.d2 [] with
    | .error e => .error e
    | .ok coords => .ok (l.flatten ++ (drawnCells g.d1 g.d2 []).map fun p => .cell (hexPoint 1 p.1 p.2) .clear 0, coords)

/-- The walls as a stack of one grid: `flat_to_grid(self.walls)[None, :]` (mdp.py:529, 639). -/
def wallGrid (W H : Nat) (m : Mdp K) : Py (Arr3 K) :=
  match Mdp.flatToGrid W H m.walls with
  | .error e => .error e
  | .ok w => .ok ⟨1, w.d0, w.d1, fun _ x y => w.get x y⟩

/-- `SquareGridMDP.plot` (mdp.py:512-531) and `HexGridMDP.plot` (mdp.py:623-641) with the default wall colour: the
coordinates remembered afterwards, and the picture. -/
def plotMdp (kind : GridKind) (W H : Nat) (coords : Option (Nat → Nat → K × K)) (m : Mdp K)
    (colours : Option (List String)) (alphas : Option (List K)) :
    Option (Nat → Nat → K × K) × Py (List (Mark K)) :=
  match plottedLayers m with
  | .error e => (coords, .error e)
  | .ok g => match kind with
    | .square => match plotGrids g colours alphas with
      | .error e => (coords, .error e)
      | .ok l => match wallGrid W H m with
        | .error e => (coords, .error e)
        | .ok w => match plotGrids w (some ["#595959"]) (some [1]) with
          | .error e => (coords, .error e)
          | .ok l' => (coords, .ok (l ++ l'))
    | .hex => match plotHexGrids g colours alphas with
      | .error e => (coords, .error e)
      | .ok (l, c) => match wallGrid W H m with
        | .error e => (some c, .error e)
        | .ok w => match plotHexGrids w (some ["#595959"]) (some [1]) with
          | .error e => (some c, .error e)
          | .ok (l', _) => (some c, .ok (l ++ l'))

/-- `plot_state_values` of a square grid (mdp.py:557-575, plotting.py:81-113) and of a hexagonal one (mdp.py:650-668,
plotting.py:330-388) with `hide_idx`. -/
def plotValues (kind : GridKind) (W H : Nat) (coords : Option (Nat → Nat → K × K)) (v : Arr1 (Ext K))
    (hide : List (Int × Int)) : Option (Nat → Nat → K × K) × Py (List (Mark K)) :=
  match Mdp.flatToGrid W H v with
  | .error e => (coords, .error e)
  | .ok A => match kind with
    | .square => (coords, .ok ((List.range A.d0).flatMap fun (row : Nat) => (List.range A.d1).map fun (col : Nat) =>
        .value ((col : K), (row : K)) (A.get row col)))
    | .hex => match drawHexagons 1 W H hide with
      | .error e => (coords, .error e)
      | .ok c => (some c, .ok (((drawnCells W H hide).map fun p => .value (hexPoint 1 p.1 p.2) (A.get p.1 p.2)) ++
          (drawnCells W H hide).map fun p => .cell (hexPoint 1 p.1 p.2) .clear 0))

/-- `state_to_position` of a square grid (mdp.py:577-581) and of a hexagonal one (mdp.py:643-648). -/
def stateToPosition (kind : GridKind) (W H : Nat) (coords : Option (Nat → Nat → K × K)) (s : Int) : Py (K × K) :=
  match kind with
  | .square => match squareStateToPosition W H s with
    | .error e => .error e
    | .ok (x, y) => .ok ((x : K), (y : K))
  | .hex => hexStateToPosition W H coords s

/-- The arrows of `plot_trajectory` (plotting.py:132-152). -/
def arrows : List (K × K) → List (Mark K)
  | p :: q :: l => .arrow p (q.1 - p.1, q.2 - p.2) :: arrows (q :: l)
  | _ => []

/-- `GridMDP.plot_trajectory` (mdp.py:424-446, 533-555). -/
def plotTrajectory (kind : GridKind) (W H : Nat) (coords : Option (Nat → Nat → K × K)) (t : List Int) :
    Py (List (Mark K)) :=
  match t.mapM (m := Except PyErr) (stateToPosition kind W H coords) with
  | .error e => .error e
  | .ok l => .ok (arrows l)

/-- The numerals of `plot_sequence` (plotting.py:172-179), from `str(k + 1)` on. -/
def numerals (k : Nat) : List (K × K) → List (Mark K)
  | [] => []
  | p :: l => .numeral (p.1 - 1 / 4, p.2 - 1 / 4) (k + 1) :: numerals (k + 1) l

/-- `GridMDP.plot_sequence` (mdp.py:449-470). -/
def plotSequence (kind : GridKind) (W H : Nat) (coords : Option (Nat → Nat → K × K)) (t : List Int) :
    Py (List (Mark K)) :=
  match t.mapM (m := Except PyErr) (stateToPosition kind W H coords) with
  | .error e => .error e
  | .ok l => .ok (numerals 0 l)

/-- Calls of the plotting methods. See mdp.py:512-668. -/
inductive DrawOp (K : Type)
  | plot (m : Mdp K) (colours : Option (List String)) (alphas : Option (List K))
  | values (v : Arr1 (Ext K)) (hide : List (Int × Int))
  | trajectory (t : List Int)
  | sequence (t : List Int)

/-- The coordinates remembered after a call, whether or not it raised. See mdp.py:636, 666. -/
def drawOp (kind : GridKind) (W H : Nat) (coords : Option (Nat → Nat → K × K)) :
    DrawOp K → Option (Nat → Nat → K × K)
  | .plot m c a => (plotMdp kind W H coords m c a).1
  | .values v h => (plotValues kind W H coords v h).1
  | .trajectory _ => coords
  | .sequence _ => coords

/-- A history of plotting calls on a new MDP. See mdp.py:512-668. -/
def drawRun (kind : GridKind) (W H : Nat) (ops : List (DrawOp K)) : Option (Nat → Nat → K × K) :=
  ops.foldl (drawOp kind W H) none

namespace Env

/-- `AttachedAgent.plot` (agents.py:231-241) with the marker and colour `Environment.plot` chooses
(environments.py:628-642). -/
def agentMark (kind : GridKind) (W H : Nat) (coords : Option (Nat → Nat → K × K))
    (markers colours : String → Option String) (a : Agent K δ) : Py (Mark K) :=
  match stateToPosition kind W H coords a.position with
  | .error e => .error e
  | .ok p => .ok (.marker p ((markers a.name).getD "X") ((colours a.name).getD "black"))

/-- `Environment.plot` (environments.py:600-644). -/
def plot (kind : GridKind) (W H : Nat) (coords : Option (Nat → Nat → K × K)) (e : Env K δ)
    (colours : Option (List String)) (alphas : Option (List K)) (markers agentColours : String → Option String) :
    Option (Nat → Nat → K × K) × Py (List (Mark K)) :=
  match plotMdp kind W H coords e.mdp colours alphas with
  | (coords, .error err) => (coords, .error err)
  | (coords, .ok l) =>
    match e.agents.mapM (m := Except PyErr) (agentMark kind W H coords markers agentColours) with
    | .error err => (coords, .error err)
    | .ok l' => (coords, .ok (l ++ l'))

/-- `Environment.plot_state_values` (environments.py:675-695). An algorithm that was fitted has values; `None` has no
`ndim`. -/
def plotStateValues (kind : GridKind) (W H : Nat) (coords : Option (Nat → Nat → K × K)) (e : Env K δ)
    (name : String) (hide : List (Int × Int)) : Option (Nat → Nat → K × K) × Py (List (Mark K)) :=
  if name ∉ e.agentNames then (coords, .error .valueError)
  else match e.agent? name with
    | none => (coords, .error .keyError)
    | some a =>
      if a.alg.fitComplete = false then (coords, .error .attributeError)
      else match a.alg.values with
        | none => (coords, .error .attributeError)
        | some v => plotValues kind W H coords v hide

end Env

end MaMDP
