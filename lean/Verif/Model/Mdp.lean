import Verif.Model.GridUtils

/-! # Model of `/repo/maMDP/mdp.py` -/

namespace MaMDP

/-- An `MDP` object (mdp.py:11-46, `GridMDP` 326-359). `shape` is `none` for the base class, which
never sets `self.shape`. `sas` has shape `(nStates, nActions, nStates)`. Not modelled: the RNG
attribute, the coordinate arrays (recomputed from `shape`), plotting state. -/
structure Mdp (K : Type) where
  shape : Option (Nat × Nat)
  selfTransitions : Bool
  nStates : Nat
  nActions : Nat
  sas : Nat → Nat → Nat → K
  deterministic : Bool
  adjacency : Nat → Nat → Bool
  originalSas : Arr3 K
  features : Arr2 K
  originalFeatures : Arr2 K
  featureNames : List String
  nNonAgent : Nat
  nAgents : Nat
  walls : Arr1 K

variable {K : Type} [Field K] [LinearOrder K] [IsStrictOrderedRing K]

/-- Some entry of a rank-3 array satisfies `p` (`np.any`, and `np.min(x) < 0` / `np.max(x) > 1`).
See mdp.py:63, 68. -/
def any3 (x : Arr3 K) (p : K → Prop) [DecidablePred p] : Bool :=
  decide (∃ i, i < x.d0 ∧ ∃ j, j < x.d1 ∧ ∃ k, k < x.d2 ∧ p (x.get i j k))

namespace Mdp

/-- `MDP.n_features` (mdp.py:79-81): the number of feature rows at the last assignment; in-place
updates never change it. -/
def nFeatures (m : Mdp K) : Nat := m.features.d0

/-- The `sas` setter (mdp.py:53-77). `np.min` of an empty array raises `ValueError`. -/
def setSas (m : Mdp K) (x : Arr3 K) : Mdp K × Py Unit :=
  if x.d0 ≠ x.d2 then (m, .error .typeError)
  else if x.d0 = 0 ∨ x.d1 = 0 then (m, .error .valueError)
  else if any3 x (fun v => v < 0) || any3 x (fun v => 1 < v) then (m, .error .attributeError)
  else ({ m with
          deterministic := !(any3 x fun v => 0 < v ∧ v < 1)
          adjacency := fun s t => decide (0 < npSum x.d1 fun a => x.get s a t)
          nStates := x.d0
          nActions := x.d1
          sas := x.get }, .ok ())

/-- Default feature names (mdp.py:102). -/
def defaultNames (n : Nat) : List String := (List.range n).map fun i => "Feature_" ++ toString i

/-- The `features` setter (mdp.py:87-102). -/
def setFeatures (m : Mdp K) (f : Arr2 K) : Mdp K × Py Unit :=
  if f.d1 ≠ m.nStates then (m, .error .attributeError)
  else ({ m with features := f, originalFeatures := f, featureNames := defaultNames f.d0 }, .ok ())

/-- The two masked assignments of the walls setter (mdp.py:138-139): entries whose source or
target is walled become 0. -/
def maskWalls (w : Arr1 K) (f : Nat → Nat → Nat → K) : Nat → Nat → Nat → K :=
  fun s a t => if w.get s = 1 ∨ w.get t = 1 then 0 else f s a t

/-- The `walls` setter (mdp.py:108-139), for a rank-1 array (`_get_walls` is the identity).
`self.shape` does not exist on the base class: `AttributeError`. -/
def setWalls (m : Mdp K) (w : Arr1 K) : Mdp K × Py Unit :=
  match m.shape with
  | none => (m, .error .attributeError)
  | some (W, H) =>
    if w.d0 ≠ W * H then (m, .error .attributeError)
    else if ∃ i, i < w.d0 ∧ ¬ (w.get i = 0 ∨ w.get i = 1) then (m, .error .valueError)
    else match m.setSas m.originalSas with
      | (m', .error e) => (m', .error e)
      | (m', .ok ()) => ({ m' with walls := w, sas := maskWalls w m'.sas }, .ok ())

/-- An object whose attributes are not set yet. See mdp.py:16-48. -/
def blank (shape : Option (Nat × Nat)) (selfT : Bool) (sas : Arr3 K) : Mdp K where
  shape := shape
  selfTransitions := selfT
  nStates := 0
  nActions := 0
  sas := sas.get
  deterministic := false
  adjacency := fun _ _ => false
  originalSas := sas
  features := ⟨0, 0, fun _ _ => 0⟩
  originalFeatures := ⟨0, 0, fun _ _ => 0⟩
  featureNames := []
  nNonAgent := 0
  nAgents := 0
  walls := ⟨0, fun _ => 0⟩

/-- `MDP.__init__` (mdp.py:16-46); `shape` is what the subclass put into `self.shape`. -/
def init (shape : Option (Nat × Nat)) (selfT : Bool) (features : Arr2 K) (sas : Arr3 K)
    (walls : Option (Arr1 K)) : Py (Mdp K) :=
  match (blank shape selfT sas).setSas sas with
  | (_, .error e) => .error e
  | (m, .ok ()) => match m.setFeatures features with
    | (_, .error e) => .error e
    | (m, .ok ()) =>
      let m := { m with nNonAgent := features.d0, nAgents := 0 }
      let w := match walls with
        | some w => w
        | none => ⟨m.nStates, fun _ => 0⟩
      match m.setWalls w with
      | (_, .error e) => .error e
      | (m, .ok ()) => .ok m

/-- `MDP(features, sas, walls)`: the base class (mdp.py:16), which has no `shape`. -/
def initBase (features : Arr2 K) (sas : Arr3 K) (walls : Option (Arr1 K)) : Py (Mdp K) :=
  init none false features sas walls

/-- `SquareGridMDP(...)` / `HexGridMDP(...)` (mdp.py:328-359, 475-486, 586-597). -/
def initGrid (kind : GridKind) (W H : Nat) (selfT : Bool) (features : Arr2 K)
    (walls : Option (Arr1 K)) : Py (Mdp K) :=
  match getSas kind W H selfT with
  | .error e => .error e
  | .ok sas => init (some (W, H)) selfT features sas walls

/-- `add_agent_feature` (mdp.py:144-157). The counter is incremented first. -/
def addAgentFeature (m : Mdp K) (position : Int) : Mdp K × Py Unit :=
  let m := { m with nAgents := m.nAgents + 1 }
  match pyIdx m.nStates position with
  | none => (m, .error .indexError)
  | some p =>
    if m.features.d1 ≠ m.nStates then (m, .error .valueError)
    else m.setFeatures ⟨m.features.d0 + 1, m.features.d1, fun f s =>
      if f = m.features.d0 then (if s = p then 1 else 0) else m.features.get f s⟩

/-- `update_agent_feature` (mdp.py:159-173): the row is zeroed before the position is written. -/
def updateAgentFeature (m : Mdp K) (agentIdx : Int) (position : Int) : Mdp K × Py Unit :=
  match pyIdx m.features.d0 ((m.nFeatures : Int) - m.nAgents + agentIdx) with
  | none => (m, .error .indexError)
  | some r =>
    let z : Arr2 K := { m.features with get := fun f s => if f = r then 0 else m.features.get f s }
    match pyIdx m.features.d1 position with
    | none => ({ m with features := z }, .error .indexError)
    | some p => ({ m with features := { z with get := upd2 z.get r p 1 } }, .ok ())

/-- `remove_agent_features` (mdp.py:175-179): `features[:-n_agents, :]`; with `n_agents = 0` the
slice is `[:0]`, i.e. empty. -/
def removeAgentFeatures (m : Mdp K) : Mdp K × Py Unit :=
  let k := if m.nAgents = 0 then 0 else m.features.d0 - m.nAgents
  match m.setFeatures { m.features with d0 := k } with
  | (m', .error e) => (m', .error e)
  | (m', .ok ()) => ({ m' with nAgents := 0 }, .ok ())

/-- Loop of `consume_features` (mdp.py:195-198); `c` is the counter array built so far. -/
def consumeLoop (state : Int) : List Int → Mdp K → (Nat → Nat) → Mdp K × Py (Nat → Nat)
  | [], m, c => (m, .ok c)
  | f :: fs, m, c =>
    match pyIdx m.features.d0 f, pyIdx m.features.d1 state with
    | some r, some s =>
      if 0 < m.features.get r s then
        consumeLoop state fs
          { m with features := { m.features with get := upd2 m.features.get r s 0 } }
          (upd1 c r (c r + 1))
      else consumeLoop state fs m c
    | _, _ => (m, .error .indexError)

/-- `consume_features` (mdp.py:181-200). -/
def consumeFeatures (m : Mdp K) (featureIdx : List Int) (state : Int) :
    Mdp K × Py (Nat → Nat) :=
  consumeLoop state featureIdx m fun _ => 0

/-- `get_next_state` (mdp.py:202-224). In a non-deterministic MDP `self.rng.random.choice` raises
`AttributeError`. -/
def getNextState (m : Mdp K) (state action : Int) : Py Nat :=
  if action < 0 then .error .assertionError
  else match pyIdx m.nStates state, pyIdx m.nActions action with
    | some s, some a =>
      if m.deterministic then .ok (npArgmax m.nStates fun t => m.sas s a t)
      else .error .attributeError
    | _, _ => .error .indexError

/-- `_state_pair_to_action` (mdp.py:249-273). -/
def statePairToAction (m : Mdp K) (s1 s2 : Int) (returnMax : Bool) : Py (List Nat) :=
  match pyIdx m.nStates s1, pyIdx m.nStates s2 with
  | some i, some j =>
    if m.nActions = 0 then .error .valueError
    else if 0 < npMax m.nActions (fun a => m.sas i a j) then
      if returnMax then .ok [npArgmax m.nActions fun a => m.sas i a j]
      else .ok (npWhere m.nActions fun a => decide (0 < m.sas i a j))
    else .error .attributeError
  | _, _ => .error .indexError

/-- Loop of `_trajectory_to_state_action` (mdp.py:242-245). -/
def trajectoryLoop (m : Mdp K) : List Int → Py (List (Int × Nat))
  | [] => .ok []
  | [_] => .ok []
  | s :: t :: rest =>
    match m.statePairToAction s t true with
    | .error e => .error e
    | .ok _ => match pyIdx m.nStates s, pyIdx m.nStates t with
      | some i, some j => match trajectoryLoop m (t :: rest) with
        | .error e => .error e
        | .ok l => .ok ((s, npArgmax m.nActions fun a => m.sas i a j) :: l)
      | _, _ => .error .indexError

/-- `_trajectory_to_state_action` (mdp.py:226-247): `np.zeros((len - 1, 2))` raises `ValueError`
for the empty trajectory. The warning for non-deterministic MDPs is not modelled. -/
def trajectoryToStateAction (m : Mdp K) (t : List Int) : Py (List (Int × Nat)) :=
  if t = [] then .error .valueError else m.trajectoryLoop t

/-- `is_adjacent` (mdp.py:275-287). -/
def isAdjacent (m : Mdp K) (s1 s2 : Int) : Py Bool :=
  match pyIdx m.nStates s1, pyIdx m.nStates s2 with
  | some i, some j => .ok (decide (∃ a, a < m.nActions ∧ 0 < m.sas i a j))
  | _, _ => .error .indexError

/-- `state_valid_actions` (mdp.py:289-300): first components of the row-major list of non-zero
`(action, next state)` pairs, so an action with several successors is listed several times. -/
def stateValidActions (m : Mdp K) (state : Int) : Py (List Nat) :=
  match pyIdx m.nStates state with
  | none => .error .indexError
  | some s => .ok ((List.range m.nActions).flatMap fun a =>
      (npWhere m.nStates fun t => decide (m.sas s a t ≠ 0)).map fun _ => a)

/-- `reset` (mdp.py:305-306). -/
def reset (m : Mdp K) : Mdp K × Py Unit := m.setFeatures m.originalFeatures

/-- A coordinate argument of `add_wall_xy` (mdp.py:408-411): two entries are a half-open range,
anything else is a list of coordinates. -/
def wallRange (x : List Int) : List Int :=
  match x with
  | [a, b] => (List.range (b - a).toNat).map fun (k : Nat) => a + k
  | l => l

/-- The double loop of `add_wall_xy` (mdp.py:413-415). -/
def wallCells (W H : Nat) (xs ys : List Int) (w : Arr1 K) : Py (Arr1 K) :=
  xs.foldlM (fun w x => ys.foldlM (fun w y => do
    let s ← ravelMultiIndex W H x y
    pure { w with get := upd1 w.get s 1 }) w) w

/-- `add_wall_xy` (mdp.py:390-417). Only `GridMDP` has it. -/
def addWallXY (m : Mdp K) (x y : List Int) : Mdp K × Py Unit :=
  match m.shape with
  | none => (m, .error .attributeError)
  | some (W, H) => match wallCells W H (wallRange x) (wallRange y) m.walls with
    | .error e => (m, .error e)
    | .ok w => m.setWalls w

/-- `reset_walls` (mdp.py:419-421): the stored wall array is multiplied by 0 in place, then
assigned. -/
def resetWalls (m : Mdp K) : Mdp K × Py Unit :=
  let w : Arr1 K := { m.walls with get := fun i => m.walls.get i * 0 }
  { m with walls := w }.setWalls w

/-- `flat_to_grid` (mdp.py:377-378): `ValueError` unless the length is `W*H`. -/
def flatToGrid {α : Type} (W H : Nat) (v : Arr1 α) : Py (Arr2 α) :=
  if v.d0 = W * H then .ok ⟨W, H, fun x y => v.get (x * H + y)⟩ else .error .valueError

/-- `features_as_grid` (mdp.py:380-381). -/
def featuresAsGrid (m : Mdp K) : Py (Arr3 K) :=
  match m.shape with
  | none => .error .attributeError
  | some (W, H) =>
    if m.features.d0 * m.features.d1 = m.nFeatures * (W * H) then
      .ok ⟨m.nFeatures, W, H, fun f x y => m.features.get f (x * H + y)⟩
    else .error .valueError

end Mdp

/-- The mutating operations of the MDP API. See mdp.py:53-200, 390-422. -/
inductive MdpOp (K : Type)
  | setSas (x : Arr3 K)
  | setWalls (w : Arr1 K)
  | addWallXY (x y : List Int)
  | resetWalls
  | setFeatures (f : Arr2 K)
  | addAgentFeature (p : Int)
  | updateAgentFeature (i p : Int)
  | removeAgentFeatures
  | consumeFeatures (fs : List Int) (s : Int)
  | reset

namespace Mdp

/-- The state an operation leaves behind, whether or not it raised. See mdp.py:53-200, 390-422. -/
def apply (m : Mdp K) : MdpOp K → Mdp K
  | .setSas x => (m.setSas x).1
  | .setWalls w => (m.setWalls w).1
  | .addWallXY x y => (m.addWallXY x y).1
  | .resetWalls => m.resetWalls.1
  | .setFeatures f => (m.setFeatures f).1
  | .addAgentFeature p => (m.addAgentFeature p).1
  | .updateAgentFeature i p => (m.updateAgentFeature i p).1
  | .removeAgentFeatures => m.removeAgentFeatures.1
  | .consumeFeatures fs s => (m.consumeFeatures fs s).1
  | .reset => m.reset.1

/-- A history of operations. See mdp.py:53-200, 390-422. -/
def run (m : Mdp K) (ops : List (MdpOp K)) : Mdp K := ops.foldl apply m

/-- States of a grid MDP reachable from its constructor by any history of operations (successful
or not) other than direct assignment of a foreign transition array. See mdp.py:326-422. -/
inductive GridReach (kind : GridKind) (W H : Nat) (selfT : Bool) : Mdp K → Prop
  | init {f w m} : initGrid kind W H selfT f w = .ok m → GridReach kind W H selfT m
  | step {m} (op : MdpOp K) : GridReach kind W H selfT m → (∀ x, op ≠ .setSas x) →
      GridReach kind W H selfT (m.apply op)

end Mdp

end MaMDP
