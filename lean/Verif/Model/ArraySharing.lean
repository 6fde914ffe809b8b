import Verif.Model.Mdp

/-! # NumPy arrays shared between MDP objects and their users

`Model/Mdp.lean` treats feature and wall arrays as values. In `/repo/maMDP/mdp.py` they are references: the
constructor and the setters store the caller's array itself, and some methods write into the stored array.
Here the arrays live in a store, MDP objects hold references, and every method acts as in `Model/Mdp.lean` on
the arrays its references lead to. Only where the results are kept is new: in the same array, in a fresh one,
or in the one the caller passed. The saved copy of the features (mdp.py:99) is never handed out, so it stays a
value; the slice made by `remove_agent_features` (mdp.py:178) is a view of the same array. Transition arrays
passed by the caller are treated as values. -/

namespace MaMDP

variable {K : Type} [Field K] [LinearOrder K] [IsStrictOrderedRing K]

/-- A reference to a feature array with its shape, as the caller holds it. See mdp.py:87-99. -/
structure FeatRef where
  ref : Nat
  d0 : Nat
  d1 : Nat

/-- A reference to a wall array with its length. See mdp.py:108-135. -/
structure WallRef where
  ref : Nat
  d0 : Nat

/-- An MDP object: everything but the entries of its features and walls, and references to those. See
mdp.py:84-85, 105-106. -/
structure MdpObj (K : Type) where
  core : Mdp K
  feat : Nat
  wall : Nat

/-- All arrays and MDP objects of a program. `next` is the first reference not in use. See mdp.py:16-46. -/
structure Store (K : Type) where
  feat : Nat → Nat → Nat → K
  wall : Nat → Nat → K
  next : Nat
  objs : List (MdpObj K)

/-- Method calls on one MDP object: with arrays nobody else refers to, or with an array the caller keeps.
See mdp.py:53-200, 305-306, 390-421. -/
inductive ObjOp (K : Type)
  | call (op : MdpOp K)
  | assignFeatures (f : FeatRef)
  | assignWalls (w : WallRef)

/-- What a program does with arrays and MDPs. See mdp.py:16-46. -/
inductive StoreOp (K : Type)
  | newFeatures (get : Nat → Nat → K)
  | newWalls (get : Nat → K)
  | writeFeature (ref f s : Nat) (x : K)
  | writeWall (ref s : Nat) (x : K)
  | build (kind : GridKind) (W H : Nat) (selfT : Bool) (f : FeatRef) (w : Option WallRef)
  | object (i : Nat) (op : ObjOp K)

namespace Store

/-- The array behind a reference. See mdp.py:84-85. -/
def featArr (σ : Store K) (f : FeatRef) : Arr2 K := ⟨f.d0, f.d1, σ.feat f.ref⟩

/-- The array behind a reference. See mdp.py:105-106. -/
def wallArr (σ : Store K) (w : WallRef) : Arr1 K := ⟨w.d0, σ.wall w.ref⟩

/-- An MDP as its user sees it. See mdp.py:84-85, 105-106. -/
def value (σ : Store K) (o : MdpObj K) : Mdp K :=
  { o.core with
    features := { o.core.features with get := σ.feat o.feat }
    walls := { o.core.walls with get := σ.wall o.wall } }

/-- The value-level operation a call amounts to. See mdp.py:87-139. -/
def valueOp (σ : Store K) : ObjOp K → MdpOp K
  | .call op => op
  | .assignFeatures f => .setFeatures (σ.featArr f)
  | .assignWalls w => .setWalls (σ.wallArr w)

/-- Whether a call returns normally. See mdp.py:53-200, 390-422. -/
def succeeds (m : Mdp K) : MdpOp K → Bool
  | .setSas x => match (m.setSas x).2 with | .ok _ => true | .error _ => false
  | .setWalls w => match (m.setWalls w).2 with | .ok _ => true | .error _ => false
  | .addWallXY x y => match (m.addWallXY x y).2 with | .ok _ => true | .error _ => false
  | .resetWalls => match m.resetWalls.2 with | .ok _ => true | .error _ => false
  | .setFeatures f => match (m.setFeatures f).2 with | .ok _ => true | .error _ => false
  | .addAgentFeature p => match (m.addAgentFeature p).2 with | .ok _ => true | .error _ => false
  | .updateAgentFeature i p => match (m.updateAgentFeature i p).2 with | .ok _ => true | .error _ => false
  | .removeAgentFeatures => match m.removeAgentFeatures.2 with | .ok _ => true | .error _ => false
  | .consumeFeatures fs s => match (m.consumeFeatures fs s).2 with | .ok _ => true | .error _ => false
  | .reset => match m.reset.2 with | .ok _ => true | .error _ => false

/-- The reference to the features after a call that returns normally: assigning stores the array given
(mdp.py:98), `add_agent_feature` stacks a new one (157), `reset` brings out the saved copy (306), and the rest
write into the present array (172-173, 197) or keep a view of it (178). -/
def featPlace (σ : Store K) (o : MdpObj K) : ObjOp K → Nat
  | .assignFeatures f => f.ref
  | .call (.setFeatures _) => σ.next
  | .call (.addAgentFeature _) => σ.next
  | .call .reset => σ.next
  | _ => o.feat

/-- The reference to the walls after a call that returns normally: assigning stores the array given
(mdp.py:135), `add_wall_xy` assigns a changed copy (402, 417), `reset_walls` writes into the present array
(421). -/
def wallPlace (σ : Store K) (o : MdpObj K) : ObjOp K → Nat
  | .assignWalls w => w.ref
  | .call (.setWalls _) => σ.next
  | .call (.addWallXY _ _) => σ.next
  | _ => o.wall

/-- A call on object number `i`. See mdp.py:53-200, 305-306, 390-421. -/
def object (σ : Store K) (i : Nat) (op : ObjOp K) : Store K :=
  match σ.objs[i]? with
  | none => σ
  | some o =>
    let m := σ.value o
    let m' := m.apply (σ.valueOp op)
    let ok := succeeds m (σ.valueOp op)
    let f := if ok then σ.featPlace o op else o.feat
    let w := if ok then σ.wallPlace o op else o.wall
    { feat := fun r => if r = f then m'.features.get else σ.feat r
      wall := fun r => if r = w then m'.walls.get else σ.wall r
      next := σ.next + 1
      objs := σ.objs.set i ⟨m', f, w⟩ }

/-- `SquareGridMDP(features, walls, shape, self_transitions)` and `HexGridMDP(...)` (mdp.py:16-40, 326-359):
the arrays given are stored; without walls a new array is made (39). -/
def build (σ : Store K) (kind : GridKind) (W H : Nat) (selfT : Bool) (f : FeatRef) (w : Option WallRef) :
    Store K × Py Unit :=
  match Mdp.initGrid kind W H selfT (σ.featArr f) (w.map σ.wallArr) with
  | .error e => (σ, .error e)
  | .ok m =>
    let wr := match w with
      | some w => w.ref
      | none => σ.next
    ({ feat := σ.feat
       wall := fun r => if r = wr then m.walls.get else σ.wall r
       next := σ.next + 1
       objs := σ.objs ++ [⟨m, f.ref, wr⟩] }, .ok ())

/-- One step of a program. See mdp.py:16-46. -/
def apply (σ : Store K) : StoreOp K → Store K
  | .newFeatures g => { σ with feat := fun r => if r = σ.next then g else σ.feat r, next := σ.next + 1 }
  | .newWalls g => { σ with wall := fun r => if r = σ.next then g else σ.wall r, next := σ.next + 1 }
  | .writeFeature ref f s x => { σ with feat := fun r => if r = ref then upd2 (σ.feat r) f s x else σ.feat r }
  | .writeWall ref s x => { σ with wall := fun r => if r = ref then upd1 (σ.wall r) s x else σ.wall r }
  | .build kind W H selfT f w => (σ.build kind W H selfT f w).1
  | .object i op => σ.object i op

/-- A program. See mdp.py:16-46. -/
def run (σ : Store K) (ops : List (StoreOp K)) : Store K := ops.foldl apply σ

end Store

end MaMDP
