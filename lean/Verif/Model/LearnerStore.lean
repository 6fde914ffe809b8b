import Verif.Model.IRL
import Verif.Model.PolicyLearning

/-! # Arrays shared between learners and their users

`Model/IRL.lean` and `Model/PolicyLearning.lean` treat the estimates of a learner as values; only that `theta` and
`original_theta` may be one array is kept there as a flag. In `/repo/maMDP/algorithms` estimates are NumPy arrays: the
constructors store the caller's array itself and a copy of it (irl.py:124-125, 339-340, policy_learning.py:68-75),
`fit` changes the stored array in place and returns it (irl.py:215, 263, 465, 518, policy_learning.py:119, 167).
Here the arrays live in a store and learners hold references. Every method acts as in the value-level models on what
the references lead to; only where results are kept is new. One class of learners at a time. -/

namespace MaMDP

/-- A class of learners as far as arrays are concerned: which arrays an object holds in its attribute (`theta` or `Q`)
and as saved copy, the same object holding other contents, its constructor and its methods; which calls are `reset`, and
which store their result in a new array. See irl.py:124-125, 234, 339-340, 488, 592, policy_learning.py:68-75. -/
structure LearnerClass (S Obj V Op : Type) where
  attr : Obj → Option V
  saved : Obj → Option V
  aliased : Obj → Bool
  load : Obj → Option V → Option V → Obj
  init : S → Option V → Py Obj
  apply : Obj → Op → Obj
  isReset : Op → Bool
  fresh : Op → Bool

/-- A learner: everything but the contents of its arrays, and references to those. See irl.py:124-125, 339-340,
policy_learning.py:68-75. -/
structure LearnerObj (Obj : Type) where
  core : Obj
  attr : Option Nat
  saved : Option Nat

/-- All arrays and learners of a program. `next` is the first reference not in use. See irl.py:70-130. -/
structure LearnerStore (Obj V : Type) where
  arr : Nat → V
  next : Nat
  objs : List (LearnerObj Obj)

/-- What a program does with arrays and learners: make an array, write into one, build a learner with settings and an
initial array, call a method. See irl.py:78-131, 302-341, policy_learning.py:46-71. -/
inductive LearnerStep (S V Op : Type)
  | newArray (x : V)
  | writeArray (ref : Nat) (x : V)
  | build (set : S) (init : Option Nat)
  | call (i : Nat) (op : Op)

namespace LearnerStore

variable {S Obj V Op : Type}

/-- A learner as its user sees it. See irl.py:124-125, 339-340, policy_learning.py:68-75. -/
def value (C : LearnerClass S Obj V Op) (σ : LearnerStore Obj V) (o : LearnerObj Obj) : Obj :=
  C.load o.core (o.attr.map σ.arr) (o.saved.map σ.arr)

/-- A method call on learner number `i`. `reset` makes the attribute refer to the saved array (irl.py:234, 488,
policy_learning.py:75); other methods write into the array of the attribute, or into a new one if there is none yet
(irl.py:191, 425, policy_learning.py:89) or the method makes one (irl.py:292, 592, 609). -/
def call (C : LearnerClass S Obj V Op) (σ : LearnerStore Obj V) (i : Nat) (op : Op) : LearnerStore Obj V :=
  match σ.objs[i]? with
  | none => σ
  | some o =>
    let v := C.apply (σ.value C o) op
    if C.isReset op then { σ with objs := σ.objs.set i ⟨v, o.saved, o.saved⟩ }
    else match C.attr v with
      | none => { σ with objs := σ.objs.set i ⟨v, o.attr, o.saved⟩ }
      | some x =>
        let r := if C.fresh op then σ.next else o.attr.getD σ.next
        { arr := fun q => if q = r then x else σ.arr q
          next := σ.next + 1
          objs := σ.objs.set i ⟨v, some r, o.saved⟩ }

/-- A constructor (irl.py:78-131, 302-341, policy_learning.py:46-71): the array given is stored, and a copy. -/
def build (C : LearnerClass S Obj V Op) (σ : LearnerStore Obj V) (set : S) (init : Option Nat) : LearnerStore Obj V :=
  match C.init set (init.map σ.arr) with
  | .error _ => σ
  | .ok o => match init with
    | none => { σ with objs := σ.objs ++ [⟨o, none, none⟩] }
    | some r =>
      { arr := fun q => if q = σ.next then σ.arr r else σ.arr q
        next := σ.next + 1
        objs := σ.objs ++ [⟨o, some r, some σ.next⟩] }

/-- One step of a program; steps naming arrays that do not exist are not possible. See irl.py:78-131, 302-341,
policy_learning.py:46-71. -/
def apply (C : LearnerClass S Obj V Op) (σ : LearnerStore Obj V) : LearnerStep S V Op → LearnerStore Obj V
  | .newArray x => { σ with arr := fun q => if q = σ.next then x else σ.arr q, next := σ.next + 1 }
  | .writeArray ref x => if ref < σ.next then { σ with arr := fun q => if q = ref then x else σ.arr q } else σ
  | .build set init => if ∀ r ∈ init, r < σ.next then σ.build C set init else σ
  | .call i op => σ.call C i op

/-- A program. See irl.py:78-131, 302-341, policy_learning.py:46-71. -/
def run (C : LearnerClass S Obj V Op) (σ : LearnerStore Obj V) (prog : List (LearnerStep S V Op)) :
    LearnerStore Obj V := prog.foldl (apply C) σ

end LearnerStore

/-- The array in an attribute, if there is one. See irl.py:124-125. -/
def Theta.array {X : Type} : Theta X → Option (Nat → X)
  | .vec x => some x
  | _ => Option.none

/-- The attribute with another array in place of its own. See irl.py:124-125. -/
def Theta.with {X : Type} (t : Theta X) (a : Option (Nat → X)) : Theta X :=
  match t, a with
  | .vec _, some x => .vec x
  | t, _ => t

/-- The array in an attribute, if there is one. See policy_learning.py:68-75. -/
def QArr.array {X : Type} : QArr X → Option (Arr1 X)
  | .vec x => some x
  | _ => Option.none

/-- The attribute with another array in place of its own. See policy_learning.py:68-75. -/
def QArr.with {X : Type} (t : QArr X) (a : Option (Arr1 X)) : QArr X :=
  match t, a with
  | .vec _, some x => .vec x
  | t, _ => t

variable {K : Type} [Field K] [LinearOrder K] [IsStrictOrderedRing K]

/-- `MaxCausalEntIRL` (irl.py:73-263), built with settings and a learning rate. -/
def mceClass : LearnerClass (IrlSettings K × K) (MceIrl K) (Nat → K) (IrlOp K) where
  attr o := o.theta.array
  saved o := o.original.array
  aliased o := o.aliased
  load o a s := { o with theta := o.theta.with a, original := o.original.with s }
  init s θ := MceIrl.init s.1 s.2 θ
  apply := MceIrl.apply
  isReset op := match op with | .reset => true | _ => false
  fresh _ := false

/-- `HyptestIRL` (irl.py:297-518). -/
def htClass : LearnerClass (HtSettings K) (HtIrl K) (Nat → Ext K) (HtOp K) where
  attr o := o.theta.array
  saved o := o.original.array
  aliased o := o.aliased
  load o a s := { o with theta := o.theta.with a, original := o.original.with s }
  init s θ := HtIrl.init s θ
  apply := HtIrl.apply
  isReset op := match op with | .reset => true | _ => false
  fresh _ := false

/-- `TDGeneralPolicyLearner` (policy_learning.py:41-167), built with learning rate, decay and kernel. -/
def tdClass : LearnerClass (K × Decay K × Option (Nat → Nat → Nat → K)) (TdLearner K) (Arr1 K) (TdOp K) where
  attr o := o.q.array
  saved o := o.original.array
  aliased o := o.aliased
  load o a s := { o with q := o.q.with a, original := o.original.with s }
  init s q := TdLearner.init s.1 s.2.1 q s.2.2
  apply := TdLearner.call
  isReset op := match op with | .reset => true | _ => false
  fresh _ := false

/-- `MFFeatureMatching` (irl.py:265-294): a call `(mdps, trajectories, ignored)`; the constructor takes no arguments. -/
def matchClass : LearnerClass Unit (Option (Arr1 K)) (Arr1 K)
    ((Mdp K ⊕ List (Mdp K)) × List (List Int) × List Int) where
  attr o := o
  saved _ := none
  aliased _ := false
  load _ a _ := a
  init _ a := match a with | none => .ok none | some _ => .error .typeError
  apply o op := match matchFit op.1 op.2.1 op.2.2 with | .ok x => some x | .error _ => o
  isReset _ := false
  fresh op := match matchFit op.1 op.2.1 op.2.2 with | .ok _ => true | .error _ => false

/-- The loop of `SimpleActionIRL.fit` (irl.py:594-596) and of `SimpleActionFeatureDiffIRL.fit` (irl.py:611-614) with what
it leaves behind. -/
def simpleLeft (count : Mdp K → List Nat → Option (Py (Nat → K))) :
    List (Mdp K) → List (List Nat) → (Nat → K) → Option ((Nat → K) × Py Unit)
  | [], _, th => some (th, .ok ())
  | _ :: _, [], th => some (th, .error .indexError)
  | m :: ms, t :: ts, th => match count m t with
    | none => none
    | some (.error e) => some (th, .error e)
    | some (.ok c) => simpleLeft count ms ts fun f => th f + c f

/-- `fit` of a `SimpleActionIRL` or `SimpleActionFeatureDiffIRL` object holding `theta` (irl.py:589-598, 606-616): what is
left in `theta`, and the outcome. -/
def simpleCall (count : Mdp K → List Nat → Option (Py (Nat → K))) (mdps : List (Mdp K)) (ts : List (List Nat))
    (reset : Bool) (theta : Option (Nat → K)) : Option (Option (Nat → K) × Py Unit) :=
  match theta with
  | none => if mdps = [] then some (none, .error .indexError)
      else (simpleLeft count mdps ts fun _ => 0).map fun x => (some x.1, x.2)
  | some th => if reset then
        (if mdps = [] then some (some th, .error .indexError)
          else (simpleLeft count mdps ts fun _ => 0).map fun x => (some x.1, x.2))
      else (simpleLeft count mdps ts th).map fun x => (some x.1, x.2)

/-- A call of `fit` of these learners (irl.py:589, 606). -/
structure SimpleOp (K : Type) where
  mdps : List (Mdp K)
  ts : List (List Nat)
  reset : Bool

/-- `SimpleActionIRL` (irl.py:584-598) and `SimpleActionFeatureDiffIRL` (irl.py:601-616), which differ in `count`. A call
that never returns ends the program; here it does nothing. -/
def simpleClass (count : Mdp K → List Nat → Option (Py (Nat → K))) :
    LearnerClass Unit (Option (Nat → K)) (Nat → K) (SimpleOp K) where
  attr o := o
  saved _ := none
  aliased _ := false
  load _ a _ := a
  init _ a := match a with | none => .ok none | some _ => .error .typeError
  apply o op := match simpleCall count op.mdps op.ts op.reset o with | some x => x.1 | none => o
  isReset _ := false
  fresh op := op.reset && !op.mdps.isEmpty

end MaMDP
