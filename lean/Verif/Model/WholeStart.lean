import Verif.Model.IRL
import Verif.Model.PolicyLearning

/-! # Learners whose first guess is an array of integers

`theta` and `Q` are changed with `+=`. NumPy refuses to add floats to an array of integers in place (`UFuncTypeError`, a
`TypeError`), before it looks at the shapes. The models in `Model/IRL.lean` and `Model/PolicyLearning.lean` are those of float
arrays; here `whole` says that the array is one of integers. It stays one: `reset` brings back a copy of the same type
(irl.py:124, 334; policy_learning.py:68), `theta[...] = 0` keeps the type. -/

namespace MaMDP

variable {K : Type} [Field K] [LinearOrder K] [IsStrictOrderedRing K]

/-- The loop of `_solve_maxcausalent` (irl.py:203-227). The learning rate and the history are written before `theta`. -/
def irlLoopOf (whole : Bool) (set : IrlSettings K) (nF : Nat) (ign : Ignore) (expected : (Nat → K) → Py (Nat → K))
    (trueF : Nat → K) : Nat → Nat → IrlState K → IrlState K × Py Unit
  | 0, _, st => (st, .ok ())
  | k + 1, i, st =>
    match expected st.theta with
    | .error e => (st, .error e)
    | .ok dF => match zeroAt nF dF ign with
      | .error e => (st, .error e)
      | .ok dF =>
        let err : Nat → K := fun f => trueF f - dF f
        let (lr, rate) := irlRate set.decay i st.lr
        if whole then (⟨st.theta, lr, st.errors ++ [err]⟩, .error .typeError)
        else
          let st : IrlState K := ⟨fun f => st.theta f + rate * err f, lr, st.errors ++ [err]⟩
          if npSum nF (fun f => |err f|) / (nF : K) < set.tol then (st, .ok ())
          else irlLoopOf whole set nF ign expected trueF k (i + 1) st

/-- `MaxCausalEntIRL.fit` (irl.py:241-263 with 169-230). Without a guess a new array of floats is made (irl.py:191). -/
def MceIrl.fitOf (whole : Bool) (o : MceIrl K) (m : Mdp K) (ts : List (List Int)) (ign : Ignore)
    (expected : (Nat → K) → Py (Nat → K)) : MceIrl K × Py (Nat → K) :=
  match ts with
  | [] => (o, .error .indexError)
  | [] :: _ => (o, .error .typeError)
  | _ => match empirical m.nStates ts with
    | .error e => (o, .error e)
    | .ok D => match zeroAt m.nFeatures (featureCounts m D) ign with
      | .error e => (o, .error e)
      | .ok trueF =>
        match o.theta with
        | .obj => match ign with
          | .tuple [] => (o, .error .typeError)
          | _ => (o, .error .indexError)
        | .none => run false { o with aliased := false } trueF (fun _ => 0)
        | .vec x => run whole o trueF x
where
  /-- irl.py:193-230 once `theta` is a vector. -/
  run (whole : Bool) (o : MceIrl K) (trueF x : Nat → K) : MceIrl K × Py (Nat → K) :=
    match zeroAt m.nFeatures x ign with
    | .error e => (o.write x o.lr, .error e)
    | .ok x =>
      match irlLoopOf whole o.set m.nFeatures ign expected trueF o.set.maxIter 0 ⟨x, o.lr, []⟩ with
      | (st, .error e) => (o.write st.theta st.lr, .error e)
      | (st, .ok ()) =>
        if o.set.maxIter = 0 then (o.write st.theta st.lr, .error .unboundLocalError)
        else (o.write st.theta st.lr, .ok st.theta)

/-- Calls on a learner (irl.py:232-263). -/
def MceIrl.runOpsOf (whole : Bool) (o : MceIrl K) : List (IrlOp K) → MceIrl K
  | [] => o
  | .fit m ts ign expected :: l => MceIrl.runOpsOf whole (o.fitOf whole m ts ign expected).1 l
  | .reset :: l => MceIrl.runOpsOf whole o.reset l
  | .resetLr :: l => MceIrl.runOpsOf whole o.resetLr l

/-- `HyptestIRL.fit` (irl.py:490-518 with 401-488). The first move that can be scored raises, either when nothing can be subtracted from
the weights (`htLoop`, irl.py:455) or when nothing can be added to them (irl.py:465, 469); neither writes anything. -/
def HtIrl.fitOf (whole : Bool) (o : HtIrl K) (z : List Nat → (Nat → Nat → Ext K) → Nat → Nat → Ext K)
    (data : List (Mdp K × Py (Nat → Nat → Nat → Ext K) × List Int)) : HtIrl K × Py (Nat → Ext K) :=
  match htChecks data with
  | .error e => (o, .error e)
  | .ok () => match o.theta with
    | .obj => match htLoop o.set true z data 1 fun _ => .nan with
      | (_, .error e) => (o, .error e)
      | (_, .ok ()) => (o, .error .valueError)
    | .none => match htLoop o.set false z data 1 fun _ => .fin 0 with
      | (_, .error e) => (o, .error e)
      | ((n, R'), .ok ()) =>
        if n = 1 then (o, .error .valueError) else ({ o with theta := .vec R', aliased := false }, .ok R')
    | .vec x => match htLoop o.set whole z data 1 x with
      | ((_, R'), .error e) => (o.write R', .error e)
      | ((n, R'), .ok ()) => if n = 1 then (o.write R', .error .valueError) else (o.write R', .ok R')

/-- Calls on a learner (irl.py:486-518). -/
def HtIrl.runOpsOf (whole : Bool) (o : HtIrl K) : List (HtOp K) → HtIrl K
  | [] => o
  | .fit z data :: l => HtIrl.runOpsOf whole (o.fitOf whole z data).1 l
  | .reset :: l => HtIrl.runOpsOf whole o.reset l

/-- One pass of the loop over actions (policy_learning.py:102-125). -/
def TdLearner.actionOf (whole : Bool) (o : TdLearner K) (ms : List (Mdp K)) (i a : Nat) : TdLearner K × Py Unit :=
  match ms[i]? with
  | none => (o, .error .indexError)
  | some m => match o.trial m a with
    | .error e => (o, .error e)
    | .ok r => match o.q with
      | .none => (o, .error .typeError)
      | .obj => (o, .error .typeError)
      | .vec q =>
        if r.d0 ≠ q.d0 ∧ r.d0 ≠ 1 ∧ q.d0 ≠ 1 then (o, .error .valueError)
        else
          let step : Py K := if o.decay.positive then
            (match o.decay.power o.nSeen with
              | .error e => .error e
              | .ok p => .ok (o.adjusted * p)) else .ok o.lr
          match step with
          | .error e => (o, .error e)
          | .ok α =>
            let o := if o.decay.positive then { o with adjusted := α } else o
            if whole then (o, .error .typeError)
            else if r.d0 ≠ q.d0 ∧ r.d0 ≠ 1 then (o, .error .valueError)
            else
              let rj := fun j => if r.d0 = q.d0 then r.get j else r.get 0
              ({ o.write ⟨q.d0, fun j => q.get j + α * (rj j - q.get j)⟩ with nSeen := o.nSeen + 1 }, .ok ())

/-- The loop over the actions of one trajectory (policy_learning.py:102-125). -/
def TdLearner.actionsOf (whole : Bool) (ms : List (Mdp K)) : List Nat → Nat → TdLearner K → TdLearner K × Py Unit
  | [], _, o => (o, .ok ())
  | a :: l, i, o => match o.actionOf whole ms i a with
    | (o, .error e) => (o, .error e)
    | (o, .ok ()) => TdLearner.actionsOf whole ms l (i + 1) o

/-- The loop over trajectories (policy_learning.py:94-125). -/
def TdLearner.trajectoriesOf (whole : Bool) (ms : List (Mdp K)) :
    List (Mdp K × List Int) → TdLearner K → TdLearner K × Py Unit
  | [], o => (o, .ok ())
  | (m, t) :: l, o =>
    if t = [] then TdLearner.trajectoriesOf whole ms l o
    else match m.trajectoryToStateAction t with
      | .error e => (o, .error e)
      | .ok sa => match TdLearner.actionsOf whole ms (sa.map Prod.snd) 0 o with
        | (o, .error e) => (o, .error e)
        | (o, .ok ()) => TdLearner.trajectoriesOf whole ms l o

/-- `_fit_TD_policy` (policy_learning.py:85-125). -/
def TdLearner.fitTdOf (whole : Bool) (o : TdLearner K) (ms : List (Mdp K)) (ts : List (List Int)) : TdLearner K × Py Unit :=
  match o.q with
  | .none => match ms with
    | [] => (o, .error .indexError)
    | m :: _ => TdLearner.trajectoriesOf false ms (ms.zip ts)
        { o with q := .vec ⟨m.nActions, fun _ => 0⟩, aliased := false, nSeen := 1 }
  | _ => TdLearner.trajectoriesOf whole ms (ms.zip ts) { o with nSeen := 1 }

/-- `TDGeneralPolicyLearner.fit` (policy_learning.py:128-152). -/
def TdLearner.fitOf (whole : Bool) (o : TdLearner K) (mdps : Mdp K ⊕ List (Mdp K)) (ts : List (List Int)) :
    TdLearner K × Py Unit :=
  let ms : Py (List (Mdp K)) := match mdps with
    | .inl m => .ok (List.replicate ts.length m)
    | .inr l => if ts.length = l.length then .ok l else .error .attributeError
  match ms with
  | .error e => (o, .error e)
  | .ok ms => match o.fitTdOf whole ms ts with
    | (o, .error e) => (o, .error e)
    | (o, .ok ()) => ({ o with fitted := true }, .ok ())

/-- Calls on a learner (policy_learning.py:73-152). -/
def TdLearner.runOpsOf (whole : Bool) (o : TdLearner K) : List (TdOp K) → TdLearner K
  | [] => o
  | .fit mdps ts :: l => TdLearner.runOpsOf whole (o.fitOf whole mdps ts).1 l
  | .reset :: l => TdLearner.runOpsOf whole o.reset l
  | .resetLr :: l => TdLearner.runOpsOf whole o.resetLr l

end MaMDP
