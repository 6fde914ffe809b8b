import Verif.Model.Mdp
import Mathlib.Analysis.SpecialFunctions.Exp
import Mathlib.Analysis.SpecialFunctions.Pow.Real
import Mathlib.Algebra.Order.Floor.Ring

/-! # Model of `/repo/maMDP/algorithms/policy_learning.py` -/

namespace MaMDP

/-- Python's `%` on floats, for a positive modulus. See policy_learning.py:12. -/
def pyMod {K : Type} [Field K] [LinearOrder K] [FloorRing K] (x y : K) : K := x - y * (⌊x / y⌋ : K)

/-- `degdist` (policy_learning.py:8-12). -/
def degdist {K : Type} [Field K] [LinearOrder K] [FloorRing K] (x y : K) : K :=
  |pyMod ((x - y) + 180) 360 - 180|

/-- `deg_sq_exp_kernel` (policy_learning.py:14-21), with Python's operator precedence. -/
noncomputable def degKernel (x y ls variance : ℝ) : ℝ :=
  variance * Real.exp (-((degdist x y) ^ 2 / 2 * ls ^ 2))

variable {K : Type} [Field K] [LinearOrder K] [IsStrictOrderedRing K]

/-- The `decay` argument: a Python int, or a float together with the values of `np.power(n, -decay)`.
See policy_learning.py:46, 118. -/
inductive Decay (K : Type)
  | int (d : Int)
  | float (d : K) (fac : Nat → K)

/-- A real decay. See policy_learning.py:118. -/
noncomputable def Decay.real (d : ℝ) : Decay ℝ := .float d fun n => (n : ℝ) ^ (-d)

/-- `self.learning_rate_decay > 0`. See policy_learning.py:117. -/
def Decay.positive : Decay K → Prop
  | .int d => 0 < d
  | .float d _ => 0 < d

instance : (d : Decay K) → Decidable d.positive
  | .int d => inferInstanceAs (Decidable (0 < d))
  | .float d _ => inferInstanceAs (Decidable (0 < d))

/-- `not decay >= 0`. See policy_learning.py:61. -/
def Decay.negative : Decay K → Prop
  | .int d => d < 0
  | .float d _ => d < 0

instance : (d : Decay K) → Decidable d.negative
  | .int d => inferInstanceAs (Decidable (d < 0))
  | .float d _ => inferInstanceAs (Decidable (d < 0))

/-- `np.power(n_states, -decay)` (policy_learning.py:118): NumPy refuses integers to negative integer powers. -/
def Decay.power : Decay K → Nat → Py K
  | .int d, _ => if 0 < d then .error .valueError else .ok 1
  | .float _ fac, n => .ok (fac n)

/-- The attribute `Q`: `None`, an array, or the 0-dimensional object array `np.array(None)`.
See policy_learning.py:68-75. -/
inductive QArr (K : Type)
  | none
  | vec (x : Arr1 K)
  | obj

/-- A `TDGeneralPolicyLearner`. `kernel n a i`: what `deg_sq_exp_kernel` gives action `i` of `n` when `a` was taken;
`none` without kernel. `aliased`: `Q` and `original_Q` are the same array. See policy_learning.py:46-71. -/
structure TdLearner (K : Type) where
  lr : K
  decay : Decay K
  kernel : Option (Nat → Nat → Nat → K)
  adjusted : K
  nSeen : Nat
  q : QArr K
  original : QArr K
  aliased : Bool
  fitted : Bool

/-- The kernel argument with length scale `ls` (policy_learning.py:110-111). -/
noncomputable def tdKernel (ls : ℝ) (n a i : Nat) : ℝ := degKernel (i * (360 / n)) (a * (360 / n)) ls 1

/-- `TDGeneralPolicyLearner.__init__` (policy_learning.py:46-71). -/
def TdLearner.init (lr : K) (decay : Decay K) (q : Option (Arr1 K)) (kernel : Option (Nat → Nat → Nat → K)) :
    Py (TdLearner K) :=
  if ¬ 0 < lr then .error .assertionError
  else if decay.negative then .error .assertionError
  else .ok ⟨lr, decay, kernel, lr, 1, match q with | none => .none | some x => .vec x,
    match q with | none => .obj | some x => .vec x, false, false⟩

/-- `reset_learning_rate` (policy_learning.py:79-82). -/
def TdLearner.resetLr (o : TdLearner K) : TdLearner K := { o with nSeen := 1, adjusted := o.lr }

/-- `reset` (policy_learning.py:73-77). -/
def TdLearner.reset (o : TdLearner K) : TdLearner K :=
  { o with q := o.original, aliased := true, nSeen := 1, adjusted := o.lr, fitted := false }

/-- `self.Q += ...` in place. See policy_learning.py:119, 123. -/
def TdLearner.write (o : TdLearner K) (x : Arr1 K) : TdLearner K :=
  { o with q := .vec x, original := if o.aliased then .vec x else o.original }

/-- The "reward" of a trial (policy_learning.py:104-111). -/
def TdLearner.trial (o : TdLearner K) (m : Mdp K) (a : Nat) : Py (Arr1 K) :=
  match o.kernel with
  | none => if a < m.nActions then .ok ⟨m.nActions, fun j => if j = a then 1 else 0⟩ else .error .indexError
  | some k => .ok ⟨m.nActions, k m.nActions a⟩

/-- One pass of the loop over actions (policy_learning.py:102-125); `i` is the inner loop variable `n`, with which the
MDP is looked up. -/
def TdLearner.action (o : TdLearner K) (ms : List (Mdp K)) (i a : Nat) : TdLearner K × Py Unit :=
  match ms[i]? with
  | none => (o, .error .indexError)
  | some m => match o.trial m a with
    | .error e => (o, .error e)
    | .ok r => match o.q with
      | .none => (o, .error .typeError)
      | .obj => (o, .error .typeError)
      | .vec q =>
        if r.d0 ≠ q.d0 ∧ r.d0 ≠ 1 ∧ q.d0 ≠ 1 then (o, .error .valueError)
        else
          let step : Py K := if o.decay.positive then
            (match o.decay.power o.nSeen with
              | .error e => .error e
              | .ok p => .ok (o.adjusted * p)) else .ok o.lr
          match step with
          | .error e => (o, .error e)
          | .ok α =>
            let o := if o.decay.positive then { o with adjusted := α } else o
            if r.d0 ≠ q.d0 ∧ r.d0 ≠ 1 then (o, .error .valueError)
            else
              let rj := fun j => if r.d0 = q.d0 then r.get j else r.get 0
              ({ o.write ⟨q.d0, fun j => q.get j + α * (rj j - q.get j)⟩ with nSeen := o.nSeen + 1 }, .ok ())

/-- The loop over the actions of one trajectory (policy_learning.py:102-125). -/
def TdLearner.actions (ms : List (Mdp K)) : List Nat → Nat → TdLearner K → TdLearner K × Py Unit
  | [], _, o => (o, .ok ())
  | a :: l, i, o => match o.action ms i a with
    | (o, .error e) => (o, .error e)
    | (o, .ok ()) => TdLearner.actions ms l (i + 1) o

/-- The loop over trajectories (policy_learning.py:94-125); the list holds each trajectory with `mdp[n]` of the outer
loop variable. -/
def TdLearner.trajectories (ms : List (Mdp K)) : List (Mdp K × List Int) → TdLearner K → TdLearner K × Py Unit
  | [], o => (o, .ok ())
  | (m, t) :: l, o =>
    if t = [] then TdLearner.trajectories ms l o
    else match m.trajectoryToStateAction t with
      | .error e => (o, .error e)
      | .ok sa => match TdLearner.actions ms (sa.map Prod.snd) 0 o with
        | (o, .error e) => (o, .error e)
        | (o, .ok ()) => TdLearner.trajectories ms l o

/-- `_fit_TD_policy` (policy_learning.py:85-125). -/
def TdLearner.fitTd (o : TdLearner K) (ms : List (Mdp K)) (ts : List (List Int)) : TdLearner K × Py Unit :=
  match o.q with
  | .none => match ms with
    | [] => (o, .error .indexError)
    | m :: _ => TdLearner.trajectories ms (ms.zip ts)
        { o with q := .vec ⟨m.nActions, fun _ => 0⟩, aliased := false, nSeen := 1 }
  | _ => TdLearner.trajectories ms (ms.zip ts) { o with nSeen := 1 }

/-- `TDGeneralPolicyLearner.fit` (policy_learning.py:128-152), for a list of trajectories. -/
def TdLearner.fit (o : TdLearner K) (mdps : Mdp K ⊕ List (Mdp K)) (ts : List (List Int)) : TdLearner K × Py Unit :=
  let ms : Py (List (Mdp K)) := match mdps with
    | .inl m => .ok (List.replicate ts.length m)
    | .inr l => if ts.length = l.length then .ok l else .error .attributeError
  match ms with
  | .error e => (o, .error e)
  | .ok ms => match o.fitTd ms ts with
    | (o, .error e) => (o, .error e)
    | (o, .ok ()) => ({ o with fitted := true }, .ok ())

/-- Calls on a learner. See policy_learning.py:73-152. -/
inductive TdOp (K : Type)
  | fit (mdps : Mdp K ⊕ List (Mdp K)) (ts : List (List Int))
  | reset
  | resetLr

/-- One call; a failing call leaves behind whatever it had done. See policy_learning.py:73-152. -/
def TdLearner.call (o : TdLearner K) : TdOp K → TdLearner K
  | .fit mdps ts => (o.fit mdps ts).1
  | .reset => o.reset
  | .resetLr => o.resetLr

/-- A list of calls. See policy_learning.py:73-152. -/
def TdLearner.runOps (o : TdLearner K) (ops : List (TdOp K)) : TdLearner K := ops.foldl TdLearner.call o

end MaMDP
