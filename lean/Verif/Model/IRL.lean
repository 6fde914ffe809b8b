import Verif.Model.Environment
import Mathlib.Analysis.SpecialFunctions.Sqrt

/-! # Model of `/repo/maMDP/algorithms/irl.py`

Exact arithmetic. Trajectories are lists of Python ints. Progress bars, printing and warnings are not
modelled. -/

namespace MaMDP

variable {K : Type} [Field K] [LinearOrder K] [IsStrictOrderedRing K] {δ : Type}

/-- `x[i] += 1` for a Python index. See irl.py:138, 177. -/
def incAt (n : Nat) (v : Nat → K) (i : Int) : Py (Nat → K) :=
  match pyIdx n i with
  | none => .error .indexError
  | some k => .ok (upd1 v k (v k + 1))

/-- One pass of the loop of `state_visitation_iterator` (irl.py:55-59): starting from `p_zero`, every
`(s, a, s')` adds `D[s] * pi[s, a] * sas[s, a, s']` to entry `s'`. -/
def visitPass (M : Trans K) (pi : Nat → Nat → K) (p0 D : Nat → K) : Nat → K :=
  (List.range M.nS).foldl (fun D' s =>
    (List.range M.nA).foldl (fun D' a =>
      (List.range M.nS).foldl (fun D' t => upd1 D' t (D' t + D s * pi s a * M.p s a t)) D') D') p0

/-- `state_visitation_iterator` (irl.py:30-63). -/
def visitation (M : Trans K) (pi : Nat → Nat → K) (p0 : Nat → K) : Nat → Nat → K
  | 0 => fun _ => 0
  | n + 1 => visitPass M pi p0 (visitation M pi p0 n)

/-- `p_zero` of `_get_state_visitation_frequencies` (irl.py:136-139). -/
def startCounts (nS : Nat) : List (List Int) → (Nat → K) → Py (Nat → K)
  | [], v => .ok v
  | [] :: _, _ => .error .indexError
  | (s :: _) :: ts, v => match incAt nS v s with
    | .error e => .error e
    | .ok v => startCounts nS ts v

/-- The counting loop over one trajectory (irl.py:176-177). -/
def countStates (nS : Nat) : List Int → (Nat → K) → Py (Nat → K)
  | [], v => .ok v
  | s :: ss, v => match incAt nS v s with
    | .error e => .error e
    | .ok v => countStates nS ss v

/-- The loop over trajectories (irl.py:175-179). The division by the length of the trajectory is inside
the loop and applies to the whole array. An empty trajectory divides by 0, which would make every entry
NaN or infinite: not modelled (the quotient here is 0), excluded in the theorems. -/
def countTrajectories (nS : Nat) : List (List Int) → (Nat → K) → Py (Nat → K)
  | [], v => .ok v
  | t :: ts, v => match countStates nS t v with
    | .error e => .error e
    | .ok v => countTrajectories nS ts fun s => v s / (t.length : K)

/-- The empirical state visitation (irl.py:171-181). -/
def empirical (nS : Nat) (ts : List (List Int)) : Py (Nat → K) :=
  match countTrajectories nS ts (fun _ => 0) with
  | .error e => .error e
  | .ok v => .ok fun s => v s / (ts.length : K)

/-- The `ignore_features` argument: indexing a vector with an empty tuple denotes the whole of it, with
a tuple of one number that entry, with a longer tuple raises `IndexError`; a list denotes those entries.
See irl.py:187, 193, 207. -/
inductive Ignore
  | tuple (l : List Int)
  | list (l : List Int)

/-- `x[ignore_features] = 0` for a vector of length `n` (irl.py:187, 193, 207). -/
def zeroAt (n : Nat) (x : Nat → K) : Ignore → Py (Nat → K)
  | .tuple [] => .ok fun _ => 0
  | .tuple [i] => match pyIdx n i with
    | none => .error .indexError
    | some k => .ok (upd1 x k 0)
  | .tuple _ => .error .indexError
  | .list l => if ∃ i ∈ l, pyIdx n i = none then .error .indexError
      else .ok fun f => if ∃ i ∈ l, pyIdx n i = some f then 0 else x f

/-- `(mdp.features * D).sum(axis=1)` (irl.py:165, 184). -/
def featureCounts (m : Mdp K) (D : Nat → K) : Nat → K := fun f => npSum m.nStates fun s => m.features.get f s * D s

/-- The finite part of an extended float; the others do not occur in the policies used below. See irl.py:156-159. -/
def Ext.toK : Ext K → K
  | .fin x => x
  | _ => 0

/-- `_maxcausalent_innerloop` (irl.py:152-167) with `_get_state_visitation_frequencies` (134-143): `solve` is
`solve_value_iteration` for a given `theta`, `sel` the action selector, `n` the `max_iter` setting. -/
def mceExpected (m : Mdp K) (solve : (Nat → K) → Py ((Nat → K) × (Nat → Nat → Ext K))) (sel : Selector K δ)
    (ts : List (List Int)) (n : Nat) (theta : Nat → K) : Py (Nat → K) :=
  match solve theta with
  | .error e => .error e
  | .ok (_, q) => match sel.piP ⟨m.nStates, m.nActions, q⟩ with
    | .error e => .error e
    | .ok P => match startCounts m.nStates ts (fun _ => 0) with
      | .error e => .error e
      | .ok p => .ok (featureCounts m (visitation m.trans (fun s a => (P.get s a).toK)
          (fun s => p s / npSum m.nStates p) n))

/-- `_maxcausalent_innerloop` of a learner made with `soft=False` (irl.py:145-167 with 127-131): value iteration for
the weights `theta` with the learner's discount, tolerance and `VI_max_iter`, then the greedy policy, followed for
`VI_max_iter` steps. -/
def mceHard (m : Mdp K) (n : Nat) (γ tol : K) (ts : List (List Int)) : (Nat → K) → Py (Nat → K) :=
  mceExpected m (fun theta => solveHard m.trans (stateReward m.nFeatures theta m.features.get) n γ tol) maxSelector ts n

/-- `_maxcausalent_innerloop` of a learner made with `soft=True` (irl.py:145-167 with 127-131): soft value iteration,
then the softmax policy with temperature 1. -/
noncomputable def mceSoft (m : Mdp ℝ) (n : Nat) (γ tol : ℝ) (ts : List (List Int)) : (Nat → ℝ) → Py (Nat → ℝ) :=
  mceExpected m (fun theta => solveSoft m.trans (stateReward m.nFeatures theta m.features.get) n γ tol)
    (softmaxSelector 1) ts n

/-- The settings of a `MaxCausalEntIRL` object (irl.py:111-123); `decay` is a natural number. -/
structure IrlSettings (K : Type) where
  decay : Nat
  maxIter : Nat
  tol : K

/-- The step size of iteration `i` (irl.py:213-218): the new learning rate, and the factor of the error. -/
def irlRate (decay i : Nat) (lr : K) : K × K :=
  if decay = 0 then (lr, lr)
  else
    let lr' := lr / ((i + 1 : Nat) : K) ^ decay
    (lr', lr' / ((i + 1 : Nat) : K) ^ decay)

/-- What an iteration leaves behind: parameters, learning rate, errors recorded. See irl.py:203-220. -/
structure IrlState (K : Type) where
  theta : Nat → K
  lr : K
  errors : List (Nat → K)

/-- The loop of `_solve_maxcausalent` (irl.py:203-227), `k` iterations left, the next one is `i`.
`expected` is `_maxcausalent_innerloop`. -/
def irlLoop (set : IrlSettings K) (nF : Nat) (ign : Ignore) (expected : (Nat → K) → Py (Nat → K))
    (trueF : Nat → K) : Nat → Nat → IrlState K → IrlState K × Py Unit
  | 0, _, st => (st, .ok ())
  | k + 1, i, st =>
    match expected st.theta with
    | .error e => (st, .error e)
    | .ok dF => match zeroAt nF dF ign with
      | .error e => (st, .error e)
      | .ok dF =>
        let err : Nat → K := fun f => trueF f - dF f
        let (lr, rate) := irlRate set.decay i st.lr
        let st : IrlState K := ⟨fun f => st.theta f + rate * err f, lr, st.errors ++ [err]⟩
        if npSum nF (fun f => |err f|) / (nF : K) < set.tol then (st, .ok ())
        else irlLoop set nF ign expected trueF k (i + 1) st

/-- The value of an attribute holding the reward function: `None`, a vector, or `np.array(None)`.
See irl.py:124-125. -/
inductive Theta (K : Type)
  | none
  | vec (x : Nat → K)
  | obj

/-- A `MaxCausalEntIRL` object. `aliased` records that `theta` and `original_theta` are the same array,
so that `theta += ...` changes both. See irl.py:110-132. -/
structure MceIrl (K : Type) where
  set : IrlSettings K
  lr : K
  originalLr : K
  theta : Theta K
  original : Theta K
  aliased : Bool

/-- `MaxCausalEntIRL.__init__` (irl.py:78-131); vectors are assumed to have one entry per feature. -/
def MceIrl.init (set : IrlSettings K) (lr : K) (theta : Option (Nat → K)) : Py (MceIrl K) :=
  if ¬ 0 < lr then .error .assertionError
  else .ok ⟨set, lr, lr, match theta with | none => .none | some x => .vec x,
    match theta with | none => .obj | some x => .vec x, false⟩

/-- Assigning to the entries of `theta` in place. See irl.py:193, 215, 218. -/
def MceIrl.write (o : MceIrl K) (x : Nat → K) (lr : K) : MceIrl K :=
  { o with theta := .vec x, lr := lr, original := if o.aliased then .vec x else o.original }

/-- `_solve_maxcausalent` (irl.py:169-230) and `fit` (241-263). `m` is the MDP, `expected` its
`_maxcausalent_innerloop` on these trajectories. A 0-dimensional object array can be indexed with the
empty tuple only, and is then refused by the compiled solver (numba's error is represented by `TypeError`). The
first iteration also needs an entry in the loop (`error` is unbound otherwise). `theta` is a float array: adding
floats to an integer array in place would raise. -/
def MceIrl.fit (o : MceIrl K) (m : Mdp K) (ts : List (List Int)) (ign : Ignore)
    (expected : (Nat → K) → Py (Nat → K)) : MceIrl K × Py (Nat → K) :=
  match ts with
  | [] => (o, .error .indexError)
  | [] :: _ => (o, .error .typeError)
  | _ => match empirical m.nStates ts with
    | .error e => (o, .error e)
    | .ok D => match zeroAt m.nFeatures (featureCounts m D) ign with
      | .error e => (o, .error e)
      | .ok trueF =>
        match o.theta with
        | .obj => match ign with
          | .tuple [] => (o, .error .typeError)
          | _ => (o, .error .indexError)
        | .none => run { o with aliased := false } trueF (fun _ => 0)
        | .vec x => run o trueF x
where
  /-- irl.py:193-230 once `theta` is a vector. -/
  run (o : MceIrl K) (trueF x : Nat → K) : MceIrl K × Py (Nat → K) :=
    match zeroAt m.nFeatures x ign with
    | .error e => (o.write x o.lr, .error e)
    | .ok x =>
      match irlLoop o.set m.nFeatures ign expected trueF o.set.maxIter 0 ⟨x, o.lr, []⟩ with
      | (st, .error e) => (o.write st.theta st.lr, .error e)
      | (st, .ok ()) =>
        if o.set.maxIter = 0 then (o.write st.theta st.lr, .error .unboundLocalError)
        else (o.write st.theta st.lr, .ok st.theta)

/-- `reset` (irl.py:232-235): `theta` becomes the saved array itself. -/
def MceIrl.reset (o : MceIrl K) : MceIrl K := { o with theta := o.original, lr := o.originalLr, aliased := true }

/-- `reset_learning_rate` (irl.py:237-239). -/
def MceIrl.resetLr (o : MceIrl K) : MceIrl K := { o with lr := o.originalLr }

/-! ## `MFFeatureMatching` -/

/-- `mdp.features[:, t[1:]].sum(axis=1)` (irl.py:288). -/
def laterCounts (m : Mdp K) : List Int → Py (Nat → K)
  | [] => .ok fun _ => 0
  | s :: ss => match pyIdx m.features.d1 s with
    | none => .error .indexError
    | some k => match laterCounts m ss with
      | .error e => .error e
      | .ok v => .ok fun f => m.features.get f k + v f

/-- The loop filling `feature_array` (irl.py:287-288): row `n` is that of the `n`-th trajectory. A row of
another length than the array's cannot be stored, except that a single entry is broadcast. -/
def matchRows (nF : Nat) : List (Mdp K × List Int) → Py (List (Nat → K))
  | [] => .ok []
  | (m, t) :: l => match laterCounts m (t.drop 1) with
    | .error e => .error e
    | .ok v =>
      if m.features.d0 ≠ nF ∧ m.features.d0 ≠ 1 then .error .valueError
      else match matchRows nF l with
        | .error e => .error e
        | .ok vs => .ok ((if m.features.d0 = nF then v else fun _ => v 0) :: vs)

/-- `MFFeatureMatching.fit` (irl.py:273-294). `mdps`: one MDP for all, or a list. The ignored numbers
index the rows of the array, i.e. trajectories. -/
def matchFit (mdps : Mdp K ⊕ List (Mdp K)) (ts : List (List Int)) (ign : List Int) : Py (Arr1 K) :=
  match ts with
  | [] => .error .indexError
  | [] :: _ => .error .typeError
  | _ =>
    let ms : Py (List (Mdp K)) := match mdps with
      | .inl m => .ok (List.replicate ts.length m)
      | .inr l => if ts.length = l.length then .ok l else .error .attributeError
    match ms with
    | .error e => .error e
    | .ok ms => match ms with
      | [] => .error .indexError
      | m0 :: _ => match matchRows m0.nFeatures (ms.zip ts) with
        | .error e => .error e
        | .ok rows =>
          if ∃ i ∈ ign, pyIdx ts.length i = none then .error .indexError
          else .ok ⟨m0.nFeatures, fun f => npSum rows.length fun n =>
            if ∃ i ∈ ign, pyIdx ts.length i = some n then 0 else (rows.getD n fun _ => 0) f⟩

/-! ## `HyptestIRL` -/

/-- Sum and product of extended floats are those of IEEE numbers. See irl.py:455, 465. -/
def Ext.add : Ext K → Ext K → Ext K
  | .nan, _ => .nan
  | _, .nan => .nan
  | .fin x, .fin y => .fin (x + y)
  | .fin _, y => y
  | x, .fin _ => x
  | .pinf, .pinf => .pinf
  | .ninf, .ninf => .ninf
  | _, _ => .nan

/-- Negation. See irl.py:455. -/
def Ext.neg : Ext K → Ext K
  | .nan => .nan
  | .ninf => .pinf
  | .pinf => .ninf
  | .fin x => .fin (-x)

/-- Absolute value. See irl.py:460. -/
def Ext.abs : Ext K → Ext K
  | .nan => .nan
  | .ninf => .pinf
  | .pinf => .pinf
  | .fin x => .fin |x|

/-- `x < 0`; false for NaN. See irl.py:462. -/
def Ext.isNeg : Ext K → Bool
  | .fin x => decide (x < 0)
  | .ninf => true
  | _ => false

/-- `x >= 0`; false for NaN. See irl.py:463. -/
def Ext.isNonneg : Ext K → Bool
  | .fin x => decide (0 ≤ x)
  | .pinf => true
  | _ => false

/-- The `normalisation` argument. See irl.py:391-394. -/
inductive Normalisation
  | zscore
  | relative
  | other
  deriving DecidableEq

/-- Settings of a `HyptestIRL` object (irl.py:302-341). -/
structure HtSettings (K : Type) where
  lr : K
  decay : Nat
  asymmetry : K
  norm : Normalisation

/-- The `actions` of `get_actions_states` (mcts.py:26-36): one entry per non-zero `(action, next state)`, so an
action leading to several states is repeated. -/
def legalActions (M : Trans K) (s : Nat) : List Nat :=
  (List.range M.nA).flatMap fun a => (npWhere M.nS fun t => decide (M.p s a t ≠ 0)).map fun _ => a

/-- `_single_move` (irl.py:343-399) without the `try`: `Q` is the table of Q values (action values for each
hypothesis, NaN for excluded features), `z` is `zscore_nb` on the rows of the legal actions. Returns the
weights of the action that was taken. -/
def singleMove (set : HtSettings K) (M : Trans K) (z : List Nat → (Nat → Nat → Ext K) → Nat → Nat → Ext K)
    (Q : Nat → Nat → Nat → Ext K) (start next : Int) : Py (Nat → Ext K) :=
  match pyIdx M.nS start, pyIdx M.nS next with
  | some s, some t => match npWhere M.nA fun a => decide (M.p s a t ≠ 0) with
    | [] => .error .valueError
    | a :: _ => match set.norm with
      | .zscore => .ok fun f => z (legalActions M s) (fun x f => Q s x f) a f
      | .relative => .error .notImplementedError
      | .other => .ok fun f => Q s a f
  | _, _ => .error .valueError

/-- The Q values for each hypothesis (irl.py:367-382): for every feature that is not excluded the MDP is solved with
reward 1 for that feature; entries of excluded features are NaN. -/
def htQ (nF : Nat) (excl : List Int) (solve : (Nat → K) → Py ((Nat → K) × (Nat → Nat → Ext K))) :
    Py (Nat → Nat → Nat → Ext K) :=
  (List.range nF).foldlM (m := Except PyErr) (fun (Q : Nat → Nat → Nat → Ext K) (f : Nat) =>
    if (f : Int) ∈ excl then .ok Q
    else match solve (fun g => if g = f then 1 else 0) with
      | .error e => .error e
      | .ok (_, q) => .ok fun s a g => if g = f then q s a else Q s a g) fun _ _ _ => .nan

/-- The finite entries of column `f` in the given rows. See irl.py:18-19. -/
def finiteColumn (rows : List Nat) (x : Nat → Nat → Ext K) (f : Nat) : List K :=
  rows.filterMap fun a => match x a f with
    | .fin v => some v
    | _ => none

/-- Mean of a list (`np.nanmean`). See irl.py:20. -/
def listMean (l : List K) : K := l.sum / (l.length : K)

/-- Standard deviation of a list (`np.nanstd`). See irl.py:20. -/
noncomputable def listStd (l : List ℝ) : ℝ := Real.sqrt (listMean (l.map fun v => (v - listMean l) ^ 2))

/-- `zscore_nb` (irl.py:14-21) on the given rows, read at row `a`: infinite entries become NaN, NaN is left out of
mean and standard deviation, and a standard deviation of 0 makes every entry `0 / 0`. -/
noncomputable def zscore (rows : List Nat) (x : Nat → Nat → Ext ℝ) (a f : Nat) : Ext ℝ :=
  match x a f with
  | .fin v =>
    let c := finiteColumn rows x f
    if listStd c = 0 then .nan else .fin ((v - listMean c) / listStd c)
  | _ => .nan

/-- The update of the reward weights after a move (irl.py:454-469); `n` is `n_states`. -/
def htUpdate (set : HtSettings K) (n : Nat) (R R' : Nat → Ext K) : Nat → Ext K := fun f =>
  let delta := Ext.add (R f) (Ext.neg (R' f))
  if 0 < set.decay then
    let d := Ext.add (Ext.abs (R f)) (Ext.neg (Ext.abs (R' f)))
    let lr := if d.isNeg then set.lr * set.asymmetry else if d.isNonneg then set.lr / set.asymmetry else set.lr
    Ext.add (R' f) (Ext.mul (.fin (lr / (n : K) ^ set.decay)) delta)
  else Ext.add (R' f) (Ext.mul (.fin set.lr) delta)

/-- The loop over the pairs of one trajectory (irl.py:447-474): number of moves seen and weights left behind, and the
outcome. `obj`: the weights are `np.array(None)`, from which nothing can be subtracted (irl.py:455). -/
def htPairs (set : HtSettings K) (obj : Bool) (M : Trans K)
    (z : List Nat → (Nat → Nat → Ext K) → Nat → Nat → Ext K) (Q : Py (Nat → Nat → Nat → Ext K)) :
    List Int → Nat → (Nat → Ext K) → (Nat × (Nat → Ext K)) × Py Unit
  | s :: t :: l, n, R' => match pyIdx M.nS s, pyIdx M.nS t with
    | some i, some j => match npWhere M.nA fun a => decide (M.p i a j ≠ 0) with
      | [] => ((n, R'), .error .valueError)
      | _ => match Q with
        | .error e => ((n, R'), .error e)
        | .ok Q => match singleMove set M z Q s t with
          | .error e => ((n, R'), .error e)
          | .ok R =>
            if obj then ((n, R'), .error .typeError)
            else htPairs set obj M z (.ok Q) (t :: l) (n + 1) (htUpdate set n R R')
    | _, _ => ((n, R'), .error .valueError)
  | _, n, R' => ((n, R'), .ok ())

/-- The loop over trajectories (irl.py:441-477); `Q` is what solving each MDP for each hypothesis gives. -/
def htLoop (set : HtSettings K) (obj : Bool) (z : List Nat → (Nat → Nat → Ext K) → Nat → Nat → Ext K) :
    List (Mdp K × Py (Nat → Nat → Nat → Ext K) × List Int) → Nat → (Nat → Ext K) →
      (Nat × (Nat → Ext K)) × Py Unit
  | [], n, R' => ((n, R'), .ok ())
  | (m, Q, t) :: l, n, R' => match htPairs set obj m.trans z Q t n R' with
    | (st, .error e) => (st, .error e)
    | ((n, R'), .ok ()) => htLoop set obj z l n R'

/-- The checks on the arguments of `fit` (irl.py:490-518) and `_solve_hyptest` (413-421): all transition arrays and all feature arrays must
have the same shape. -/
def htChecks (data : List (Mdp K × Py (Nat → Nat → Nat → Ext K) × List Int)) : Py Unit :=
  match data with
  | [] => .error .indexError
  | (_, _, []) :: _ => .error .typeError
  | (m0, _, _) :: _ =>
    if ∃ d ∈ data, ¬ (d.1.nStates = m0.nStates ∧ d.1.nActions = m0.nActions) then .error .assertionError
    else if ∃ d ∈ data, ¬ (d.1.features.d0 = m0.features.d0 ∧ d.1.features.d1 = m0.features.d1) then
      .error .assertionError
    else .ok ()

/-- A `HyptestIRL` object. `aliased`: `theta` and `original_theta` are the same array. Vectors are assumed to have one
entry per feature and to hold floats. See irl.py:302-341, 486-488. -/
structure HtIrl (K : Type) where
  set : HtSettings K
  theta : Theta (Ext K)
  original : Theta (Ext K)
  aliased : Bool

/-- `HyptestIRL.__init__` (irl.py:302-341). -/
def HtIrl.init (set : HtSettings K) (theta : Option (Nat → Ext K)) : Py (HtIrl K) :=
  if ¬ 0 < set.lr then .error .assertionError
  else if ¬ 1 < set.asymmetry then .error .assertionError
  else .ok ⟨set, match theta with | none => .none | some x => .vec x,
    match theta with | none => .obj | some x => .vec x, false⟩

/-- `R_ += ...` when `R_` is the array held by the object. See irl.py:427, 465, 469. -/
def HtIrl.write (o : HtIrl K) (x : Nat → Ext K) : HtIrl K :=
  { o with theta := .vec x, original := if o.aliased then .vec x else o.original }

/-- `HyptestIRL.fit` (irl.py:490-518) with `_solve_hyptest` (401-484), for one MDP and solution per trajectory. Without
weights a new array is filled, and stored at the end; otherwise the object's own array is changed in place. Stacking an
empty list of estimates raises `ValueError`. -/
def HtIrl.fit (o : HtIrl K) (z : List Nat → (Nat → Nat → Ext K) → Nat → Nat → Ext K)
    (data : List (Mdp K × Py (Nat → Nat → Nat → Ext K) × List Int)) : HtIrl K × Py (Nat → Ext K) :=
  match htChecks data with
  | .error e => (o, .error e)
  | .ok () => match o.theta with
    | .obj => match htLoop o.set true z data 1 fun _ => .nan with
      | (_, .error e) => (o, .error e)
      | (_, .ok ()) => (o, .error .valueError)
    | .none => match htLoop o.set false z data 1 fun _ => .fin 0 with
      | (_, .error e) => (o, .error e)
      | ((n, R'), .ok ()) =>
        if n = 1 then (o, .error .valueError) else ({ o with theta := .vec R', aliased := false }, .ok R')
    | .vec x => match htLoop o.set false z data 1 x with
      | ((_, R'), .error e) => (o.write R', .error e)
      | ((n, R'), .ok ()) => if n = 1 then (o.write R', .error .valueError) else (o.write R', .ok R')

/-- `reset` (irl.py:486-488): `theta` becomes the saved array itself. -/
def HtIrl.reset (o : HtIrl K) : HtIrl K := { o with theta := o.original, aliased := true }

/-- The outcome of `fit` (irl.py:490-518) of an object holding the weights `theta`. -/
def htFit (set : HtSettings K) (z : List Nat → (Nat → Nat → Ext K) → Nat → Nat → Ext K)
    (theta : Option (Nat → Ext K)) (data : List (Mdp K × Py (Nat → Nat → Nat → Ext K) × List Int)) :
    Py (Nat → Ext K) :=
  (HtIrl.fit ⟨set, match theta with | none => .none | some x => .vec x, .obj, false⟩ z data).2

/-- The calls on a learner. See irl.py:232-263. -/
inductive IrlOp (K : Type)
  | fit (m : Mdp K) (ts : List (List Int)) (ign : Ignore) (expected : (Nat → K) → Py (Nat → K))
  | reset
  | resetLr

/-- The learner after a call, successful or not. See irl.py:232-263. -/
def MceIrl.apply (o : MceIrl K) : IrlOp K → MceIrl K
  | .fit m ts ign expected => (o.fit m ts ign expected).1
  | .reset => o.reset
  | .resetLr => o.resetLr

/-- The learner after a list of calls. See irl.py:232-263. -/
def MceIrl.runOps (o : MceIrl K) : List (IrlOp K) → MceIrl K
  | [] => o
  | op :: l => (o.apply op).runOps l

/-- The calls on a learner. See irl.py:486-518. -/
inductive HtOp (K : Type)
  | fit (z : List Nat → (Nat → Nat → Ext K) → Nat → Nat → Ext K)
      (data : List (Mdp K × Py (Nat → Nat → Nat → Ext K) × List Int))
  | reset

/-- The learner after a call, successful or not. See irl.py:486-518. -/
def HtIrl.apply (o : HtIrl K) : HtOp K → HtIrl K
  | .fit z data => (o.fit z data).1
  | .reset => o.reset

/-- The learner after a list of calls. See irl.py:486-518. -/
def HtIrl.runOps (o : HtIrl K) : List (HtOp K) → HtIrl K
  | [] => o
  | op :: l => (o.apply op).runOps l

/-! ## Eyelines -/

/-- `state_pair_to_action` (irl.py:521-526). -/
def irlPairToAction (m : Mdp K) (s1 s2 : Nat) : Py Nat :=
  if 0 < npMax m.nActions (fun a => m.sas s1 a s2) then .ok (npArgmax m.nActions fun a => m.sas s1 a s2)
  else .error .attributeError

/-- The `while` loop of `get_eyeline_features` (irl.py:534-540) with fuel: `none` if it is still running
after `fuel` rounds. -/
def eyeStates (m : Mdp K) (a : Nat) : Nat → Nat → Option (List Nat)
  | 0, _ => none
  | k + 1, s =>
    if 0 < npMax m.nStates (fun t => m.sas s a t) then
      (eyeStates m a k (npArgmax m.nStates fun t => m.sas s a t)).map (s :: ·)
    else some [s]

/-- `mdp.features[:, states].sum(axis=1)` (irl.py:541). -/
def sumFeatures (m : Mdp K) (l : List Nat) : Nat → K := fun f => (l.map fun s => m.features.get f s).sum

/-- `get_eyeline_features` (irl.py:529-542). -/
def eyeFeatures (m : Mdp K) (fuel s a : Nat) : Option (Nat → K) := (eyeStates m a fuel s).map (sumFeatures m)

/-- The inner loop of `get_trajectory_eyeline_features` (irl.py:550-552): states in range. Outer `Option`:
does not terminate within the fuel. -/
def eyeCounts (m : Mdp K) (fuel : Nat) : List Nat → (Nat → K) → Option (Py (Nat → K))
  | s :: t :: l, c => match irlPairToAction m s t with
    | .error e => some (.error e)
    | .ok a => match eyeFeatures m fuel s a with
      | none => none
      | some v => eyeCounts m fuel (t :: l) fun f => c f + v f
  | _, c => some (.ok c)

/-- The loop over trajectories (irl.py:548-552). -/
def eyeTrajectories (m : Mdp K) (fuel : Nat) : List (List Nat) → (Nat → K) → Option (Py (Nat → K))
  | [], c => some (.ok c)
  | t :: ts, c => match eyeCounts m fuel t c with
    | none => none
    | some (.error e) => some (.error e)
    | some (.ok c) => eyeTrajectories m fuel ts c

/-- `if not np.all(x == 0): x /= x.sum()` (irl.py:554-555, 575-578). Division by a sum of 0 (possible only with
negative features) is not modelled (the quotient here is 0). -/
def normaliseCounts (nF : Nat) (c : Nat → K) : Nat → K :=
  if ∀ f, f < nF → c f = 0 then c else fun f => c f / npSum nF c

/-- `get_trajectory_eyeline_features` (irl.py:544-557). -/
def trajectoryEyeline (m : Mdp K) (fuel : Nat) (ts : List (List Nat)) (norm : Bool) : Option (Py (Nat → K)) :=
  match eyeTrajectories m fuel ts (fun _ => 0) with
  | none => none
  | some (.error e) => some (.error e)
  | some (.ok c) => some (.ok (if norm then normaliseCounts m.nFeatures c else c))

/-- The action loop of `get_trajectory_eyeline_features_diff` (irl.py:568-572), over `l`: chosen and unchosen
counts. -/
def diffActions (m : Mdp K) (fuel s chosen : Nat) : List Nat → (Nat → K) × (Nat → K) →
    Option ((Nat → K) × (Nat → K))
  | [], c => some c
  | a :: l, (c, u) => match eyeFeatures m fuel s a with
    | none => none
    | some v => diffActions m fuel s chosen l
        (if a = chosen then (fun f => c f + v f, u) else (c, fun f => u f + v f))

/-- The loop over states (irl.py:566-572); actions run over `range(mdp.n_actions-1)`. -/
def diffCounts (m : Mdp K) (fuel : Nat) : List Nat → (Nat → K) × (Nat → K) →
    Option (Py ((Nat → K) × (Nat → K)))
  | s :: t :: l, c => match irlPairToAction m s t with
    | .error e => some (.error e)
    | .ok a => match diffActions m fuel s a (List.range (m.nActions - 1)) c with
      | none => none
      | some c => diffCounts m fuel (t :: l) c
  | _, c => some (.ok c)

/-- `get_trajectory_eyeline_features_diff` (irl.py:559-582) for one trajectory (as it is called), normalised. -/
def trajectoryEyelineDiff (m : Mdp K) (fuel : Nat) (t : List Nat) : Option (Py (Nat → K)) :=
  match diffCounts m fuel t (fun _ => 0, fun _ => 0) with
  | none => none
  | some (.error e) => some (.error e)
  | some (.ok (c, u)) => some (.ok fun f => normaliseCounts m.nFeatures c f - normaliseCounts m.nFeatures u f)

/-- The loop of `SimpleActionIRL.fit` (irl.py:594-596) and of `SimpleActionFeatureDiffIRL.fit` (irl.py:611-614);
`count` is what is added for one MDP and trajectory. -/
def simpleLoop (count : Mdp K → List Nat → Option (Py (Nat → K))) :
    List (Mdp K) → List (List Nat) → (Nat → K) → Option (Py (Nat → K))
  | [], _, th => some (.ok th)
  | _ :: _, [], _ => some (.error .indexError)
  | m :: ms, t :: ts, th => match count m t with
    | none => none
    | some (.error e) => some (.error e)
    | some (.ok c) => simpleLoop count ms ts fun f => th f + c f

/-- The body shared by `SimpleActionIRL.fit` (irl.py:589-598) and `SimpleActionFeatureDiffIRL.fit` (irl.py:606-616),
MDPs with equally many features; `none` as `theta` is Python's `None`. -/
def simpleBody (count : Mdp K → List Nat → Option (Py (Nat → K))) (mdps : List (Mdp K)) (ts : List (List Nat))
    (reset : Bool) (theta : Option (Nat → K)) : Option (Py (Nat → K)) :=
  match theta with
  | none => if mdps = [] then some (.error .indexError) else simpleLoop count mdps ts fun _ => 0
  | some th => if reset then (if mdps = [] then some (.error .indexError) else simpleLoop count mdps ts fun _ => 0)
      else simpleLoop count mdps ts th

/-- `SimpleActionIRL.fit` (irl.py:589-598). -/
def simpleFit (fuel : Nat) (mdps : List (Mdp K)) (ts : List (List Nat)) (reset : Bool)
    (theta : Option (Nat → K)) : Option (Py (Nat → K)) :=
  simpleBody (fun m t => trajectoryEyeline m fuel [t] true) mdps ts reset theta

/-- `SimpleActionFeatureDiffIRL.fit` (irl.py:606-616). -/
def simpleDiffFit (fuel : Nat) (mdps : List (Mdp K)) (ts : List (List Nat)) (reset : Bool)
    (theta : Option (Nat → K)) : Option (Py (Nat → K)) :=
  simpleBody (fun m t => trajectoryEyelineDiff m fuel t) mdps ts reset theta

end MaMDP
