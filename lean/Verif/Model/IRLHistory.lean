import Verif.Model.IRL

/-! # The histories kept by `HyptestIRL` (`/repo/maMDP/algorithms/irl.py`)

`_solve_hyptest` records a copy of the estimate after every move and after every trajectory, and stores both lists in
the object when it is done. `Model/IRL.lean` leaves them out. -/

namespace MaMDP

variable {K : Type} [Field K] [LinearOrder K] [IsStrictOrderedRing K]

/-- The loop over the pairs of one trajectory (irl.py:447-474) together with what it appends to `Rs` (irl.py:472). -/
def htPairsRec (set : HtSettings K) (obj : Bool) (M : Trans K)
    (z : List Nat → (Nat → Nat → Ext K) → Nat → Nat → Ext K) (Q : Py (Nat → Nat → Nat → Ext K)) :
    List Int → Nat → (Nat → Ext K) → List (Nat → Ext K) × (Nat × (Nat → Ext K)) × Py Unit
  | s :: t :: l, n, R' => match pyIdx M.nS s, pyIdx M.nS t with
    | some i, some j => match npWhere M.nA fun a => decide (M.p i a j ≠ 0) with
      | [] => ([], (n, R'), .error .valueError)
      | _ => match Q with
        | .error e => ([], (n, R'), .error e)
        | .ok Q => match singleMove set M z Q s t with
          | .error e => ([], (n, R'), .error e)
          | .ok R =>
            if obj then ([], (n, R'), .error .typeError)
            else
              let R' := htUpdate set n R R'
              let out := htPairsRec set obj M z (.ok Q) (t :: l) (n + 1) R'
              (R' :: out.1, out.2)
    | _, _ => ([], (n, R'), .error .valueError)
  | _, n, R' => ([], (n, R'), .ok ())

/-- The loop over trajectories (irl.py:441-477) together with the lists `Rs` and `observed_Rs` (irl.py:429-430). -/
def htLoopRec (set : HtSettings K) (obj : Bool) (z : List Nat → (Nat → Nat → Ext K) → Nat → Nat → Ext K) :
    List (Mdp K × Py (Nat → Nat → Nat → Ext K) × List Int) → Nat → (Nat → Ext K) →
      List (Nat → Ext K) × List (Nat → Ext K) × (Nat × (Nat → Ext K)) × Py Unit
  | [], n, R' => ([], [], (n, R'), .ok ())
  | (m, Q, t) :: l, n, R' => match htPairsRec set obj m.trans z Q t n R' with
    | (Rs, st, .error e) => (Rs, [], st, .error e)
    | (Rs, (n, R'), .ok ()) =>
      let out := htLoopRec set obj z l n R'
      (Rs ++ out.1, R' :: out.2.1, out.2.2)

/-- A `HyptestIRL` object with its attributes `theta_array` and `trajectory_theta`, which do not exist before the first
fit that succeeds. See irl.py:483-484. -/
structure HtKept (K : Type) where
  learner : HtIrl K
  thetaArray : Option (List (Nat → Ext K))
  trajectoryTheta : Option (List (Nat → Ext K))

/-- `HyptestIRL.fit` (irl.py:490-518) with `_solve_hyptest` (401-484), histories included. -/
def HtKept.fit (o : HtKept K) (z : List Nat → (Nat → Nat → Ext K) → Nat → Nat → Ext K)
    (data : List (Mdp K × Py (Nat → Nat → Nat → Ext K) × List Int)) : HtKept K × Py (Nat → Ext K) :=
  match htChecks data with
  | .error e => (o, .error e)
  | .ok () => match o.learner.theta with
    | .obj => match htLoopRec o.learner.set true z data 1 fun _ => .nan with
      | (_, _, _, .error e) => (o, .error e)
      | (_, _, _, .ok ()) => (o, .error .valueError)
    | .none => match htLoopRec o.learner.set false z data 1 fun _ => .fin 0 with
      | (_, _, _, .error e) => (o, .error e)
      | (Rs, Os, (_, R'), .ok ()) =>
        if Rs = [] then (o, .error .valueError)
        else (⟨{ o.learner with theta := .vec R', aliased := false }, some Rs, some Os⟩, .ok R')
    | .vec x => match htLoopRec o.learner.set false z data 1 x with
      | (_, _, (_, R'), .error e) => ({ o with learner := o.learner.write R' }, .error e)
      | (Rs, Os, (_, R'), .ok ()) =>
        if Rs = [] then ({ o with learner := o.learner.write R' }, .error .valueError)
        else (⟨o.learner.write R', some Rs, some Os⟩, .ok R')

end MaMDP
