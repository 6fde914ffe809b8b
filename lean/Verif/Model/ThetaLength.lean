import Verif.Model.IRL

/-! # Weights of any length in `/repo/maMDP/algorithms/irl.py`

`Model/IRL.lean` assumes that the weights a learner holds have one entry per feature. Here they have `k` entries, `k`
being an argument of the calls. -/

namespace MaMDP

variable {K : Type} [Field K] [LinearOrder K] [IsStrictOrderedRing K]

/-- `MaxCausalEntIRL.fit` (irl.py:241-263) with `_solve_maxcausalent` (169-230) of an object whose weights have `k`
entries. `self.theta[ignore_features] = 0` (193) indexes an array of that length. The first iteration multiplies the weights
and the features with compiled `np.dot` (dynamic_programming.py:164), which raises `ValueError` when the lengths differ; what it
does with no weights at all depends on the version of numba, and `k = 0` is left out of the theorems. -/
def MceIrl.fitSized (o : MceIrl K) (k : Nat) (m : Mdp K) (ts : List (List Int)) (ign : Ignore)
    (expected : (Nat → K) → Py (Nat → K)) : MceIrl K × Py (Nat → K) :=
  match ts with
  | [] => (o, .error .indexError)
  | [] :: _ => (o, .error .typeError)
  | _ => match empirical m.nStates ts with
    | .error e => (o, .error e)
    | .ok D => match zeroAt m.nFeatures (featureCounts m D) ign with
      | .error e => (o, .error e)
      | .ok trueF =>
        match o.theta with
        | .obj => match ign with
          | .tuple [] => (o, .error .typeError)
          | _ => (o, .error .indexError)
        | .none => run { o with aliased := false } m.nFeatures trueF (fun _ => 0)
        | .vec x => run o k trueF x
where
  /-- irl.py:193-230 once `theta` is a vector with `k` entries. -/
  run (o : MceIrl K) (k : Nat) (trueF x : Nat → K) : MceIrl K × Py (Nat → K) :=
    match zeroAt k x ign with
    | .error e => (o.write x o.lr, .error e)
    | .ok x =>
      match irlLoop o.set m.nFeatures ign (fun θ => if k = m.nFeatures then expected θ else .error .valueError) trueF
        o.set.maxIter 0 ⟨x, o.lr, []⟩ with
      | (st, .error e) => (o.write st.theta st.lr, .error e)
      | (st, .ok ()) =>
        if o.set.maxIter = 0 then (o.write st.theta st.lr, .error .unboundLocalError)
        else (o.write st.theta st.lr, .ok st.theta)

/-- The loop over the pairs of one trajectory (irl.py:447-474) in a world of `nF` features with `k` weights. `R - R_` (455) and
`R_ += ...` (465, 469) are NumPy operations on arrays of lengths `nF` and `k`: a single feature is repeated to the length of
the weights, a single weight cannot take up the result for several features, other differences are refused at once. -/
def htPairsSized (set : HtSettings K) (k nF : Nat) (M : Trans K)
    (z : List Nat → (Nat → Nat → Ext K) → Nat → Nat → Ext K) (Q : Py (Nat → Nat → Nat → Ext K)) :
    List Int → Nat → (Nat → Ext K) → (Nat × (Nat → Ext K)) × Py Unit
  | s :: t :: l, n, R' => match pyIdx M.nS s, pyIdx M.nS t with
    | some i, some j => match npWhere M.nA fun a => decide (M.p i a j ≠ 0) with
      | [] => ((n, R'), .error .valueError)
      | _ => match Q with
        | .error e => ((n, R'), .error e)
        | .ok Q => match singleMove set M z Q s t with
          | .error e => ((n, R'), .error e)
          | .ok R =>
            if k = nF then htPairsSized set k nF M z (.ok Q) (t :: l) (n + 1) (htUpdate set n R R')
            else if nF = 1 then htPairsSized set k nF M z (.ok Q) (t :: l) (n + 1) (htUpdate set n (fun _ => R 0) R')
            else ((n, R'), .error .valueError)
    | _, _ => ((n, R'), .error .valueError)
  | _, n, R' => ((n, R'), .ok ())

/-- The loop over trajectories (irl.py:441-477) with `k` weights. -/
def htLoopSized (set : HtSettings K) (k : Nat) (z : List Nat → (Nat → Nat → Ext K) → Nat → Nat → Ext K) :
    List (Mdp K × Py (Nat → Nat → Nat → Ext K) × List Int) → Nat → (Nat → Ext K) →
      (Nat × (Nat → Ext K)) × Py Unit
  | [], n, R' => ((n, R'), .ok ())
  | (m, Q, t) :: l, n, R' => match htPairsSized set k m.nFeatures m.trans z Q t n R' with
    | (st, .error e) => (st, .error e)
    | ((n, R'), .ok ()) => htLoopSized set k z l n R'

/-- `HyptestIRL.fit` (irl.py:490-518) with `_solve_hyptest` (401-484) of an object whose weights `x` have `k` entries. -/
def HtIrl.fitSized (o : HtIrl K) (k : Nat) (x : Nat → Ext K) (z : List Nat → (Nat → Nat → Ext K) → Nat → Nat → Ext K)
    (data : List (Mdp K × Py (Nat → Nat → Nat → Ext K) × List Int)) : HtIrl K × Py (Nat → Ext K) :=
  match htChecks data with
  | .error e => (o.write x, .error e)
  | .ok () => match htLoopSized o.set k z data 1 x with
    | ((_, R'), .error e) => (o.write R', .error e)
    | ((n, R'), .ok ()) => if n = 1 then (o.write R', .error .valueError) else (o.write R', .ok R')

end MaMDP
