import Verif.Model.IRL

/-! # What a max-causal-entropy fit reports

The list `error_history` and the warning at the end of `_solve_maxcausalent`, which `Model/IRL.lean` leaves out. -/

namespace MaMDP

variable {K : Type} [Field K] [LinearOrder K] [IsStrictOrderedRing K]

/-- `error_history` (irl.py:196, 211) after a fit that returns; `none` if it raises. The branches are those of
`MceIrl.fit`. See irl.py:169-230, 241-263. -/
def MceIrl.errorHistory (o : MceIrl K) (m : Mdp K) (ts : List (List Int)) (ign : Ignore)
    (expected : (Nat → K) → Py (Nat → K)) : Option (List (Nat → K)) :=
  match ts with
  | [] => none
  | [] :: _ => none
  | _ => match empirical m.nStates ts with
    | .error _ => none
    | .ok D => match zeroAt m.nFeatures (featureCounts m D) ign with
      | .error _ => none
      | .ok trueF =>
        match o.theta with
        | .obj => none
        | .none => run trueF (fun _ => 0)
        | .vec x => run trueF x
where
  /-- irl.py:193-230 once `theta` is a vector. -/
  run (trueF x : Nat → K) : Option (List (Nat → K)) :=
    match zeroAt m.nFeatures x ign with
    | .error _ => none
    | .ok x =>
      match irlLoop o.set m.nFeatures ign expected trueF o.set.maxIter 0 ⟨x, o.lr, []⟩ with
      | (_, .error _) => none
      | (st, .ok ()) => if o.set.maxIter = 0 then none else some st.errors

/-- Whether 'Solver did not converge' is given: `not np.mean(error) < self.tol` for the last error. The mean over no
features is not modelled. See irl.py:229-230. -/
def MceIrl.warns (o : MceIrl K) (m : Mdp K) (ts : List (List Int)) (ign : Ignore)
    (expected : (Nat → K) → Py (Nat → K)) : Bool :=
  match o.errorHistory m ts ign expected with
  | none => false
  | some errs => match errs.getLast? with
    | none => false
    | some err => decide (¬ npSum m.nFeatures err / (m.nFeatures : K) < o.set.tol)

end MaMDP
