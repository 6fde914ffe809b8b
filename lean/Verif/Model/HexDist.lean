import Verif.Model.Mdp

/-! # Model of `hex_dist` (`/repo/maMDP/grid_utils.py`) and of `TDPolicyIRL` (`/repo/maMDP/algorithms/policy_learning.py`) -/

namespace MaMDP

/-- The inner loop of `hex_dist` (grid_utils.py:83-84): row `n`, from column `nn` on. -/
def hexDistRow (n : Nat) (i : Int × Int) : List (Int × Int) → Nat → (Nat → Nat → Rat) → Py (Nat → Nat → Rat)
  | [], _, dist => .ok dist
  | j :: l, nn, dist => match offsetDistance i.1 i.2 j.1 j.2 with
    | .error e => .error e
    | .ok x => hexDistRow n i l (nn + 1) (upd2 dist n nn x)

/-- The outer loop of `hex_dist` (grid_utils.py:82-84), from row `n` on. -/
def hexDistRows (XB : List (Int × Int)) : List (Int × Int) → Nat → (Nat → Nat → Rat) → Py (Nat → Nat → Rat)
  | [], _, dist => .ok dist
  | i :: l, n, dist => match hexDistRow n i XB 0 dist with
    | .error e => .error e
    | .ok dist => hexDistRows XB l (n + 1) dist

/-- `hex_dist` (grid_utils.py:68-86). -/
def hexDist (XA XB : List (Int × Int)) : Py (Arr2 Rat) :=
  match hexDistRows XB XA 0 fun _ _ => 0 with
  | .error e => .error e
  | .ok dist => .ok ⟨XA.length, XB.length, dist⟩

/-- The argument `mdp` of `TDPolicyIRL`: one MDP object, or a list of them. See policy_learning.py:172-174. -/
inductive MdpArg (K : Type)
  | one (m : Mdp K)
  | many (l : List (Mdp K))

/-- `TDPolicyIRL` (policy_learning.py:172-218). `mdp.n_actions` (174) needs an MDP object, a list has no such attribute;
`mdp[n]` (184) needs a list, an MDP object is not subscriptable. The rest of the loop is never reached, whatever the
other arguments are. -/
def tdPolicyIRL {K : Type} [Zero K] (trajectories : List (List Int)) : MdpArg K → Py (Arr1 K × List (List Int))
  | .many _ => .error .attributeError
  | .one m => match trajectories with
    | [] => .ok (⟨m.nActions, fun _ => 0⟩, [])
    | _ :: _ => .error .typeError

end MaMDP
