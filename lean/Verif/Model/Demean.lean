import Verif.Model.Py

/-! # `demean` (irl.py:24-28)

For arrays of floats; no other function of the package calls it. -/

namespace MaMDP

variable {K : Type} [Field K]

/-- `x[:, i].mean()` (irl.py:27). -/
def colMean (x : Arr2 K) (i : Nat) : K := npSum x.d0 (fun a => x.get a i) / (x.d0 : K)

/-- `demean` (irl.py:24-28): column by column, into a new array of zeros. -/
def demean (x : Arr2 K) : Arr2 K :=
  ⟨x.d0, x.d1, (List.range x.d1).foldl
    (fun new i => fun a j => if j = i then x.get a i - colMean x i else new a j) fun _ _ => 0⟩

end MaMDP
