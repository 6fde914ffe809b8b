import Verif.Model.DynamicProgramming
import Mathlib.LinearAlgebra.Matrix.NonsingularInverse
import Mathlib.Data.Fintype.Basic

/-! # Model of `/repo/maMDP/algorithms/successor_representation.py` -/

namespace MaMDP

variable {K : Type} [Field K] [LinearOrder K] [IsStrictOrderedRing K]

/-- `np.argwhere(sas[s, a, :])` (successor_representation.py:26): the successors in increasing order;
the code uses the first. -/
def firstSuccessor (M : Trans K) (s a : Nat) : Option Nat :=
  (npWhere M.nS fun t => decide (M.p s a t ≠ 0)).head?

/-- The matrix `sathing` (successor_representation.py:21-32): row `s * nA + a`, column
`s' * nA + a'`. Every entry is written at most once, so the loops amount to this table. -/
def saMatrix (M : Trans K) : Matrix (Fin (M.nS * M.nA)) (Fin (M.nS * M.nA)) K :=
  fun i j => if firstSuccessor M (i / M.nA) (i % M.nA) = some (j / M.nA) then 1 / (M.nA : K) else 0

open Classical in
/-- `get_sa_sr` (successor_representation.py:5-36). `np.linalg.inv` is the exact inverse and raises
`LinAlgError` (a `ValueError` subclass) for a singular matrix. -/
noncomputable def getSaSr (M : Trans K) (γ : K) :
    Py (Matrix (Fin (M.nS * M.nA)) (Fin (M.nS * M.nA)) K) :=
  if IsUnit (1 - γ • saMatrix M).det then .ok (1 - γ • saMatrix M)⁻¹ else .error .valueError

/-- `get_sr_q_values` (successor_representation.py:38-81) for a square `sr` of the matching size.
`features` has `nF` rows and `fCols` columns. Entry `(s, a)` of the reshaped product is entry
`s * nA + a` of the vector. -/
def getSrQValues (nF fCols : Nat) (theta : Nat → K) (features : Nat → Nat → K) (M : Trans K)
    (sr : Matrix (Fin (M.nS * M.nA)) (Fin (M.nS * M.nA)) K) : Py (Nat → Nat → Ext K) :=
  if fCols ≠ M.nS then .error .assertionError
  else
    let reward := stateReward nF theta features
    let qs : Fin (M.nS * M.nA) → K := sr.mulVec fun j => reward (j / M.nA)
    .ok (maskQ M fun s a => if h : s * M.nA + a < M.nS * M.nA then qs ⟨s * M.nA + a, h⟩ else 0)

end MaMDP
