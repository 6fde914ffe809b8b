import Mathlib.Data.List.Basic
import Mathlib.Algebra.Order.Field.Basic
import Mathlib.Algebra.BigOperators.Group.Finset.Basic
import Mathlib.Algebra.Order.BigOperators.Group.Finset

/-!
# Python / NumPy prelude

The small part of Python and NumPy semantics that the code in `/repo/maMDP` relies on.
Nothing here is specific to the package.
-/

namespace MaMDP

/-- The exception classes raised by the modelled code. See mdp.py:56-78, base.py:41-64. -/
inductive PyErr
  | typeError | valueError | indexError | attributeError | assertionError
  | notImplementedError | unboundLocalError | keyError | zeroDivisionError
  deriving DecidableEq, Repr

/-- Result of a Python call: a value or a raised exception. See mdp.py:53-78. -/
abbrev Py (α : Type _) := Except PyErr α

/-- Index `i` (a Python int) into an axis of length `n`: negative indices count from the
end, anything else outside the axis is an `IndexError` (`none`). See mdp.py:165-172. -/
def pyIdx (n : Nat) (i : Int) : Option Nat :=
  if 0 ≤ i then (if i < n then some i.toNat else none)
  else if -(n : Int) ≤ i then some (n + i).toNat else none

/-- A NumPy array of rank 1, 2, 3: its shape and its entries. Entries outside the shape are
meaningless and never read. See mdp.py:109-139. -/
structure Arr1 (α : Type _) where
  d0 : Nat
  get : Nat → α

/-- Rank 2 array. See mdp.py:88-102. -/
structure Arr2 (α : Type _) where
  d0 : Nat
  d1 : Nat
  get : Nat → Nat → α

/-- Rank 3 array. See mdp.py:54-78. -/
structure Arr3 (α : Type _) where
  d0 : Nat
  d1 : Nat
  d2 : Nat
  get : Nat → Nat → Nat → α

/-- `np.argmax(x)` for a vector of length `n ≥ 1`: index of the first maximal entry. See mdp.py:202-224. -/
def npArgmax {K : Type _} [LinearOrder K] : Nat → (Nat → K) → Nat
  | 0, _ => 0
  | 1, _ => 0
  | n + 2, f => let b := npArgmax (n + 1) f
                if f b < f (n + 1) then n + 1 else b

/-- `x.max()` for a vector of length `n ≥ 1` (NumPy raises on the empty vector; callers guard). See mdp.py:267. -/
def npMax {K : Type _} [LinearOrder K] : Nat → (Nat → K) → K
  | 0, f => f 0
  | 1, f => f 0
  | n + 2, f => max (npMax (n + 1) f) (f (n + 1))

/-- `np.where(mask)[0]` for a boolean vector of length `n`: increasing list of the true indices. See mcts.py:345. -/
def npWhere (n : Nat) (p : Nat → Bool) : List Nat := (List.range n).filter p

/-- `np.dot(u, v)` / `np.sum(u * v)` for vectors of length `n`. See dynamic_programming.py:164. -/
def npDot {K : Type _} [NonUnitalNonAssocSemiring K] (n : Nat) (u v : Nat → K) : K :=
  ∑ i ∈ Finset.range n, u i * v i

/-- `np.sum(v)` for a vector of length `n`. See dynamic_programming.py:40-47. -/
def npSum {K : Type _} [AddCommMonoid K] (n : Nat) (v : Nat → K) : K :=
  ∑ i ∈ Finset.range n, v i

/-- In-place assignment `v[i] = x`. See mcts.py:758. -/
def upd1 {α : Type _} (v : Nat → α) (i : Nat) (x : α) : Nat → α :=
  fun k => if k = i then x else v k

/-- In-place assignment `m[i, j] = x`. See mdp.py:166-172. -/
def upd2 {α : Type _} (m : Nat → Nat → α) (i j : Nat) (x : α) : Nat → Nat → α :=
  fun k l => if k = i ∧ l = j then x else m k l

/-- In-place assignment `t[i, j, k] = x`. See mdp.py:488-510. -/
def upd3 {α : Type _} (t : Nat → Nat → Nat → α) (i j k : Nat) (x : α) : Nat → Nat → Nat → α :=
  fun a b c => if a = i ∧ b = j ∧ c = k then x else t a b c

/-- Extended floats as they occur in Q tables. See dynamic_programming.py:99-132. -/
inductive Ext (K : Type _)
  | nan
  | ninf
  | fin (x : K)
  | pinf
  deriving DecidableEq, Repr

/-- `rng.choice(candidates)` (uniform): whatever the generator returns is one of the candidates.
`draw` is the generator's outcome, an arbitrary number; it selects entry `draw mod length`.
An empty candidate list raises `ValueError`. See action_selection.py:40. -/
def rngChoice {α : Type _} (cands : List α) (draw : Nat) : Py α :=
  match cands[draw % cands.length]? with
  | some x => .ok x
  | none => .error .valueError

end MaMDP
