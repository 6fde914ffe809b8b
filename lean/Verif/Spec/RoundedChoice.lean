import Verif.Model.RoundedChoice
import Verif.Spec.Chance
import Mathlib.Data.Int.Log
import Mathlib.Algebra.Order.Floor.Ring

/-! # Vocabulary for choices in inexact arithmetic (C149) -/

namespace MaMDP.Spec

/-- Rounding: larger numbers are not rounded to smaller ones, 0 and 1 and results of rounding stay as they are, and the error
is at most `ε` times the number (or, for the smallest numbers, `η`). -/
structure RoundsWell (rnd : ℝ → ℝ) (ε η : ℝ) : Prop where
  mono : Monotone rnd
  zero : rnd 0 = 0
  one : rnd 1 = 1
  idem : ∀ x, rnd (rnd x) = rnd x
  close : ∀ x, |rnd x - x| ≤ ε * |x| + η

/-- Operations on floats that are as accurate as described: rounding as above; exponentials of numbers that are not positive are
between 0 and 1, that of 0 is 1, and the error is at most `ε`; NumPy's check computes sums up to the factor `1 ± τ` (or, for the smallest numbers, up to `η`). -/
structure CarefulOps (fl : FloatOps) (ε η τ : ℝ) : Prop where
  rounds : RoundsWell fl.rnd ε η
  expo_zero : fl.expo 0 = 1
  expo_nonneg : ∀ y, y ≤ 0 → 0 ≤ fl.expo y
  expo_le : ∀ y, y ≤ 0 → fl.expo y ≤ 1
  expo_close : ∀ y, y ≤ 0 → |fl.expo y - Real.exp y| ≤ ε
  total_close : ∀ n p, (∀ a, a < n → 0 ≤ p a) →
    |fl.total n p - ∑ a ∈ Finset.range n, p a| ≤ τ * ∑ a ∈ Finset.range n, p a + η

/-- `u` falls into the `i`-th of the consecutive intervals of lengths `p 0, p 1, ...`, or misses it by at most `E`. -/
def NearSlot (p : Nat → ℝ) (E : ℝ) (i : Nat) (u : ℝ) : Prop :=
  ∑ j ∈ Finset.range i, p j - E ≤ u ∧ u < ∑ j ∈ Finset.range i, p j + p i + E

/-- The nearest integer; of two equally near ones the even one. -/
noncomputable def nearestEven (x : ℝ) : ℤ :=
  if x - ⌊x⌋ < 1 / 2 then ⌊x⌋ else if 1 / 2 < x - ⌊x⌋ then ⌊x⌋ + 1 else if Even ⌊x⌋ then ⌊x⌋ else ⌊x⌋ + 1

/-- The binary exponent of a number in double precision: `e` for numbers between `2 ^ e` and `2 ^ (e + 1)`, but never less than
-1022. -/
noncomputable def binExp (x : ℝ) : ℤ := max (Int.log 2 |x|) (-1022)

/-- Rounding to 53 binary digits, as in double precision: a number between `2 ^ e` and `2 ^ (e + 1)` is rounded to the nearest
multiple of `2 ^ (e - 52)`, a number below `2 ^ (-1022)` to the nearest multiple of `2 ^ (-1074)`. Large exponents are not
limited. -/
noncomputable def double (x : ℝ) : ℝ :=
  nearestEven (x * 2 ^ (52 - binExp x)) * 2 ^ (binExp x - 52)

/-- Double precision: exponentials and the sums of NumPy's check are rounded once, and the check allows `2 ^ (-26)`. -/
noncomputable def doubleOps : FloatOps where
  rnd := double
  expo y := double (Real.exp y)
  total n p := double (∑ a ∈ Finset.range n, p a)
  tol := 2 ^ (-26 : ℤ)

end MaMDP.Spec
