import Verif.Model.Demean
import Mathlib.Algebra.BigOperators.Field
import Mathlib.Algebra.CharZero.Defs
import Mathlib.Data.Rat.Defs
import Mathlib.Algebra.Field.Rat
import Mathlib.Tactic.Ring
import Mathlib.Tactic.LinearCombination

/-! # C182: columns without their mean -/

set_option linter.unusedSectionVars false

namespace MaMDP

variable {K : Type} [Field K] [CharZero K]

theorem demean_fold (g : Nat → Nat → K) : ∀ (n : Nat) (a j : Nat),
    ((List.range n).foldl (fun new i => fun a j => if j = i then g a i else new a j) fun _ _ => (0 : K)) a j =
      if j < n then g a j else 0
  | 0, _, _ => rfl
  | n + 1, a, j => by
    rw [List.range_succ, List.foldl_append]
    show (if j = n then g a n else _) = _
    rw [demean_fold g n a j]
    by_cases h : j = n
    · subst h; simp
    · rw [if_neg h]
      by_cases h' : j < n
      · rw [if_pos h', if_pos (by omega)]
      · rw [if_neg h', if_neg (by omega)]

theorem demean_get (x : Arr2 K) (a i : Nat) (hi : i < x.d1) : (demean x).get a i = x.get a i - colMean x i := by
  unfold demean
  dsimp only
  rw [demean_fold (fun a i => x.get a i - colMean x i) x.d1 a i, if_pos hi]

/-- **C182**: the result has the shape of the argument. -/
theorem C182_shape (x : Arr2 K) : (demean x).d0 = x.d0 ∧ (demean x).d1 = x.d1 := ⟨rfl, rfl⟩

/-- **C182**: each column of the result sums to zero. -/
theorem C182_sum (x : Arr2 K) (i : Nat) (hi : i < x.d1) : ∑ a ∈ Finset.range x.d0, (demean x).get a i = 0 := by
  rw [Finset.sum_congr rfl fun a _ => demean_get x a i hi, Finset.sum_sub_distrib, Finset.sum_const, Finset.card_range,
    nsmul_eq_mul]
  rcases Nat.eq_zero_or_pos x.d0 with h | h
  · rw [h]; simp
  · have h0 : (x.d0 : K) ≠ 0 := Nat.cast_ne_zero.2 (by omega)
    unfold colMean npSum
    rw [mul_div_cancel₀ _ h0, sub_self]

/-- **C182**: differences within a column are kept. -/
theorem C182_differences (x : Arr2 K) (a b i : Nat) (hi : i < x.d1) :
    (demean x).get a i - (demean x).get b i = x.get a i - x.get b i := by
  rw [demean_get x a i hi, demean_get x b i hi]; ring

/-- **C182**: it is the only array with both of these. -/
theorem C182_unique (x y : Arr2 K) (i : Nat) (hi : i < x.d1)
    (hsum : ∑ a ∈ Finset.range x.d0, y.get a i = 0)
    (hdiff : ∀ a b, a < x.d0 → b < x.d0 → y.get a i - y.get b i = x.get a i - x.get b i) (a : Nat) (ha : a < x.d0) :
    y.get a i = (demean x).get a i := by
  have h0 : (x.d0 : K) ≠ 0 := Nat.cast_ne_zero.2 (by omega)
  have h : ∀ b ∈ Finset.range x.d0, y.get b i = (demean x).get b i + (y.get a i - (demean x).get a i) := by
    intro b hb
    have h1 := hdiff a b ha (Finset.mem_range.1 hb)
    have h2 := C182_differences x a b i hi
    linear_combination h2 - h1
  rw [Finset.sum_congr rfl h, Finset.sum_add_distrib, C182_sum x i hi, Finset.sum_const, Finset.card_range, nsmul_eq_mul,
    zero_add] at hsum
  rcases mul_eq_zero.1 hsum with h | h
  · exact absurd h h0
  · exact sub_eq_zero.1 h

/-- **C182**: a second time changes nothing. -/
theorem C182_again (x : Arr2 K) (a i : Nat) (ha : a < x.d0) (hi : i < x.d1) :
    (demean (demean x)).get a i = (demean x).get a i :=
  (C182_unique (demean x) (demean x) i hi (C182_sum x i hi) (fun _ _ _ _ => rfl) a ha).symm

/-- **C182**: constants added to the columns do not matter. -/
theorem C182_shift (x : Arr2 K) (c : Nat → K) (a i : Nat) (ha : a < x.d0) (hi : i < x.d1) :
    (demean ⟨x.d0, x.d1, fun a i => x.get a i + c i⟩).get a i = (demean x).get a i :=
  C182_unique x (demean ⟨x.d0, x.d1, fun a i => x.get a i + c i⟩) i hi
    (C182_sum (⟨x.d0, x.d1, fun a i => x.get a i + c i⟩ : Arr2 K) i hi)
    (fun a b _ _ => by
      rw [C182_differences (⟨x.d0, x.d1, fun a i => x.get a i + c i⟩ : Arr2 K) a b i hi]
      ring) a ha

/-- Two rows and two columns: 1, 5 and 3, 5 become -1, 0 and 1, 0. -/
example : let y := demean (⟨2, 2, fun a i => if i = 0 then (if a = 0 then 1 else 3) else 5⟩ : Arr2 ℚ)
    y.get 0 0 = -1 ∧ y.get 1 0 = 1 ∧ y.get 0 1 = 0 ∧ y.get 1 1 = 0 := by decide +kernel

end MaMDP
