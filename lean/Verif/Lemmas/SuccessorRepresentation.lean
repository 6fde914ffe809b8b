import Verif.Spec.SuccessorRepresentation
import Verif.Lemmas.DynamicProgramming
import Mathlib.LinearAlgebra.Matrix.ToLinearEquiv
import Mathlib.Algebra.BigOperators.Field

/-! # Lemmas about the successor representation -/

set_option linter.unusedSectionVars false

namespace MaMDP

variable {K : Type} [Field K] [LinearOrder K] [IsStrictOrderedRing K]

/-! ## Auxiliary facts -/

theorem firstSuccessor_some {M : Trans K} {s a t : Nat} :
    firstSuccessor M s a = some t ↔ Spec.IsFirstSuccessor M s a t := by
  unfold firstSuccessor npWhere Spec.IsFirstSuccessor
  rw [List.head?_filter, List.find?_range_eq_some]
  simp only [decide_eq_true_eq, List.mem_range, Bool.not_eq_true', decide_eq_false_iff_not, not_not]
  constructor
  · rintro ⟨h1, h2, h3⟩; exact ⟨h2, h1, h3⟩
  · rintro ⟨h1, h2, h3⟩; exact ⟨h2, h1, h3⟩

theorem firstSuccessor_none {M : Trans K} {s a : Nat} :
    firstSuccessor M s a = none ↔ ∀ t, t < M.nS → M.p s a t = 0 := by
  unfold firstSuccessor npWhere
  rw [List.head?_eq_none_iff, List.filter_eq_nil_iff]
  simp

/-- A sum over the state-action pairs with one fixed state. -/
theorem sum_pairs {n m : Nat} (t : Nat) (ht : t < n) (f : Nat → K) :
    ∑ j : Fin (n * m), (if t = (j : Nat) / m then f (j % m) else 0) = ∑ a ∈ Finset.range m, f a := by
  rw [Fin.sum_univ_eq_sum_range fun j => if t = j / m then f (j % m) else 0]
  rw [← Finset.sum_filter]
  symm
  apply Finset.sum_nbij (fun a => t * m + a)
  · intro a ha
    have ha' := Finset.mem_range.1 ha
    rw [Finset.mem_filter, Finset.mem_range]
    refine ⟨?_, ?_⟩
    · calc t * m + a < t * m + m := by omega
        _ = (t + 1) * m := by ring
        _ ≤ n * m := Nat.mul_le_mul_right m ht
    · rw [Nat.mul_comm, Nat.mul_add_div (by omega), Nat.div_eq_of_lt ha', Nat.add_zero]
  · intro a _ b _ h
    simpa using h
  · intro j hj
    rw [Finset.mem_coe, Finset.mem_filter, Finset.mem_range] at hj
    have hm : 0 < m := by
      rcases Nat.eq_zero_or_pos m with h | h
      · subst h; simp at hj
      · exact h
    refine ⟨j % m, ?_, ?_⟩
    · rw [Finset.mem_coe, Finset.mem_range]; exact Nat.mod_lt _ hm
    · simp only
      rw [hj.2, Nat.mul_comm]; exact Nat.div_add_mod j m
  · intro a ha
    have ha' := Finset.mem_range.1 ha
    rw [Nat.mul_comm, Nat.mul_add_mod, Nat.mod_eq_of_lt ha']

theorem firstSuccessor_lt {M : Trans K} {s a t : Nat} (h : firstSuccessor M s a = some t) : t < M.nS :=
  (firstSuccessor_some.1 h).1

/-- One row of the matrix applied to a vector. -/
theorem saMatrix_mulVec (M : Trans K) (x : Nat → K) (i : Fin (M.nS * M.nA)) :
    (saMatrix M).mulVec (fun j => x j) i =
      match firstSuccessor M (i / M.nA) (i % M.nA) with
      | some t => (∑ a ∈ Finset.range M.nA, x (t * M.nA + a)) / M.nA
      | none => 0 := by
  unfold Matrix.mulVec dotProduct saMatrix
  cases h : firstSuccessor M (i / M.nA) (i % M.nA) with
  | none => simp [h]
  | some t =>
    have ht := firstSuccessor_lt h
    simp only [h, Option.some.injEq]
    rw [Finset.sum_div, ← sum_pairs t ht fun a => x (t * M.nA + a) / (M.nA : K)]
    apply Finset.sum_congr rfl
    intro j _
    by_cases hj : t = (j : Nat) / M.nA
    · rw [if_pos hj, if_pos hj]
      have : t * M.nA + (j : Nat) % M.nA = j := by rw [hj, Nat.mul_comm]; exact Nat.div_add_mod _ _
      rw [this]; ring
    · rw [if_neg hj, if_neg hj, zero_mul]

theorem saMatrix_nonneg (M : Trans K) (i j) : 0 ≤ saMatrix M i j := by
  unfold saMatrix; split_ifs
  · positivity
  · exact le_refl _

theorem saMatrix_row_sum (M : Trans K) (i) : ∑ j, saMatrix M i j ≤ 1 := by
  have h := saMatrix_mulVec M (fun _ => 1) i
  have e : (saMatrix M).mulVec (fun _ => 1) i = ∑ j, saMatrix M i j := by
    simp [Matrix.mulVec, dotProduct]
  rw [← e, h]
  split
  · rw [Finset.sum_const, Finset.card_range, nsmul_eq_mul, mul_one]
    by_cases h0 : (M.nA : K) = 0
    · rw [h0]; simp
    · rw [div_self h0]
  · exact zero_le_one

/-- Minimum principle: a non-negative, sub-stochastic matrix `T` and `x ≥ γ T x` force `x ≥ 0`. -/
theorem min_principle {n : Nat} {T : Matrix (Fin n) (Fin n) K} (h1 : ∀ i j, 0 ≤ T i j)
    (h2 : ∀ i, ∑ j, T i j ≤ 1) {γ : K} (g0 : 0 ≤ γ) (g1 : γ < 1) {x : Fin n → K}
    (hx : ∀ i, 0 ≤ (1 - γ • T).mulVec x i) : ∀ i, 0 ≤ x i := by
  intro i0
  obtain ⟨k, -, hk⟩ := Finset.exists_min_image Finset.univ x ⟨i0, Finset.mem_univ _⟩
  refine le_trans ?_ (hk i0 (Finset.mem_univ _))
  by_contra hneg
  push Not at hneg
  have h := hx k
  rw [Matrix.sub_mulVec, Matrix.one_mulVec, Matrix.smul_mulVec] at h
  simp only [Pi.sub_apply, Pi.smul_apply, smul_eq_mul] at h
  have hT : x k ≤ T.mulVec x k := by
    calc x k = 1 * x k := (one_mul _).symm
      _ ≤ (∑ j, T k j) * x k := mul_le_mul_of_nonpos_right (h2 k) hneg.le
      _ = ∑ j, T k j * x k := by rw [Finset.sum_mul]
      _ ≤ ∑ j, T k j * x j := Finset.sum_le_sum fun j hj => mul_le_mul_of_nonneg_left (hk j hj) (h1 k j)
  have hT2 : T.mulVec x k ≤ x k / γ ∨ γ = 0 := by
    rcases eq_or_lt_of_le g0 with e | e
    · exact .inr e.symm
    · left; rw [le_div_iff₀ e]; linarith
  rcases hT2 with e | e
  · have : γ * x k > x k := by nlinarith
    have := mul_le_mul_of_nonneg_left hT g0
    linarith
  · rw [e] at h; linarith

theorem srMatrix_isUnit (M : Trans K) {γ : K} (g0 : 0 ≤ γ) (g1 : γ < 1) :
    IsUnit (1 - γ • saMatrix M).det := by
  rw [isUnit_iff_ne_zero]
  intro h0
  obtain ⟨x, hx, e⟩ := Matrix.exists_mulVec_eq_zero_iff.2 h0
  apply hx
  have p1 := min_principle (saMatrix_nonneg M) (saMatrix_row_sum M) g0 g1 (x := x)
    (fun i => by rw [e]; exact le_refl _)
  have p2 := min_principle (saMatrix_nonneg M) (saMatrix_row_sum M) g0 g1 (x := -x)
    (fun i => by rw [Matrix.mulVec_neg, e]; simp)
  funext i
  have := p2 i
  simp only [Pi.neg_apply] at this
  simp only [Pi.zero_apply]
  linarith [p1 i]

end MaMDP
