import Verif.Lemmas.PolicyLearning
import Verif.Lemmas.Chance
import Verif.Props.PolicyLearning

/-! # Running estimates of an action that is observed again and again -/

set_option linter.unusedSectionVars false

namespace MaMDP

/-- Where moves differ, a trajectory tells its actions. -/
theorem follows_unique {m : Mdp ℝ} (hd : Spec.MovesDiffer m.trans) {t as bs : List Nat} (ht : ∀ s ∈ t, s < m.nStates)
    (ha : Spec.Follows m t as) (hb : Spec.Follows m t bs) : as = bs := by
  refine List.ext_getElem (ha.1.trans hb.1.symm) fun i h1 h2 => ?_
  have hl := ha.1
  have i1 : i < t.length := by omega
  have i2 : i + 1 < t.length := by omega
  have a1 := ha.2 i t[i] as[i] t[i + 1] (List.getElem?_eq_getElem i1) (List.getElem?_eq_getElem h1)
    (List.getElem?_eq_getElem i2)
  have b1 := hb.2 i t[i] bs[i] t[i + 1] (List.getElem?_eq_getElem i1) (List.getElem?_eq_getElem h2)
    (List.getElem?_eq_getElem i2)
  exact hd t[i] as[i] bs[i] t[i + 1] (ht _ (List.getElem_mem i1)) a1.1 b1.1 (ht _ (List.getElem_mem i2)) a1.2 b1.2

theorem forall₂_follows_unique {m : Mdp ℝ} (hd : Spec.MovesDiffer m.trans) : ∀ {ts ass bss : List (List Nat)},
    Spec.Observed m ts → List.Forall₂ (Spec.Follows m) ts ass → List.Forall₂ (Spec.Follows m) ts bss → ass = bss
  | [], _, _, _, .nil, .nil => rfl
  | t :: ts, _, _, ho, .cons a1 a2, .cons b1 b2 => by
    have h1 : ∀ s ∈ t, s < m.nStates := by
      rcases ho t List.mem_cons_self with rfl | h
      · simp
      · exact h.1
    rw [follows_unique hd h1 a1 b1, forall₂_follows_unique hd (fun u hu => ho u (List.mem_cons_of_mem _ hu)) a2 b2]

section
variable {K : Type} [Field K] [LinearOrder K] [IsStrictOrderedRing K]

/-- The same action again and again, with one rate: the distance to its reward shrinks by the same share each time. -/
theorem tdEstimate_habit (reward : Nat → Nat → K) (c : K) (a : Nat) {rate : Nat → K} (hr : ∀ n, rate n = c) (j : Nat) :
    ∀ (k n : Nat) (q : Nat → K), Spec.tdEstimate rate reward n (List.replicate k a) q j =
      reward a j + (1 - c) ^ k * (q j - reward a j)
  | 0, n, q => by simp [Spec.tdEstimate]
  | k + 1, n, q => by
    rw [List.replicate_succ, Spec.tdEstimate, tdEstimate_habit reward c a hr j k, hr]
    ring

/-- Estimates move towards rewards between 0 and 1: what is missing to 1 shrinks by no more than the rates, and so does
what is there. -/
theorem tdEstimate_between {reward : Nat → Nat → K} (hw : ∀ a j, 0 ≤ reward a j ∧ reward a j ≤ 1) {rate : Nat → K}
    (hr : ∀ n, 0 ≤ rate n ∧ rate n ≤ 1) (j : Nat) : ∀ (l : List Nat) (n : Nat) (q : Nat → K), 0 ≤ q j → q j ≤ 1 →
    (0 ≤ Spec.tdEstimate rate reward n l q j ∧ Spec.tdEstimate rate reward n l q j ≤ 1) ∧
    (∏ i ∈ Finset.range l.length, (1 - rate (n + i))) * (1 - q j) ≤ 1 - Spec.tdEstimate rate reward n l q j ∧
    (∏ i ∈ Finset.range l.length, (1 - rate (n + i))) * q j ≤ Spec.tdEstimate rate reward n l q j ∧
    Spec.tdEstimate rate reward n l q j ≤ q j + ∑ i ∈ Finset.range l.length, rate (n + i)
  | [], n, q, h0, h1 => by simp [Spec.tdEstimate, h0, h1]
  | a :: l, n, q, h0, h1 => by
    have r0 := (hr n).1
    have r1 := (hr n).2
    have w0 := (hw a j).1
    have w1 := (hw a j).2
    have e0 : 0 ≤ q j + rate n * (reward a j - q j) := by
      have := mul_nonneg (sub_nonneg.2 r1) h0
      have := mul_nonneg r0 w0
      linarith
    have e1 : q j + rate n * (reward a j - q j) ≤ 1 := by
      have := mul_nonneg (sub_nonneg.2 r1) (sub_nonneg.2 h1)
      have := mul_nonneg r0 (sub_nonneg.2 w1)
      linarith
    obtain ⟨i1, i2, i3, i4⟩ := tdEstimate_between hw hr j l (n + 1) (fun j => q j + rate n * (reward a j - q j)) e0 e1
    have hp : 0 ≤ ∏ i ∈ Finset.range l.length, (1 - rate (n + 1 + i)) :=
      Finset.prod_nonneg fun i _ => sub_nonneg.2 (hr _).2
    rw [Spec.tdEstimate, List.length_cons, Finset.prod_range_succ', Finset.sum_range_succ']
    have ep : ∏ i ∈ Finset.range l.length, (1 - rate (n + (i + 1))) = ∏ i ∈ Finset.range l.length, (1 - rate (n + 1 + i)) :=
      Finset.prod_congr rfl fun i _ => by rw [add_assoc, add_comm 1 i]
    have es : ∑ i ∈ Finset.range l.length, rate (n + (i + 1)) = ∑ i ∈ Finset.range l.length, rate (n + 1 + i) :=
      Finset.sum_congr rfl fun i _ => by rw [add_assoc, add_comm 1 i]
    rw [ep, es, add_zero]
    refine ⟨i1, le_trans ?_ i2, le_trans ?_ i3, le_trans i4 ?_⟩
    · rw [mul_assoc]
      refine mul_le_mul_of_nonneg_left ?_ hp
      have := mul_nonneg r0 (sub_nonneg.2 w1)
      linarith
    · rw [mul_assoc]
      refine mul_le_mul_of_nonneg_left ?_ hp
      have := mul_nonneg r0 w0
      linarith
    · have h2 : rate n * (reward a j - q j) ≤ rate n * 1 := mul_le_mul_of_nonneg_left (by linarith) r0
      linarith

/-- A product of shares is at least 1 less their total. -/
theorem one_sub_sum_le {x : Nat → K} (h : ∀ i, 0 ≤ x i ∧ x i ≤ 1) : ∀ n, 1 - ∑ i ∈ Finset.range n, x i ≤
    ∏ i ∈ Finset.range n, (1 - x i)
  | 0 => by simp
  | n + 1 => by
    rw [Finset.sum_range_succ, Finset.prod_range_succ]
    have h1 := one_sub_sum_le h n
    have h2 : ∏ i ∈ Finset.range n, (1 - x i) ≤ 1 :=
      Finset.prod_le_one (fun i _ => sub_nonneg.2 (h i).2) fun i _ => sub_le_self _ (h i).1
    have := mul_nonneg (sub_nonneg.2 h2) (h n).1
    linarith

theorem oneHot_between (a j : Nat) : 0 ≤ (Spec.oneHot a j : K) ∧ (Spec.oneHot a j : K) ≤ 1 := by
  unfold Spec.oneHot; split_ifs <;> simp

end

/-- A product of shares, by their total, when none is above `c`. -/
theorem exp_le_prod {x : Nat → ℝ} {c : ℝ} (hc : c < 1) (h : ∀ i, 0 ≤ x i ∧ x i ≤ c) (n : Nat) :
    Real.exp (-((∑ i ∈ Finset.range n, x i) / (1 - c))) ≤ ∏ i ∈ Finset.range n, (1 - x i) := by
  have hc' : 0 < 1 - c := by linarith
  have hpos : ∀ i, 0 < 1 - x i := fun i => by have := (h i).2; linarith
  rw [Finset.sum_div, ← Finset.sum_neg_distrib, Real.exp_sum]
  refine Finset.prod_le_prod (fun i _ => (Real.exp_pos _).le) fun i _ => ?_
  rw [← Real.le_log_iff_exp_le (hpos i)]
  refine le_trans ?_ (Real.one_sub_inv_le_log_of_pos (hpos i))
  have e : 1 - (1 - x i)⁻¹ = -(x i / (1 - x i)) := by
    field_simp [(hpos i).ne']
    ring
  rw [e, neg_le_neg_iff]
  exact div_le_div_of_nonneg_left (h i).1 hc' (by have := (h i).2; linarith)

theorem two_pow_le_factorial : ∀ n : Nat, 2 ^ n ≤ (n + 1).factorial
  | 0 => by simp
  | n + 1 => by
    rw [Nat.factorial_succ, pow_succ]
    have := two_pow_le_factorial n
    nlinarith

theorem six_four_pow_le_factorial : ∀ n : Nat, 6 * 4 ^ n ≤ (n + 3).factorial
  | 0 => by simp [Nat.factorial]
  | n + 1 => by
    rw [show n + 1 + 3 = (n + 3) + 1 by ring, Nat.factorial_succ, pow_succ]
    have := six_four_pow_le_factorial n
    nlinarith

/-- Rates that fall like `(n!) ** -d` add up to a bounded total. -/
theorem factorial_rates {d : ℝ} (hd : 0 < d) (k : Nat) :
    ∑ i ∈ Finset.range k, ((1 + i).factorial : ℝ) ^ (-d) ≤ 1 / (1 - 2 ^ (-d)) := by
  have hρ0 : (0 : ℝ) ≤ 2 ^ (-d) := Real.rpow_nonneg (by norm_num) _
  have hρ1 : (2 : ℝ) ^ (-d) < 1 := Real.rpow_lt_one_of_one_lt_of_neg (by norm_num) (by linarith)
  have hle : ∀ i, ((1 + i).factorial : ℝ) ^ (-d) ≤ ((2 : ℝ) ^ (-d)) ^ i := fun i => by
    rw [← Real.rpow_natCast, ← Real.rpow_mul (by norm_num), mul_comm, Real.rpow_mul (by norm_num), Real.rpow_natCast]
    refine Real.rpow_le_rpow_of_nonpos (by positivity) ?_ (by linarith)
    rw [add_comm 1 i]
    exact_mod_cast two_pow_le_factorial i
  refine (Finset.sum_le_sum fun i _ => hle i).trans ?_
  have hpos : 0 < 1 - (2 : ℝ) ^ (-d) := by linarith
  rw [geom_sum_eq hρ1.ne, ← neg_div_neg_eq, neg_sub, neg_sub]
  refine div_le_div_of_nonneg_right ?_ hpos.le
  have := pow_nonneg hρ0 k
  linarith

/-- With decay 1/2 the rates from the third on have a total below 0.82 of the first. -/
theorem sqrt_factorial_rates (k : Nat) :
    ∑ i ∈ Finset.range k, ((3 + i).factorial : ℝ) ^ (-(1 / 2 : ℝ)) ≤ 82 / 100 := by
  have hle : ∀ i, ((3 + i).factorial : ℝ) ^ (-(1 / 2 : ℝ)) ≤ 41 / 100 * (1 / 2) ^ i := fun i => by
    rw [Real.rpow_neg (by positivity), ← Real.sqrt_eq_rpow]
    have h6 : (100 / 41 : ℝ) * 2 ^ i ≤ Real.sqrt ((3 + i).factorial : ℝ) := by
      refine Real.le_sqrt_of_sq_le ?_
      have h1 : (6 * 4 ^ i : ℝ) ≤ ((3 + i).factorial : ℝ) := by
        rw [add_comm 3 i]
        exact_mod_cast six_four_pow_le_factorial i
      refine le_trans ?_ h1
      have e : ((2 : ℝ) ^ i) ^ 2 = 4 ^ i := by rw [← pow_mul, mul_comm, pow_mul]; norm_num
      rw [mul_pow, e]
      have : (0 : ℝ) < 4 ^ i := by positivity
      nlinarith
    have hp : (0 : ℝ) < 100 / 41 * 2 ^ i := by positivity
    refine (inv_anti₀ hp h6).trans (le_of_eq ?_)
    rw [mul_inv, one_div_pow, one_div]
    norm_num
  refine (Finset.sum_le_sum fun i _ => hle i).trans ?_
  rw [← Finset.mul_sum]
  have hg : ∑ i ∈ Finset.range k, (1 / 2 : ℝ) ^ i ≤ 2 := by
    rw [geom_sum_eq (by norm_num)]
    have : (0 : ℝ) < (1 / 2) ^ k := by positivity
    rw [div_le_iff_of_neg (by norm_num)]
    linarith
  linarith

end MaMDP
