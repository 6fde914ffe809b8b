import Verif.Lemmas.Interests
import Verif.Lemmas.Overflow
import Mathlib.Analysis.Complex.ExponentialBounds

/-! # Soft and hard value iteration side by side (C170) -/

set_option linter.unusedSectionVars false

namespace MaMDP

theorem exp_460 : (1 : ℝ) / 10 ^ 200 ≤ Real.exp (-460) := by
  rw [Real.exp_neg, ← one_div]
  refine one_div_le_one_div_of_le (Real.exp_pos _) ?_
  have h : Real.exp 460 = (Real.exp 1 ^ 46) ^ 10 := by rw [← pow_mul, ← Real.exp_nat_mul]; norm_num
  have h46 : Real.exp 1 ^ 46 ≤ 95 * 10 ^ 18 :=
    (pow_le_pow_left₀ (Real.exp_pos 1).le Real.exp_one_lt_d9.le 46).trans (by norm_num)
  rw [h]
  refine (pow_le_pow_left₀ (pow_nonneg (Real.exp_pos 1).le _) h46 10).trans ?_
  norm_num

theorem exp_461 : Real.exp (-461) ≤ (1 : ℝ) / 10 ^ 200 := by
  rw [Real.exp_neg, ← one_div]
  refine one_div_le_one_div_of_le (by positivity) ?_
  have h : Real.exp 461 = (Real.exp 1 ^ 46) ^ 10 * Real.exp 1 := by
    rw [← pow_mul, ← pow_succ, ← Real.exp_nat_mul]; norm_num
  have h46 : 94 * 10 ^ 18 ≤ Real.exp 1 ^ 46 :=
    le_trans (by norm_num) (pow_le_pow_left₀ (by norm_num) Real.exp_one_gt_d9.le 46)
  rw [h]
  calc (10 : ℝ) ^ 200 ≤ (94 * 10 ^ 18) ^ 10 * 2 := by norm_num
    _ ≤ _ := mul_le_mul (pow_le_pow_left₀ (by norm_num) h46 10) (le_trans (by norm_num) Real.exp_one_gt_d9.le)
      (by norm_num) (pow_nonneg (pow_nonneg (Real.exp_pos 1).le _) _)

/-- The constant 1e-200 counts as less than one action of the best value, unless that is very negative. -/
theorem softBackup_le_best {nA : Nat} {x : Nat → ℝ} {m : ℝ} (h0 : -460 ≤ m) (h : ∀ a, a < nA → x a ≤ m) :
    softBackup nA x ≤ m + Real.log (nA + 1) := by
  have hs := sum_exp_le h
  have hc : (0 : ℝ) < 1 / 10 ^ 200 := by positivity
  have hc1 : (1 : ℝ) / 10 ^ 200 ≤ Real.exp m := exp_460.trans (Real.exp_le_exp.2 h0)
  have hp : (0 : ℝ) ≤ ∑ a ∈ Finset.range nA, Real.exp (x a) := Finset.sum_nonneg fun _ _ => (Real.exp_pos _).le
  have hA : (0 : ℝ) < (nA : ℝ) + 1 := by positivity
  show Real.log ((∑ a ∈ Finset.range nA, Real.exp (x a)) + 1 / 10 ^ 200) ≤ _
  rw [Real.log_le_iff_le_exp (by linarith), Real.exp_add, Real.exp_log hA]
  nlinarith

theorem hardBackup_le_soft {nA : Nat} (hA : 0 < nA) (x : Nat → ℝ) : hardBackup nA x ≤ softBackup nA x := by
  unfold hardBackup softBackup
  refine npMax_le x hA fun i hi => ?_
  have hc : (0 : ℝ) < 1 / 10 ^ 200 := by positivity
  have hge : Real.exp (x i) ≤ npSum nA fun a => Real.exp (x a) :=
    Finset.single_le_sum (f := fun a => Real.exp (x a)) (fun _ _ => (Real.exp_pos _).le) (Finset.mem_range.2 hi)
  have := Real.exp_pos (x i)
  rw [Real.le_log_iff_exp_le (by linarith)]
  linarith

/-- Two value functions side by side: not too low, and the second above the first by at most `D`. -/
def Beside (low D x y : ℝ) : Prop := low ≤ x ∧ x ≤ y ∧ y ≤ x + D

section

variable {M : Trans ℝ} (hM : Spec.SubStochastic M) {r : Nat → ℝ} {γ L D : ℝ} (h0 : 0 < γ) (h1 : γ < 1)
  (hL : 0 ≤ L) (hD : 0 ≤ D) (hr : ∀ t, t < M.nS → -L ≤ r t) {v w : Nat → ℝ}

include hM h0 h1 hL hD hr

theorem actionValue_beside (hv : ∀ t, t < M.nS → Beside (-(L / (1 - γ))) D (v t) (w t)) {s a : Nat} (hs : s < M.nS)
    (ha : a < M.nA) : Beside (-(L / (1 - γ))) (γ * D) (actionValue M r γ v s a) (actionValue M r γ w s a) := by
  have hg : 0 < 1 - γ := by linarith
  have fix : L + γ * (L / (1 - γ)) = L / (1 - γ) := by field_simp; ring
  have hsum := hM.2 s a hs ha
  have hp := fun t (ht : t < M.nS) => hM.1 s a t hs ha ht
  refine ⟨?_, actionValue_mono hM h0.le (fun t ht => (hv t ht).2.1) hs ha, ?_⟩
  · unfold actionValue npDot
    calc -(L / (1 - γ)) ≤ (∑ t ∈ Finset.range M.nS, M.p s a t) * -(L / (1 - γ)) := by
          have : 0 ≤ L / (1 - γ) := div_nonneg hL hg.le
          nlinarith
      _ = ∑ t ∈ Finset.range M.nS, M.p s a t * -(L / (1 - γ)) := Finset.sum_mul ..
      _ ≤ _ := Finset.sum_le_sum fun t ht => by
          have ht := Finset.mem_range.1 ht
          refine mul_le_mul_of_nonneg_left ?_ (hp t ht)
          have := mul_le_mul_of_nonneg_left (hv t ht).1 h0.le
          have := hr t ht
          linarith
  · unfold actionValue npDot
    calc _ ≤ ∑ t ∈ Finset.range M.nS, (M.p s a t * (r t + γ * v t) + M.p s a t * (γ * D)) :=
          Finset.sum_le_sum fun t ht => by
            have ht := Finset.mem_range.1 ht
            rw [← mul_add]
            refine mul_le_mul_of_nonneg_left ?_ (hp t ht)
            have := mul_le_mul_of_nonneg_left (hv t ht).2.2 h0.le
            linarith
      _ = (∑ t ∈ Finset.range M.nS, M.p s a t * (r t + γ * v t)) + (∑ t ∈ Finset.range M.nS, M.p s a t) * (γ * D) := by
          rw [Finset.sum_add_distrib, Finset.sum_mul]
      _ ≤ _ := by
          have : 0 ≤ γ * D := mul_nonneg h0.le hD
          nlinarith

end

section

variable {M : Trans ℝ} (hM : Spec.SubStochastic M) (hA : 0 < M.nA) {r : Nat → ℝ} {γ L : ℝ} (h0 : 0 < γ) (h1 : γ < 1)
  (hL : 0 ≤ L) (hL' : L ≤ 460 * (1 - γ)) (hr : ∀ t, t < M.nS → -L ≤ r t)

include hM hA h0 h1 hL hL' hr

theorem partialSweep_beside {v w : Nat → ℝ}
    (hv : ∀ t, t < M.nS → Beside (-(L / (1 - γ))) (Real.log (M.nA + 1) / (1 - γ)) (v t) (w t)) :
    ∀ k, k ≤ M.nS → ∀ t, t < M.nS → Beside (-(L / (1 - γ))) (Real.log (M.nA + 1) / (1 - γ))
      (partialSweep (hardBackup M.nA) M r γ v k t) (partialSweep (softBackup M.nA) M r γ w k t) := by
  have hg : 0 < 1 - γ := by linarith
  have hlog : 0 ≤ Real.log ((M.nA : ℝ) + 1) := Real.log_nonneg (by have : (0 : ℝ) ≤ M.nA := Nat.cast_nonneg _; linarith)
  have hD : 0 ≤ Real.log ((M.nA : ℝ) + 1) / (1 - γ) := div_nonneg hlog hg.le
  have fix : γ * (Real.log ((M.nA : ℝ) + 1) / (1 - γ)) + Real.log ((M.nA : ℝ) + 1) =
      Real.log ((M.nA : ℝ) + 1) / (1 - γ) := by field_simp; ring
  have hlow : -460 ≤ -(L / (1 - γ)) := by
    have : L / (1 - γ) ≤ 460 := by rwa [div_le_iff₀ hg]
    linarith
  intro k
  induction k with
  | zero => intro _ t ht; exact hv t ht
  | succ k ih =>
    intro hk t ht
    have ih := ih (by omega)
    unfold partialSweep upd1
    split_ifs with htk
    · have hav := fun a (ha : a < M.nA) => actionValue_beside hM h0 h1 hL hD hr ih (s := k) (by omega) ha
      set x := actionValue M r γ (partialSweep (hardBackup M.nA) M r γ v k) k
      set y := actionValue M r γ (partialSweep (softBackup M.nA) M r γ w k) k
      refine ⟨(hav 0 hA).1.trans (le_npMax x hA), ?_, ?_⟩
      · exact (hardBackup_le_soft hA x).trans (softBackup_grows _ x y fun a ha => (hav a ha).2.1)
      · have hb : ∀ a, a < M.nA → y a ≤ hardBackup M.nA x + γ * (Real.log ((M.nA : ℝ) + 1) / (1 - γ)) := fun a ha =>
          (hav a ha).2.2.trans (by have := le_npMax x ha; unfold hardBackup; linarith)
        have hm : -460 ≤ hardBackup M.nA x + γ * (Real.log ((M.nA : ℝ) + 1) / (1 - γ)) := by
          have := hlow.trans ((hav 0 hA).1.trans (le_npMax x hA))
          have : 0 ≤ γ * (Real.log ((M.nA : ℝ) + 1) / (1 - γ)) := mul_nonneg h0.le hD
          unfold hardBackup
          linarith
        have := softBackup_le_best hm hb
        linarith
    · exact ih t ht

theorem iterV_beside : ∀ n t, t < M.nS → Beside (-(L / (1 - γ))) (Real.log (M.nA + 1) / (1 - γ))
    (iterV (hardBackup M.nA) M r γ (fun _ => 0) n t) (iterV (softBackup M.nA) M r γ (fun _ => 0) n t) := by
  have hg : 0 < 1 - γ := by linarith
  have hlog : 0 ≤ Real.log ((M.nA : ℝ) + 1) := Real.log_nonneg (by have : (0 : ℝ) ≤ M.nA := Nat.cast_nonneg _; linarith)
  intro n
  induction n with
  | zero =>
    intro t _
    refine ⟨neg_nonpos.2 (div_nonneg hL hg.le), le_rfl, ?_⟩
    show (0 : ℝ) ≤ 0 + _
    rw [zero_add]
    exact div_nonneg hlog hg.le
  | succ n ih =>
    intro t ht
    show Beside _ _ ((sweep _ M r γ _).values t) ((sweep _ M r γ _).values t)
    rw [sweep_values, sweep_values]
    exact partialSweep_beside hM hA h0 h1 hL hL' hr ih _ le_rfl t ht

end

/-- With tolerance 0 all passes are made. -/
theorem solveVI_all (B : (Nat → ℝ) → ℝ) (M : Trans ℝ) (r : Nat → ℝ) {γ : ℝ} (h0 : 0 < γ) (h1 : γ < 1) {k : Nat}
    (hk : 0 < k) : solveVI B M r k γ 0 = .ok (iterV B M r γ (fun _ => 0) k,
      maskQ M (sweep B M r γ (iterV B M r γ (fun _ => 0) (k - 1))).q) := by
  obtain ⟨j, -, e2, -, e4, e5⟩ := solveVI_spec B M r h0 h1 0 hk
  have : j = k := by
    by_contra hc
    exact absurd (e4 (by omega)) (not_lt.2 (sweep_delta_nonneg B M r γ _))
  subst this
  exact e5

end MaMDP
