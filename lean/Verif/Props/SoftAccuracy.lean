import Verif.Props.SoftMonotone
import Verif.Lemmas.Overflow

/-! # C34: how accurate soft values are, for any number of iterations -/

set_option linter.unusedSectionVars false

namespace MaMDP

/-- How large soft values can be. -/
theorem softBellman_bound {M : Trans ℝ} (hM : Spec.SubStochastic M) (hA : 0 < M.nA) {r V : Nat → ℝ} {γ R : ℝ} (h0 : 0 < γ)
    (h1 : γ < 1) (hR : 0 ≤ R) (hr : ∀ t, t < M.nS → |r t| ≤ R)
    (hV : ∀ s, s < M.nS → V s = Real.log ((∑ a ∈ Finset.range M.nA, Real.exp (Spec.Q M r γ V s a)) + 1 / 10 ^ 200)) :
    ∀ s, s < M.nS → |V s| ≤ (R + Real.log (M.nA + 1)) / (1 - γ) := by
  intro s hs
  have h1g : 0 < 1 - γ := by linarith
  have hlog : 0 ≤ Real.log ((M.nA : ℝ) + 1) := Real.log_nonneg (by linarith [(Nat.cast_nonneg M.nA : (0 : ℝ) ≤ M.nA)])
  have hB : 0 ≤ (R + Real.log (M.nA + 1)) / (1 - γ) := div_nonneg (add_nonneg hR hlog) h1g.le
  have hS : 0 < M.nS := Nat.lt_of_le_of_lt (Nat.zero_le s) hs
  rw [abs_le]
  constructor
  · obtain ⟨k, hk, ek⟩ := exists_npMax (fun t => -V t) hS
    have hmin : ∀ t, t < M.nS → V k ≤ V t := fun t ht => by
      have := le_npMax (fun t => -V t) ht
      rw [ek] at this
      linarith
    refine le_trans ?_ (hmin s hs)
    rcases le_or_gt 0 (V k) with hD | hD
    · linarith
    have hx : -R + γ * V k ≤ 0 := by nlinarith
    have hQ : -R + γ * V k ≤ Spec.Q M r γ V k 0 := by
      unfold Spec.Q
      calc -R + γ * V k ≤ (∑ t ∈ Finset.range M.nS, M.p k 0 t) * (-R + γ * V k) := by
            nlinarith [hM.le_one k 0 hk hA]
        _ = ∑ t ∈ Finset.range M.nS, M.p k 0 t * (-R + γ * V k) := by rw [Finset.sum_mul]
        _ ≤ _ := by
            refine Finset.sum_le_sum fun t ht => ?_
            have ht' := Finset.mem_range.1 ht
            refine mul_le_mul_of_nonneg_left ?_ (hM.nonneg k 0 t hk hA ht')
            have := mul_le_mul_of_nonneg_left (hmin t ht') h0.le
            have := (abs_le.1 (hr t ht')).1
            linarith
    have hlow : Spec.Q M r γ V k 0 ≤ V k := by
      rw [hV k hk, ← Real.log_exp (Spec.Q M r γ V k 0)]
      refine Real.log_le_log (Real.exp_pos _) ?_
      have h2 := Finset.single_le_sum (f := fun a => Real.exp (Spec.Q M r γ V k a)) (fun a _ => (Real.exp_pos _).le)
        (Finset.mem_range.2 hA)
      have h4 : (0 : ℝ) ≤ 1 / 10 ^ 200 := by positivity
      linarith
    rw [neg_le, le_div_iff₀ h1g]
    nlinarith
  · obtain ⟨k, hk, ek⟩ := exists_npMax V hS
    have hmax : ∀ t, t < M.nS → V t ≤ V k := fun t ht => by
      have := le_npMax V ht
      rw [ek] at this
      exact this
    refine le_trans (hmax s hs) ?_
    rcases le_or_gt (V k) 0 with hD | hD
    · linarith
    have hx : 0 ≤ R + γ * V k := add_nonneg hR (mul_nonneg h0.le hD.le)
    have hQ : ∀ a, a < M.nA → Spec.Q M r γ V k a ≤ R + γ * V k := by
      intro a ha
      unfold Spec.Q
      calc ∑ t ∈ Finset.range M.nS, M.p k a t * (r t + γ * V t) ≤ ∑ t ∈ Finset.range M.nS, M.p k a t * (R + γ * V k) := by
            refine Finset.sum_le_sum fun t ht => ?_
            have ht' := Finset.mem_range.1 ht
            refine mul_le_mul_of_nonneg_left ?_ (hM.nonneg k a t hk ha ht')
            have := mul_le_mul_of_nonneg_left (hmax t ht') h0.le
            have := (abs_le.1 (hr t ht')).2
            linarith
        _ = (∑ t ∈ Finset.range M.nS, M.p k a t) * (R + γ * V k) := by rw [Finset.sum_mul]
        _ ≤ _ := by
            have := mul_le_mul_of_nonneg_right (hM.le_one k a hk ha) hx
            linarith
    have hb := softBackup_le hx hQ
    have e1 : V k = softBackup M.nA (Spec.Q M r γ V k) := hV k hk
    rw [← e1] at hb
    rw [le_div_iff₀ h1g]
    nlinarith

/-- **C34**, accuracy for any number of iterations: the error of soft values is at most what the tolerance allows, or what
is left after that many passes, whichever is larger. -/
theorem C34_accuracy (M : Trans ℝ) (hM : Spec.SubStochastic M) (hA : 0 < M.nA) (r : Nat → ℝ) (R : ℝ) (hR : 0 ≤ R)
    (hr : ∀ t, t < M.nS → |r t| ≤ R) (γ tol : ℝ) (h0 : 0 < γ) (h1 : γ < 1) (htol : 0 < tol) (V : Nat → ℝ)
    (hV : ∀ s, s < M.nS → V s = Real.log ((∑ a ∈ Finset.range M.nA, Real.exp (Spec.Q M r γ V s a)) + 1 / 10 ^ 200))
    (maxIter : Nat) (hk : 0 < maxIter) :
    ∃ v q, solveSoft M r maxIter γ tol = .ok (v, q) ∧ ∀ s, s < M.nS →
      |v s - V s| ≤ max (tol * γ / (1 - γ)) (γ ^ maxIter * ((R + Real.log (M.nA + 1)) / (1 - γ))) := by
  have h1g : 0 < 1 - γ := by linarith
  have hB := softBellman_bound hM hA h0 h1 hR hr hV
  obtain ⟨v, q, j, x, e, x0, hx, hj, hv, -, -, hstop⟩ := C34_returned M hM r γ tol h0 h1 htol maxIter hk
  refine ⟨v, q, e, fun s hs => ?_⟩
  have seen : ∀ (X : Nat → ℝ) s, Spec.seen X X s = X := fun X s => funext fun t => by simp [Spec.seen]
  have pV : Spec.SoftPass M r γ V V := fun s hs => by rw [seen]; exact hV s hs
  rw [hv s hs]
  rcases Nat.lt_or_ge (j + 1) maxIter with hlt | hge
  · refine le_trans ?_ (le_max_left _ _)
    obtain ⟨k, hk, ek⟩ := exists_npMax (fun t => |x j t - V t|) (Nat.lt_of_le_of_lt (Nat.zero_le s) hs)
    have hmax : ∀ t, t < M.nS → |x j t - V t| ≤ |x j k - V k| := fun t ht => by
      have := le_npMax (fun t => |x j t - V t|) ht
      rw [ek] at this
      exact this
    have hc := C34_soft_contraction M hM r γ h0 h1 _ V _ V (hx j) pV _ hmax
    have h2 := hc s hs
    have h3 := hc k hk
    have h4 := hstop hlt k hk
    have h5 : |x j k - V k| ≤ |x j k - x (j + 1) k| + |x (j + 1) k - V k| := abs_sub_le _ _ _
    have h6 : |x j k - V k| ≤ tol / (1 - γ) := by
      rw [le_div_iff₀ h1g]
      nlinarith
    calc |x (j + 1) s - V s| ≤ γ * |x j k - V k| := h2
      _ ≤ γ * (tol / (1 - γ)) := mul_le_mul_of_nonneg_left h6 h0.le
      _ = tol * γ / (1 - γ) := by ring
  · refine le_trans ?_ (le_max_right _ _)
    have hjm : j + 1 = maxIter := by omega
    have hn : ∀ n t, t < M.nS → |x n t - V t| ≤ γ ^ n * ((R + Real.log (M.nA + 1)) / (1 - γ)) := by
      intro n
      induction n with
      | zero =>
        intro t ht
        rw [x0, zero_sub, abs_neg, pow_zero, one_mul]
        exact hB t ht
      | succ n ih =>
        intro t ht
        have := C34_soft_contraction M hM r γ h0 h1 _ V _ V (hx n) pV _ ih t ht
        rw [pow_succ', mul_assoc]
        exact this
    rw [← hjm]
    exact hn (j + 1) s hs

/-- A chain of two states meets the hypotheses. -/
example : Spec.SubStochastic (chain2 ℝ) ∧ 0 < (chain2 ℝ).nA ∧
    (∀ t, t < (chain2 ℝ).nS → |(if t = 0 then (-1 : ℝ) else 2)| ≤ 2) ∧
    ∃ V : Nat → ℝ, ∀ s, s < (chain2 ℝ).nS → V s = Real.log ((∑ a ∈ Finset.range (chain2 ℝ).nA,
      Real.exp (Spec.Q (chain2 ℝ) (fun t => if t = 0 then -1 else 2) (9 / 10) V s a)) + 1 / 10 ^ 200) := by
  refine ⟨chain2_ok.1, by decide, fun t _ => ?_, (C34_soft_converges (chain2 ℝ) chain2_ok.1 (fun t => if t = 0 then -1 else 2)
    (9 / 10) (by norm_num) (by norm_num)).imp fun _ h => h.1⟩
  split <;> norm_num

end MaMDP
