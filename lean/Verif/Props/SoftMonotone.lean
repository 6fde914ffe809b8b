import Verif.Props.SoftStable
import Verif.Props.Monotone

/-! # C115 and C117 for the soft solver -/

set_option linter.unusedSectionVars false

namespace MaMDP

/-- With nothing to lose, soft values are not negative. -/
theorem softBellman_nonneg {M : Trans ℝ} (hM : Spec.SubStochastic M) (hA : 0 < M.nA) {r V : Nat → ℝ} {γ : ℝ} (h0 : 0 < γ)
    (h1 : γ < 1) (hr : ∀ t, t < M.nS → 0 ≤ r t)
    (hV : ∀ s, s < M.nS → V s = Real.log ((∑ a ∈ Finset.range M.nA, Real.exp (Spec.Q M r γ V s a)) + 1 / 10 ^ 200)) :
    ∀ s, s < M.nS → 0 ≤ V s := by
  intro s hs
  obtain ⟨k, hk, ek⟩ := exists_npMax (fun t => -V t) (Nat.lt_of_le_of_lt (Nat.zero_le s) hs)
  have hmin : ∀ t, t < M.nS → V k ≤ V t := fun t ht => by
    have := le_npMax (fun t => -V t) ht
    rw [ek] at this
    linarith
  refine le_trans ?_ (hmin s hs)
  by_contra hneg
  rw [not_le] at hneg
  have hg : γ * V k < 0 := mul_neg_of_pos_of_neg h0 hneg
  have hQ : γ * V k ≤ Spec.Q M r γ V k 0 := by
    unfold Spec.Q
    calc γ * V k ≤ (∑ t ∈ Finset.range M.nS, M.p k 0 t) * (γ * V k) := by
          nlinarith [hM.le_one k 0 hk hA]
      _ = ∑ t ∈ Finset.range M.nS, M.p k 0 t * (γ * V k) := by rw [Finset.sum_mul]
      _ ≤ _ := by
          refine Finset.sum_le_sum fun t ht => ?_
          have ht' := Finset.mem_range.1 ht
          refine mul_le_mul_of_nonneg_left ?_ (hM.nonneg k 0 t hk hA ht')
          have := mul_le_mul_of_nonneg_left (hmin t ht') h0.le
          have := hr t ht'
          linarith
  have hlog : γ * V k ≤ Real.log ((∑ a ∈ Finset.range M.nA, Real.exp (Spec.Q M r γ V k a)) + 1 / 10 ^ 200) := by
    rw [← Real.log_exp (γ * V k)]
    refine Real.log_le_log (Real.exp_pos _) ?_
    have h2 := Finset.single_le_sum (f := fun a => Real.exp (Spec.Q M r γ V k a)) (fun a _ => (Real.exp_pos _).le)
      (Finset.mem_range.2 hA)
    have h3 := Real.exp_le_exp.2 hQ
    have h4 : (0 : ℝ) ≤ 1 / 10 ^ 200 := by positivity
    linarith
  rw [← hV k hk] at hlog
  nlinarith

/-- With nothing to lose, fewer moves and a smaller discount factor do not raise soft values. -/
theorem softBellman_mono {M M' : Trans ℝ} (hM : Spec.SubStochastic M) (hM' : Spec.SubStochastic M') (hA : 0 < M.nA)
    (h : Spec.Fewer M M') {r V V' : Nat → ℝ} {γ γ' : ℝ} (h0 : 0 < γ) (hγ : γ ≤ γ') (h1 : γ' < 1)
    (hr : ∀ t, t < M.nS → 0 ≤ r t)
    (hV : ∀ s, s < M.nS → V s = Real.log ((∑ a ∈ Finset.range M.nA, Real.exp (Spec.Q M r γ' V s a)) + 1 / 10 ^ 200))
    (hV' : ∀ s, s < M'.nS → V' s = Real.log ((∑ a ∈ Finset.range M'.nA, Real.exp (Spec.Q M' r γ V' s a)) + 1 / 10 ^ 200)) :
    ∀ s, s < M.nS → V' s ≤ V s := by
  intro s hs
  have hpos := softBellman_nonneg hM hA (lt_of_lt_of_le h0 hγ) h1 hr hV
  obtain ⟨k, hk, ek⟩ := exists_npMax (fun t => V' t - V t) (Nat.lt_of_le_of_lt (Nat.zero_le s) hs)
  have hmax : ∀ t, t < M.nS → V' t - V t ≤ V' k - V k := fun t ht => by
    have := le_npMax (fun t => V' t - V t) ht
    rw [ek] at this
    exact this
  have hs' := hmax s hs
  rcases le_or_gt (V' k - V k) 0 with hD | hD
  · linarith
  exfalso
  have hx : 0 ≤ γ * (V' k - V k) := mul_nonneg h0.le hD.le
  have hk' : k < M'.nS := by rw [h.nS]; exact hk
  have hQ : ∀ a, a < M.nA → Spec.Q M' r γ V' k a ≤ Spec.Q M r γ' V k a + γ * (V' k - V k) := by
    intro a ha
    have ha' : a < M'.nA := by rw [h.nA]; exact ha
    have hle := hM'.le_one k a hk' ha'
    unfold Spec.Q
    rw [h.nS] at hle ⊢
    calc ∑ t ∈ Finset.range M.nS, M'.p k a t * (r t + γ * V' t)
        ≤ ∑ t ∈ Finset.range M.nS, (M.p k a t * (r t + γ' * V t) + M'.p k a t * (γ * (V' k - V k))) := by
          refine Finset.sum_le_sum fun t ht => ?_
          have ht' := Finset.mem_range.1 ht
          have hp := hM'.nonneg k a t hk' ha' (by rw [h.nS]; exact ht')
          have b1 : M'.p k a t * (r t + γ * V' t) ≤ M'.p k a t * (r t + γ' * V t + γ * (V' k - V k)) := by
            refine mul_le_mul_of_nonneg_left ?_ hp
            have := mul_le_mul_of_nonneg_left (hmax t ht') h0.le
            have := mul_le_mul_of_nonneg_right hγ (hpos t ht')
            linarith
          have b2 : M'.p k a t * (r t + γ' * V t) ≤ M.p k a t * (r t + γ' * V t) :=
            mul_le_mul_of_nonneg_right (h.p k a t hk ha ht')
              (add_nonneg (hr t ht') (mul_nonneg (h0.le.trans hγ) (hpos t ht')))
          rw [mul_add] at b1
          linarith
      _ = ∑ t ∈ Finset.range M.nS, M.p k a t * (r t + γ' * V t) +
          (∑ t ∈ Finset.range M.nS, M'.p k a t) * (γ * (V' k - V k)) := by
          rw [Finset.sum_add_distrib, Finset.sum_mul]
      _ ≤ _ := by
          have := mul_le_mul_of_nonneg_right hle hx
          linarith
  have hb := softBackup_shift hx hQ
  have e1 : V k = softBackup M.nA (Spec.Q M r γ' V k) := hV k hk
  have e2 : V' k = softBackup M.nA (Spec.Q M' r γ V' k) := by
    have := hV' k hk'
    rw [h.nA] at this
    exact this
  rw [← e1, ← e2] at hb
  have : γ < 1 := lt_of_le_of_lt hγ h1
  nlinarith

/-- **C115** for the soft solver, what does hold: if there is nothing to lose, then with enough iterations no state is
worth more in a world with fewer moves, up to the tolerance. -/
theorem C115_soft_partial (M M' : Trans ℝ) (hM : Spec.SubStochastic M) (hM' : Spec.SubStochastic M') (hA : 0 < M.nA)
    (h : Spec.Fewer M M') (r : Nat → ℝ) (hr : ∀ t, t < M.nS → 0 ≤ r t) (γ tol : ℝ) (h0 : 0 < γ) (h1 : γ < 1) (htol : 0 < tol) :
    ∃ N, ∀ k k', N ≤ k → N ≤ k' → ∃ v q v' q', solveSoft M r k γ tol = .ok (v, q) ∧ solveSoft M' r k' γ tol = .ok (v', q') ∧
      ∀ s, s < M.nS → v' s < v s + 2 * tol * γ / (1 - γ) := by
  obtain ⟨V, e1, c1, -⟩ := C34_soft_converges M hM r γ h0 h1
  obtain ⟨V', e2, c2, -⟩ := C34_soft_converges M' hM' r γ h0 h1
  obtain ⟨N, hN⟩ := c1 tol htol
  obtain ⟨N', hN'⟩ := c2 tol htol
  refine ⟨max N N', fun k k' hk hk' => ?_⟩
  obtain ⟨v, q, a1, -, a2⟩ := hN k (le_trans (le_max_left _ _) hk)
  obtain ⟨v', q', b1, -, b2⟩ := hN' k' (le_trans (le_max_right _ _) hk')
  refine ⟨v, q, v', q', a1, b1, fun s hs => ?_⟩
  have h2 := abs_lt.1 (a2 s hs)
  have h3 := abs_lt.1 (b2 s (by rw [h.nS]; exact hs))
  have h4 := softBellman_mono hM hM' hA h h0 le_rfl h1 hr e1 e2 s hs
  have e : 2 * tol * γ / (1 - γ) = tol * γ / (1 - γ) + tol * γ / (1 - γ) := by ring
  linarith [h2.1, h2.2, h3.1, h3.2]

/-- **C117** for the soft solver: if there is nothing to lose, then with enough iterations no state is worth less for a
larger discount factor, up to the tolerance. -/
theorem C117_soft (M : Trans ℝ) (hM : Spec.SubStochastic M) (hA : 0 < M.nA) (r : Nat → ℝ) (hr : ∀ t, t < M.nS → 0 ≤ r t)
    (γ γ' tol : ℝ) (h0 : 0 < γ) (hγ : γ ≤ γ') (h1 : γ' < 1) (htol : 0 < tol) :
    ∃ N, ∀ k k', N ≤ k → N ≤ k' → ∃ v q v' q', solveSoft M r k γ tol = .ok (v, q) ∧ solveSoft M r k' γ' tol = .ok (v', q') ∧
      ∀ s, s < M.nS → v s < v' s + 2 * tol * γ' / (1 - γ') := by
  have hg1 : γ < 1 := lt_of_le_of_lt hγ h1
  have hg0 : 0 < γ' := lt_of_lt_of_le h0 hγ
  obtain ⟨V, e1, c1, -⟩ := C34_soft_converges M hM r γ h0 hg1
  obtain ⟨V', e2, c2, -⟩ := C34_soft_converges M hM r γ' hg0 h1
  obtain ⟨N, hN⟩ := c1 tol htol
  obtain ⟨N', hN'⟩ := c2 tol htol
  refine ⟨max N N', fun k k' hk hk' => ?_⟩
  obtain ⟨v, q, a1, -, a2⟩ := hN k (le_trans (le_max_left _ _) hk)
  obtain ⟨v', q', b1, -, b2⟩ := hN' k' (le_trans (le_max_right _ _) hk')
  refine ⟨v, q, v', q', a1, b1, fun s hs => ?_⟩
  have h2 := abs_lt.1 (a2 s hs)
  have h3 := abs_lt.1 (b2 s hs)
  have h4 := softBellman_mono hM hM hA (fewer_refl M) h0 hγ h1 hr e2 e1 s hs
  have h5 : tol * γ / (1 - γ) ≤ tol * γ' / (1 - γ') := by
    rw [div_le_div_iff₀ (by linarith) (by linarith)]
    nlinarith
  have e : 2 * tol * γ' / (1 - γ') = tol * γ' / (1 - γ') + tol * γ' / (1 - γ') := by ring
  linarith [h2.1, h2.2, h3.1, h3.2]

/-- A chain of two states, and the same with no way out of the first. -/
example : ∃ M M' : Trans ℝ, Spec.SubStochastic M ∧ Spec.SubStochastic M' ∧ 0 < M.nA ∧ Spec.Fewer M M' ∧ M.p 0 0 1 = 1 ∧ M'.p 0 0 1 = 0 := by
  refine ⟨⟨2, 1, fun _ _ t => if t = 1 then 1 else 0⟩, ⟨2, 1, fun s _ t => if s = 1 ∧ t = 1 then 1 else 0⟩,
    ⟨fun s a t _ _ _ => ?_, fun s a _ _ => ?_⟩, ⟨fun s a t _ _ _ => ?_, fun s a _ _ => ?_⟩, by norm_num,
    ⟨rfl, rfl, fun s a t _ _ _ => ?_⟩, by simp, by simp⟩
  · simp only; split <;> norm_num
  · simp
  · simp only; split <;> norm_num
  · by_cases h : s = 1 <;> simp [h]
  · simp only
    by_cases h : s = 1 <;> by_cases h' : t = 1 <;> simp [h, h']

end MaMDP
