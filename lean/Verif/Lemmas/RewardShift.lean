import Verif.Spec.Environment
import Verif.Lemmas.Optimality

/-! # Adding a constant to every reward -/

set_option linter.unusedSectionVars false

namespace MaMDP

variable {K : Type} [Field K] [LinearOrder K] [IsStrictOrderedRing K]

theorem Q_shift {M : Trans K} {r V : Nat → K} {γ c : K} (h1 : γ < 1) {s a : Nat} :
    Spec.Q M (fun t => r t + c) γ (fun t => V t + c / (1 - γ)) s a =
      Spec.Q M r γ V s a + (∑ t ∈ Finset.range M.nS, M.p s a t) * (c / (1 - γ)) := by
  have h : 1 - γ ≠ 0 := by linarith
  unfold Spec.Q
  rw [Finset.sum_mul, ← Finset.sum_add_distrib]
  refine Finset.sum_congr rfl fun t _ => ?_
  field_simp
  ring

theorem sum_impossible {M : Trans K} (hM : Spec.SubStochastic M) {s a : Nat} (hs : s < M.nS) (ha : a < M.nA)
    (h : ¬ Spec.Possible M s a) {t : Nat} (ht : t < M.nS) : M.p s a t = 0 :=
  le_antisymm (not_lt.1 fun hlt => h ⟨t, ht, hlt⟩) (hM.nonneg s a t hs ha ht)

/-- Solutions of the Bellman equation move with the rewards. -/
theorem bellman_shift {M : Trans K} (hM : Spec.SubStochastic M) {r V : Nat → K} {γ c : K} (h0 : 0 < γ) (h1 : γ < 1)
    (hlive : ∀ s, s < M.nS → Spec.Live M s)
    (hone : ∀ s a, s < M.nS → a < M.nA → Spec.Possible M s a → ∑ t ∈ Finset.range M.nS, M.p s a t = 1)
    (hcase : (∀ s a, s < M.nS → a < M.nA → Spec.Possible M s a) ∨ (0 ≤ c ∧ ∀ t, t < M.nS → 0 ≤ r t))
    (hV : Spec.Bellman M r γ V) : Spec.Bellman M (fun t => r t + c) γ (fun t => V t + c / (1 - γ)) := by
  intro s hs
  have hp : ∀ a, a < M.nA → Spec.Possible M s a → Spec.Q M (fun t => r t + c) γ (fun t => V t + c / (1 - γ)) s a =
      Spec.Q M r γ V s a + c / (1 - γ) := by
    intro a ha h
    rw [Q_shift h1, hone s a hs ha h, one_mul]
  obtain ⟨hle, b, hb, eb⟩ := hV s hs
  rcases hcase with hall | ⟨hc, hr⟩
  · refine ⟨fun a ha => ?_, b, hb, ?_⟩
    · rw [hp a ha (hall s a hs ha)]
      linarith [hle a ha]
    · rw [hp b hb (hall s b hs hb), eb]
  · obtain ⟨x, hx, px⟩ := hlive s hs
    obtain ⟨y, hy, py, ey⟩ := bellman_attained hM h0 h1 hr hV hs hx px
    refine ⟨fun a ha => ?_, y, hy, by rw [hp y hy py, ey]⟩
    by_cases pa : Spec.Possible M s a
    · rw [hp a ha pa]
      linarith [hle a ha]
    · have e : Spec.Q M (fun t => r t + c) γ (fun t => V t + c / (1 - γ)) s a = 0 :=
        Finset.sum_eq_zero fun t ht => by rw [sum_impossible hM hs ha pa (Finset.mem_range.1 ht), zero_mul]
      rw [e]
      exact add_nonneg (bellman_nonneg hM h0 h1 hr hV s hs) (div_nonneg hc (by linarith))

/-- Over the real numbers passes eventually change nothing by more than the tolerance. -/
theorem sweeps_stop {M : Trans ℝ} (hM : Spec.SubStochastic M) (hA : 0 < M.nA) (r : Nat → ℝ) {γ tol : ℝ} (h0 : 0 < γ)
    (h1 : γ < 1) (htol : 0 < tol) :
    ∃ i, ∀ s, s < M.nS → |Spec.sweeps M r γ (i + 1) s - Spec.sweeps M r γ i s| < tol := by
  obtain ⟨d, hd, hbd⟩ := exists_bound M.nS
    fun t => (0 : ℝ) - (sweep (hardBackup M.nA) M r γ (fun _ => 0)).values t
  have hstep := iterV_step (v := fun _ => 0) (hardBackup_nonExp hA) hM h0.le h1.le hd hbd
  have ht : Filter.Tendsto (fun n : ℕ => γ ^ n * d) Filter.atTop (nhds 0) := by
    have := (tendsto_pow_atTop_nhds_zero_of_lt_one h0.le h1).mul_const d
    rwa [zero_mul] at this
  obtain ⟨i, hi⟩ := (ht.eventually (gt_mem_nhds htol)).exists
  refine ⟨i, fun s hs => ?_⟩
  rw [abs_sub_comm, sweeps_eq, sweeps_eq]
  exact (hstep i s hs).trans_lt hi

end MaMDP
