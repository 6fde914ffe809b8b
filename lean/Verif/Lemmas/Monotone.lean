import Verif.Spec.Monotone
import Verif.Lemmas.DynamicProgramming

/-! # Values of passes are monotone when rewards are not negative -/

set_option linter.unusedSectionVars false

namespace MaMDP

variable {K : Type} [Field K] [LinearOrder K] [IsStrictOrderedRing K]

theorem actionValue_le {M M' : Trans K} (hM : Spec.SubStochastic M) (h : Spec.Fewer M M') {r r' v v' : Nat → K} {γ γ' : K} (h0 : 0 ≤ γ')
    (hγ : γ' ≤ γ) (hr : ∀ t, t < M.nS → 0 ≤ r' t ∧ r' t ≤ r t) (hv : ∀ t, t < M.nS → 0 ≤ v' t ∧ v' t ≤ v t)
    {s a : Nat} (hs : s < M.nS) (ha : a < M.nA) : actionValue M' r' γ' v' s a ≤ actionValue M r γ v s a := by
  unfold actionValue npDot
  rw [h.nS]
  refine Finset.sum_le_sum fun t ht => ?_
  have ht := Finset.mem_range.1 ht
  have h1 := hr t ht
  have h2 := hv t ht
  have h3 : r' t + γ' * v' t ≤ r t + γ * v t :=
    add_le_add h1.2 (mul_le_mul hγ h2.2 h2.1 (h0.trans hγ))
  exact mul_le_mul (h.p s a t hs ha ht) h3 (add_nonneg h1.1 (mul_nonneg h0 h2.1)) (hM.nonneg s a t hs ha ht)

theorem actionValue_nonneg {M : Trans K} (hM : Spec.SubStochastic M) {r v : Nat → K} {γ : K} (h0 : 0 ≤ γ)
    (hr : ∀ t, t < M.nS → 0 ≤ r t) (hv : ∀ t, t < M.nS → 0 ≤ v t) {s a : Nat} (hs : s < M.nS) (ha : a < M.nA) :
    0 ≤ actionValue M r γ v s a := by
  unfold actionValue npDot
  refine Finset.sum_nonneg fun t ht => ?_
  have ht := Finset.mem_range.1 ht
  exact mul_nonneg (hM.nonneg s a t hs ha ht) (add_nonneg (hr t ht) (mul_nonneg h0 (hv t ht)))

theorem hardBackup_le {n : Nat} (hn : 0 < n) {x y : Nat → K} (h : ∀ a, a < n → x a ≤ y a) :
    hardBackup n x ≤ hardBackup n y :=
  npMax_le _ hn fun a ha => (h a ha).trans (le_npMax y ha)

theorem partialSweep_le {M M' : Trans K} (hM : Spec.SubStochastic M) (hM' : Spec.SubStochastic M')
    (hA : 0 < M.nA) (h : Spec.Fewer M M')
    {r r' v v' : Nat → K} {γ γ' : K} (h0 : 0 ≤ γ') (hγ : γ' ≤ γ)
    (hr : ∀ t, t < M.nS → 0 ≤ r' t ∧ r' t ≤ r t) (hv : ∀ t, t < M.nS → 0 ≤ v' t ∧ v' t ≤ v t) : ∀ n t, t < M.nS →
    0 ≤ partialSweep (hardBackup M'.nA) M' r' γ' v' n t ∧
      partialSweep (hardBackup M'.nA) M' r' γ' v' n t ≤ partialSweep (hardBackup M.nA) M r γ v n t := by
  intro n
  induction n with
  | zero => exact hv
  | succ n ih =>
    intro t ht
    unfold partialSweep upd1
    by_cases hn : t = n
    · rw [if_pos hn, if_pos hn, h.nA]
      subst hn
      rw [h.nA] at ih
      constructor
      · refine le_trans ?_ (le_npMax _ hA)
        exact actionValue_nonneg hM' h0 (fun u hu => (hr u (by rw [← h.nS]; exact hu)).1)
          (fun u hu => (ih u (by rw [← h.nS]; exact hu)).1) (by rw [h.nS]; exact ht) (by rw [h.nA]; exact hA)
      · exact hardBackup_le hA fun a ha => actionValue_le hM h h0 hγ hr ih ht ha
    · rw [if_neg hn, if_neg hn]
      exact ih t ht

/-- Values of passes with less to collect and fewer ways to get there are smaller. -/
theorem sweeps_le {M M' : Trans K} (hM : Spec.SubStochastic M) (hM' : Spec.SubStochastic M') (hA : 0 < M.nA)
    (h : Spec.Fewer M M') {r r' : Nat → K} {γ γ' : K} (h0 : 0 ≤ γ') (hγ : γ' ≤ γ)
    (hr : ∀ t, t < M.nS → 0 ≤ r' t ∧ r' t ≤ r t) : ∀ n t, t < M.nS →
    0 ≤ Spec.sweeps M' r' γ' n t ∧ Spec.sweeps M' r' γ' n t ≤ Spec.sweeps M r γ n t := by
  intro n
  induction n with
  | zero => intro t _; exact ⟨le_rfl, le_rfl⟩
  | succ n ih =>
    intro t ht
    unfold Spec.sweeps
    rw [sweep_values, sweep_values, h.nS]
    exact partialSweep_le hM hM' hA h h0 hγ hr ih _ t ht

theorem fewer_refl (M : Trans K) : Spec.Fewer M M := ⟨rfl, rfl, fun _ _ _ _ _ _ => le_rfl⟩

theorem sweeps_succ_le {M : Trans K} (hM : Spec.SubStochastic M) (hA : 0 < M.nA) {r : Nat → K} {γ : K} (h0 : 0 ≤ γ)
    (hr : ∀ t, t < M.nS → 0 ≤ r t) : ∀ n t, t < M.nS → Spec.sweeps M r γ n t ≤ Spec.sweeps M r γ (n + 1) t := by
  have hr' : ∀ t, t < M.nS → 0 ≤ r t ∧ r t ≤ r t := fun t ht => ⟨hr t ht, le_rfl⟩
  intro n
  induction n with
  | zero => intro t ht; exact (sweeps_le hM hM hA (fewer_refl M) h0 le_rfl hr' 1 t ht).1
  | succ n ih =>
    intro t ht
    rw [Spec.sweeps, Spec.sweeps, sweep_values, sweep_values]
    exact (partialSweep_le hM hM hA (fewer_refl M) h0 le_rfl hr' (fun u hu =>
      ⟨(sweeps_le hM hM hA (fewer_refl M) h0 le_rfl hr' n u hu).1, ih u hu⟩) _ t ht).2

theorem partialSweep_le_bellman {M : Trans K} (hM : Spec.SubStochastic M) (hA : 0 < M.nA) {r v V : Nat → K} {γ : K}
    (h0 : 0 ≤ γ) (hr : ∀ t, t < M.nS → 0 ≤ r t) (hV : Spec.Bellman M r γ V)
    (hv : ∀ t, t < M.nS → 0 ≤ v t ∧ v t ≤ V t) :
    ∀ n t, t < M.nS → 0 ≤ partialSweep (hardBackup M.nA) M r γ v n t ∧
      partialSweep (hardBackup M.nA) M r γ v n t ≤ V t := by
  have hr' : ∀ t, t < M.nS → 0 ≤ r t ∧ r t ≤ r t := fun t ht => ⟨hr t ht, le_rfl⟩
  have hfix : ∀ n t, t < M.nS → partialSweep (hardBackup M.nA) M r γ V n t = V t := by
    intro n
    induction n with
    | zero => intro t _; rfl
    | succ n ihn =>
      intro t ht
      unfold partialSweep upd1
      by_cases hn : t = n
      · rw [if_pos hn]
        subst hn
        have hQ : ∀ a, actionValue M r γ (partialSweep (hardBackup M.nA) M r γ V t) t a = Spec.Q M r γ V t a := by
          intro a
          unfold actionValue npDot Spec.Q
          exact Finset.sum_congr rfl fun u hu => by simp only [ihn u (Finset.mem_range.1 hu)]
        obtain ⟨hle, a, ha, e⟩ := hV t ht
        refine le_antisymm (npMax_le _ hA fun b hb => ?_) ?_
        · rw [hQ]; exact hle b hb
        · rw [← e, ← hQ]; exact le_npMax _ ha
      · rw [if_neg hn]; exact ihn t ht
  intro n t ht
  have h1 := partialSweep_le hM hM hA (fewer_refl M) h0 le_rfl hr' hv n t ht
  rw [hfix n t ht] at h1
  exact h1

theorem sweeps_le_bellman {M : Trans K} (hM : Spec.SubStochastic M) (hA : 0 < M.nA) {r V : Nat → K} {γ : K} (h0 : 0 ≤ γ)
    (hr : ∀ t, t < M.nS → 0 ≤ r t) (hV : Spec.Bellman M r γ V) (hV0 : ∀ t, t < M.nS → 0 ≤ V t) :
    ∀ n t, t < M.nS → 0 ≤ Spec.sweeps M r γ n t ∧ Spec.sweeps M r γ n t ≤ V t := by
  intro n
  induction n with
  | zero => exact fun t ht => ⟨le_rfl, hV0 t ht⟩
  | succ n ih =>
    intro t ht
    rw [Spec.sweeps, sweep_values]
    exact partialSweep_le_bellman hM hA h0 hr hV ih M.nS t ht

/-- What value iteration returns, whatever its limit and tolerance: the values of some number of passes. -/
theorem solve_is_sweeps {M : Trans K} (hA : 0 < M.nA) {r : Nat → K} {maxIter : Nat} {γ tol : K} {v : Nat → K}
    {q : Nat → Nat → Ext K} (h : solveHard M r maxIter γ tol = .ok (v, q)) : 0 < γ ∧ γ < 1 ∧ ∃ j, 0 < j ∧ j ≤ maxIter ∧
      v = Spec.sweeps M r γ j ∧ ∀ s a, s < M.nS → q s a = if npSum M.nS (M.p s a) = 0 then .ninf else
        .fin (actionValue M r γ (partialSweep (hardBackup M.nA) M r γ (Spec.sweeps M r γ (j - 1)) s) s a) := by
  rw [solveHard_eq hA] at h
  have hg : 0 < γ ∧ γ < 1 := by
    by_contra hg
    unfold solveVI at h
    rw [if_pos (by tauto)] at h
    cases h
  have hk : 0 < maxIter := by
    by_contra hk
    have : maxIter = 0 := by omega
    subst this
    unfold solveVI at h
    rw [if_neg (by tauto)] at h
    cases h
  obtain ⟨j, hj, hjk, -, -, e⟩ := solveVI_spec (hardBackup M.nA) M r hg.1 hg.2 tol hk
  rw [e] at h
  cases h
  refine ⟨hg.1, hg.2, j, hj, hjk, (sweeps_eq M r γ j).symm, fun s a hs => ?_⟩
  unfold maskQ
  rw [sweep_q _ _ _ _ _ _ _ hs, sweeps_eq]

end MaMDP
