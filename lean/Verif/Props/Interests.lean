import Verif.Lemmas.Interests
import Verif.Props.DynamicProgramming

/-! # C155: several interests together are never worth more than each apart -/

set_option linter.unusedSectionVars false

namespace MaMDP

variable {K : Type} [Field K] [LinearOrder K] [IsStrictOrderedRing K]

/-- **C155**, after any number of passes: whoever has several interests `r 0, r 1, ...`, of weights `c 0, c 1, ...`, values
no state higher than the same interests pursued one at a time, each after as many passes. -/
theorem C155_passes (M : Trans K) (hM : Spec.SubStochastic M) (hA : 0 < M.nA) (n : Nat) (c : Nat → K)
    (hc : ∀ i, i < n → 0 ≤ c i) (r : Nat → Nat → K) (γ : K) (h0 : 0 ≤ γ) (k : Nat) :
    ∀ s, s < M.nS → Spec.sweeps M (fun t => ∑ i ∈ Finset.range n, c i * r i t) γ k s ≤
      ∑ i ∈ Finset.range n, c i * Spec.sweeps M (r i) γ k s := by
  induction k with
  | zero => intro s _; simp [Spec.sweeps]
  | succ k ih =>
    intro s hs
    simp only [Spec.sweeps, sweep_values]
    exact partialSweep_mix hM (hardBackup_grows hA) (hardBackup_mixes hA hc) h0 ih _ s hs

/-- **C155**, what is returned: with tolerance `tol`, once the passes have stopped, the values of the interests together
are less than those of the interests apart, up to what the tolerance leaves open. -/
theorem C155_plan (M : Trans ℝ) (hM : Spec.SubStochastic M) (hA : 0 < M.nA) (n : Nat) (c : Nat → ℝ)
    (hc : ∀ i, i < n → 0 ≤ c i) (r : Nat → Nat → ℝ) (γ tol : ℝ) (h0 : 0 < γ) (h1 : γ < 1) (htol : 0 < tol)
    (k : Nat) (ks : Nat → Nat)
    (hstop : ∃ j, j < k ∧ ∀ s, s < M.nS → |Spec.sweeps M (fun t => ∑ i ∈ Finset.range n, c i * r i t) γ (j + 1) s -
      Spec.sweeps M (fun t => ∑ i ∈ Finset.range n, c i * r i t) γ j s| < tol)
    (hstops : ∀ i, i < n → ∃ j, j < ks i ∧ ∀ s, s < M.nS →
      |Spec.sweeps M (r i) γ (j + 1) s - Spec.sweeps M (r i) γ j s| < tol)
    (v : Nat → ℝ) (q : Nat → Nat → Ext ℝ)
    (e : solveHard M (fun t => ∑ i ∈ Finset.range n, c i * r i t) k γ tol = .ok (v, q))
    (vs : Nat → Nat → ℝ) (qs : Nat → Nat → Nat → Ext ℝ)
    (es : ∀ i, i < n → solveHard M (r i) (ks i) γ tol = .ok (vs i, qs i)) :
    ∀ s, s < M.nS → v s < ∑ i ∈ Finset.range n, c i * vs i s +
      (1 + ∑ i ∈ Finset.range n, c i) * (tol * γ / (1 - γ)) := by
  obtain ⟨V, hV, -⟩ := C27_converges M hM hA (fun t => ∑ i ∈ Finset.range n, c i * r i t) γ h0 h1
  obtain ⟨v', q', e', hv, -⟩ := C28_accuracy M hM hA _ γ tol h0 h1 htol V hV k hstop
  rw [e] at e'
  cases e'
  have hWs : ∀ i, ∃ W, i < n → Spec.Bellman M (r i) γ W ∧ ∀ s, s < M.nS → |vs i s - W s| < tol * γ / (1 - γ) := by
    intro i
    by_cases hi : i < n
    · obtain ⟨W, hW, -⟩ := C27_converges M hM hA (r i) γ h0 h1
      obtain ⟨w, p, ew, hw, -⟩ := C28_accuracy M hM hA (r i) γ tol h0 h1 htol W hW (ks i) (hstops i hi)
      rw [es i hi] at ew
      cases ew
      exact ⟨W, fun _ => ⟨hW, hw⟩⟩
    · exact ⟨fun _ => 0, fun h => absurd h hi⟩
  choose W hW using hWs
  intro s hs
  have h2 := fixed_mix hM (hardBackup_grows hA) (hardBackup_mixes hA hc) (hardBackup_nonExp hA) h0 h1
    (bellman_fixed hV) (fun i hi => bellman_fixed (hW i hi).1) s hs
  have h3 := (abs_lt.1 (hv s hs)).2
  have h4 : ∑ i ∈ Finset.range n, c i * W i s ≤ ∑ i ∈ Finset.range n, (c i * vs i s + c i * (tol * γ / (1 - γ))) :=
    Finset.sum_le_sum fun i hi => by
      have hi := Finset.mem_range.1 hi
      have := (abs_lt.1 ((hW i hi).2 s hs)).1
      rw [← mul_add]
      exact mul_le_mul_of_nonneg_left (by linarith) (hc i hi)
  rw [Finset.sum_add_distrib, ← Finset.sum_mul] at h4
  linarith

/-- **C155**, interests given by feature weights, as to `solve_value_iteration`: adding the weights up is adding the
rewards up. -/
theorem C155_weights (M : Trans K) (hM : Spec.SubStochastic M) (hA : 0 < M.nA) (nF : Nat) (features : Nat → Nat → K)
    (n : Nat) (c : Nat → K) (hc : ∀ i, i < n → 0 ≤ c i) (w : Nat → Nat → K) (γ : K) (h0 : 0 ≤ γ) (k : Nat) :
    ∀ s, s < M.nS → Spec.sweeps M (stateReward nF (fun f => ∑ i ∈ Finset.range n, c i * w i f) features) γ k s ≤
      ∑ i ∈ Finset.range n, c i * Spec.sweeps M (stateReward nF (w i) features) γ k s := by
  have e : stateReward nF (fun f => ∑ i ∈ Finset.range n, c i * w i f) features =
      fun t => ∑ i ∈ Finset.range n, c i * stateReward nF (w i) features t := by
    funext t
    unfold stateReward npDot
    simp only [Finset.mul_sum, Finset.sum_mul]
    rw [Finset.sum_comm]
    exact Finset.sum_congr rfl fun i _ => Finset.sum_congr rfl fun f _ => by ring
  rw [e]
  exact C155_passes M hM hA n c hc _ γ h0 k

/-- **C155**, soft value iteration: an average of interests (weights that add up to 1) is worth no more than the average of
what they are worth, up to what the tolerance leaves open, once the limit of passes is high enough. -/
theorem C155_soft (M : Trans ℝ) (hM : Spec.SubStochastic M) (n : Nat) (c : Nat → ℝ)
    (hc : ∀ i, i < n → 0 ≤ c i) (hsum : ∑ i ∈ Finset.range n, c i = 1) (r : Nat → Nat → ℝ) (γ tol : ℝ) (h0 : 0 < γ)
    (h1 : γ < 1) (htol : 0 < tol) : ∃ N, ∀ k, N ≤ k → ∃ v q,
      solveSoft M (fun t => ∑ i ∈ Finset.range n, c i * r i t) k γ tol = .ok (v, q) ∧
      ∃ vs : Nat → Nat → ℝ, (∀ i, i < n → ∃ q, solveSoft M (r i) k γ tol = .ok (vs i, q)) ∧
        ∀ s, s < M.nS → v s < ∑ i ∈ Finset.range n, c i * vs i s + 2 * (tol * γ / (1 - γ)) := by
  obtain ⟨V, hV, hVk, -⟩ := vi_converges (softBackup_nonExp M.nA) hM (fun t => ∑ i ∈ Finset.range n, c i * r i t) h0 h1
  have hex := fun i => vi_converges (softBackup_nonExp M.nA) hM (r i) h0 h1
  choose W hW hWk _ using hex
  obtain ⟨N, hN⟩ := hVk tol htol
  choose Ns hNs using fun i => hWk i tol htol
  refine ⟨N + ∑ i ∈ Finset.range n, Ns i, fun k hk => ?_⟩
  obtain ⟨v, q, e, -, hv⟩ := hN k (by omega)
  have hki : ∀ i, ∃ w, i < n → ∃ q, solveSoft M (r i) k γ tol = .ok (w, q) ∧
      ∀ s, s < M.nS → |w s - W i s| < tol * γ / (1 - γ) := by
    intro i
    by_cases hi : i < n
    · have hle : Ns i ≤ ∑ i ∈ Finset.range n, Ns i :=
        Finset.single_le_sum (f := Ns) (fun _ _ => Nat.zero_le _) (Finset.mem_range.2 hi)
      obtain ⟨w, p, ew, -, hw⟩ := hNs i k (by omega)
      exact ⟨w, fun _ => ⟨p, ew, hw⟩⟩
    · exact ⟨fun _ => 0, fun h => absurd h hi⟩
  choose vs hvs using hki
  refine ⟨v, q, e, vs, fun i hi => ⟨_, (hvs i hi).choose_spec.1⟩, fun s hs => ?_⟩
  have h2 := fixed_mix hM (softBackup_grows M.nA) (softBackup_mixes hc hsum) (softBackup_nonExp M.nA) h0 h1 hV
    (fun i _ => hW i) s hs
  have h3 := (abs_lt.1 (hv s hs)).2
  have h4 : ∑ i ∈ Finset.range n, c i * W i s ≤ ∑ i ∈ Finset.range n, (c i * vs i s + c i * (tol * γ / (1 - γ))) :=
    Finset.sum_le_sum fun i hi => by
      have hi := Finset.mem_range.1 hi
      have := (abs_lt.1 ((hvs i hi).choose_spec.2 s hs)).1
      rw [← mul_add]
      exact mul_le_mul_of_nonneg_left (by linarith) (hc i hi)
  rw [Finset.sum_add_distrib, ← Finset.sum_mul, hsum, one_mul] at h4
  linarith

/-- Two interests on `chain2`: one in each state. -/
def exInterest (i t : Nat) : ℚ := if t = i then 1 else 0

example := C155_passes (chain2 ℚ) chain2_ok.1 (by simp [chain2]) 2 (fun _ => 1) (fun _ _ => zero_le_one) exInterest (1 / 2)
  (by norm_num) 5

example := C155_soft (chain2 ℝ) chain2_ok.1 2 (fun _ => 1 / 2) (fun _ _ => by norm_num) (by norm_num [Finset.sum_range_succ])
  (fun i t => if t = i then 1 else 0) (1 / 2) (1 / 100) (by norm_num) (by norm_num) (by norm_num)

/-- **C155**: it can be strictly less: at state 1, nobody can be in both states at once. And a negative weight is not an
interest: of disliking a state, one can be spared. -/
theorem C155_witness :
    Spec.sweeps (chain2 ℚ) (fun t => ∑ i ∈ Finset.range 2, (fun _ => 1) i * exInterest i t) (1 / 2) 3 1 <
      ∑ i ∈ Finset.range 2, (fun _ => 1) i * Spec.sweeps (chain2 ℚ) (exInterest i) (1 / 2) 3 1 ∧
    ∑ i ∈ Finset.range 1, (fun _ => -1) i * Spec.sweeps (chain2 ℚ) (exInterest i) (1 / 2) 3 1 <
      Spec.sweeps (chain2 ℚ) (fun t => ∑ i ∈ Finset.range 1, (fun _ => -1) i * exInterest i t) (1 / 2) 3 1 := by
  decide +kernel

end MaMDP
