import Verif.Lemmas.SoftHard
import Verif.Props.DynamicProgramming

/-! # C170: how far soft plans are from hard ones -/

set_option linter.unusedSectionVars false

namespace MaMDP

/-- **C170**, pass by pass: after the same number of passes (tolerance 0), the values and action values of soft value
iteration are at least those of the standard one. The values are at most `log (nA + 1) / (1 - γ)` above them, the action
values at most `γ` times that. -/
theorem C170_passes (M : Trans ℝ) (hM : Spec.SubStochastic M) (hA : 0 < M.nA) (r : Nat → ℝ) (γ L : ℝ) (h0 : 0 < γ)
    (h1 : γ < 1) (hL : 0 ≤ L) (hL' : L ≤ 460 * (1 - γ)) (hr : ∀ t, t < M.nS → -L ≤ r t) (k : Nat) (hk : 0 < k) :
    ∃ v q v' q', solveHard M r k γ 0 = .ok (v, q) ∧ solveSoft M r k γ 0 = .ok (v', q') ∧
      (∀ s, s < M.nS → v s ≤ v' s ∧ v' s ≤ v s + Real.log (M.nA + 1) / (1 - γ)) ∧
      ∀ s a, s < M.nS → a < M.nA → (Spec.Possible M s a → ∃ x x', q s a = .fin x ∧ q' s a = .fin x' ∧ x ≤ x' ∧
        x' ≤ x + γ * (Real.log (M.nA + 1) / (1 - γ))) ∧ (¬ Spec.Possible M s a → q s a = .ninf ∧ q' s a = .ninf) := by
  have hg : 0 < 1 - γ := by linarith
  have hlog : 0 ≤ Real.log ((M.nA : ℝ) + 1) := Real.log_nonneg (by have : (0 : ℝ) ≤ M.nA := Nat.cast_nonneg _; linarith)
  refine ⟨_, _, _, _, (solveHard_eq hA r k γ 0).trans (solveVI_all _ M r h0 h1 hk), solveVI_all _ M r h0 h1 hk,
    fun s hs => (iterV_beside hM hA h0 h1 hL hL' hr k s hs).2, fun s a hs ha => ⟨fun hp => ?_, fun hp =>
      ⟨(maskQ_ninf hM _ hs ha).1.2 hp, (maskQ_ninf hM _ hs ha).1.2 hp⟩⟩⟩
  refine ⟨_, _, (maskQ_ninf hM _ hs ha).2 hp, (maskQ_ninf hM _ hs ha).2 hp, ?_⟩
  rw [sweep_q _ _ _ _ _ _ _ hs, sweep_q _ _ _ _ _ _ _ hs]
  exact (actionValue_beside hM h0 h1 hL (div_nonneg hlog hg.le) hr
    (partialSweep_beside hM hA h0 h1 hL hL' hr (iterV_beside hM hA h0 h1 hL hL' hr (k - 1)) s hs.le) hs ha).2

/-- **C170**, converged: with enough iterations for any positive tolerance, the soft values are not below the standard ones
and at most `log (nA + 1) / (1 - γ)` above them, up to twice the error that the tolerance leaves. -/
theorem C170_converged (M : Trans ℝ) (hM : Spec.SubStochastic M) (hA : 0 < M.nA) (r : Nat → ℝ) (γ L tol : ℝ) (h0 : 0 < γ)
    (h1 : γ < 1) (htol : 0 < tol) (hL : 0 ≤ L) (hL' : L ≤ 460 * (1 - γ)) (hr : ∀ t, t < M.nS → -L ≤ r t) :
    ∃ N, ∀ k, N ≤ k → ∃ v q v' q', solveHard M r k γ tol = .ok (v, q) ∧ solveSoft M r k γ tol = .ok (v', q') ∧
      ∀ s, s < M.nS → v s - 2 * (tol * γ / (1 - γ)) ≤ v' s ∧
        v' s ≤ v s + Real.log (M.nA + 1) / (1 - γ) + 2 * (tol * γ / (1 - γ)) := by
  obtain ⟨V, -, e2, e3⟩ := vi_converges (hardBackup_nonExp hA) hM r h0 h1
  obtain ⟨V', -, f2, f3⟩ := vi_converges (softBackup_nonExp M.nA) hM r h0 h1
  have key : ∀ s, s < M.nS → V s ≤ V' s ∧ V' s ≤ V s + Real.log (M.nA + 1) / (1 - γ) := by
    intro s hs
    have hε : ∀ ε, 0 < ε → V s - 2 * ε ≤ V' s ∧ V' s ≤ V s + Real.log (M.nA + 1) / (1 - γ) + 2 * ε := by
      intro ε hε
      obtain ⟨n1, hn1⟩ := e3 ε hε
      obtain ⟨n2, hn2⟩ := f3 ε hε
      obtain ⟨v, q, s1, s2⟩ := hn1 (n1 + n2 + 1) (by omega)
      obtain ⟨v', q', t1, t2⟩ := hn2 (n1 + n2 + 1) (by omega)
      rw [solveVI_all _ M r h0 h1 (by omega)] at s1 t1
      cases s1
      cases t1
      have b := (iterV_beside hM hA h0 h1 hL hL' hr (n1 + n2 + 1) s hs).2
      have c := abs_lt.1 (s2 s hs)
      have d := abs_lt.1 (t2 s hs)
      constructor <;> linarith [b.1, b.2, c.1, c.2, d.1, d.2]
    constructor
    · refine le_of_forall_pos_le_add fun ε he => ?_
      have := (hε (ε / 2) (by linarith)).1
      linarith
    · refine le_of_forall_pos_le_add fun ε he => ?_
      have := (hε (ε / 2) (by linarith)).2
      linarith
  obtain ⟨n1, hn1⟩ := e2 tol htol
  obtain ⟨n2, hn2⟩ := f2 tol htol
  refine ⟨max n1 n2, fun k hk => ?_⟩
  obtain ⟨v, q, s1, -, s2⟩ := hn1 k ((le_max_left _ _).trans hk)
  obtain ⟨v', q', t1, -, t2⟩ := hn2 k ((le_max_right _ _).trans hk)
  refine ⟨v, q, v', q', (solveHard_eq hA r k γ tol).trans s1, t1, fun s hs => ?_⟩
  have b := key s hs
  have c := abs_lt.1 (s2 s hs)
  have d := abs_lt.1 (t2 s hs)
  constructor <;> linarith [b.1, b.2, c.1, c.2, d.1, d.2]

/-- A case with gains and losses. -/
example := C170_passes (chain2 ℝ) chain2_ok.1 (by simp [chain2]) (fun t => if t = 0 then -1 else 2) (9 / 10) 1
  (by norm_num) (by norm_num) (by norm_num) (by norm_num) (fun t _ => by split_ifs <;> norm_num) 5 (by norm_num)

example := C170_converged (chain2 ℝ) chain2_ok.1 (by simp [chain2]) (fun t => if t = 0 then -1 else 2) (9 / 10) 1 (1 / 100)
  (by norm_num) (by norm_num) (by norm_num) (by norm_num) (by norm_num) (fun t _ => by split_ifs <;> norm_num)

/-- **C170**, why very negative rewards are left out: with a single action that costs 1000 the standard value of the state
is -1000 after one pass, but the soft one is at least -461, as the constant 1e-200 is added inside the logarithm. -/
theorem C170_floor_witness : ∃ M : Trans ℝ, Spec.SubStochastic M ∧ 0 < M.nA ∧ 0 < M.nS ∧
    ∃ v q v' q', solveHard M (fun _ => -1000) 1 (1 / 2) 0 = .ok (v, q) ∧ solveSoft M (fun _ => -1000) 1 (1 / 2) 0 = .ok (v', q') ∧
      v 0 = -1000 ∧ -461 ≤ v' 0 := by
  refine ⟨⟨1, 1, fun _ _ _ => 1⟩, ⟨fun _ _ _ _ _ _ => zero_le_one, fun _ _ _ _ => by simp⟩, by norm_num, by norm_num,
    _, _, _, _, (solveHard_eq (by norm_num) _ 1 (1 / 2) 0).trans (solveVI_all _ _ _ (by norm_num) (by norm_num) one_pos),
    solveVI_all _ _ _ (by norm_num) (by norm_num) one_pos, ?_, ?_⟩
  · simp [iterV, sweep, sweepStep, upd1, hardBackup, actionValue, npDot, npMax_eq]
  · simp only [iterV, sweep, sweepStep, upd1, softBackup, List.range_one, List.foldl_cons, List.foldl_nil, if_true]
    have h : (0 : ℝ) ≤ npSum 1 fun a => Real.exp (actionValue ⟨1, 1, fun _ _ _ => 1⟩ (fun _ => -1000) (1 / 2) (fun _ => 0) 0 a) :=
      Finset.sum_nonneg fun _ _ => (Real.exp_pos _).le
    rw [Real.le_log_iff_exp_le (by positivity)]
    have h2 := exp_461
    linarith

end MaMDP
