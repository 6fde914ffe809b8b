import Verif.Lemmas.Foraging
import Verif.Lemmas.Shortsighted

/-! # How much values can differ between nearby states (C171) -/

set_option linter.unusedSectionVars false

namespace MaMDP

/-- The values that value iteration tends to stay between the extreme rewards received forever. -/
theorem limit_between {M : Trans ℝ} (hM : Spec.SubStochastic M) (hA : 0 < M.nA) {r V : Nat → ℝ} {γ L U : ℝ} (h0 : 0 < γ)
    (h1 : γ < 1) (hL : 0 ≤ L) (hU : 0 ≤ U) (hr : ∀ t, t < M.nS → -L ≤ r t ∧ r t ≤ U)
    (hV : ∀ ε, 0 < ε → ∃ N, ∀ k, N ≤ k → ∃ v q, solveVI (hardBackup M.nA) M r k γ 0 = .ok (v, q) ∧
        ∀ s, s < M.nS → |v s - V s| < ε) {s : Nat} (hs : s < M.nS) : -(L / (1 - γ)) ≤ V s ∧ V s ≤ U / (1 - γ) := by
  have hg : 0 < 1 - γ := by linarith
  have hε : ∀ ε, 0 < ε → -(L / (1 - γ)) ≤ V s + ε ∧ V s ≤ U / (1 - γ) + ε := by
    intro ε hε
    obtain ⟨N, hN⟩ := hV ε hε
    obtain ⟨v, q, e1, e2⟩ := hN N le_rfl
    obtain ⟨-, -, j, -, -, hv, -⟩ := solve_is_sweeps hA ((solveHard_eq hA r N γ 0).trans e1)
    have hind := iterV_induct (B := hardBackup M.nA) (M := M) (r := r) (γ := γ) (v := fun _ => 0)
      (fun _ x => -(L / (1 - γ)) ≤ x ∧ x ≤ U / (1 - γ))
      (fun _ _ => ⟨neg_nonpos.2 (div_nonneg hL hg.le), div_nonneg hU hg.le⟩) (fun w u hu hw => by
        obtain ⟨i, hi, e⟩ := exists_npMax (actionValue M r γ w u) hA
        unfold hardBackup
        rw [e]
        exact actionValue_between hM h0 h1 hL hU hr hw hu hi)
    have b := (hind j s hs).1
    rw [← sweeps_eq, ← hv] at b
    have c := abs_lt.1 (e2 s hs)
    constructor <;> linarith [b.1, b.2, c.1, c.2]
  exact ⟨le_of_forall_pos_le_add fun ε he => (hε ε he).1, le_of_forall_pos_le_add fun ε he => (hε ε he).2⟩

/-- Who can get to `t` is worth at least what `t` is worth, later and after the losses on the way. -/
theorem value_path {M : Trans ℝ} (hM : Spec.SubStochastic M) (hdet : Spec.Deterministic M) {r V : Nat → ℝ} {γ L : ℝ}
    (h0 : 0 < γ) (h1 : γ < 1) (hr : ∀ t, t < M.nS → -L ≤ r t) (hV : ∀ s, s < M.nS → V s = hardBackup M.nA (actionValue M r γ V s))
    {t : Nat} : ∀ (n s : Nat), s < M.nS → Spec.Reaches M s t n → γ ^ n * V t - (1 - γ ^ n) * (L / (1 - γ)) ≤ V s := by
  have hg : 0 < 1 - γ := by linarith
  have fix : L + γ * (L / (1 - γ)) = L / (1 - γ) := by field_simp; ring
  intro n
  induction n with
  | zero => intro s hs h; rw [reaches_zero] at h; subst h; simp
  | succ n ih =>
    intro s hs h
    obtain ⟨a, u, ha, hu, hp, h⟩ := reaches_succ.1 h
    have e := actionValue_det hM hdet r γ V hs ha hu hp
    have h2 : actionValue M r γ V s a ≤ V s := by
      rw [hV s hs]
      exact le_npMax _ ha
    have h3 := mul_le_mul_of_nonneg_left (ih u hu h) h0.le
    have := hr u hu
    rw [e] at h2
    calc _ = -L + γ * (γ ^ n * V t - (1 - γ ^ n) * (L / (1 - γ))) := by
          rw [pow_succ]
          linear_combination fix
      _ ≤ V s := by linarith

end MaMDP
