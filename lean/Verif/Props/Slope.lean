import Verif.Lemmas.Slope
import Verif.Props.Visits

/-! # C171: nearby states are worth about the same -/

set_option linter.unusedSectionVars false

namespace MaMDP

/-- **C171**, one way: from wherever `t` can be reached in `d` moves, the value is at most
`(1 - γ ^ d) * (L + U) / (1 - γ)` below that of `t`, up to twice the error that the tolerance leaves. -/
theorem C171_slope (M : Trans ℝ) (hM : Spec.SubStochastic M) (hdet : Spec.Deterministic M) (hA : 0 < M.nA) (r : Nat → ℝ)
    (γ L U tol : ℝ) (h0 : 0 < γ) (h1 : γ < 1) (htol : 0 < tol) (hL : 0 ≤ L) (hU : 0 ≤ U)
    (hr : ∀ t, t < M.nS → -L ≤ r t ∧ r t ≤ U) :
    ∃ N, ∀ k, N ≤ k → ∃ v q, solveHard M r k γ tol = .ok (v, q) ∧ ∀ s t d, s < M.nS → Spec.Reaches M s t d →
      v t - v s ≤ (1 - γ ^ d) * ((L + U) / (1 - γ)) + 2 * (tol * γ / (1 - γ)) := by
  have hg : 0 < 1 - γ := by linarith
  obtain ⟨V, e1, e2, e3⟩ := vi_converges (hardBackup_nonExp hA) hM r h0 h1
  obtain ⟨N, hN⟩ := e2 tol htol
  refine ⟨N, fun k hk => ?_⟩
  obtain ⟨v, q, s1, -, s2⟩ := hN k hk
  refine ⟨v, q, (solveHard_eq hA r k γ tol).trans s1, fun s t d hs h => ?_⟩
  have ht := reaches_lt d s hs h
  have b := value_path hM hdet h0 h1 (fun t ht => (hr t ht).1) e1 d s hs h
  have c := (limit_between hM hA h0 h1 hL hU hr e3 ht).2
  have hp : 0 ≤ 1 - γ ^ d := sub_nonneg.2 (pow_le_one₀ h0.le h1.le)
  have := mul_le_mul_of_nonneg_left c hp
  have x := abs_lt.1 (s2 s hs)
  have y := abs_lt.1 (s2 t ht)
  rw [add_div]
  linarith [x.1, x.2, y.1, y.2]

/-- **C171**, on a grid: there moves can be taken back, so the values of two states `d` moves apart differ by no more than
that. -/
theorem C171_grid (kind : GridKind) (W H : Nat) (selfT : Bool) (m : Mdp ℝ) (hm : Mdp.GridReach kind W H selfT m) (r : Nat → ℝ)
    (γ L U tol : ℝ) (h0 : 0 < γ) (h1 : γ < 1) (htol : 0 < tol) (hL : 0 ≤ L) (hU : 0 ≤ U)
    (hr : ∀ t, t < W * H → -L ≤ r t ∧ r t ≤ U) :
    ∃ N, ∀ k, N ≤ k → ∃ v q, solveHard m.trans r k γ tol = .ok (v, q) ∧ ∀ s t d, s < W * H → Spec.Reaches m.trans s t d →
      |v s - v t| ≤ (1 - γ ^ d) * ((L + U) / (1 - γ)) + 2 * (tol * γ / (1 - γ)) := by
  obtain ⟨hM, hdet, hA, -⟩ := C27_grid kind W H selfT m hm
  have hS : m.trans.nS = W * H := hm.ok.nStates
  rw [← hS] at hr ⊢
  obtain ⟨N, hN⟩ := C171_slope m.trans hM hdet hA r γ L U tol h0 h1 htol hL hU hr
  refine ⟨N, fun k hk => ?_⟩
  obtain ⟨v, q, e, hv⟩ := hN k hk
  refine ⟨v, q, e, fun s t d hs h => abs_le.2 ⟨?_, ?_⟩⟩
  · linarith [hv s t d hs h]
  · exact hv t s d (reaches_lt d s hs h) (reaches_back (grid_canReturn hm) d s hs h)

/-- A case: a row of three cells, the last one good, the first one bad; the ends are two moves apart. -/
example : ∃ m : Mdp ℝ, Mdp.GridReach .square 1 3 false m ∧ Spec.Reaches m.trans 0 2 2 ∧
    ∃ N, ∀ k, N ≤ k → ∃ v q, solveHard m.trans (fun t => (t : ℝ) - 1) k (9 / 10) (1 / 1000) = .ok (v, q) ∧
      |v 0 - v 2| ≤ (1 - (9 / 10) ^ 2) * ((1 + 1) / (1 - 9 / 10)) + 2 * (1 / 1000 * (9 / 10) / (1 - 9 / 10)) := by
  obtain ⟨m, hi, -, hF, -, hN, -, -, hW⟩ := Mdp.initGrid_ok (K := ℝ) (kind := .square) (W := 1) (H := 3) (selfT := false)
    (f := ⟨1, 3, fun _ t => t⟩) (w := none) (by decide) rfl (by intro v hv; cases hv)
  have hm : Mdp.GridReach .square 1 3 false m := .init hi
  have h : Spec.Reaches m.trans 0 2 2 := by
    have g := hm.ok
    have step : ∀ s : Nat, s < 2 → m.trans.p s 0 (s + 1) = 1 := by
      intro s hs
      refine ((C27_grid .square 1 3 false m hm).2.1 s 0 (s + 1) ?_ ?_ ?_).resolve_left ?_
      · change s < m.nStates; rw [g.nStates]; omega
      · change 0 < m.nActions; rw [g.nActions]; decide
      · change s + 1 < m.nStates; rw [g.nStates]; omega
      · refine ne_of_gt <| (g.sas_pos (s := s) (a := 0) (t := s + 1) (by omega) (by omega)).2 ⟨by simp [hW], by simp [hW], ?_⟩
        interval_cases s <;> decide
    have hA : 0 < m.trans.nA := (C27_grid .square 1 3 false m hm).2.2.1
    have hS : m.trans.nS = 3 := g.nStates
    exact reaches_succ.2 ⟨0, 1, hA, by omega, step 0 (by norm_num), reaches_succ.2 ⟨0, 2, hA, by omega, step 1 (by norm_num),
      reaches_zero.2 rfl⟩⟩
  obtain ⟨N, hN⟩ := C171_grid .square 1 3 false m hm (fun t => (t : ℝ) - 1) (9 / 10) 1 1 (1 / 1000) (by norm_num) (by norm_num)
    (by norm_num) (by norm_num) (by norm_num) (fun t ht => by
      have : (0 : ℝ) ≤ t := Nat.cast_nonneg _
      have h2 : (t : ℝ) ≤ 2 := by exact_mod_cast (by omega : t ≤ 2)
      constructor <;> linarith)
  refine ⟨m, hm, h, N, fun k hk => ?_⟩
  obtain ⟨v, q, e, hv⟩ := hN k hk
  exact ⟨v, q, e, hv 0 2 2 (by norm_num) h⟩

end MaMDP
