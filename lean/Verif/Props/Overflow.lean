import Verif.Lemmas.Overflow
import Verif.Lemmas.Grid
import Verif.Lemmas.Mdp
import Verif.Props.DynamicProgramming
import Verif.Props.IRL
import Verif.Props.Algorithm
import Mathlib.Analysis.Complex.ExponentialBounds
import Mathlib.Tactic.IntervalCases

/-! # C142: rewards that are too large for exponentials -/

set_option linter.unusedSectionVars false

namespace MaMDP

/-- **C142**, for action selection: the largest value is taken off first, so softmax gives exact probabilities for values
of any size. -/
theorem C142_softmax (big T : ℝ) (hT : 0 < T) (n : Nat) (hn : (n : ℝ) ≤ big) (e : Nat → Ext ℝ) (a : Nat) (ha : a < n) :
    softmaxCap big n (fun a => (e a).clean) T a = softmax n (fun a => (e a).clean) T a := by
  unfold softmaxCap softmax
  split_ifs with h
  · rfl
  · rcases hm : npMax n (fun a => (e a).clean) with _ | _ | m
    · rfl
    · rfl
    · have h1 : ∀ b, b < n → expShift m T (e b).clean ≤ 1 := by
        intro b hb
        have hle := le_npMax (fun a => (e a).clean) hb
        rw [hm] at hle
        cases he : e b with
        | fin x =>
          rw [expShift_fin, Real.exp_le_one_iff]
          rw [he] at hle
          have hx : x ≤ m := by
            have h2 : ((x : WithTop ℝ) : WithBot (WithTop ℝ)) ≤ ((m : WithTop ℝ) : WithBot (WithTop ℝ)) := hle
            exact WithTop.coe_le_coe.1 (WithBot.coe_le_coe.1 h2)
          exact div_nonpos_of_nonpos_of_nonneg (by linarith) hT.le
        | _ => rw [expShift_of_not_fin _ _ (by intro x hx; cases hx)]; exact zero_le_one
      have h2 : npSum n (fun b => expShift m T (e b).clean) ≤ big := by
        refine le_trans ?_ hn
        calc (∑ b ∈ Finset.range n, expShift m T (e b).clean) ≤ ∑ _b ∈ Finset.range n, (1 : ℝ) :=
              Finset.sum_le_sum fun b hb => h1 b (Finset.mem_range.1 hb)
          _ = n := by simp
      have h3 : (1 : ℝ) ≤ n := by exact_mod_cast (by omega : 1 ≤ n)
      show capDiv (capped big (expShift m T (e a).clean)) (capped big (npSum n fun b => expShift m T (e b).clean)) = _
      rw [capped_ok h2, capped_ok (le_trans (h1 a ha) (le_trans h3 hn))]
      rfl

/-- Values of a million and of 0, whose exponentials are far above the largest number 10. -/
example : softmaxCap 10 2 (fun a => (if a = 0 then Ext.fin 1000000 else Ext.fin (0 : ℝ)).clean) 1 1 =
    softmax 2 (fun a => (if a = 0 then Ext.fin 1000000 else Ext.fin (0 : ℝ)).clean) 1 1 :=
  C142_softmax 10 1 one_pos 2 (by norm_num) _ 1 (by decide)

/-- **C142, partial**, for soft value iteration: if the exponentials of all values that can occur fit, the result is the
one without overflow. `big` is the largest number, rewards are at most `R`. -/
theorem C142_partial (big : ℝ) (M : Trans ℝ) (hM : Spec.SubStochastic M) (r : Nat → ℝ) (R γ tol : ℝ) (h0 : 0 < γ) (h1 : γ < 1)
    (hR : 0 ≤ R) (hr : ∀ t, t < M.nS → r t ≤ R)
    (hbig : M.nA * Real.exp (R + γ * ((R + Real.log (M.nA + 1)) / (1 - γ))) ≤ big) (maxIter : Nat) :
    (∀ v q, solveSoft M r maxIter γ tol = .ok (v, q) → solveSoftCap big M r maxIter γ tol = .ok (fun s => .fin (v s), q)) ∧
    ∀ err, solveSoft M r maxIter γ tol = .error err → solveSoftCap big M r maxIter γ tol = .error err := by
  have hl : 0 ≤ Real.log ((M.nA : ℝ) + 1) := Real.log_nonneg (by have : (0 : ℝ) ≤ M.nA := Nat.cast_nonneg _; linarith)
  have hg : 0 < 1 - γ := by linarith
  have hs : Small big M r γ R ((R + Real.log (M.nA + 1)) / (1 - γ)) :=
    ⟨hM, h0.le, hr, hR, by positivity, by
      apply le_of_eq
      field_simp
      ring, hbig⟩
  obtain ⟨w, p, g1, -, g2⟩ := Same.loop (tol := tol) hs maxIter (fun _ => 0) none fun _ => hs.v0
  unfold solveSoft solveVI solveSoftCap
  rw [if_neg (by simp [h0, h1]), if_neg (by simp [h0, h1]), g1, g2]
  cases p with
  | none => exact ⟨fun v q h => (by cases h), fun err h => by cases h; rfl⟩
  | some q' =>
    refine ⟨fun v q h => ?_, fun err h => by cases h⟩
    simp only [Except.ok.injEq, Prod.mk.injEq] at h
    rw [← h.1, ← h.2]

/-- **C142**, when it goes wrong: no reward is negative, and the exponential of a reward that can be reached,
times its chance, does not fit. From the second pass on soft value iteration raises `ValueError`. -/
theorem C142_error (big : ℝ) (M : Trans ℝ) (hM : Spec.SubStochastic M) (r : Nat → ℝ) (hr : ∀ t, t < M.nS → 0 ≤ r t)
    (γ tol : ℝ) (h0 : 0 < γ) (h1 : γ < 1) (s a t : Nat) (hs : s < M.nS) (ha : a < M.nA) (ht : t < M.nS)
    (hbig : big < Real.exp (M.p s a t * r t)) (maxIter : Nat) (hk : 2 ≤ maxIter) :
    solveSoftCap big M r maxIter γ tol = .error .valueError := by
  obtain ⟨k, rfl⟩ : ∃ k, maxIter = k + 2 := ⟨maxIter - 2, by omega⟩
  unfold solveSoftCap
  rw [if_neg (by simp [h0, h1])]
  rw [capLoop_over hM h0.le hr (by omega) hs ha ht hbig]

/-- The largest float. -/
noncomputable def largestFloat : ℝ := (2 - 1 / 2 ^ 52) * 2 ^ 1023

theorem largestFloat_lt : largestFloat < 2 ^ 1024 := by
  unfold largestFloat
  have h : (0 : ℝ) < 2 ^ 1023 := by positivity
  rw [pow_succ (2 : ℝ) 1023, mul_comm]
  exact mul_lt_mul_of_pos_left (by norm_num) h

theorem le_largestFloat : (2 : ℝ) ^ 1023 ≤ largestFloat := by
  unfold largestFloat
  have h : (0 : ℝ) < 2 ^ 1023 := by positivity
  exact le_mul_of_one_le_left h.le (by norm_num)

theorem log_five_lt : Real.log 5 < 2 := by
  rw [Real.log_lt_iff_lt_exp (by norm_num)]
  have h := Real.exp_one_gt_d9
  have : Real.exp 2 = Real.exp 1 * Real.exp 1 := by rw [← Real.exp_add]; norm_num
  rw [this]
  nlinarith

/-- On all square grids without self transitions rewards up to 60 are small enough for the largest float and the default discount. -/
example (W H : Nat) (m : Mdp ℝ) (hm : Mdp.GridReach .square W H false m) (r : Nat → ℝ)
    (hr : ∀ t, t < m.trans.nS → r t ≤ 60) (v : Nat → ℝ) (q : Nat → Nat → Ext ℝ)
    (h : solveSoft m.trans r 500 (9 / 10) (1 / 10 ^ 8) = .ok (v, q)) :
    solveSoftCap largestFloat m.trans r 500 (9 / 10) (1 / 10 ^ 8) = .ok (fun s => .fin (v s), q) := by
  refine (C142_partial largestFloat m.trans (C27_grid _ _ _ _ m hm).1 r 60 (9 / 10) (1 / 10 ^ 8) (by norm_num) (by norm_num)
    (by norm_num) hr ?_ 500).1 v q h
  have hA : m.trans.nA = 4 := hm.ok.nActions
  rw [hA]
  refine le_trans ?_ le_largestFloat
  have h5 := log_five_lt
  have h2 := Real.log_two_gt_d9
  have hle : Real.exp (60 + 9 / 10 * ((60 + Real.log (((4 : Nat) : ℝ) + 1)) / (1 - 9 / 10))) ≤ 2 ^ 1021 := by
    rw [← Real.le_log_iff_exp_le (by positivity), Real.log_pow]
    norm_num at h2 h5 ⊢
    linarith
  calc _ ≤ ((4 : Nat) : ℝ) * 2 ^ 1021 := mul_le_mul_of_nonneg_left hle (by norm_num)
    _ = 2 ^ 1023 := by rw [show (1023 : Nat) = 1021 + 2 from rfl, pow_add]; norm_num [mul_comm]

/-- **C142 is false of the code**: in a world of two states with a reward of 710 everywhere, soft value iteration with the
default settings raises `ValueError`, although all values it has to find are below 10000. -/
theorem C142_refuted : ∃ m : Mdp ℝ, Mdp.initGrid .square 1 2 false ⟨1, 2, fun _ _ => 1⟩ none = .ok m ∧
    solveSoftCap largestFloat m.trans (Spec.weighted m fun _ => 710) 500 (9 / 10) (1 / 10 ^ 8) = .error .valueError ∧
    ∃ v q, solveSoft m.trans (Spec.weighted m fun _ => 710) 500 (9 / 10) (1 / 10 ^ 8) = .ok (v, q) ∧
      ∀ s, s < 2 → v s < 10000 := by
  obtain ⟨m, hi, -, hf, -, -, -, -, hW⟩ := Mdp.initGrid_ok (K := ℝ) (kind := .square) (W := 1) (H := 2)
    (selfT := false) (f := ⟨1, 2, fun _ _ => 1⟩) (w := none) (by decide) rfl (by intro v hv; cases hv)
  have hreach := Mdp.GridReach.init hi
  have g : Mdp.GridOk .square 1 2 false m := hreach.ok
  have hsub := (C27_grid _ _ _ _ m hreach).1
  have hS : m.trans.nS = 2 := g.nStates
  have hA : m.trans.nA = 4 := g.nActions
  have hr : ∀ t, Spec.weighted m (fun _ => 710) t = 710 := by
    intro t
    unfold Spec.weighted Mdp.nFeatures
    rw [hf]
    simp
  have hp : m.trans.p 0 0 1 = 1 := by
    show m.sas 0 0 1 = 1
    rw [g.sas 0 0 1 (by decide) (by decide), hW]
    have : (GridKind.square.Move 2 false 0 0 1) := by decide
    simp [this]
  refine ⟨m, hi, ?_, ?_⟩
  · refine C142_error largestFloat m.trans hsub _ (fun t _ => by rw [hr]; norm_num) _ _ (by norm_num) (by norm_num) 0 0 1
      (by omega) (by omega) (by omega) ?_ 500 (by decide)
    rw [hp, one_mul, hr]
    refine lt_trans largestFloat_lt ?_
    rw [← Real.log_lt_iff_lt_exp (by positivity), Real.log_pow]
    have := Real.log_two_lt_d9
    norm_num at this ⊢
    linarith
  · have hs : Small (4 * Real.exp (710 + 9 / 10 * 7120)) m.trans (Spec.weighted m fun _ => 710) (9 / 10) 710 7120 := by
      refine ⟨hsub, by norm_num, fun t _ => (hr t).le, by norm_num, by norm_num, ?_, ?_⟩
      · rw [hA]
        have := log_five_lt
        norm_num at this ⊢
        linarith
      · rw [hA]
        norm_num
    obtain ⟨w, p, g1, g2, -⟩ := Same.loop (tol := 1 / 10 ^ 8) hs 500 (fun _ => 0) none fun _ => hs.v0
    obtain ⟨v, q, j, x, hsol, -⟩ := C34_returned m.trans hsub (Spec.weighted m fun _ => 710) (9 / 10) (1 / 10 ^ 8) (by norm_num)
      (by norm_num) (by norm_num) 500 (by decide)
    refine ⟨v, q, hsol, fun s _ => ?_⟩
    unfold solveSoft solveVI at hsol
    rw [if_neg (by norm_num), g1] at hsol
    cases p with
    | none => cases hsol
    | some p =>
      simp only [Except.ok.injEq, Prod.mk.injEq] at hsol
      rw [← hsol.1]
      have := g2 s
      linarith

end MaMDP
