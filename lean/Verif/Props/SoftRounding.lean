import Verif.Lemmas.SoftRounding
import Verif.Lemmas.Double
import Verif.Props.Rounding
import Verif.Props.SoftAccuracy

/-! # C177: soft value iteration in inexact arithmetic -/

set_option linter.unusedSectionVars false

namespace MaMDP

/-- With exact arithmetic the model of this file is the one of `Model/DynamicProgramming.lean`. -/
theorem C177_exact (M : Trans ℝ) (r : Nat → ℝ) (maxIter : Nat) (γ tol : ℝ) :
    (SoftArith.exact M r γ).solve M maxIter γ tol = solveSoft M r maxIter γ tol := by
  unfold SoftArith.solve solveSoft solveVI
  rw [SoftArith.exact_loop]
  by_cases h : γ < 1 ∧ 0 < γ
  · rw [if_neg (not_not.2 h), if_neg (not_not.2 h)]
    rcases viLoop (softBackup M.nA) M r γ tol maxIter (fun _ => 0) none with ⟨v, _ | q⟩ <;> rfl
  · rw [if_pos h, if_pos h]

/-- **C177**. In any arithmetic that computes action values and soft values up to `ε` (as long as numbers stay below `B`),
soft value iteration ends with values and action values close to the solution of the soft Bellman equation: within
`(γ tol + (1 + γ) ε) / (1 - γ)` when it stops by the tolerance (a larger limit would have changed nothing), within
`γ ^ max_iter (R + log (k + 1)) / (1 - γ) + ε / (1 - γ)`, with `k` actions, when it runs out of iterations (a smaller tolerance
would have changed nothing). Actions that cannot be taken, and only those, have the value `-inf`. -/
theorem C177_accuracy (M : Trans ℝ) (hM : Spec.SubStochastic M) (hA : 0 < M.nA) (r : Nat → ℝ) (R : ℝ) (hR : 0 ≤ R)
    (hr : ∀ t, t < M.nS → |r t| ≤ R) (γ tol : ℝ) (h0 : 0 < γ) (h1 : γ < 1) (htol : 0 < tol) (ε B : ℝ) (hε : 0 ≤ ε)
    (hB : R + Real.log (M.nA + 1) + γ * B + ε ≤ B) (ar : SoftArith) (har : Spec.SoftAccurate M r γ B ε ar) (V : Nat → ℝ)
    (hV : Spec.SoftBellman M r γ V) (maxIter : Nat) (hk : 0 < maxIter) :
    ∃ v q E, ar.solve M maxIter γ tol = .ok (v, q) ∧
      (E = (γ * tol + (1 + γ) * ε) / (1 - γ) ∧ (∀ k, maxIter ≤ k → ar.solve M k γ tol = .ok (v, q)) ∨
        E = γ ^ maxIter * ((R + Real.log (M.nA + 1)) / (1 - γ)) + ε / (1 - γ) ∧ ∀ tol', tol' ≤ tol → ar.solve M maxIter γ tol' = .ok (v, q)) ∧
      (∀ s, s < M.nS → |v s - V s| ≤ E) ∧
      ∀ s a, s < M.nS → a < M.nA → (Spec.Possible M s a → ∃ x, q s a = .fin x ∧ |x - Spec.Q M r γ V s a| ≤ E) ∧
        (¬ Spec.Possible M s a → q s a = .ninf) := by
  have h1g : 0 < 1 - γ := by linarith
  have hlog : 0 ≤ Real.log ((M.nA : ℝ) + 1) := Real.log_nonneg (by linarith [(Nat.cast_nonneg M.nA : (0 : ℝ) ≤ M.nA)])
  have hRl : 0 ≤ R + Real.log ((M.nA : ℝ) + 1) := add_nonneg hR hlog
  have hB0 : 0 ≤ B := by nlinarith
  have hVb := softBellman_bound hM hA h0 h1 hR hr hV
  obtain ⟨v, q, e1, -, e3, e4⟩ := SoftArith.loop_close hM hA h0 h1 hR hr hε hB0 hB har hV htol maxIter ((R + Real.log (M.nA + 1)) / (1 - γ))
    (fun _ => 0) none (div_nonneg hRl h1g.le) (fun t _ => by rw [abs_zero]; exact hB0)
    (fun t ht => by
      rw [zero_sub, abs_neg]
      exact (hVb t ht).trans (le_add_of_nonneg_right (div_nonneg hε h1g.le)))
    (fun x hx => by cases hx)
  have e3 := e3 (Or.inl hk)
  cases q with
  | none => exact absurd rfl e3
  | some q =>
    have hsol : ∀ k tol', ar.loop M tol' k (fun _ => 0) none = (v, some q) → ar.solve M k γ tol' = .ok (v, maskQ M q) := by
      intro k tol' e
      unfold SoftArith.solve
      rw [if_neg (not_not.2 ⟨h1, h0⟩), e]
    have fin : ∀ E, (∀ t, t < M.nS → |v t - V t| ≤ E) →
        (∀ x, some q = some x → ∀ s a, s < M.nS → a < M.nA → |x s a - Spec.Q M r γ V s a| ≤ E) →
        (∀ s, s < M.nS → |v s - V s| ≤ E) ∧
        ∀ s a, s < M.nS → a < M.nA →
          (Spec.Possible M s a → ∃ x, maskQ M q s a = .fin x ∧ |x - Spec.Q M r γ V s a| ≤ E) ∧
          (¬ Spec.Possible M s a → maskQ M q s a = .ninf) := fun E hv hq =>
      ⟨hv, fun s a hs ha => ⟨fun hp => ⟨q s a, (maskQ_ninf hM q hs ha).2 hp, hq q rfl s a hs ha⟩,
        (maskQ_ninf hM q hs ha).1.2⟩⟩
    rcases e4 with ⟨hk, hv, hq⟩ | ⟨hk, hv, hq⟩
    · exact ⟨v, maskQ M q, _, hsol _ _ e1, .inl ⟨rfl, fun k h => hsol k tol (hk k h)⟩, fin _ hv hq⟩
    · exact ⟨v, maskQ M q, _, hsol _ _ e1, .inr ⟨rfl, fun tol' h => hsol maxIter tol' (hk tol' h)⟩, fin _ hv hq⟩

/-- It does stop by the tolerance if that is well above the error: by pass `N + 1` if
`2 γ ^ N (R + log (k + 1)) / (1 - γ) + 3 ε / (1 - γ) < tol`. From then on the limit does not matter. -/
theorem C177_stops (M : Trans ℝ) (hM : Spec.SubStochastic M) (hA : 0 < M.nA) (r : Nat → ℝ) (R : ℝ) (hR : 0 ≤ R)
    (hr : ∀ t, t < M.nS → |r t| ≤ R) (γ tol : ℝ) (h0 : 0 < γ) (h1 : γ < 1) (ε B : ℝ) (hε : 0 ≤ ε)
    (hB : R + Real.log (M.nA + 1) + γ * B + ε ≤ B) (ar : SoftArith) (har : Spec.SoftAccurate M r γ B ε ar) (V : Nat → ℝ)
    (hV : Spec.SoftBellman M r γ V) (N : Nat) (htol : 2 * (γ ^ N * ((R + Real.log (M.nA + 1)) / (1 - γ))) + 3 * (ε / (1 - γ)) < tol) :
    ∃ v q E, (∀ k, N < k → ar.solve M k γ tol = .ok (v, q)) ∧ E = (γ * tol + (1 + γ) * ε) / (1 - γ) ∧
      (∀ s, s < M.nS → |v s - V s| ≤ E) ∧
      ∀ s a, s < M.nS → a < M.nA → (Spec.Possible M s a → ∃ x, q s a = .fin x ∧ |x - Spec.Q M r γ V s a| ≤ E) ∧
        (¬ Spec.Possible M s a → q s a = .ninf) := by
  have h1g : 0 < 1 - γ := by linarith
  have hlog : 0 ≤ Real.log ((M.nA : ℝ) + 1) := Real.log_nonneg (by linarith [(Nat.cast_nonneg M.nA : (0 : ℝ) ≤ M.nA)])
  have hRl : 0 ≤ R + Real.log ((M.nA : ℝ) + 1) := add_nonneg hR hlog
  have hB0 : 0 ≤ B := by nlinarith
  have hVb := softBellman_bound hM hA h0 h1 hR hr hV
  obtain ⟨w, w1, w2, w3⟩ := SoftArith.loop_stops hM hA h0 h1 hR hr hε hB0 hB har hV N ((R + Real.log (M.nA + 1)) / (1 - γ))
    (fun _ => 0) none (div_nonneg hRl h1g.le) (fun t _ => by rw [abs_zero]; exact hB0)
    (fun t ht => by
      rw [zero_sub, abs_neg]
      exact (hVb t ht).trans (le_add_of_nonneg_right (div_nonneg hε h1g.le))) htol
  have ht : 0 < tol := lt_of_le_of_lt (add_nonneg (mul_nonneg zero_le_two (mul_nonneg (pow_nonneg h0.le _)
    (div_nonneg hRl h1g.le))) (mul_nonneg (by norm_num) (div_nonneg hε h1g.le))) htol
  obtain ⟨f1, f2⟩ := SoftArith.stop_close hM hA h0 h1 hR hr hε hB0 hB har hV w1 ht w2
  refine ⟨_, maskQ M (ar.sweep M w).q, _, fun k hk => ?_, rfl, f1, fun s a hs ha =>
    ⟨fun hp => ⟨_, (maskQ_ninf hM _ hs ha).2 hp, f2 s a hs ha⟩, (maskQ_ninf hM _ hs ha).1.2⟩⟩
  unfold SoftArith.solve
  rw [if_neg (not_not.2 ⟨h1, h0⟩), w3 k hk]

/-- An arithmetic that rounds numbers up to `C` by at most `u` and numbers between `L` and `H` by at most a fraction `δ` of
them, with an exponential and a logarithm of that quality, computes soft values up to `(2 n + 3) u + 2 (k + 2) δ`, where `n`
is the number of states and `k` that of actions. -/
theorem C177_operations (M : Trans ℝ) (hM : Spec.SubStochastic M) (hA : 0 < M.nA) (r : Nat → ℝ) (R : ℝ) (hR : 0 ≤ R)
    (hr : ∀ t, t < M.nS → |r t| ≤ R) (γ : ℝ) (h0 : 0 < γ) (h1 : γ < 1) (rnd ex lg : ℝ → ℝ) (C u δ L H m B : ℝ)
    (hu : 0 ≤ u) (hδ : 0 ≤ δ) (hB : 0 ≤ B) (hrnd : ∀ x, |x| ≤ C → |rnd x - x| ≤ u)
    (hrel : ∀ x, L ≤ x → x ≤ H → |rnd x - x| ≤ δ * x) (hex : ∀ x, |x| ≤ m → |ex x - Real.exp x| ≤ δ * Real.exp x)
    (hlg : ∀ x, L ≤ x → x ≤ H → |lg x - Real.log x| ≤ u) (hC : R + 2 * B + (2 * M.nS + 2) * u ≤ C)
    (hm : R + γ * B + (2 * M.nS + 2) * u ≤ m) (hn : (M.nA + 2) * δ ≤ 1 / 2) (hL : 2 * L ≤ Real.exp (-m))
    (hL' : 2 * L ≤ 1 / 10 ^ 200) (hH : 2 * ((M.nA + 1) * Real.exp m) ≤ H) :
    Spec.SoftAccurate M r γ B ((2 * M.nS + 3) * u + 2 * ((M.nA + 2) * δ)) (SoftArith.rounded rnd ex lg M r γ) := by
  have har := C124_operations M hM r R hR hr γ h0 h1 rnd C u hu hrnd B hB hC
  have hnd : 0 ≤ ((M.nA : ℝ) + 2) * δ := by positivity
  have hnu : 0 ≤ (2 * (M.nS : ℝ) + 2) * u := by positivity
  have hle : (2 * (M.nS : ℝ) + 2) * u ≤ (2 * M.nS + 3) * u + 2 * ((M.nA + 2) * δ) := by linarith
  refine ⟨fun v s a hv hs ha => (har.action v s a hv hs ha).trans hle, fun v s hv hs => ?_,
    fun x y hx hy => (har.change x y hx hy).trans hle⟩
  have hact : ∀ a, a < M.nA → |(Arith.rounded rnd M r γ).action v s a - Spec.Q M r γ v s a| ≤ (2 * M.nS + 2) * u :=
    fun a ha => har.action v s a hv hs ha
  have e1 := roundedBackup_close (u := u) hδ hA (le_trans (add_nonneg (add_nonneg hR (mul_nonneg h0.le hB)) hnu) hm)
    (by push_cast; exact hn) hrel hex hlg hL hL' hH (x := (Arith.rounded rnd M r γ).action v s) fun a ha => by
      have h2 := Q_bound hM hr h0.le hB hR hv hs ha
      have h3 := abs_sub_le ((Arith.rounded rnd M r γ).action v s a) (Spec.Q M r γ v s a) 0
      rw [sub_zero, sub_zero] at h3
      linarith [hact a ha]
  have e2 := softBackup_nonExp M.nA _ _ _ hnu hact
  have e3 := abs_sub_le (roundedBackup rnd ex lg M.nA ((Arith.rounded rnd M r γ).action v s))
    (softBackup M.nA ((Arith.rounded rnd M r γ).action v s)) (softBackup M.nA (Spec.Q M r γ v s))
  change |roundedBackup rnd ex lg M.nA ((Arith.rounded rnd M r γ).action v s) - softBackup M.nA (Spec.Q M r γ v s)| ≤ _
  linarith

theorem exp_701 : Real.exp 701 ≤ 2 ^ (1013 : ℤ) := by
  have h : Real.exp 701 = Real.exp 1 ^ 701 := by rw [← Real.exp_nat_mul]; norm_num
  rw [h]
  have h2 : Real.exp 1 ^ 701 ≤ (2.7182818286 : ℝ) ^ 701 := pow_le_pow_left₀ (Real.exp_pos 1).le Real.exp_one_lt_d9.le 701
  have h3 : (2.7182818286 : ℝ) ^ 9 ≤ 2 ^ (13 : ℕ) := by norm_num
  have h4 : (2.7182818286 : ℝ) ^ 8 ≤ 2 ^ (12 : ℕ) := by norm_num
  refine h2.trans ?_
  rw [show (701 : ℕ) = 9 * 77 + 8 by norm_num, pow_add, pow_mul]
  calc ((2.7182818286 : ℝ) ^ 9) ^ 77 * 2.7182818286 ^ 8 ≤ (2 ^ (13 : ℕ)) ^ 77 * 2 ^ (12 : ℕ) :=
        mul_le_mul (pow_le_pow_left₀ (by positivity) h3 77) h4 (by positivity) (by positivity)
    _ = 2 ^ ((1013 : ℕ) : ℤ) := by rw [← pow_mul, ← pow_add, zpow_natCast]
    _ = 2 ^ (1013 : ℤ) := rfl

/-- Double precision, with an exponential and a logarithm that are off by at most a few units in the last place: no
overflow, and an error of `ε` in every computed value, if rewards and values stay below 700 and there are at most 500
actions. -/
theorem softDouble_accurate {M : Trans ℝ} (hM : Spec.SubStochastic M) (hA : 0 < M.nA) (hA' : M.nA ≤ 500) {r : Nat → ℝ} {R : ℝ}
    (hR : 0 ≤ R) (hr : ∀ t, t < M.nS → |r t| ≤ R) {γ B ε : ℝ} (h0 : 0 < γ) (h1 : γ < 1) {ex lg : ℝ → ℝ}
    (hex : ∀ x, |x| ≤ 701 → |ex x - Real.exp x| ≤ 2 ^ (-50 : ℤ) * Real.exp x)
    (hlg : ∀ x, 2 ^ (-1022 : ℤ) ≤ x → x ≤ 2 ^ (1023 : ℤ) → |lg x - Real.log x| ≤ 2 ^ (-41 : ℤ))
    (hB : 0 ≤ B) (hRB : R + B ≤ 700) (hS : (2 * M.nS + 2) * 2 ^ (-41 : ℤ) ≤ (1 : ℝ))
    (hε : ε = (2 * M.nS + 3) * 2 ^ (-41 : ℤ) + (M.nA + 2) * 2 ^ (-49 : ℤ)) :
    Spec.SoftAccurate M r γ B ε (SoftArith.rounded Spec.double ex lg M r γ) := by
  have hA1 : (M.nA : ℝ) ≤ 500 := by exact_mod_cast hA'
  have p2 : (0 : ℝ) < 2 ^ (-1022 : ℤ) := by positivity
  have e1 : Real.exp 701 * Real.exp (-701) = 1 := by rw [← Real.exp_add]; norm_num
  have e2 := Real.exp_pos (-701)
  have e3 := exp_701
  have := C177_operations M hM hA r R hR hr γ h0 h1 Spec.double ex lg 2048 (2 ^ (-41 : ℤ)) (2 ^ (-50 : ℤ)) (2 ^ (-1022 : ℤ))
    (2 ^ (1023 : ℤ)) 701 B (by positivity) (by positivity) hB (fun x hx => ?_) (fun x hx _ => ?_) hex hlg (by nlinarith) (by nlinarith)
    ?_ ?_ ?_ ?_
  · rw [hε, show ((M.nA : ℝ) + 2) * 2 ^ (-49 : ℤ) = 2 * ((M.nA + 2) * 2 ^ (-50 : ℤ)) by ring]
    exact this
  · refine (Spec.double_close x).trans ?_
    have : (2 : ℝ) ^ (-53 : ℤ) * |x| ≤ 2 ^ (-53 : ℤ) * 2048 := mul_le_mul_of_nonneg_left hx (by positivity)
    have h3 : (2 : ℝ) ^ (-1075 : ℤ) ≤ 2 ^ (-60 : ℤ) := zpow_le_zpow_right₀ (by norm_num) (by norm_num)
    have h4 : (2 : ℝ) ^ (-53 : ℤ) * 2048 + 2 ^ (-60 : ℤ) ≤ 2 ^ (-41 : ℤ) := by norm_num
    linarith
  · refine (Spec.double_close x).trans ?_
    rw [abs_of_pos (lt_of_lt_of_le p2 hx)]
    have : (2 : ℝ) ^ (-1075 : ℤ) ≤ 2 ^ (-53 : ℤ) * 2 ^ (-1022 : ℤ) := by rw [Spec.two_zpow]; norm_num
    have h3 : (2 : ℝ) ^ (-53 : ℤ) * 2 ^ (-1022 : ℤ) ≤ 2 ^ (-53 : ℤ) * x := mul_le_mul_of_nonneg_left hx (by positivity)
    have h4 : 2 * ((2 : ℝ) ^ (-53 : ℤ) * x) ≤ 2 ^ (-50 : ℤ) * x := by
      rw [← mul_assoc]
      exact mul_le_mul_of_nonneg_right (by norm_num) (p2.le.trans hx)
    linarith
  · refine (mul_le_mul_of_nonneg_right (by linarith : (M.nA : ℝ) + 2 ≤ 502) (by positivity)).trans ?_
    norm_num
  · have h2 : 2 * (2 : ℝ) ^ (-1022 : ℤ) * 2 ^ (1013 : ℤ) ≤ 1 := by rw [mul_assoc, Spec.two_zpow]; norm_num
    have h3 : 2 * (2 : ℝ) ^ (-1022 : ℤ) * Real.exp 701 ≤ 1 := (mul_le_mul_of_nonneg_left e3 (by positivity)).trans h2
    have h4 := mul_le_mul_of_nonneg_right h3 e2.le
    rw [mul_assoc _ (Real.exp 701), e1] at h4
    linarith
  · have h2 : (2 : ℝ) ^ (-1022 : ℤ) ≤ 2 ^ (-700 : ℤ) := zpow_le_zpow_right₀ (by norm_num) (by norm_num)
    have h3 : 2 * (2 : ℝ) ^ (-700 : ℤ) ≤ 1 / 10 ^ 200 := by
      rw [show (-700 : ℤ) = -((700 : ℕ) : ℤ) by norm_num, zpow_neg, zpow_natCast, show (700 : ℕ) = 7 * 100 by norm_num, pow_mul,
        ← div_eq_mul_inv, div_le_div_iff₀ (by positivity) (by positivity)]
      norm_num
    exact (mul_le_mul_of_nonneg_left h2 (by norm_num)).trans h3
  · have h2 : (M.nA + 1) * Real.exp 701 ≤ 2 ^ (9 : ℤ) * 2 ^ (1013 : ℤ) :=
      mul_le_mul (by norm_num; linarith) e3 (Real.exp_pos _).le (by positivity)
    rw [Spec.two_zpow] at h2
    refine (mul_le_mul_of_nonneg_left h2 (by norm_num : (0 : ℝ) ≤ 2)).trans ?_
    rw [← zpow_one_add₀ (by norm_num)]
    exact zpow_le_zpow_right₀ (by norm_num) (by norm_num)

/-- **C177**, double precision. -/
theorem C177_double (M : Trans ℝ) (hM : Spec.SubStochastic M) (hA : 0 < M.nA) (hA' : M.nA ≤ 500) (r : Nat → ℝ) (R : ℝ)
    (hR : 0 ≤ R) (hr : ∀ t, t < M.nS → |r t| ≤ R) (γ tol : ℝ) (h0 : 0 < γ) (h1 : γ < 1) (htol : 0 < tol) (ex lg : ℝ → ℝ)
    (hex : ∀ x, |x| ≤ 701 → |ex x - Real.exp x| ≤ 2 ^ (-50 : ℤ) * Real.exp x)
    (hlg : ∀ x, 2 ^ (-1022 : ℤ) ≤ x → x ≤ 2 ^ (1023 : ℤ) → |lg x - Real.log x| ≤ 2 ^ (-41 : ℤ))
    (B ε : ℝ) (hRB : R + B ≤ 700) (hS : (2 * M.nS + 2) * 2 ^ (-41 : ℤ) ≤ (1 : ℝ))
    (hε : ε = (2 * M.nS + 3) * 2 ^ (-41 : ℤ) + (M.nA + 2) * 2 ^ (-49 : ℤ))
    (hB : R + Real.log (M.nA + 1) + γ * B + ε ≤ B) (V : Nat → ℝ) (hV : Spec.SoftBellman M r γ V) (maxIter : Nat)
    (hk : 0 < maxIter) :
    ∃ v q E, (SoftArith.rounded Spec.double ex lg M r γ).solve M maxIter γ tol = .ok (v, q) ∧
      (E = (γ * tol + (1 + γ) * ε) / (1 - γ) ∧
          (∀ k, maxIter ≤ k → (SoftArith.rounded Spec.double ex lg M r γ).solve M k γ tol = .ok (v, q)) ∨
        E = γ ^ maxIter * ((R + Real.log (M.nA + 1)) / (1 - γ)) + ε / (1 - γ) ∧
          ∀ tol', tol' ≤ tol → (SoftArith.rounded Spec.double ex lg M r γ).solve M maxIter γ tol' = .ok (v, q)) ∧
      (∀ s, s < M.nS → |v s - V s| ≤ E) ∧
      ∀ s a, s < M.nS → a < M.nA → (Spec.Possible M s a → ∃ x, q s a = .fin x ∧ |x - Spec.Q M r γ V s a| ≤ E) ∧
        (¬ Spec.Possible M s a → q s a = .ninf) := by
  have hε0 : 0 ≤ ε := by rw [hε]; positivity
  have hlog : 0 ≤ Real.log ((M.nA : ℝ) + 1) := Real.log_nonneg (by linarith [(Nat.cast_nonneg M.nA : (0 : ℝ) ≤ M.nA)])
  have hB0 : 0 ≤ B := by nlinarith
  exact C177_accuracy M hM hA r R hR hr γ tol h0 h1 htol ε B hε0 hB _
    (softDouble_accurate hM hA hA' hR hr h0 h1 hex hlg hB0 hRB hS hε) V hV maxIter hk

/-- In double precision soft value iteration meets every tolerance well above the error. -/
theorem C177_double_stops (M : Trans ℝ) (hM : Spec.SubStochastic M) (hA : 0 < M.nA) (hA' : M.nA ≤ 500) (r : Nat → ℝ) (R : ℝ)
    (hR : 0 ≤ R) (hr : ∀ t, t < M.nS → |r t| ≤ R) (γ tol : ℝ) (h0 : 0 < γ) (h1 : γ < 1) (ex lg : ℝ → ℝ)
    (hex : ∀ x, |x| ≤ 701 → |ex x - Real.exp x| ≤ 2 ^ (-50 : ℤ) * Real.exp x)
    (hlg : ∀ x, 2 ^ (-1022 : ℤ) ≤ x → x ≤ 2 ^ (1023 : ℤ) → |lg x - Real.log x| ≤ 2 ^ (-41 : ℤ))
    (B ε : ℝ) (hRB : R + B ≤ 700) (hS : (2 * M.nS + 2) * 2 ^ (-41 : ℤ) ≤ (1 : ℝ))
    (hε : ε = (2 * M.nS + 3) * 2 ^ (-41 : ℤ) + (M.nA + 2) * 2 ^ (-49 : ℤ))
    (hB : R + Real.log (M.nA + 1) + γ * B + ε ≤ B) (V : Nat → ℝ) (hV : Spec.SoftBellman M r γ V) (N : Nat)
    (htol : 2 * (γ ^ N * ((R + Real.log (M.nA + 1)) / (1 - γ))) + 3 * (ε / (1 - γ)) < tol) :
    ∃ v q E, (∀ k, N < k → (SoftArith.rounded Spec.double ex lg M r γ).solve M k γ tol = .ok (v, q)) ∧
      E = (γ * tol + (1 + γ) * ε) / (1 - γ) ∧ (∀ s, s < M.nS → |v s - V s| ≤ E) ∧
      ∀ s a, s < M.nS → a < M.nA → (Spec.Possible M s a → ∃ x, q s a = .fin x ∧ |x - Spec.Q M r γ V s a| ≤ E) ∧
        (¬ Spec.Possible M s a → q s a = .ninf) := by
  have hε0 : 0 ≤ ε := by rw [hε]; positivity
  have hlog : 0 ≤ Real.log ((M.nA : ℝ) + 1) := Real.log_nonneg (by linarith [(Nat.cast_nonneg M.nA : (0 : ℝ) ≤ M.nA)])
  have hB0 : 0 ≤ B := by nlinarith
  exact C177_stops M hM hA r R hR hr γ tol h0 h1 ε B hε0 hB _
    (softDouble_accurate hM hA hA' hR hr h0 h1 hex hlg hB0 hRB hS hε) V hV N htol

/-- Rewards of at most 1, five actions, discount 0.9 and a million states meet the conditions of `C177_double`, with values
up to 50. -/
example : (1 : ℝ) + 50 ≤ 700 ∧ (2 * ((10 ^ 6 : ℕ) : ℝ) + 2) * 2 ^ (-41 : ℤ) ≤ (1 : ℝ) ∧
    1 + Real.log ((5 : ℕ) + 1) + 9 / 10 * 50 +
      ((2 * ((10 ^ 6 : ℕ) : ℝ) + 3) * 2 ^ (-41 : ℤ) + (((5 : ℕ) : ℝ) + 2) * 2 ^ (-49 : ℤ)) ≤ 50 := by
  refine ⟨by norm_num, by norm_num, ?_⟩
  have h : Real.log ((5 : ℕ) + 1) ≤ 2 := by
    rw [Real.log_le_iff_le_exp (by norm_num)]
    have h1 := Real.exp_one_gt_d9
    have h2 : Real.exp 2 = Real.exp 1 * Real.exp 1 := by rw [← Real.exp_add]; norm_num
    rw [h2]
    push_cast
    nlinarith
  have h3 : ((2 * ((10 ^ 6 : ℕ) : ℝ) + 3) * 2 ^ (-41 : ℤ) + (((5 : ℕ) : ℝ) + 2) * 2 ^ (-49 : ℤ)) ≤ 1 := by norm_num
  refine (add_le_add (add_le_add (add_le_add le_rfl h) le_rfl) h3).trans ?_
  norm_num

/-- Functions of the required quality exist: the exponential and the logarithm, rounded to double precision. -/
example : (∀ x, |x| ≤ 701 → |Spec.double (Real.exp x) - Real.exp x| ≤ 2 ^ (-50 : ℤ) * Real.exp x) ∧
    ∀ x, 2 ^ (-1022 : ℤ) ≤ x → x ≤ 2 ^ (1023 : ℤ) → |Spec.double (Real.log x) - Real.log x| ≤ 2 ^ (-41 : ℤ) := by
  have e1 : Real.exp 701 * Real.exp (-701) = 1 := by rw [← Real.exp_add]; norm_num
  have e2 := Real.exp_pos (-701)
  constructor
  · intro x hx
    refine (Spec.double_close _).trans ?_
    rw [abs_of_pos (Real.exp_pos _)]
    have h1 : Real.exp (-701) ≤ Real.exp x := Real.exp_le_exp.2 (abs_le.1 hx).1
    have h2 : (2 : ℝ) ^ (-1075 : ℤ) * 2 ^ (1013 : ℤ) ≤ 2 ^ (-53 : ℤ) := by
      rw [Spec.two_zpow]
      exact zpow_le_zpow_right₀ (by norm_num) (by norm_num)
    have h3 : (2 : ℝ) ^ (-1075 : ℤ) * Real.exp 701 ≤ 2 ^ (-53 : ℤ) :=
      (mul_le_mul_of_nonneg_left exp_701 (by positivity)).trans h2
    have h4 := mul_le_mul_of_nonneg_right h3 e2.le
    rw [mul_assoc, e1, mul_one] at h4
    have h5 : (2 : ℝ) ^ (-53 : ℤ) * Real.exp (-701) ≤ 2 ^ (-53 : ℤ) * Real.exp x :=
      mul_le_mul_of_nonneg_left h1 (by positivity)
    have h6 : 2 * ((2 : ℝ) ^ (-53 : ℤ) * Real.exp x) ≤ 2 ^ (-50 : ℤ) * Real.exp x := by
      rw [← mul_assoc]
      exact mul_le_mul_of_nonneg_right (by norm_num) (Real.exp_pos x).le
    linarith
  · intro x h1 h2
    have p2 : (0 : ℝ) < 2 ^ (-1022 : ℤ) := by positivity
    have hx := lt_of_lt_of_le p2 h1
    have hl : |Real.log x| ≤ 1023 := by
      have a1 := Real.log_le_log hx h2
      have a2 := Real.log_le_log p2 h1
      rw [Real.log_zpow] at a1 a2
      have a3 := Real.log_two_lt_d9
      have a4 := Real.log_two_gt_d9
      push_cast at a1 a2
      rw [abs_le]
      constructor <;> linarith
    refine (Spec.double_close _).trans ?_
    have : (2 : ℝ) ^ (-53 : ℤ) * |Real.log x| ≤ 2 ^ (-53 : ℤ) * 1023 := mul_le_mul_of_nonneg_left hl (by positivity)
    have h3 : (2 : ℝ) ^ (-1075 : ℤ) ≤ 2 ^ (-60 : ℤ) := zpow_le_zpow_right₀ (by norm_num) (by norm_num)
    have h4 : (2 : ℝ) ^ (-53 : ℤ) * 1023 + 2 ^ (-60 : ℤ) ≤ 2 ^ (-41 : ℤ) := by norm_num
    linarith

/-- The chain of two states has a solution of the soft Bellman equation, few actions and bounded rewards. -/
example : Spec.SubStochastic (chain2 ℝ) ∧ 0 < (chain2 ℝ).nA ∧ (chain2 ℝ).nA ≤ 500 ∧
    (∀ t, t < (chain2 ℝ).nS → |(if t = 0 then (-1 : ℝ) else 1)| ≤ 1) ∧
    ∃ V : Nat → ℝ, Spec.SoftBellman (chain2 ℝ) (fun t => if t = 0 then -1 else 1) (9 / 10) V := by
  refine ⟨chain2_ok.1, by decide, by decide, fun t _ => ?_, (C34_soft_converges (chain2 ℝ) chain2_ok.1
    (fun t => if t = 0 then -1 else 1) (9 / 10) (by norm_num) (by norm_num)).imp fun _ h => h.1⟩
  split <;> norm_num

end MaMDP
