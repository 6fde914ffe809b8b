import Verif.Lemmas.Costs
import Verif.Lemmas.Double
import Verif.Lemmas.Rounding
import Verif.Props.Optimality

/-! # C124: value iteration in inexact arithmetic -/

set_option linter.unusedSectionVars false

namespace MaMDP

variable {K : Type} [Field K] [LinearOrder K] [IsStrictOrderedRing K]

/-- With exact arithmetic the model of this file is the one of `Model/DynamicProgramming.lean`. -/
theorem C124_exact (M : Trans K) (r : Nat → K) (maxIter : Nat) (γ tol : K) :
    (Arith.exact M r γ).solve M maxIter γ tol = solveHard M r maxIter γ tol := by
  unfold Arith.solve solveHard solveVI
  rw [Arith.exact_loop]
  rfl

/-- In any arithmetic that computes action values up to `ε` (as long as numbers stay below `B`), value iteration ends with
values and action values close to the solution of the Bellman equation: within `(γ tol + (1 + γ) ε) / (1 - γ)` when it
stops by the tolerance (a larger limit would have changed nothing), within `γ ^ max_iter R / (1 - γ) + ε / (1 - γ)` when it
runs out of iterations (a smaller tolerance would have changed nothing). Actions that cannot be taken, and only those, have
the value `-inf`. -/
theorem C124_accuracy (M : Trans K) (hM : Spec.SubStochastic M) (hA : 0 < M.nA) (r : Nat → K) (R : K) (hR : 0 ≤ R)
    (hr : ∀ t, t < M.nS → |r t| ≤ R) (γ tol : K) (h0 : 0 < γ) (h1 : γ < 1) (htol : 0 < tol) (ε B : K) (hε : 0 ≤ ε)
    (hB : R + γ * B + ε ≤ B) (ar : Arith K) (har : Spec.Accurate M r γ B ε ar) (V : Nat → K)
    (hV : Spec.Bellman M r γ V) (maxIter : Nat) (hk : 0 < maxIter) :
    ∃ v q E, ar.solve M maxIter γ tol = .ok (v, q) ∧
      (E = (γ * tol + (1 + γ) * ε) / (1 - γ) ∧ (∀ k, maxIter ≤ k → ar.solve M k γ tol = .ok (v, q)) ∨
        E = γ ^ maxIter * (R / (1 - γ)) + ε / (1 - γ) ∧ ∀ tol', tol' ≤ tol → ar.solve M maxIter γ tol' = .ok (v, q)) ∧
      (∀ s, s < M.nS → |v s - V s| ≤ E) ∧
      ∀ s a, s < M.nS → a < M.nA → (Spec.Possible M s a → ∃ x, q s a = .fin x ∧ |x - Spec.Q M r γ V s a| ≤ E) ∧
        (¬ Spec.Possible M s a → q s a = .ninf) := by
  have h1g : 0 < 1 - γ := by linarith
  have hB0 : 0 ≤ B := by nlinarith
  have hVb := bellman_abs hM h0 h1 hR hr hV
  obtain ⟨v, q, e1, -, e3, e4⟩ := Arith.loop_close hM hA h0 h1 hR hr hε hB0 hB har hV htol maxIter (R / (1 - γ))
    (fun _ => 0) none (div_nonneg hR h1g.le) (fun t _ => by rw [abs_zero]; exact hB0)
    (fun t ht => by
      rw [zero_sub, abs_neg]
      exact (hVb t ht).trans (le_add_of_nonneg_right (div_nonneg hε h1g.le)))
    (fun x hx => by cases hx)
  have e3 := e3 (Or.inl hk)
  cases q with
  | none => exact absurd rfl e3
  | some q =>
    have hsol : ∀ k tol', ar.loop M tol' k (fun _ => 0) none = (v, some q) → ar.solve M k γ tol' = .ok (v, maskQ M q) := by
      intro k tol' e
      unfold Arith.solve
      rw [if_neg (fun h => by have := h.2.1; omega), if_neg (not_not.2 ⟨h1, h0⟩), e]
    have fin : ∀ E, (∀ t, t < M.nS → |v t - V t| ≤ E) →
        (∀ x, some q = some x → ∀ s a, s < M.nS → a < M.nA → |x s a - Spec.Q M r γ V s a| ≤ E) →
        (∀ s, s < M.nS → |v s - V s| ≤ E) ∧
        ∀ s a, s < M.nS → a < M.nA →
          (Spec.Possible M s a → ∃ x, maskQ M q s a = .fin x ∧ |x - Spec.Q M r γ V s a| ≤ E) ∧
          (¬ Spec.Possible M s a → maskQ M q s a = .ninf) := fun E hv hq =>
      ⟨hv, fun s a hs ha => ⟨fun hp => ⟨q s a, (maskQ_ninf hM q hs ha).2 hp, hq q rfl s a hs ha⟩,
        (maskQ_ninf hM q hs ha).1.2⟩⟩
    rcases e4 with ⟨hk, hv, hq⟩ | ⟨hk, hv, hq⟩
    · exact ⟨v, maskQ M q, _, hsol _ _ e1, .inl ⟨rfl, fun k h => hsol k tol (hk k h)⟩, fin _ hv hq⟩
    · exact ⟨v, maskQ M q, _, hsol _ _ e1, .inr ⟨rfl, fun tol' h => hsol maxIter tol' (hk tol' h)⟩, fin _ hv hq⟩

/-- It does stop by the tolerance if that is well above the error: by pass `N + 1` if
`2 γ ^ N R / (1 - γ) + 3 ε / (1 - γ) < tol`. From then on the limit does not matter. -/
theorem C124_stops (M : Trans K) (hM : Spec.SubStochastic M) (hA : 0 < M.nA) (r : Nat → K) (R : K) (hR : 0 ≤ R)
    (hr : ∀ t, t < M.nS → |r t| ≤ R) (γ tol : K) (h0 : 0 < γ) (h1 : γ < 1) (ε B : K) (hε : 0 ≤ ε)
    (hB : R + γ * B + ε ≤ B) (ar : Arith K) (har : Spec.Accurate M r γ B ε ar) (V : Nat → K)
    (hV : Spec.Bellman M r γ V) (N : Nat) (htol : 2 * (γ ^ N * (R / (1 - γ))) + 3 * (ε / (1 - γ)) < tol) :
    ∃ v q E, (∀ k, N < k → ar.solve M k γ tol = .ok (v, q)) ∧ E = (γ * tol + (1 + γ) * ε) / (1 - γ) ∧
      (∀ s, s < M.nS → |v s - V s| ≤ E) ∧
      ∀ s a, s < M.nS → a < M.nA → (Spec.Possible M s a → ∃ x, q s a = .fin x ∧ |x - Spec.Q M r γ V s a| ≤ E) ∧
        (¬ Spec.Possible M s a → q s a = .ninf) := by
  have h1g : 0 < 1 - γ := by linarith
  have hB0 : 0 ≤ B := by nlinarith
  have hVb := bellman_abs hM h0 h1 hR hr hV
  obtain ⟨w, w1, w2, w3⟩ := Arith.loop_stops hM hA h0 h1 hR hr hε hB0 hB har hV N (R / (1 - γ))
    (fun _ => 0) none (div_nonneg hR h1g.le) (fun t _ => by rw [abs_zero]; exact hB0)
    (fun t ht => by
      rw [zero_sub, abs_neg]
      exact (hVb t ht).trans (le_add_of_nonneg_right (div_nonneg hε h1g.le))) htol
  have ht : 0 < tol := lt_of_le_of_lt (add_nonneg (mul_nonneg zero_le_two (mul_nonneg (pow_nonneg h0.le _)
    (div_nonneg hR h1g.le))) (mul_nonneg (by norm_num) (div_nonneg hε h1g.le))) htol
  obtain ⟨f1, f2⟩ := Arith.stop_close hM hA h0 h1 hR hr hε hB0 hB har hV w1 ht w2
  refine ⟨_, maskQ M (ar.sweep M w).q, _, fun k hk => ?_, rfl, f1, fun s a hs ha =>
    ⟨fun hp => ⟨_, (maskQ_ninf hM _ hs ha).2 hp, f2 s a hs ha⟩, (maskQ_ninf hM _ hs ha).1.2⟩⟩
  unfold Arith.solve
  rw [if_neg (fun h => by have := h.2.1; omega), if_neg (not_not.2 ⟨h1, h0⟩), w3 k hk]

/-- An arithmetic that rounds every result below `C` by at most `u` computes action values up to `(2 n + 2) u`, where `n`
is the number of states. -/
theorem C124_operations (M : Trans K) (hM : Spec.SubStochastic M) (r : Nat → K) (R : K) (hR : 0 ≤ R)
    (hr : ∀ t, t < M.nS → |r t| ≤ R) (γ : K) (h0 : 0 < γ) (h1 : γ < 1) (rnd : K → K) (C u : K) (hu : 0 ≤ u)
    (hrnd : ∀ x, |x| ≤ C → |rnd x - x| ≤ u) (B : K) (hB : 0 ≤ B) (hC : R + 2 * B + (2 * M.nS + 2) * u ≤ C) :
    Spec.Accurate M r γ B ((2 * M.nS + 2) * u) (Arith.rounded rnd M r γ) where
  action := by
    intro v s a hv hs ha
    have h2 := rounded_sum hrnd hu (p := M.p s a) (r := r) (v := v) (γ := γ) (fun t ht => hM.nonneg s a t hs ha ht)
      (hM.le_one s a hs ha) h0.le h1.le hr hv hR hB (by linarith) M.nS le_rfl
    refine h2.trans ?_
    have := mul_le_mul_of_nonneg_left (hM.le_one s a hs ha) hu
    linarith
  change := by
    intro x y hx hy
    have hn : (0 : K) ≤ M.nS := Nat.cast_nonneg _
    have hnu : 0 ≤ (M.nS : K) * u := mul_nonneg hn hu
    have h2 : |x - y| ≤ 2 * B := (abs_sub x y).trans (by linarith)
    have h3 := hrnd (x - y) (by nlinarith)
    have h4 := abs_abs_sub_abs_le (rnd (x - y)) (x - y)
    change abs (|rnd (x - y)| - |x - y|) ≤ _
    nlinarith

theorem relative_accurate {M : Trans K} (hM : Spec.SubStochastic M) {r : Nat → K} {R : K} (hR : 0 ≤ R)
    (hr : ∀ t, t < M.nS → |r t| ≤ R) {γ : K} (h0 : 0 < γ) (h1 : γ < 1) {rnd : K → K} {δ : K}
    (hδ : 0 ≤ δ) (hrnd : ∀ x, |x| ≤ 10 * R / (1 - γ) → |rnd x - x| ≤ δ * |x|) (hsmall : 20 * (M.nS + 1) * δ ≤ 1 - γ)
    {ε : K} (hε : ε = 20 * (M.nS + 1) * δ * (R / (1 - γ))) :
    ∃ B, 0 ≤ ε ∧ R + γ * B + ε ≤ B ∧ Spec.Accurate M r γ B ε (Arith.rounded rnd M r γ) := by
  have h1g : 0 < 1 - γ := by linarith
  obtain ⟨S, hS⟩ : ∃ S, S = R / (1 - γ) := ⟨_, rfl⟩
  have hS0 : 0 ≤ S := by rw [hS]; exact div_nonneg hR h1g.le
  have hRS : R = S * (1 - γ) := by rw [hS, div_mul_cancel₀ _ h1g.ne']
  have hC : 10 * R / (1 - γ) = 10 * S := by rw [hS, mul_div_assoc]
  rw [hC] at hrnd
  have hεR : ε ≤ R := by
    rw [hε, ← hS, hRS, mul_comm S]
    exact mul_le_mul_of_nonneg_right hsmall hS0
  have hε2 : ε = (2 * M.nS + 2) * (δ * (10 * S)) := by rw [hε, ← hS]; ring
  have hε0 : 0 ≤ ε := by
    rw [hε2]
    exact mul_nonneg (by positivity) (mul_nonneg hδ (by linarith))
  have hRS' : R ≤ S := by rw [hRS]; nlinarith
  have har := C124_operations M hM r R hR hr γ h0 h1 rnd (10 * S) (δ * (10 * S)) (mul_nonneg hδ (by linarith))
    (fun x hx => (hrnd x hx).trans (mul_le_mul_of_nonneg_left hx hδ)) (2 * S) (by linarith) (by rw [← hε2]; linarith)
  rw [← hε2] at har
  exact ⟨2 * S, hε0, by nlinarith, har⟩

/-- Rounding with relative error `δ`, as in floating-point arithmetic: if `20 (n + 1) δ ≤ 1 - γ`, where `n` is the number
of states, and no number up to `10 R / (1 - γ)` overflows, value iteration ends within
`(γ tol + (1 + γ) ε) / (1 - γ)` of the solution of the Bellman equation when it stops by the tolerance, with
`ε = 20 (n + 1) δ R / (1 - γ)`, and within `γ ^ max_iter R / (1 - γ) + ε / (1 - γ)` otherwise. -/
theorem C124_relative (M : Trans K) (hM : Spec.SubStochastic M) (hA : 0 < M.nA) (r : Nat → K) (R : K) (hR : 0 ≤ R)
    (hr : ∀ t, t < M.nS → |r t| ≤ R) (γ tol : K) (h0 : 0 < γ) (h1 : γ < 1) (htol : 0 < tol) (rnd : K → K) (δ : K)
    (hδ : 0 ≤ δ) (hrnd : ∀ x, |x| ≤ 10 * R / (1 - γ) → |rnd x - x| ≤ δ * |x|) (hsmall : 20 * (M.nS + 1) * δ ≤ 1 - γ)
    (V : Nat → K) (hV : Spec.Bellman M r γ V) (maxIter : Nat) (hk : 0 < maxIter) (ε : K)
    (hε : ε = 20 * (M.nS + 1) * δ * (R / (1 - γ))) :
    ∃ v q E, (Arith.rounded rnd M r γ).solve M maxIter γ tol = .ok (v, q) ∧
      (E = (γ * tol + (1 + γ) * ε) / (1 - γ) ∧ (∀ k, maxIter ≤ k → (Arith.rounded rnd M r γ).solve M k γ tol = .ok (v, q)) ∨
        E = γ ^ maxIter * (R / (1 - γ)) + ε / (1 - γ) ∧ ∀ tol', tol' ≤ tol → (Arith.rounded rnd M r γ).solve M maxIter γ tol' = .ok (v, q)) ∧
      (∀ s, s < M.nS → |v s - V s| ≤ E) ∧
      ∀ s a, s < M.nS → a < M.nA → (Spec.Possible M s a → ∃ x, q s a = .fin x ∧ |x - Spec.Q M r γ V s a| ≤ E) ∧
        (¬ Spec.Possible M s a → q s a = .ninf) := by
  obtain ⟨B, hε0, hB, har⟩ := relative_accurate hM hR hr h0 h1 hδ hrnd hsmall hε
  exact C124_accuracy M hM hA r R hR hr γ tol h0 h1 htol ε B hε0 hB _ har V hV maxIter hk

/-- Rounding with relative error `δ` does not keep value iteration from meeting a tolerance well above the error. -/
theorem C124_relative_stops (M : Trans K) (hM : Spec.SubStochastic M) (hA : 0 < M.nA) (r : Nat → K) (R : K) (hR : 0 ≤ R)
    (hr : ∀ t, t < M.nS → |r t| ≤ R) (γ tol : K) (h0 : 0 < γ) (h1 : γ < 1) (rnd : K → K) (δ : K)
    (hδ : 0 ≤ δ) (hrnd : ∀ x, |x| ≤ 10 * R / (1 - γ) → |rnd x - x| ≤ δ * |x|) (hsmall : 20 * (M.nS + 1) * δ ≤ 1 - γ)
    (V : Nat → K) (hV : Spec.Bellman M r γ V) (ε : K) (hε : ε = 20 * (M.nS + 1) * δ * (R / (1 - γ))) (N : Nat)
    (htol : 2 * (γ ^ N * (R / (1 - γ))) + 3 * (ε / (1 - γ)) < tol) :
    ∃ v q E, (∀ k, N < k → (Arith.rounded rnd M r γ).solve M k γ tol = .ok (v, q)) ∧
      E = (γ * tol + (1 + γ) * ε) / (1 - γ) ∧ (∀ s, s < M.nS → |v s - V s| ≤ E) ∧
      ∀ s a, s < M.nS → a < M.nA → (Spec.Possible M s a → ∃ x, q s a = .fin x ∧ |x - Spec.Q M r γ V s a| ≤ E) ∧
        (¬ Spec.Possible M s a → q s a = .ninf) := by
  obtain ⟨B, hε0, hB, har⟩ := relative_accurate hM hR hr h0 h1 hδ hrnd hsmall hε
  exact C124_stops M hM hA r R hR hr γ tol h0 h1 ε B hε0 hB _ har V hV N htol

theorem double_accurate {M : Trans ℝ} (hM : Spec.SubStochastic M) {r : Nat → ℝ} {R : ℝ}
    (hR : 2 ^ (-900 : ℤ) ≤ R) (hr : ∀ t, t < M.nS → |r t| ≤ R) {γ : ℝ} (h0 : 0 < γ) (h1 : γ < 1)
    (hsmall : 22 * (M.nS + 1) * 2 ^ (-53 : ℤ) ≤ 1 - γ) {ε : ℝ} (hε : ε = 22 * (M.nS + 1) * 2 ^ (-53 : ℤ) * (R / (1 - γ))) :
    ∃ B, 0 ≤ R ∧ 0 ≤ ε ∧ R + γ * B + ε ≤ B ∧ Spec.Accurate M r γ B ε (Arith.rounded Spec.double M r γ) := by
  have h1g : 0 < 1 - γ := by linarith
  have hR0 : 0 ≤ R := le_trans (by positivity) hR
  obtain ⟨δ, hδe⟩ : ∃ δ : ℝ, δ = 2 ^ (-53 : ℤ) := ⟨_, rfl⟩
  have hδ : 0 ≤ δ := by rw [hδe]; positivity
  have htiny : (2 : ℝ) ^ (-1075 : ℤ) ≤ δ * R := by
    calc (2 : ℝ) ^ (-1075 : ℤ) ≤ 2 ^ (-953 : ℤ) := zpow_le_zpow_right₀ (by norm_num) (by norm_num)
      _ = 2 ^ (-53 : ℤ) * 2 ^ (-900 : ℤ) := by rw [← zpow_add₀ (by norm_num)]; norm_num
      _ ≤ _ := by rw [hδe]; exact mul_le_mul_of_nonneg_left hR (by positivity)
  rw [← hδe] at hsmall hε
  obtain ⟨S, hS⟩ : ∃ S, S = R / (1 - γ) := ⟨_, rfl⟩
  have hS0 : 0 ≤ S := by rw [hS]; exact div_nonneg hR0 h1g.le
  have hRS : R = S * (1 - γ) := by rw [hS, div_mul_cancel₀ _ h1g.ne']
  have hRS' : R ≤ S := by rw [hRS]; nlinarith
  have hεR : ε ≤ R := by
    rw [hε, ← hS, hRS, mul_comm S]
    exact mul_le_mul_of_nonneg_right hsmall hS0
  have hε2 : ε = (2 * M.nS + 2) * (δ * (11 * S)) := by rw [hε, ← hS]; ring
  have hε0 : 0 ≤ ε := by
    rw [hε2]
    exact mul_nonneg (by positivity) (mul_nonneg hδ (by linarith))
  have har := C124_operations M hM r R hR0 hr γ h0 h1 Spec.double (10 * S) (δ * (11 * S))
    (mul_nonneg hδ (by linarith))
    (fun x hx => by
      have h2 := Spec.double_rounds.close x
      rw [← hδe] at h2
      have h3 := mul_le_mul_of_nonneg_left hx hδ
      have h4 := mul_le_mul_of_nonneg_left hRS' hδ
      linarith) (2 * S) (by linarith) (by rw [← hε2]; linarith)
  rw [← hε2] at har
  exact ⟨2 * S, hR0, hε0, by nlinarith, har⟩

/-- The same in double precision, every result being rounded to 53 binary digits with gradual underflow (`Spec.double`;
overflow is left out). Rewards are bounded by some `R` of at least `2 ^ (-900)`, about `10 ^ (-271)`. -/
theorem C124_double (M : Trans ℝ) (hM : Spec.SubStochastic M) (hA : 0 < M.nA) (r : Nat → ℝ) (R : ℝ)
    (hR : 2 ^ (-900 : ℤ) ≤ R) (hr : ∀ t, t < M.nS → |r t| ≤ R) (γ tol : ℝ) (h0 : 0 < γ) (h1 : γ < 1) (htol : 0 < tol)
    (hsmall : 22 * (M.nS + 1) * 2 ^ (-53 : ℤ) ≤ 1 - γ) (V : Nat → ℝ) (hV : Spec.Bellman M r γ V) (maxIter : Nat)
    (hk : 0 < maxIter) (ε : ℝ) (hε : ε = 22 * (M.nS + 1) * 2 ^ (-53 : ℤ) * (R / (1 - γ))) :
    ∃ v q E, (Arith.rounded Spec.double M r γ).solve M maxIter γ tol = .ok (v, q) ∧
      (E = (γ * tol + (1 + γ) * ε) / (1 - γ) ∧ (∀ k, maxIter ≤ k → (Arith.rounded Spec.double M r γ).solve M k γ tol = .ok (v, q)) ∨
        E = γ ^ maxIter * (R / (1 - γ)) + ε / (1 - γ) ∧ ∀ tol', tol' ≤ tol → (Arith.rounded Spec.double M r γ).solve M maxIter γ tol' = .ok (v, q)) ∧
      (∀ s, s < M.nS → |v s - V s| ≤ E) ∧
      ∀ s a, s < M.nS → a < M.nA → (Spec.Possible M s a → ∃ x, q s a = .fin x ∧ |x - Spec.Q M r γ V s a| ≤ E) ∧
        (¬ Spec.Possible M s a → q s a = .ninf) := by
  obtain ⟨B, hR0, hε0, hB, har⟩ := double_accurate hM hR hr h0 h1 hsmall hε
  exact C124_accuracy M hM hA r R hR0 hr γ tol h0 h1 htol ε B hε0 hB _ har V hV maxIter hk

/-- In double precision value iteration meets every tolerance well above the error. -/
theorem C124_double_stops (M : Trans ℝ) (hM : Spec.SubStochastic M) (hA : 0 < M.nA) (r : Nat → ℝ) (R : ℝ)
    (hR : 2 ^ (-900 : ℤ) ≤ R) (hr : ∀ t, t < M.nS → |r t| ≤ R) (γ tol : ℝ) (h0 : 0 < γ) (h1 : γ < 1)
    (hsmall : 22 * (M.nS + 1) * 2 ^ (-53 : ℤ) ≤ 1 - γ) (V : Nat → ℝ) (hV : Spec.Bellman M r γ V)
    (ε : ℝ) (hε : ε = 22 * (M.nS + 1) * 2 ^ (-53 : ℤ) * (R / (1 - γ))) (N : Nat)
    (htol : 2 * (γ ^ N * (R / (1 - γ))) + 3 * (ε / (1 - γ)) < tol) :
    ∃ v q E, (∀ k, N < k → (Arith.rounded Spec.double M r γ).solve M k γ tol = .ok (v, q)) ∧
      E = (γ * tol + (1 + γ) * ε) / (1 - γ) ∧ (∀ s, s < M.nS → |v s - V s| ≤ E) ∧
      ∀ s a, s < M.nS → a < M.nA → (Spec.Possible M s a → ∃ x, q s a = .fin x ∧ |x - Spec.Q M r γ V s a| ≤ E) ∧
        (¬ Spec.Possible M s a → q s a = .ninf) := by
  obtain ⟨B, hR0, hε0, hB, har⟩ := double_accurate hM hR hr h0 h1 hsmall hε
  exact C124_stops M hM hA r R hR0 hr γ tol h0 h1 ε B hε0 hB _ har V hV N htol

/-- With the default settings (discount 0.9, tolerance 1e-8, limit 500), rewards of at most 1 and a thousand states, double
precision meets the tolerance within 250 passes. -/
example : 22 * (((10 ^ 3 : ℕ) : ℝ) + 1) * 2 ^ (-53 : ℤ) ≤ 1 - 9 / 10 ∧
    2 * ((9 / 10 : ℝ) ^ 249 * (1 / (1 - 9 / 10))) +
      3 * (22 * (((10 ^ 3 : ℕ) : ℝ) + 1) * 2 ^ (-53 : ℤ) * (1 / (1 - 9 / 10)) / (1 - 9 / 10)) < 1 / 10 ^ 8 := by norm_num

/-- A million states and a discount of 0.999999 meet the conditions of `C124_double`. -/
example : 22 * (((10 ^ 6 : ℕ) : ℝ) + 1) * 2 ^ (-53 : ℤ) ≤ 1 - 999999 / 1000000 := by norm_num

/-- What follows for behaviour, without costs and with deterministic moves: always taking an action of largest computed
value collects up to `2 E / (1 - γ)` as much as any other way of moving could, where `E` is the error above, and up to what
can be collected after the moves made. -/
theorem C124_plan (M : Trans ℝ) (hM : Spec.SubStochastic M) (hdet : Spec.Deterministic M) (hA : 0 < M.nA)
    (r : Nat → ℝ) (R : ℝ) (hr : ∀ t, t < M.nS → 0 ≤ r t ∧ r t ≤ R) (γ tol : ℝ) (h0 : 0 < γ) (h1 : γ < 1)
    (htol : 0 < tol) (rnd : ℝ → ℝ) (δ : ℝ) (hδ : 0 ≤ δ)
    (hrnd : ∀ x, |x| ≤ 10 * R / (1 - γ) → |rnd x - x| ≤ δ * |x|) (hsmall : 20 * (M.nS + 1) * δ ≤ 1 - γ)
    (maxIter : Nat) (hk : 0 < maxIter) (ε : ℝ) (hε : ε = 20 * (M.nS + 1) * δ * (R / (1 - γ)))
    (s : Nat) (hs : s < M.nS) :
    ∃ v q E, (Arith.rounded rnd M r γ).solve M maxIter γ tol = .ok (v, q) ∧
      (E = (γ * tol + (1 + γ) * ε) / (1 - γ) ∧ (∀ k, maxIter ≤ k → (Arith.rounded rnd M r γ).solve M k γ tol = .ok (v, q)) ∨
        E = γ ^ maxIter * (R / (1 - γ)) + ε / (1 - γ) ∧ ∀ tol', tol' ≤ tol → (Arith.rounded rnd M r γ).solve M maxIter γ tol' = .ok (v, q)) ∧
      ∀ l, Spec.Plays M s l → Spec.Greedy M.nA q s l → ∀ other, Spec.Plays M s other →
        Spec.discounted r γ other ≤ Spec.discounted r γ l + γ ^ l.length * (R / (1 - γ)) + 2 * E / (1 - γ) := by
  have h1g : 0 < 1 - γ := by linarith
  have hR : 0 ≤ R := le_trans (hr s hs).1 (hr s hs).2
  have hr0 : ∀ t, t < M.nS → 0 ≤ r t := fun t ht => (hr t ht).1
  obtain ⟨V, hV, -⟩ := C27_converges M hM hA r γ h0 h1
  obtain ⟨v, q, E, e1, e2, e3, e4⟩ := C124_relative M hM hA r R hR
    (fun t ht => by rw [abs_of_nonneg (hr0 t ht)]; exact (hr t ht).2) γ tol h0 h1 htol rnd δ hδ hrnd hsmall V hV maxIter
    hk ε hε
  refine ⟨v, q, E, e1, e2, fun l hl hg other ho => ?_⟩
  have hE : 0 ≤ E := (abs_nonneg _).trans (e3 s hs)
  have h3 := walk_le hM hdet h0 hV (bellman_nonneg hM h0 h1 hr0 hV) other s hs ho
  refine h3.trans (le_of_forall_pos_le_add fun η hη => ?_)
  have hη' : 0 < η * (1 - γ) / 2 := by positivity
  have h2 := greedy_return hM hdet h0 h1 hr0 hV (bellman_le hM h0 h1 hR (fun t ht => (hr t ht).2) hV) (q := q)
    (E := E + η * (1 - γ) / 2) ?_ (by linarith) l s hs hl hg
  · have : 2 * (E + η * (1 - γ) / 2) / (1 - γ) = 2 * E / (1 - γ) + η := by field_simp
    linarith
  · refine ⟨fun s a hs ha hp => ?_, fun s a hs ha hp => (e4 s a hs ha).2 hp⟩
    obtain ⟨x, hx, hd⟩ := (e4 s a hs ha).1 hp
    exact ⟨x, hx, lt_of_le_of_lt hd (lt_add_of_pos_right _ hη')⟩

/-- On the two-state chain, with a rounding that makes numbers above 1 too large by a thousandth, the conditions of
`C124_relative` and `C124_plan` are met. -/
example : (∀ x : ℝ, |x| ≤ 10 * 1 / (1 - 1 / 2) → |(if 1 < x then x * (1001 / 1000) else x) - x| ≤ 1 / 1000 * |x|) ∧
    20 * (((chain2 ℝ).nS : ℝ) + 1) * (1 / 1000) ≤ 1 - 1 / 2 := by
  constructor
  · intro x _
    split_ifs with h
    · rw [abs_of_pos (show (0 : ℝ) < x by linarith), abs_of_nonneg (by linarith)]
      linarith
    · rw [sub_self, abs_zero]
      positivity
  · norm_num [chain2]

/-- Its results differ from the exact ones: after four iterations the second state has the value 15/8 in one case and a
larger one in the other. -/
example : (match (Arith.rounded (fun x => if 1 < x then x * (1001 / 1000) else x) (chain2 ℚ)
      (fun t => if t = 1 then 1 else 0) (1 / 2)).solve (chain2 ℚ) 4 (1 / 2) (1 / 100),
      solveHard (chain2 ℚ) (fun t => if t = 1 then 1 else 0) 4 (1 / 2) (1 / 100) with
    | .ok (v, _), .ok (w, _) => decide (w 1 = 15 / 8 ∧ 15 / 8 < v 1 ∧ v 1 < 19 / 10)
    | _, _ => false) = true := by decide +kernel

end MaMDP
