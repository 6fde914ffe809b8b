import Verif.Spec.SoftRounding
import Verif.Lemmas.Rounding
import Verif.Lemmas.Overflow
import Mathlib.Analysis.Complex.ExponentialBounds

/-! Soft value iteration in inexact arithmetic. -/

set_option linter.unusedSectionVars false

namespace MaMDP

/-- The soft value of bounded action values is bounded. -/
theorem softBackup_abs {nA : Nat} (hA : 0 < nA) {x : Nat → ℝ} {m : ℝ} (h0 : 0 ≤ m) (h : ∀ a, a < nA → |x a| ≤ m) :
    |softBackup nA x| ≤ m + Real.log (nA + 1) := by
  have hlog : 0 ≤ Real.log ((nA : ℝ) + 1) := Real.log_nonneg (by linarith [(Nat.cast_nonneg nA : (0 : ℝ) ≤ nA)])
  rw [abs_le]
  refine ⟨?_, softBackup_le h0 fun a ha => (abs_le.1 (h a ha)).2⟩
  have hlow : x 0 ≤ softBackup nA x := by
    unfold softBackup npSum
    conv_lhs => rw [← Real.log_exp (x 0)]
    refine Real.log_le_log (Real.exp_pos _) ?_
    have h2 := Finset.single_le_sum (f := fun a => Real.exp (x a)) (fun a _ => (Real.exp_pos _).le)
      (Finset.mem_range.2 hA)
    have h4 : (0 : ℝ) ≤ 1 / 10 ^ 200 := by positivity
    linarith
  linarith [(abs_le.1 (h 0 hA)).1]

/-- One pass: what is updated is as accurate as one backup can make it. -/
theorem SoftArith.sweep_close {M : Trans ℝ} (hM : Spec.SubStochastic M) (hA : 0 < M.nA) {r V : Nat → ℝ} {γ R ε B d : ℝ}
    {ar : SoftArith} (h0 : 0 < γ) (_h1 : γ < 1) (hR : 0 ≤ R) (hr : ∀ t, t < M.nS → |r t| ≤ R) (hε : 0 ≤ ε)
    (hB0 : 0 ≤ B) (hB : R + Real.log (M.nA + 1) + γ * B + ε ≤ B) (har : Spec.SoftAccurate M r γ B ε ar) (hV : Spec.SoftBellman M r γ V) {v : Nat → ℝ}
    (hvB : ∀ t, t < M.nS → |v t| ≤ B) (hd : γ * d + ε ≤ d) (hd0 : 0 ≤ d) (hvd : ∀ t, t < M.nS → |v t - V t| ≤ d) :
    (∀ t, t < M.nS → |(ar.sweep M v).values t| ≤ B) ∧
    (∀ t, t < M.nS → |(ar.sweep M v).values t - V t| ≤ γ * d + ε) ∧
    (∀ t, t < M.nS → |v t - (ar.sweep M v).values t| ≤ (ar.sweep M v).delta + ε) ∧
    (∀ s a, s < M.nS → a < M.nA → |(ar.sweep M v).q s a - Spec.Q M r γ V s a| ≤ γ * d + ε) ∧
    (ar.sweep M v).delta ≤ d + γ * d + 2 * ε := by
  have key : ∀ n, n ≤ M.nS → ∀ st, st = (List.range n).foldl (ar.step) ⟨v, 0, fun _ _ => 0⟩ →
      (∀ t, t < M.nS → |st.values t| ≤ B) ∧ (∀ t, t < n → |st.values t - V t| ≤ γ * d + ε) ∧
      (∀ t, n ≤ t → st.values t = v t) ∧ (∀ t, t < n → |v t - st.values t| ≤ st.delta + ε) ∧
      (∀ s a, s < n → a < M.nA → |st.q s a - Spec.Q M r γ V s a| ≤ γ * d + ε) ∧ st.delta ≤ d + γ * d + 2 * ε := by
    intro n
    induction n with
    | zero =>
      rintro - st rfl
      exact ⟨hvB, fun t ht => by omega, fun _ _ => rfl, fun t ht => by omega, fun s a hs => by omega,
        show (0 : ℝ) ≤ _ by nlinarith [mul_nonneg h0.le hd0]⟩
    | succ n ih =>
      intro hn st hst
      rw [List.range_succ, List.foldl_append] at hst
      obtain ⟨i1, i2, i3, i4, i5, i6⟩ := ih (by omega) _ rfl
      revert i1 i2 i3 i4 i5 i6 hst
      generalize (List.range n).foldl (ar.step) ⟨v, 0, fun _ _ => 0⟩ = st0
      intro hst i1 i2 i3 i4 i5 i6
      have hst' : st = ar.step st0 n := hst
      have hall : ∀ t, t < M.nS → |st0.values t - V t| ≤ d := by
        intro t ht
        by_cases htn : t < n
        · exact (i2 t htn).trans hd
        · rw [i3 t (by omega)]; exact hvd t ht
      have hnS : n < M.nS := by omega
      have hact : ∀ a, a < M.nA → |ar.action st0.values n a - Spec.Q M r γ V n a| ≤ γ * d + ε := by
        intro a ha
        have e1 := har.action st0.values n a i1 hnS ha
        have e2 := Q_close hM r h0.le hd0 hall hnS ha
        have := abs_sub_le (ar.action st0.values n a) (Spec.Q M r γ st0.values n a) (Spec.Q M r γ V n a)
        linarith
      have hVn : V n = softBackup M.nA (Spec.Q M r γ V n) := hV n hnS
      have hback : |ar.backup (ar.action st0.values n) - softBackup M.nA (Spec.Q M r γ st0.values n)| ≤ ε :=
        har.backup st0.values n i1 hnS
      have hnew : |ar.backup (ar.action st0.values n) - V n| ≤ γ * d + ε := by
        have e2 := softBackup_nonExp M.nA (Spec.Q M r γ st0.values n) (Spec.Q M r γ V n) (γ * d) (mul_nonneg h0.le hd0)
          fun a ha => Q_close hM r h0.le hd0 hall hnS ha
        rw [← hVn] at e2
        have := abs_sub_le (ar.backup (ar.action st0.values n)) (softBackup M.nA (Spec.Q M r γ st0.values n)) (V n)
        linarith
      have hnewB : |ar.backup (ar.action st0.values n)| ≤ B := by
        have e2 := softBackup_abs hA (add_nonneg hR (mul_nonneg h0.le hB0)) fun a ha => Q_bound hM hr h0.le hB0 hR i1 hnS ha
        have := abs_sub_le (ar.backup (ar.action st0.values n)) (softBackup M.nA (Spec.Q M r γ st0.values n)) 0
        rw [sub_zero, sub_zero] at this
        linarith
      have hch : |st0.values n - ar.backup (ar.action st0.values n)| ≤
          ar.change (st0.values n) (ar.backup (ar.action st0.values n)) + ε := by
        linarith [(abs_le.1 (har.change _ _ (i1 n hnS) hnewB)).1]
      have hch' : ar.change (st0.values n) (ar.backup (ar.action st0.values n)) ≤ d + γ * d + 2 * ε := by
        have e1 := (abs_le.1 (har.change _ _ (i1 n hnS) hnewB)).2
        have e2 := abs_sub_le (st0.values n) (V n) (ar.backup (ar.action st0.values n))
        rw [abs_sub_comm (V n)] at e2
        linarith [hall n hnS]
      have hv : ∀ t, st.values t = if t = n then ar.backup (ar.action st0.values n) else st0.values t := by
        intro t; rw [hst']; rfl
      have hdel : st.delta = max st0.delta (ar.change (st0.values n) (ar.backup (ar.action st0.values n))) := by
        rw [hst']; rfl
      have hq : ∀ s a, st.q s a = if s = n then ar.action st0.values n a else st0.q s a := by
        intro s a; rw [hst']; rfl
      refine ⟨fun t ht => ?_, fun t ht => ?_, fun t ht => ?_, fun t ht => ?_, fun s a hs ha => ?_, ?_⟩
      · rw [hv]; split_ifs
        · exact hnewB
        · exact i1 t ht
      · rw [hv]; split_ifs with e
        · subst e; exact hnew
        · exact i2 t (by omega)
      · rw [hv, if_neg (by omega)]; exact i3 t (by omega)
      · rw [hv, hdel]; split_ifs with e
        · subst e
          rw [← i3 t le_rfl]
          exact hch.trans (add_le_add (le_max_right _ _) le_rfl)
        · exact (i4 t (by omega)).trans (add_le_add (le_max_left _ _) le_rfl)
      · rw [hq]; split_ifs with e
        · subst e; exact hact a ha
        · exact i5 s a (by omega) ha
      · rw [hdel]; exact max_le i6 hch'
  obtain ⟨k1, k2, -, k4, k5, k6⟩ := key M.nS le_rfl (ar.sweep M v) rfl
  exact ⟨k1, k2, k4, k5, k6⟩

/-- The last pass before stopping by the tolerance. -/
theorem SoftArith.stop_close {M : Trans ℝ} (hM : Spec.SubStochastic M) (hA : 0 < M.nA) {r V : Nat → ℝ} {γ R ε B tol : ℝ}
    {ar : SoftArith} (h0 : 0 < γ) (h1 : γ < 1) (hR : 0 ≤ R) (hr : ∀ t, t < M.nS → |r t| ≤ R) (hε : 0 ≤ ε)
    (hB0 : 0 ≤ B) (hB : R + Real.log (M.nA + 1) + γ * B + ε ≤ B) (har : Spec.SoftAccurate M r γ B ε ar) (hV : Spec.SoftBellman M r γ V) {v : Nat → ℝ}
    (hvB : ∀ t, t < M.nS → |v t| ≤ B) (htol : 0 < tol) (hstop : (ar.sweep M v).delta < tol) :
    (∀ t, t < M.nS → |(ar.sweep M v).values t - V t| ≤ (γ * tol + (1 + γ) * ε) / (1 - γ)) ∧
    (∀ s a, s < M.nS → a < M.nA → |(ar.sweep M v).q s a - Spec.Q M r γ V s a| ≤ (γ * tol + (1 + γ) * ε) / (1 - γ)) := by
  have h1g : 0 < 1 - γ := by linarith
  by_cases hn : 0 < M.nS
  swap
  · exact ⟨fun t ht => by omega, fun s a hs => by omega⟩
  obtain ⟨k, hk, ek⟩ := exists_npMax (fun t => |v t - V t|) hn
  have hmax : ∀ t, t < M.nS → |v t - V t| ≤ |v k - V k| := fun t ht => by
    have := le_npMax (fun t => |v t - V t|) ht
    rw [ek] at this
    exact this
  have hgo : ∀ d, 0 ≤ d → γ * d + ε ≤ d → (∀ t, t < M.nS → |v t - V t| ≤ d) →
      γ * d + ε ≤ (γ * tol + (1 + γ) * ε) / (1 - γ) →
      (∀ t, t < M.nS → |(ar.sweep M v).values t - V t| ≤ (γ * tol + (1 + γ) * ε) / (1 - γ)) ∧
      (∀ s a, s < M.nS → a < M.nA →
        |(ar.sweep M v).q s a - Spec.Q M r γ V s a| ≤ (γ * tol + (1 + γ) * ε) / (1 - γ)) := by
    intro d hd0 hd hvd hle
    obtain ⟨-, c2, -, c4, -⟩ := SoftArith.sweep_close hM hA h0 h1 hR hr hε hB0 hB har hV hvB hd hd0 hvd
    exact ⟨fun t ht => (c2 t ht).trans hle, fun s a hs ha => (c4 s a hs ha).trans hle⟩
  rcases le_or_gt (γ * |v k - V k| + ε) |v k - V k| with hc | hc
  · refine hgo _ (abs_nonneg _) hc hmax ?_
    obtain ⟨-, c2, c3, -, -⟩ := SoftArith.sweep_close hM hA h0 h1 hR hr hε hB0 hB har hV hvB hc (abs_nonneg _) hmax
    have e1 := c2 k hk
    have e2 := c3 k hk
    have e3 := abs_sub_le (v k) ((ar.sweep M v).values k) (V k)
    have e4 : |v k - V k| * (1 - γ) ≤ tol + 2 * ε := by nlinarith
    rw [le_div_iff₀ h1g]
    nlinarith
  · have e1 : ε / (1 - γ) * (1 - γ) = ε := div_mul_cancel₀ _ h1g.ne'
    have e2 : |v k - V k| ≤ ε / (1 - γ) := by rw [le_div_iff₀ h1g]; nlinarith
    refine hgo (ε / (1 - γ)) (div_nonneg hε h1g.le) (by nlinarith) (fun t ht => (hmax t ht).trans e2) ?_
    rw [le_div_iff₀ h1g]
    nlinarith [mul_pos h0 htol, mul_nonneg h0.le hε]

/-- The iteration loop: either it stopped by the tolerance, or all passes were made. -/
theorem SoftArith.loop_close {M : Trans ℝ} (hM : Spec.SubStochastic M) (hA : 0 < M.nA) {r V : Nat → ℝ} {γ R ε B tol : ℝ}
    {ar : SoftArith} (h0 : 0 < γ) (h1 : γ < 1) (hR : 0 ≤ R) (hr : ∀ t, t < M.nS → |r t| ≤ R) (hε : 0 ≤ ε)
    (hB0 : 0 ≤ B) (hB : R + Real.log (M.nA + 1) + γ * B + ε ≤ B) (har : Spec.SoftAccurate M r γ B ε ar) (hV : Spec.SoftBellman M r γ V)
    (htol : 0 < tol) : ∀ (k : Nat) (e : ℝ) (v : Nat → ℝ) (q : Option (Nat → Nat → ℝ)), 0 ≤ e →
      (∀ t, t < M.nS → |v t| ≤ B) → (∀ t, t < M.nS → |v t - V t| ≤ e + ε / (1 - γ)) →
      (∀ x, q = some x → ∀ s a, s < M.nS → a < M.nA → |x s a - Spec.Q M r γ V s a| ≤ e + ε / (1 - γ)) →
      ∃ v' q', ar.loop M tol k v q = (v', q') ∧ (∀ t, t < M.nS → |v' t| ≤ B) ∧ (0 < k ∨ q ≠ none → q' ≠ none) ∧
        (((∀ k', k ≤ k' → ar.loop M tol k' v q = (v', q')) ∧ (∀ t, t < M.nS → |v' t - V t| ≤ (γ * tol + (1 + γ) * ε) / (1 - γ)) ∧
          ∀ x, q' = some x → ∀ s a, s < M.nS → a < M.nA →
            |x s a - Spec.Q M r γ V s a| ≤ (γ * tol + (1 + γ) * ε) / (1 - γ)) ∨
        ((∀ tol', tol' ≤ tol → ar.loop M tol' k v q = (v', q')) ∧ (∀ t, t < M.nS → |v' t - V t| ≤ γ ^ k * e + ε / (1 - γ)) ∧
          ∀ x, q' = some x → ∀ s a, s < M.nS → a < M.nA →
            |x s a - Spec.Q M r γ V s a| ≤ γ ^ k * e + ε / (1 - γ))) := by
  have h1g : 0 < 1 - γ := by linarith
  intro k
  induction k with
  | zero =>
    intro e v q _ hvB hvd hq
    refine ⟨v, q, rfl, hvB, fun h => h.resolve_left (lt_irrefl _), Or.inr ?_⟩
    rw [pow_zero, one_mul]
    exact ⟨fun _ _ => rfl, hvd, hq⟩
  | succ k ih =>
    intro e v q he hvB hvd _
    have e1 : ε / (1 - γ) * (1 - γ) = ε := div_mul_cancel₀ _ h1g.ne'
    have e2 : 0 ≤ ε / (1 - γ) := div_nonneg hε h1g.le
    have hfix : γ * (e + ε / (1 - γ)) + ε = γ * e + ε / (1 - γ) := by linear_combination - e1
    obtain ⟨c1, c2, -, c4, -⟩ := SoftArith.sweep_close hM hA h0 h1 hR hr hε hB0 hB har hV hvB
      (d := e + ε / (1 - γ)) (by rw [hfix]; nlinarith) (add_nonneg he e2) hvd
    rw [hfix] at c2 c4
    by_cases hstop : (ar.sweep M v).delta < tol
    · have hs := SoftArith.stop_close hM hA h0 h1 hR hr hε hB0 hB har hV hvB htol hstop
      refine ⟨_, _, if_pos hstop, c1, (fun _ h => by cases h), Or.inl ⟨fun k' hk' => ?_, hs.1, ?_⟩⟩
      · obtain ⟨j, rfl⟩ : ∃ j, k' = j + 1 := ⟨k' - 1, by omega⟩
        exact if_pos hstop
      intro x hx
      cases hx
      exact hs.2
    · obtain ⟨v', q', f1, f2, f3, f4⟩ := ih (γ * e) (ar.sweep M v).values (some (ar.sweep M v).q)
        (mul_nonneg h0.le he) c1 c2 (fun x hx => by cases hx; exact c4)
      refine ⟨v', q', (if_neg hstop).trans f1, f2, fun _ => f3 (Or.inr (fun h => by cases h)), ?_⟩
      rw [show γ ^ (k + 1) * e = γ ^ k * (γ * e) by ring]
      refine f4.imp (fun h => ⟨fun k' hk' => ?_, h.2⟩) (fun h => ⟨fun tol' ht => ?_, h.2⟩)
      · obtain ⟨j, rfl⟩ : ∃ j, k' = j + 1 := ⟨k' - 1, by omega⟩
        exact (if_neg hstop).trans (h.1 j (by omega))
      · exact (if_neg (fun hs => hstop (hs.trans_le ht))).trans (h.1 tol' ht)

/-- A tolerance well above the rounding error is met. -/
theorem SoftArith.loop_stops {M : Trans ℝ} (hM : Spec.SubStochastic M) (hA : 0 < M.nA) {r V : Nat → ℝ} {γ R ε B tol : ℝ}
    {ar : SoftArith} (h0 : 0 < γ) (h1 : γ < 1) (hR : 0 ≤ R) (hr : ∀ t, t < M.nS → |r t| ≤ R) (hε : 0 ≤ ε)
    (hB0 : 0 ≤ B) (hB : R + Real.log (M.nA + 1) + γ * B + ε ≤ B) (har : Spec.SoftAccurate M r γ B ε ar) (hV : Spec.SoftBellman M r γ V) :
    ∀ (n : Nat) (e : ℝ) (v : Nat → ℝ) (q : Option (Nat → Nat → ℝ)), 0 ≤ e → (∀ t, t < M.nS → |v t| ≤ B) →
      (∀ t, t < M.nS → |v t - V t| ≤ e + ε / (1 - γ)) → 2 * (γ ^ n * e) + 3 * (ε / (1 - γ)) < tol →
      ∃ w, (∀ t, t < M.nS → |w t| ≤ B) ∧ (ar.sweep M w).delta < tol ∧
        ∀ k, n < k → ar.loop M tol k v q = ((ar.sweep M w).values, some (ar.sweep M w).q) := by
  have h1g : 0 < 1 - γ := by linarith
  have e1 : ε / (1 - γ) * (1 - γ) = ε := div_mul_cancel₀ _ h1g.ne'
  have e2 : 0 ≤ ε / (1 - γ) := div_nonneg hε h1g.le
  intro n
  induction n with
  | zero =>
    intro e v q he hvB hvd ht
    have hfix : γ * (e + ε / (1 - γ)) + ε = γ * e + ε / (1 - γ) := by linear_combination - e1
    obtain ⟨-, -, -, -, c5⟩ := SoftArith.sweep_close hM hA h0 h1 hR hr hε hB0 hB har hV hvB
      (d := e + ε / (1 - γ)) (by rw [hfix]; nlinarith) (add_nonneg he e2) hvd
    have hstop : (ar.sweep M v).delta < tol := by
      refine lt_of_le_of_lt c5 (lt_of_le_of_lt ?_ ht)
      rw [pow_zero, one_mul]
      nlinarith
    refine ⟨v, hvB, hstop, fun k hk => ?_⟩
    obtain ⟨j, rfl⟩ : ∃ j, k = j + 1 := ⟨k - 1, by omega⟩
    exact if_pos hstop
  | succ n ih =>
    intro e v q he hvB hvd ht
    have hfix : γ * (e + ε / (1 - γ)) + ε = γ * e + ε / (1 - γ) := by linear_combination - e1
    obtain ⟨c1, c2, -, -, -⟩ := SoftArith.sweep_close hM hA h0 h1 hR hr hε hB0 hB har hV hvB
      (d := e + ε / (1 - γ)) (by rw [hfix]; nlinarith) (add_nonneg he e2) hvd
    rw [hfix] at c2
    by_cases hstop : (ar.sweep M v).delta < tol
    · refine ⟨v, hvB, hstop, fun k hk => ?_⟩
      obtain ⟨j, rfl⟩ : ∃ j, k = j + 1 := ⟨k - 1, by omega⟩
      exact if_pos hstop
    · obtain ⟨w, w1, w2, w3⟩ := ih (γ * e) (ar.sweep M v).values (some (ar.sweep M v).q) (mul_nonneg h0.le he) c1 c2
        (by rw [show γ ^ n * (γ * e) = γ ^ (n + 1) * e by ring]; exact ht)
      refine ⟨w, w1, w2, fun k hk => ?_⟩
      obtain ⟨j, rfl⟩ : ∃ j, k = j + 1 := ⟨k - 1, by omega⟩
      exact (if_neg hstop).trans (w3 j (by omega))

/-! ### Exact arithmetic -/

theorem SoftArith.exact_sweep (M : Trans ℝ) (r : Nat → ℝ) (γ : ℝ) (v : Nat → ℝ) :
    (SoftArith.exact M r γ).sweep M v = MaMDP.sweep (softBackup M.nA) M r γ v := rfl

theorem SoftArith.exact_loop (M : Trans ℝ) (r : Nat → ℝ) (γ tol : ℝ) : ∀ (k : Nat) (v : Nat → ℝ)
    (q : Option (Nat → Nat → ℝ)), (SoftArith.exact M r γ).loop M tol k v q = viLoop (softBackup M.nA) M r γ tol k v q
  | 0, _, _ => rfl
  | k + 1, v, q => by
    unfold SoftArith.loop viLoop
    simp only [SoftArith.exact_sweep, SoftArith.exact_loop M r γ tol k]

/-! ### Rounding every operation -/

/-- Powers of numbers near 1. -/
theorem pow_near {δ : ℝ} (h0 : 0 ≤ δ) {N : Nat} (h : N * δ ≤ 1 / 2) (k : Nat) (hk : k ≤ N) :
    (1 + δ) ^ k ≤ Real.exp (N * δ) ∧ (1 + δ) ^ k ≤ 2 ∧ 1 / 2 ≤ (1 - δ) ^ k ∧ Real.exp (-(2 * (N * δ))) ≤ (1 - δ) ^ k := by
  have hkN : (k : ℝ) * δ ≤ N * δ := mul_le_mul_of_nonneg_right (by exact_mod_cast hk) h0
  have hk0 : 0 ≤ (k : ℝ) * δ := mul_nonneg (Nat.cast_nonneg k) h0
  have e1 : (1 + δ) ^ k ≤ Real.exp (N * δ) := by
    calc (1 + δ) ^ k ≤ Real.exp δ ^ k := pow_le_pow_left₀ (by linarith) (by linarith [Real.add_one_le_exp δ]) k
      _ = Real.exp (k * δ) := (Real.exp_nat_mul δ k).symm
      _ ≤ _ := Real.exp_le_exp.2 hkN
  have e2 : Real.exp (N * δ) ≤ 2 := by
    have h1 : Real.exp (N * δ) ≤ Real.exp (1 / 2) := Real.exp_le_exp.2 h
    have h2 : Real.exp (1 / 2) * Real.exp (1 / 2) = Real.exp 1 := by rw [← Real.exp_add]; norm_num
    have h3 := Real.exp_one_lt_d9
    have h4 := Real.exp_pos (1 / 2 : ℝ)
    nlinarith
  rcases Nat.eq_zero_or_pos k with rfl | hpos
  · refine ⟨e1, e1.trans e2, by norm_num, ?_⟩
    rw [pow_zero, Real.exp_le_one_iff]
    nlinarith
  have hδ : δ ≤ 1 / 2 := by
    have : (1 : ℝ) ≤ k := by exact_mod_cast hpos
    nlinarith
  have hb := one_add_mul_le_pow (show (-2 : ℝ) ≤ -δ by linarith) k
  rw [← sub_eq_add_neg] at hb
  refine ⟨e1, e1.trans e2, by linarith, ?_⟩
  have hx : Real.exp (-(2 * δ)) ≤ 1 - δ := by
    have h1 := Real.add_one_le_exp (2 * δ)
    rw [Real.exp_neg, inv_le_comm₀ (Real.exp_pos _) (by linarith)]
    refine le_trans ?_ h1
    rw [inv_le_iff_one_le_mul₀ (by linarith)]
    nlinarith
  calc Real.exp (-(2 * (N * δ))) ≤ Real.exp (k * -(2 * δ)) := Real.exp_le_exp.2 (by linarith)
    _ = Real.exp (-(2 * δ)) ^ k := Real.exp_nat_mul _ k
    _ ≤ _ := pow_le_pow_left₀ (Real.exp_pos _).le hx k

/-- Adding up exponentials with rounding. -/
theorem rounded_exps {rnd ex : ℝ → ℝ} {δ L H m : ℝ} (h0 : 0 ≤ δ) {n : Nat} (hn : ((n + 2 : ℕ) : ℝ) * δ ≤ 1 / 2)
    (hrnd : ∀ x, L ≤ x → x ≤ H → |rnd x - x| ≤ δ * x) (hex : ∀ x, |x| ≤ m → |ex x - Real.exp x| ≤ δ * Real.exp x)
    (hL : 2 * L ≤ Real.exp (-m)) (hH : 2 * ((n + 1) * Real.exp m) ≤ H) {x : Nat → ℝ} (hx : ∀ a, a < n → |x a| ≤ m) :
    ∀ k, k ≤ n → ∃ S E, S = (List.range k).foldl (fun sum a => rnd (sum + ex (x a))) 0 ∧
      E = ∑ a ∈ Finset.range k, Real.exp (x a) ∧ (1 - δ) ^ (k + 1) * E ≤ S ∧ S ≤ (1 + δ) ^ (k + 1) * E := by
  intro k
  induction k with
  | zero => intro _; exact ⟨_, _, rfl, rfl, by simp, by simp⟩
  | succ k ih =>
    intro hk
    obtain ⟨S, E, hS, hE, s1, s2⟩ := ih (by omega)
    refine ⟨_, _, rfl, rfl, ?_⟩
    rw [List.range_succ, List.foldl_append, Finset.sum_range_succ]
    simp only [List.foldl_cons, List.foldl_nil]
    rw [← hS, ← hE]
    have hxk := hx k (by omega)
    obtain ⟨x1, x2⟩ := abs_le.1 (hex (x k) hxk)
    have hd : δ ≤ 1 / 4 := by
      have : (2 : ℝ) ≤ ((n + 2 : ℕ) : ℝ) := by exact_mod_cast (by omega : 2 ≤ n + 2)
      nlinarith
    have hE0 : 0 ≤ E := by rw [hE]; exact Finset.sum_nonneg fun _ _ => (Real.exp_pos _).le
    have he0 := Real.exp_pos (x k)
    set e := Real.exp (x k) with he
    obtain ⟨-, p2, p3, -⟩ := pow_near h0 hn (k + 1) (by omega)
    have hp1 : (1 - δ) ^ (k + 1) ≤ 1 - δ := by
      rw [pow_succ]
      have : (1 - δ) ^ k ≤ 1 := pow_le_one₀ (by linarith) (by linarith)
      nlinarith
    have hp2 : 1 + δ ≤ (1 + δ) ^ (k + 1) := by
      rw [pow_succ]
      have : 1 ≤ (1 + δ) ^ k := one_le_pow₀ (by linarith)
      nlinarith
    have hS0 : 0 ≤ S := le_trans (mul_nonneg (by linarith) hE0) s1
    have t1 : (1 - δ) ^ (k + 1) * (E + e) ≤ S + ex (x k) := by nlinarith
    have t2 : S + ex (x k) ≤ (1 + δ) ^ (k + 1) * (E + e) := by nlinarith
    have l1 : L ≤ S + ex (x k) := by
      have : Real.exp (-m) ≤ e := Real.exp_le_exp.2 (abs_le.1 hxk).1
      nlinarith
    have l2 : S + ex (x k) ≤ H := by
      have hs : E + e ≤ (n + 1) * Real.exp m := by
        have h1 : E ≤ k * Real.exp m := by
          rw [hE]
          refine (Finset.sum_le_card_nsmul _ _ (Real.exp m) fun a ha => ?_).trans (by simp)
          exact Real.exp_le_exp.2 (abs_le.1 (hx a (by have := Finset.mem_range.1 ha; omega))).2
        have h2 : e ≤ Real.exp m := Real.exp_le_exp.2 (abs_le.1 hxk).2
        have h3 : (k : ℝ) ≤ n := by exact_mod_cast (by omega : k ≤ n)
        nlinarith [Real.exp_pos m]
      nlinarith
    obtain ⟨r1, r2⟩ := abs_le.1 (hrnd _ l1 l2)
    constructor
    · rw [pow_succ, mul_comm _ (1 - δ), mul_assoc]
      exact (mul_le_mul_of_nonneg_left t1 (by linarith)).trans (by linarith)
    · rw [pow_succ, mul_comm _ (1 + δ), mul_assoc]
      exact le_trans (by linarith) (mul_le_mul_of_nonneg_left t2 (by linarith))

/-- The soft value of a state computed with rounding. -/
theorem roundedBackup_close {rnd ex lg : ℝ → ℝ} {δ L H m u : ℝ} (h0 : 0 ≤ δ) {n : Nat} (hA : 0 < n) (hm : 0 ≤ m)
    (hn : ((n + 2 : ℕ) : ℝ) * δ ≤ 1 / 2)
    (hrnd : ∀ x, L ≤ x → x ≤ H → |rnd x - x| ≤ δ * x) (hex : ∀ x, |x| ≤ m → |ex x - Real.exp x| ≤ δ * Real.exp x)
    (hlg : ∀ x, L ≤ x → x ≤ H → |lg x - Real.log x| ≤ u)
    (hL : 2 * L ≤ Real.exp (-m)) (hL' : 2 * L ≤ 1 / 10 ^ 200) (hH : 2 * ((n + 1) * Real.exp m) ≤ H) {x : Nat → ℝ}
    (hx : ∀ a, a < n → |x a| ≤ m) :
    |roundedBackup rnd ex lg n x - softBackup n x| ≤ 2 * ((n + 2) * δ) + u := by
  obtain ⟨S, E, hS, hE, s1, s2⟩ := rounded_exps h0 hn hrnd hex hL hH hx n le_rfl
  obtain ⟨-, p2, p3, -⟩ := pow_near h0 hn (n + 1) (by omega)
  obtain ⟨q1, q2, q3, q4⟩ := pow_near h0 hn (n + 2) le_rfl
  have hd : δ ≤ 1 / 4 := by
    have : (2 : ℝ) ≤ ((n + 2 : ℕ) : ℝ) := by exact_mod_cast (by omega : 2 ≤ n + 2)
    nlinarith
  have hE1 : Real.exp (-m) ≤ E := by
    rw [hE]
    refine le_trans (Real.exp_le_exp.2 (abs_le.1 (hx 0 hA)).1) ?_
    exact Finset.single_le_sum (f := fun a => Real.exp (x a)) (fun a _ => (Real.exp_pos _).le) (Finset.mem_range.2 hA)
  have hE2 : E ≤ n * Real.exp m := by
    rw [hE]
    refine (Finset.sum_le_card_nsmul _ _ (Real.exp m) fun a ha => ?_).trans (by simp)
    exact Real.exp_le_exp.2 (abs_le.1 (hx a (Finset.mem_range.1 ha))).2
  obtain ⟨c, hc⟩ : ∃ c : ℝ, c = 1 / 10 ^ 200 := ⟨_, rfl⟩
  have hc0 : 0 < c := by rw [hc]; positivity
  have hc1 : c ≤ 1 := by rw [hc, div_le_one (by positivity)]; exact one_le_pow₀ (by norm_num)
  have hem : 1 ≤ Real.exp m := Real.one_le_exp hm
  have hn0 : (0 : ℝ) ≤ n := Nat.cast_nonneg n
  rw [← hc] at hL'
  have hE0 : 0 < E := lt_of_lt_of_le (Real.exp_pos _) hE1
  obtain ⟨c1, c2⟩ := abs_le.1 (hrnd c (by linarith) (by nlinarith))
  have hp1 : (1 - δ) ^ (n + 1) ≤ 1 - δ := by
    rw [pow_succ]
    have : (1 - δ) ^ n ≤ 1 := pow_le_one₀ (by linarith) (by linarith)
    nlinarith
  have hp2 : 1 + δ ≤ (1 + δ) ^ (n + 1) := by
    rw [pow_succ]
    have : 1 ≤ (1 + δ) ^ n := one_le_pow₀ (by linarith)
    nlinarith
  have hpos : 0 < E + c := by linarith
  have t1 : (1 - δ) ^ (n + 1) * (E + c) ≤ S + rnd c := by
    have := mul_le_mul_of_nonneg_right hp1 hc0.le
    linarith
  have t2 : S + rnd c ≤ (1 + δ) ^ (n + 1) * (E + c) := by
    have := mul_le_mul_of_nonneg_right hp2 hc0.le
    linarith
  have hEc : E + c ≤ (n + 1) * Real.exp m := by linarith
  have low : ∀ P : ℝ, 1 / 2 ≤ P → L ≤ P * (E + c) := fun P hP => by
    have := mul_le_mul_of_nonneg_right hP hpos.le
    linarith
  have high : ∀ P : ℝ, P ≤ 2 → P * (E + c) ≤ H := fun P hP => by
    have := mul_le_mul_of_nonneg_right hP hpos.le
    linarith
  have l1 : L ≤ S + rnd c := (low _ p3).trans t1
  have l2 : S + rnd c ≤ H := t2.trans (high _ p2)
  obtain ⟨r1, r2⟩ := abs_le.1 (hrnd _ l1 l2)
  have w1 : (1 - δ) ^ (n + 2) * (E + c) ≤ rnd (S + rnd c) := by
    rw [pow_succ (1 - δ) (n + 1), mul_comm _ (1 - δ), mul_assoc]
    exact (mul_le_mul_of_nonneg_left t1 (by linarith)).trans (by linarith)
  have w2 : rnd (S + rnd c) ≤ (1 + δ) ^ (n + 2) * (E + c) := by
    rw [pow_succ (1 + δ) (n + 1), mul_comm _ (1 + δ), mul_assoc]
    exact le_trans (by linarith) (mul_le_mul_of_nonneg_left t2 (by linarith))
  have g := hlg (rnd (S + rnd c)) ((low _ q3).trans w1) (w2.trans (high _ q2))
  have hW : 0 < rnd (S + rnd c) := lt_of_lt_of_le (mul_pos (by linarith) hpos) w1
  have e1 : Real.log (rnd (S + rnd c)) ≤ (n + 2) * δ + Real.log (E + c) := by
    rw [Real.log_le_iff_le_exp hW, Real.exp_add, Real.exp_log hpos]
    refine w2.trans (mul_le_mul_of_nonneg_right ?_ hpos.le)
    exact_mod_cast q1
  have e2 : -(2 * ((n + 2) * δ)) + Real.log (E + c) ≤ Real.log (rnd (S + rnd c)) := by
    rw [Real.le_log_iff_exp_le hW, Real.exp_add, Real.exp_log hpos]
    refine le_trans (mul_le_mul_of_nonneg_right ?_ hpos.le) w1
    exact_mod_cast q4
  have hb : roundedBackup rnd ex lg n x = lg (rnd (S + rnd c)) := by
    unfold roundedBackup
    rw [← hS, ← hc]
  have hs : softBackup n x = Real.log (E + c) := by
    unfold softBackup npSum
    rw [← hE, ← hc]
  rw [hb, hs]
  have hnd : 0 ≤ ((n : ℝ) + 2) * δ := by positivity
  obtain ⟨g1, g2⟩ := abs_le.1 g
  rw [abs_le]
  constructor <;> linarith

end MaMDP
