import Verif.Spec.Rounding
import Verif.Lemmas.DynamicProgramming

/-! Value iteration in inexact arithmetic. -/

set_option linter.unusedSectionVars false

namespace MaMDP

variable {K : Type} [Field K] [LinearOrder K] [IsStrictOrderedRing K]

/-- Expected values of nearby value functions are nearby. -/
theorem Q_close {M : Trans K} (hM : Spec.SubStochastic M) (r : Nat → K) {γ : K} (hγ : 0 ≤ γ) {v w : Nat → K} {d : K}
    (hd : 0 ≤ d) (h : ∀ t, t < M.nS → |v t - w t| ≤ d) {s a : Nat} (hs : s < M.nS) (ha : a < M.nA) :
    |Spec.Q M r γ v s a - Spec.Q M r γ w s a| ≤ γ * d := actionValue_close hM r hγ hd h hs ha

/-- Expected values of bounded value functions are bounded. -/
theorem Q_bound {M : Trans K} (hM : Spec.SubStochastic M) {r : Nat → K} {R : K} (hr : ∀ t, t < M.nS → |r t| ≤ R) {γ : K}
    (hγ : 0 ≤ γ) {v : Nat → K} {B : K} (hB : 0 ≤ B) (hR : 0 ≤ R) (h : ∀ t, t < M.nS → |v t| ≤ B) {s a : Nat}
    (hs : s < M.nS) (ha : a < M.nA) : |Spec.Q M r γ v s a| ≤ R + γ * B := by
  unfold Spec.Q
  calc |∑ t ∈ Finset.range M.nS, M.p s a t * (r t + γ * v t)|
      ≤ ∑ t ∈ Finset.range M.nS, |M.p s a t * (r t + γ * v t)| := Finset.abs_sum_le_sum_abs _ _
    _ ≤ ∑ t ∈ Finset.range M.nS, M.p s a t * (R + γ * B) := by
        refine Finset.sum_le_sum fun t ht => ?_
        have ht' := Finset.mem_range.1 ht
        rw [abs_mul, abs_of_nonneg (hM.nonneg s a t hs ha ht')]
        refine mul_le_mul_of_nonneg_left ?_ (hM.nonneg s a t hs ha ht')
        refine (abs_add_le _ _).trans (add_le_add (hr t ht') ?_)
        rw [abs_mul, abs_of_nonneg hγ]
        exact mul_le_mul_of_nonneg_left (h t ht') hγ
    _ = (∑ t ∈ Finset.range M.nS, M.p s a t) * (R + γ * B) := by rw [Finset.sum_mul]
    _ ≤ 1 * (R + γ * B) := mul_le_mul_of_nonneg_right (hM.le_one s a hs ha) (add_nonneg hR (mul_nonneg hγ hB))
    _ = R + γ * B := one_mul _

/-- The Bellman solution is bounded. -/
theorem bellman_abs {M : Trans K} (hM : Spec.SubStochastic M) {r V : Nat → K} {γ R : K} (h0 : 0 < γ) (h1 : γ < 1)
    (hR : 0 ≤ R) (hr : ∀ t, t < M.nS → |r t| ≤ R) (hV : Spec.Bellman M r γ V) :
    ∀ s, s < M.nS → |V s| ≤ R / (1 - γ) := by
  intro s hs
  have h1g : 0 < 1 - γ := by linarith
  obtain ⟨k, hk, ek⟩ := exists_npMax (fun t => |V t|) (Nat.lt_of_le_of_lt (Nat.zero_le s) hs)
  have hmax : ∀ t, t < M.nS → |V t| ≤ |V k| := fun t ht => by
    have := le_npMax (fun t => |V t|) ht
    rw [ek] at this
    exact this
  obtain ⟨-, a, ha, ea⟩ := hV k hk
  have h2 := Q_bound hM hr h0.le (abs_nonneg (V k)) hR hmax hk ha
  rw [ea] at h2
  have h3 : |V k| ≤ R / (1 - γ) := by rw [le_div_iff₀ h1g]; nlinarith
  exact (hmax s hs).trans h3

/-- Largest entries of nearby rows are nearby. -/
theorem npMax_close {n : Nat} (hn : 0 < n) {x y : Nat → K} {d : K} (hd : 0 ≤ d) (h : ∀ a, a < n → |x a - y a| ≤ d) :
    |npMax n x - npMax n y| ≤ d := hardBackup_nonExp hn x y d hd h

/-- One pass: what is updated is as accurate as one backup can make it. -/
theorem Arith.sweep_close {M : Trans K} (hM : Spec.SubStochastic M) (hA : 0 < M.nA) {r V : Nat → K} {γ R ε B d : K}
    {ar : Arith K} (h0 : 0 < γ) (_h1 : γ < 1) (hR : 0 ≤ R) (hr : ∀ t, t < M.nS → |r t| ≤ R) (hε : 0 ≤ ε)
    (hB0 : 0 ≤ B) (hB : R + γ * B + ε ≤ B) (har : Spec.Accurate M r γ B ε ar) (hV : Spec.Bellman M r γ V) {v : Nat → K}
    (hvB : ∀ t, t < M.nS → |v t| ≤ B) (hd : γ * d + ε ≤ d) (hd0 : 0 ≤ d) (hvd : ∀ t, t < M.nS → |v t - V t| ≤ d) :
    (∀ t, t < M.nS → |(ar.sweep M v).values t| ≤ B) ∧
    (∀ t, t < M.nS → |(ar.sweep M v).values t - V t| ≤ γ * d + ε) ∧
    (∀ t, t < M.nS → |v t - (ar.sweep M v).values t| ≤ (ar.sweep M v).delta + ε) ∧
    (∀ s a, s < M.nS → a < M.nA → |(ar.sweep M v).q s a - Spec.Q M r γ V s a| ≤ γ * d + ε) ∧
    (ar.sweep M v).delta ≤ d + γ * d + 2 * ε := by
  have key : ∀ n, n ≤ M.nS → ∀ st, st = (List.range n).foldl (ar.step M.nA) ⟨v, 0, fun _ _ => 0⟩ →
      (∀ t, t < M.nS → |st.values t| ≤ B) ∧ (∀ t, t < n → |st.values t - V t| ≤ γ * d + ε) ∧
      (∀ t, n ≤ t → st.values t = v t) ∧ (∀ t, t < n → |v t - st.values t| ≤ st.delta + ε) ∧
      (∀ s a, s < n → a < M.nA → |st.q s a - Spec.Q M r γ V s a| ≤ γ * d + ε) ∧ st.delta ≤ d + γ * d + 2 * ε := by
    intro n
    induction n with
    | zero =>
      rintro - st rfl
      exact ⟨hvB, fun t ht => by omega, fun _ _ => rfl, fun t ht => by omega, fun s a hs => by omega,
        show (0 : K) ≤ _ by nlinarith [mul_nonneg h0.le hd0]⟩
    | succ n ih =>
      intro hn st hst
      rw [List.range_succ, List.foldl_append] at hst
      obtain ⟨i1, i2, i3, i4, i5, i6⟩ := ih (by omega) _ rfl
      revert i1 i2 i3 i4 i5 i6 hst
      generalize (List.range n).foldl (ar.step M.nA) ⟨v, 0, fun _ _ => 0⟩ = st0
      intro hst i1 i2 i3 i4 i5 i6
      have hst' : st = ar.step M.nA st0 n := hst
      have hall : ∀ t, t < M.nS → |st0.values t - V t| ≤ d := by
        intro t ht
        by_cases htn : t < n
        · exact (i2 t htn).trans hd
        · rw [i3 t (by omega)]; exact hvd t ht
      have hnS : n < M.nS := by omega
      have hact : ∀ a, a < M.nA → |ar.action st0.values n a - Spec.Q M r γ V n a| ≤ γ * d + ε := by
        intro a ha
        have e1 := har.action st0.values n a i1 hnS ha
        have e2 := Q_close hM r h0.le hd0 hall hnS ha
        have := abs_sub_le (ar.action st0.values n a) (Spec.Q M r γ st0.values n a) (Spec.Q M r γ V n a)
        linarith
      have hbd : ∀ a, a < M.nA → |ar.action st0.values n a| ≤ B := by
        intro a ha
        have e1 := har.action st0.values n a i1 hnS ha
        have e2 := Q_bound hM hr h0.le hB0 hR i1 hnS ha
        have := abs_sub_le (ar.action st0.values n a) (Spec.Q M r γ st0.values n a) 0
        rw [sub_zero, sub_zero] at this
        linarith
      have hVn : V n = npMax M.nA (Spec.Q M r γ V n) := (bellman_iff hA).1 hV n hnS
      have hnew : |npMax M.nA (ar.action st0.values n) - V n| ≤ γ * d + ε := by
        rw [hVn]
        exact npMax_close hA (add_nonneg (mul_nonneg h0.le hd0) hε) hact
      have hnewB : |npMax M.nA (ar.action st0.values n)| ≤ B := by
        obtain ⟨a, ha, ea⟩ := exists_npMax (ar.action st0.values n) hA
        rw [ea]; exact hbd a ha
      have hch : |st0.values n - npMax M.nA (ar.action st0.values n)| ≤
          ar.change (st0.values n) (npMax M.nA (ar.action st0.values n)) + ε := by
        linarith [(abs_le.1 (har.change _ _ (i1 n hnS) hnewB)).1]
      have hch' : ar.change (st0.values n) (npMax M.nA (ar.action st0.values n)) ≤ d + γ * d + 2 * ε := by
        have e1 := (abs_le.1 (har.change _ _ (i1 n hnS) hnewB)).2
        have e2 := abs_sub_le (st0.values n) (V n) (npMax M.nA (ar.action st0.values n))
        rw [abs_sub_comm (V n)] at e2
        linarith [hall n hnS]
      have hv : ∀ t, st.values t = if t = n then npMax M.nA (ar.action st0.values n) else st0.values t := by
        intro t; rw [hst']; rfl
      have hdel : st.delta = max st0.delta (ar.change (st0.values n) (npMax M.nA (ar.action st0.values n))) := by
        rw [hst']; rfl
      have hq : ∀ s a, st.q s a = if s = n then ar.action st0.values n a else st0.q s a := by
        intro s a; rw [hst']; rfl
      refine ⟨fun t ht => ?_, fun t ht => ?_, fun t ht => ?_, fun t ht => ?_, fun s a hs ha => ?_, ?_⟩
      · rw [hv]; split_ifs
        · exact hnewB
        · exact i1 t ht
      · rw [hv]; split_ifs with e
        · subst e; exact hnew
        · exact i2 t (by omega)
      · rw [hv, if_neg (by omega)]; exact i3 t (by omega)
      · rw [hv, hdel]; split_ifs with e
        · subst e
          rw [← i3 t le_rfl]
          exact hch.trans (add_le_add (le_max_right _ _) le_rfl)
        · exact (i4 t (by omega)).trans (add_le_add (le_max_left _ _) le_rfl)
      · rw [hq]; split_ifs with e
        · subst e; exact hact a ha
        · exact i5 s a (by omega) ha
      · rw [hdel]; exact max_le i6 hch'
  obtain ⟨k1, k2, -, k4, k5, k6⟩ := key M.nS le_rfl (ar.sweep M v) rfl
  exact ⟨k1, k2, k4, k5, k6⟩

/-- The last pass before stopping by the tolerance. -/
theorem Arith.stop_close {M : Trans K} (hM : Spec.SubStochastic M) (hA : 0 < M.nA) {r V : Nat → K} {γ R ε B tol : K}
    {ar : Arith K} (h0 : 0 < γ) (h1 : γ < 1) (hR : 0 ≤ R) (hr : ∀ t, t < M.nS → |r t| ≤ R) (hε : 0 ≤ ε)
    (hB0 : 0 ≤ B) (hB : R + γ * B + ε ≤ B) (har : Spec.Accurate M r γ B ε ar) (hV : Spec.Bellman M r γ V) {v : Nat → K}
    (hvB : ∀ t, t < M.nS → |v t| ≤ B) (htol : 0 < tol) (hstop : (ar.sweep M v).delta < tol) :
    (∀ t, t < M.nS → |(ar.sweep M v).values t - V t| ≤ (γ * tol + (1 + γ) * ε) / (1 - γ)) ∧
    (∀ s a, s < M.nS → a < M.nA → |(ar.sweep M v).q s a - Spec.Q M r γ V s a| ≤ (γ * tol + (1 + γ) * ε) / (1 - γ)) := by
  have h1g : 0 < 1 - γ := by linarith
  by_cases hn : 0 < M.nS
  swap
  · exact ⟨fun t ht => by omega, fun s a hs => by omega⟩
  obtain ⟨k, hk, ek⟩ := exists_npMax (fun t => |v t - V t|) hn
  have hmax : ∀ t, t < M.nS → |v t - V t| ≤ |v k - V k| := fun t ht => by
    have := le_npMax (fun t => |v t - V t|) ht
    rw [ek] at this
    exact this
  have hgo : ∀ d, 0 ≤ d → γ * d + ε ≤ d → (∀ t, t < M.nS → |v t - V t| ≤ d) →
      γ * d + ε ≤ (γ * tol + (1 + γ) * ε) / (1 - γ) →
      (∀ t, t < M.nS → |(ar.sweep M v).values t - V t| ≤ (γ * tol + (1 + γ) * ε) / (1 - γ)) ∧
      (∀ s a, s < M.nS → a < M.nA →
        |(ar.sweep M v).q s a - Spec.Q M r γ V s a| ≤ (γ * tol + (1 + γ) * ε) / (1 - γ)) := by
    intro d hd0 hd hvd hle
    obtain ⟨-, c2, -, c4, -⟩ := Arith.sweep_close hM hA h0 h1 hR hr hε hB0 hB har hV hvB hd hd0 hvd
    exact ⟨fun t ht => (c2 t ht).trans hle, fun s a hs ha => (c4 s a hs ha).trans hle⟩
  rcases le_or_gt (γ * |v k - V k| + ε) |v k - V k| with hc | hc
  · refine hgo _ (abs_nonneg _) hc hmax ?_
    obtain ⟨-, c2, c3, -, -⟩ := Arith.sweep_close hM hA h0 h1 hR hr hε hB0 hB har hV hvB hc (abs_nonneg _) hmax
    have e1 := c2 k hk
    have e2 := c3 k hk
    have e3 := abs_sub_le (v k) ((ar.sweep M v).values k) (V k)
    have e4 : |v k - V k| * (1 - γ) ≤ tol + 2 * ε := by nlinarith
    rw [le_div_iff₀ h1g]
    nlinarith
  · have e1 : ε / (1 - γ) * (1 - γ) = ε := div_mul_cancel₀ _ h1g.ne'
    have e2 : |v k - V k| ≤ ε / (1 - γ) := by rw [le_div_iff₀ h1g]; nlinarith
    refine hgo (ε / (1 - γ)) (div_nonneg hε h1g.le) (by nlinarith) (fun t ht => (hmax t ht).trans e2) ?_
    rw [le_div_iff₀ h1g]
    nlinarith [mul_pos h0 htol, mul_nonneg h0.le hε]

/-- The iteration loop: either it stopped by the tolerance, or all passes were made. -/
theorem Arith.loop_close {M : Trans K} (hM : Spec.SubStochastic M) (hA : 0 < M.nA) {r V : Nat → K} {γ R ε B tol : K}
    {ar : Arith K} (h0 : 0 < γ) (h1 : γ < 1) (hR : 0 ≤ R) (hr : ∀ t, t < M.nS → |r t| ≤ R) (hε : 0 ≤ ε)
    (hB0 : 0 ≤ B) (hB : R + γ * B + ε ≤ B) (har : Spec.Accurate M r γ B ε ar) (hV : Spec.Bellman M r γ V)
    (htol : 0 < tol) : ∀ (k : Nat) (e : K) (v : Nat → K) (q : Option (Nat → Nat → K)), 0 ≤ e →
      (∀ t, t < M.nS → |v t| ≤ B) → (∀ t, t < M.nS → |v t - V t| ≤ e + ε / (1 - γ)) →
      (∀ x, q = some x → ∀ s a, s < M.nS → a < M.nA → |x s a - Spec.Q M r γ V s a| ≤ e + ε / (1 - γ)) →
      ∃ v' q', ar.loop M tol k v q = (v', q') ∧ (∀ t, t < M.nS → |v' t| ≤ B) ∧ (0 < k ∨ q ≠ none → q' ≠ none) ∧
        (((∀ k', k ≤ k' → ar.loop M tol k' v q = (v', q')) ∧ (∀ t, t < M.nS → |v' t - V t| ≤ (γ * tol + (1 + γ) * ε) / (1 - γ)) ∧
          ∀ x, q' = some x → ∀ s a, s < M.nS → a < M.nA →
            |x s a - Spec.Q M r γ V s a| ≤ (γ * tol + (1 + γ) * ε) / (1 - γ)) ∨
        ((∀ tol', tol' ≤ tol → ar.loop M tol' k v q = (v', q')) ∧ (∀ t, t < M.nS → |v' t - V t| ≤ γ ^ k * e + ε / (1 - γ)) ∧
          ∀ x, q' = some x → ∀ s a, s < M.nS → a < M.nA →
            |x s a - Spec.Q M r γ V s a| ≤ γ ^ k * e + ε / (1 - γ))) := by
  have h1g : 0 < 1 - γ := by linarith
  intro k
  induction k with
  | zero =>
    intro e v q _ hvB hvd hq
    refine ⟨v, q, rfl, hvB, fun h => h.resolve_left (lt_irrefl _), Or.inr ?_⟩
    rw [pow_zero, one_mul]
    exact ⟨fun _ _ => rfl, hvd, hq⟩
  | succ k ih =>
    intro e v q he hvB hvd _
    have e1 : ε / (1 - γ) * (1 - γ) = ε := div_mul_cancel₀ _ h1g.ne'
    have e2 : 0 ≤ ε / (1 - γ) := div_nonneg hε h1g.le
    have hfix : γ * (e + ε / (1 - γ)) + ε = γ * e + ε / (1 - γ) := by linear_combination - e1
    obtain ⟨c1, c2, -, c4, -⟩ := Arith.sweep_close hM hA h0 h1 hR hr hε hB0 hB har hV hvB
      (d := e + ε / (1 - γ)) (by rw [hfix]; nlinarith) (add_nonneg he e2) hvd
    rw [hfix] at c2 c4
    by_cases hstop : (ar.sweep M v).delta < tol
    · have hs := Arith.stop_close hM hA h0 h1 hR hr hε hB0 hB har hV hvB htol hstop
      refine ⟨_, _, if_pos hstop, c1, (fun _ h => by cases h), Or.inl ⟨fun k' hk' => ?_, hs.1, ?_⟩⟩
      · obtain ⟨j, rfl⟩ : ∃ j, k' = j + 1 := ⟨k' - 1, by omega⟩
        exact if_pos hstop
      intro x hx
      cases hx
      exact hs.2
    · obtain ⟨v', q', f1, f2, f3, f4⟩ := ih (γ * e) (ar.sweep M v).values (some (ar.sweep M v).q)
        (mul_nonneg h0.le he) c1 c2 (fun x hx => by cases hx; exact c4)
      refine ⟨v', q', (if_neg hstop).trans f1, f2, fun _ => f3 (Or.inr (fun h => by cases h)), ?_⟩
      rw [show γ ^ (k + 1) * e = γ ^ k * (γ * e) by ring]
      refine f4.imp (fun h => ⟨fun k' hk' => ?_, h.2⟩) (fun h => ⟨fun tol' ht => ?_, h.2⟩)
      · obtain ⟨j, rfl⟩ : ∃ j, k' = j + 1 := ⟨k' - 1, by omega⟩
        exact (if_neg hstop).trans (h.1 j (by omega))
      · exact (if_neg (fun hs => hstop (hs.trans_le ht))).trans (h.1 tol' ht)

/-- A tolerance well above the rounding error is met. -/
theorem Arith.loop_stops {M : Trans K} (hM : Spec.SubStochastic M) (hA : 0 < M.nA) {r V : Nat → K} {γ R ε B tol : K}
    {ar : Arith K} (h0 : 0 < γ) (h1 : γ < 1) (hR : 0 ≤ R) (hr : ∀ t, t < M.nS → |r t| ≤ R) (hε : 0 ≤ ε)
    (hB0 : 0 ≤ B) (hB : R + γ * B + ε ≤ B) (har : Spec.Accurate M r γ B ε ar) (hV : Spec.Bellman M r γ V) :
    ∀ (n : Nat) (e : K) (v : Nat → K) (q : Option (Nat → Nat → K)), 0 ≤ e → (∀ t, t < M.nS → |v t| ≤ B) →
      (∀ t, t < M.nS → |v t - V t| ≤ e + ε / (1 - γ)) → 2 * (γ ^ n * e) + 3 * (ε / (1 - γ)) < tol →
      ∃ w, (∀ t, t < M.nS → |w t| ≤ B) ∧ (ar.sweep M w).delta < tol ∧
        ∀ k, n < k → ar.loop M tol k v q = ((ar.sweep M w).values, some (ar.sweep M w).q) := by
  have h1g : 0 < 1 - γ := by linarith
  have e1 : ε / (1 - γ) * (1 - γ) = ε := div_mul_cancel₀ _ h1g.ne'
  have e2 : 0 ≤ ε / (1 - γ) := div_nonneg hε h1g.le
  intro n
  induction n with
  | zero =>
    intro e v q he hvB hvd ht
    have hfix : γ * (e + ε / (1 - γ)) + ε = γ * e + ε / (1 - γ) := by linear_combination - e1
    obtain ⟨-, -, -, -, c5⟩ := Arith.sweep_close hM hA h0 h1 hR hr hε hB0 hB har hV hvB
      (d := e + ε / (1 - γ)) (by rw [hfix]; nlinarith) (add_nonneg he e2) hvd
    have hstop : (ar.sweep M v).delta < tol := by
      refine lt_of_le_of_lt c5 (lt_of_le_of_lt ?_ ht)
      rw [pow_zero, one_mul]
      nlinarith
    refine ⟨v, hvB, hstop, fun k hk => ?_⟩
    obtain ⟨j, rfl⟩ : ∃ j, k = j + 1 := ⟨k - 1, by omega⟩
    exact if_pos hstop
  | succ n ih =>
    intro e v q he hvB hvd ht
    have hfix : γ * (e + ε / (1 - γ)) + ε = γ * e + ε / (1 - γ) := by linear_combination - e1
    obtain ⟨c1, c2, -, -, -⟩ := Arith.sweep_close hM hA h0 h1 hR hr hε hB0 hB har hV hvB
      (d := e + ε / (1 - γ)) (by rw [hfix]; nlinarith) (add_nonneg he e2) hvd
    rw [hfix] at c2
    by_cases hstop : (ar.sweep M v).delta < tol
    · refine ⟨v, hvB, hstop, fun k hk => ?_⟩
      obtain ⟨j, rfl⟩ : ∃ j, k = j + 1 := ⟨k - 1, by omega⟩
      exact if_pos hstop
    · obtain ⟨w, w1, w2, w3⟩ := ih (γ * e) (ar.sweep M v).values (some (ar.sweep M v).q) (mul_nonneg h0.le he) c1 c2
        (by rw [show γ ^ n * (γ * e) = γ ^ (n + 1) * e by ring]; exact ht)
      refine ⟨w, w1, w2, fun k hk => ?_⟩
      obtain ⟨j, rfl⟩ : ∃ j, k = j + 1 := ⟨k - 1, by omega⟩
      exact (if_neg hstop).trans (w3 j (by omega))

/-! ### Exact arithmetic -/

theorem Arith.exact_step (M : Trans K) (r : Nat → K) (γ : K) (st : SweepState K) (s : Nat) :
    (Arith.exact M r γ).step M.nA st s = sweepStep (hardBackup M.nA) M r γ st s := rfl

theorem Arith.exact_sweep (M : Trans K) (r : Nat → K) (γ : K) (v : Nat → K) :
    (Arith.exact M r γ).sweep M v = MaMDP.sweep (hardBackup M.nA) M r γ v := rfl

theorem Arith.exact_loop (M : Trans K) (r : Nat → K) (γ tol : K) : ∀ (k : Nat) (v : Nat → K)
    (q : Option (Nat → Nat → K)), (Arith.exact M r γ).loop M tol k v q = viLoop (hardBackup M.nA) M r γ tol k v q
  | 0, _, _ => rfl
  | k + 1, v, q => by
    unfold Arith.loop viLoop
    simp only [Arith.exact_sweep, Arith.exact_loop M r γ tol k]

/-! ### Rounding every operation -/

/-- Adding up with rounding. -/
theorem rounded_sum {rnd : K → K} {C u : K} (hrnd : ∀ x, |x| ≤ C → |rnd x - x| ≤ u) (hu : 0 ≤ u) {n : Nat}
    {p r v : Nat → K} {γ R B : K} (hp : ∀ t, t < n → 0 ≤ p t) (hsum : ∑ t ∈ Finset.range n, p t ≤ 1)
    (h0 : 0 ≤ γ) (h1 : γ ≤ 1) (hr : ∀ t, t < n → |r t| ≤ R) (hv : ∀ t, t < n → |v t| ≤ B) (hR : 0 ≤ R) (hB : 0 ≤ B)
    (hC : R + B + (2 * n + 2) * u ≤ C) : ∀ k, k ≤ n →
      |(List.range k).foldl (fun sum t => rnd (sum + rnd (p t * rnd (r t + rnd (γ * v t))))) 0 -
        ∑ t ∈ Finset.range k, p t * (r t + γ * v t)| ≤ 2 * k * u + 2 * u * ∑ t ∈ Finset.range k, p t := by
  intro k
  induction k with
  | zero => intro _; simp
  | succ k ih =>
    intro hk
    have hkn : k < n := by omega
    have ih' := ih (by omega)
    rw [List.range_succ, List.foldl_append, Finset.sum_range_succ, Finset.sum_range_succ]
    simp only [List.foldl_cons, List.foldl_nil]
    set S := (List.range k).foldl (fun sum t => rnd (sum + rnd (p t * rnd (r t + rnd (γ * v t))))) 0 with hS
    set X := ∑ t ∈ Finset.range k, p t * (r t + γ * v t) with hX
    set P := ∑ t ∈ Finset.range k, p t with hP
    have hp0 := hp k hkn
    have hP0 : 0 ≤ P := Finset.sum_nonneg fun t ht => hp t (by have := Finset.mem_range.1 ht; omega)
    have hPp : P + p k ≤ 1 := by
      rw [hP, ← Finset.sum_range_succ]
      refine le_trans (Finset.sum_le_sum_of_subset_of_nonneg (Finset.range_subset_range.2 (by omega : k + 1 ≤ n)) ?_) hsum
      intro t ht _
      exact hp t (Finset.mem_range.1 ht)
    have hp1 : p k ≤ 1 := by linarith
    have hXb : |X| ≤ P * (R + B) := by
      rw [hX, hP, Finset.sum_mul]
      refine (Finset.abs_sum_le_sum_abs _ _).trans (Finset.sum_le_sum fun t ht => ?_)
      have ht' : t < n := by have := Finset.mem_range.1 ht; omega
      rw [abs_mul, abs_of_nonneg (hp t ht')]
      refine mul_le_mul_of_nonneg_left ?_ (hp t ht')
      refine (abs_add_le _ _).trans (add_le_add (hr t ht') ?_)
      rw [abs_mul, abs_of_nonneg h0]
      calc γ * |v t| ≤ 1 * |v t| := mul_le_mul_of_nonneg_right h1 (abs_nonneg _)
        _ ≤ B := by rw [one_mul]; exact hv t ht'
    have hkn' : (k : K) + 1 ≤ n := by exact_mod_cast hkn
    have hk0 : (0 : K) ≤ k := Nat.cast_nonneg k
    have hku : ((k : K) + 1) * u ≤ n * u := mul_le_mul_of_nonneg_right hkn' hu
    have hku0 : 0 ≤ (k : K) * u := mul_nonneg hk0 hu
    -- the four roundings
    have hgv : |γ * v k| ≤ B := by
      rw [abs_mul, abs_of_nonneg h0]
      calc γ * |v k| ≤ 1 * |v k| := mul_le_mul_of_nonneg_right h1 (abs_nonneg _)
        _ ≤ B := by rw [one_mul]; exact hv k hkn
    have a1 := hrnd (γ * v k) (by linarith)
    set x1 := rnd (γ * v k)
    have b1 : |r k + x1| ≤ R + B + u := by
      have e1 := abs_add_le (r k) (γ * v k + (x1 - γ * v k))
      have e2 := abs_add_le (γ * v k) (x1 - γ * v k)
      have e3 := hr k hkn
      rw [show r k + (γ * v k + (x1 - γ * v k)) = r k + x1 by ring] at e1
      linarith
    have a2 := hrnd (r k + x1) (by linarith)
    set x2 := rnd (r k + x1)
    have d2 : |x2 - (r k + γ * v k)| ≤ 2 * u := by
      have e1 := abs_add_le (x2 - (r k + x1)) (x1 - γ * v k)
      rw [show x2 - (r k + x1) + (x1 - γ * v k) = x2 - (r k + γ * v k) by ring] at e1
      linarith
    have b2 : |x2| ≤ R + B + 2 * u := by
      have e1 := abs_add_le (r k + x1) (x2 - (r k + x1))
      rw [show r k + x1 + (x2 - (r k + x1)) = x2 by ring] at e1
      linarith
    have b3 : |p k * x2| ≤ R + B + 2 * u := by
      rw [abs_mul, abs_of_nonneg hp0]
      calc p k * |x2| ≤ 1 * |x2| := mul_le_mul_of_nonneg_right hp1 (abs_nonneg _)
        _ ≤ _ := by rw [one_mul]; exact b2
    have a3 := hrnd (p k * x2) (by linarith)
    set x3 := rnd (p k * x2)
    have d3 : |x3 - p k * (r k + γ * v k)| ≤ u + 2 * u * p k := by
      have e1 := abs_add_le (x3 - p k * x2) (p k * (x2 - (r k + γ * v k)))
      rw [show x3 - p k * x2 + p k * (x2 - (r k + γ * v k)) = x3 - p k * (r k + γ * v k) by ring] at e1
      have e2 : |p k * (x2 - (r k + γ * v k))| ≤ 2 * u * p k := by
        rw [abs_mul, abs_of_nonneg hp0, mul_comm]
        exact mul_le_mul_of_nonneg_right d2 hp0
      linarith
    have d4 : |S + x3 - (X + p k * (r k + γ * v k))| ≤ 2 * k * u + u + 2 * u * (P + p k) := by
      have e1 := abs_add_le (S - X) (x3 - p k * (r k + γ * v k))
      rw [show S - X + (x3 - p k * (r k + γ * v k)) = S + x3 - (X + p k * (r k + γ * v k)) by ring] at e1
      linarith
    have b4 : |S + x3| ≤ C := by
      have e1 := abs_add_le (X + p k * (r k + γ * v k)) (S + x3 - (X + p k * (r k + γ * v k)))
      rw [show X + p k * (r k + γ * v k) + (S + x3 - (X + p k * (r k + γ * v k))) = S + x3 by ring] at e1
      have e2 : |X + p k * (r k + γ * v k)| ≤ (P + p k) * (R + B) := by
        refine (abs_add_le _ _).trans ?_
        rw [add_mul]
        refine add_le_add hXb ?_
        rw [abs_mul, abs_of_nonneg hp0]
        refine mul_le_mul_of_nonneg_left ((abs_add_le _ _).trans (add_le_add (hr k hkn) hgv)) hp0
      have e3 : (P + p k) * (R + B) ≤ 1 * (R + B) := mul_le_mul_of_nonneg_right hPp (add_nonneg hR hB)
      have e4 : 2 * u * (P + p k) ≤ 2 * u * 1 := mul_le_mul_of_nonneg_left hPp (by linarith)
      linarith
    have a4 := hrnd (S + x3) b4
    have e1 := abs_add_le (rnd (S + x3) - (S + x3)) (S + x3 - (X + p k * (r k + γ * v k)))
    rw [show rnd (S + x3) - (S + x3) + (S + x3 - (X + p k * (r k + γ * v k))) =
      rnd (S + x3) - (X + p k * (r k + γ * v k)) by ring] at e1
    push_cast
    linarith

end MaMDP
