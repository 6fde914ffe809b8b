import Mathlib.Tactic.IntervalCases
import Mathlib.Analysis.Complex.ExponentialBounds
import Verif.Lemmas.Entropy

/-! # Soft values and entropies in a corridor -/

set_option linter.unusedSectionVars false

namespace MaMDP

/-- A corridor of four states. -/
structure Corridor (M : Trans ℝ) : Prop where
  nS : M.nS = 4
  nA : M.nA = 4
  p : ∀ s a t, s < 4 → a < 4 → t < 4 → M.p s a t = if a = 0 ∧ t = s + 1 ∨ a = 2 ∧ t + 1 = s then 1 else 0

namespace Corridor

variable {M : Trans ℝ} (hc : Corridor M)
include hc

theorem sub : Spec.SubStochastic M := by
  constructor
  · intro s a t hs ha ht
    rw [hc.nS] at hs ht
    rw [hc.nA] at ha
    rw [hc.p s a t hs ha ht]
    split_ifs <;> norm_num
  · intro s a hs ha
    rw [hc.nS] at hs ⊢
    rw [hc.nA] at ha
    simp only [Finset.sum_range_succ, Finset.sum_range_zero]
    rw [hc.p s a 0 hs ha (by decide), hc.p s a 1 hs ha (by decide), hc.p s a 2 hs ha (by decide), hc.p s a 3 hs ha (by decide)]
    by_cases h0 : a = 0
    · subst h0
      interval_cases s <;> norm_num
    · by_cases h2 : a = 2
      · subst h2
        interval_cases s <;> norm_num
      · simp [h0, h2]

theorem Q_up (r : Nat → ℝ) (γ : ℝ) (V : Nat → ℝ) {s : Nat} (hs : s < 3) :
    Spec.Q M r γ V s 0 = r (s + 1) + γ * V (s + 1) := by
  unfold Spec.Q
  rw [hc.nS]
  simp only [Finset.sum_range_succ, Finset.sum_range_zero]
  have h4 : s < 4 := by omega
  rw [hc.p s 0 0 h4 (by decide) (by decide), hc.p s 0 1 h4 (by decide) (by decide), hc.p s 0 2 h4 (by decide) (by decide), hc.p s 0 3 h4 (by decide) (by decide)]
  interval_cases s <;> norm_num

theorem Q_down (r : Nat → ℝ) (γ : ℝ) (V : Nat → ℝ) {s : Nat} (hs : s < 3) :
    Spec.Q M r γ V (s + 1) 2 = r s + γ * V s := by
  unfold Spec.Q
  rw [hc.nS]
  simp only [Finset.sum_range_succ, Finset.sum_range_zero]
  have h4 : s + 1 < 4 := by omega
  rw [hc.p (s + 1) 2 0 h4 (by decide) (by decide), hc.p (s + 1) 2 1 h4 (by decide) (by decide), hc.p (s + 1) 2 2 h4 (by decide) (by decide),
    hc.p (s + 1) 2 3 h4 (by decide) (by decide)]
  interval_cases s <;> norm_num

theorem Q_none (r : Nat → ℝ) (γ : ℝ) (V : Nat → ℝ) {s a : Nat} (hs : s < 4) (ha : a < 4)
    (h : ¬ (a = 0 ∧ s < 3)) (h' : ¬ (a = 2 ∧ 0 < s)) :
    Spec.Q M r γ V s a = 0 := by
  unfold Spec.Q
  rw [hc.nS]
  refine Finset.sum_eq_zero fun t ht => ?_
  have ht' := Finset.mem_range.1 ht
  rw [hc.p s a t hs ha ht', if_neg (by omega), zero_mul]

theorem possible {s a : Nat} (hs : s < 4) (ha : a < 4) : Spec.Possible M s a ↔ a = 0 ∧ s < 3 ∨ a = 2 ∧ 0 < s := by
  constructor
  · rintro ⟨t, ht, h⟩
    rw [hc.nS] at ht
    rw [hc.p s a t hs ha ht] at h
    split_ifs at h with h1
    · omega
    · exact absurd h (lt_irrefl _)
  · intro h
    rcases h with ⟨rfl, h⟩ | ⟨rfl, h⟩
    · exact ⟨s + 1, by rw [hc.nS]; omega, by rw [hc.p s 0 (s + 1) hs ha (by omega), if_pos (by omega)]; exact one_pos⟩
    · exact ⟨s - 1, by rw [hc.nS]; omega, by rw [hc.p s 2 (s - 1) hs ha (by omega), if_pos (by omega)]; exact one_pos⟩

/-- The soft values after any number of passes, when every step costs 2: not large, and the end of the corridor is worth
more than the state before the other end. -/
theorem pass_bound {v w : Nat → ℝ} (hv : ∀ s, s < 4 → v s ≤ 3 * Real.log 2)
    (h : Spec.SoftPass M (fun _ => -2) (1 / 2) v w) :
    (∀ s, s < 4 → w s ≤ 3 * Real.log 2) ∧ Real.log (3 + 1 / 10 ^ 200) < w 0 ∧ w 2 ≤ Real.log (3 + 1 / 10 ^ 200) := by
  have hL : Real.log 2 < 8 / 10 := by have := Real.log_two_lt_d9; norm_num at this ⊢; linarith
  have hε : (1 : ℝ) / 10 ^ 200 ≤ 1 := by norm_num
  have hε0 : (0 : ℝ) < 1 / 10 ^ 200 := by positivity
  have hz : ∀ x, x ≤ 3 * Real.log 2 → Real.exp (-2 + 1 / 2 * x) ≤ 1 / 2 := by
    intro x hx
    have : -2 + 1 / 2 * x ≤ -Real.log 2 := by linarith
    refine (Real.exp_le_exp.2 this).trans ?_
    rw [Real.exp_neg, Real.exp_log (by norm_num)]
    norm_num
  have h8 : Real.log 8 = 3 * Real.log 2 := by
    rw [show (8 : ℝ) = 2 ^ (3 : ℕ) by norm_num, Real.log_pow]
    norm_num
  have hsmall : ∀ S : ℝ, 0 < S → S ≤ 7 → Real.log (S + 1 / 10 ^ 200) ≤ 3 * Real.log 2 := by
    intro S hS hS'
    rw [← h8]
    exact Real.log_le_log (by linarith) (by linarith)
  have e0 := h 0 (by rw [hc.nS]; decide)
  have e1 := h 1 (by rw [hc.nS]; decide)
  have e2 := h 2 (by rw [hc.nS]; decide)
  have e3 := h 3 (by rw [hc.nS]; decide)
  rw [hc.nA] at e0 e1 e2 e3
  simp only [Finset.sum_range_succ, Finset.sum_range_zero, zero_add] at e0 e1 e2 e3
  rw [hc.Q_up _ _ _ (by decide : 0 < 3), hc.Q_none _ _ _ (by decide) (by decide) (by decide) (by decide),
    hc.Q_none _ _ _ (by decide) (by decide) (by decide) (by decide), hc.Q_none _ _ _ (by decide) (by decide) (by decide) (by decide)] at e0
  rw [hc.Q_up _ _ _ (by decide : 1 < 3), hc.Q_none _ _ _ (by decide) (by decide) (by decide) (by decide),
    hc.Q_down _ _ _ (by decide : 0 < 3), hc.Q_none _ _ _ (by decide) (by decide) (by decide) (by decide)] at e1
  rw [hc.Q_up _ _ _ (by decide : 2 < 3), hc.Q_none _ _ _ (by decide) (by decide) (by decide) (by decide),
    hc.Q_down _ _ _ (by decide : 1 < 3), hc.Q_none _ _ _ (by decide) (by decide) (by decide) (by decide)] at e2
  rw [hc.Q_none _ _ _ (by decide) (by decide) (by decide) (by decide), hc.Q_none _ _ _ (by decide) (by decide) (by decide) (by decide),
    hc.Q_down _ _ _ (by decide : 2 < 3), hc.Q_none _ _ _ (by decide) (by decide) (by decide) (by decide)] at e3
  simp only [Spec.seen, Nat.reduceAdd, Nat.reduceLT, if_true, if_false, Real.exp_zero] at e0 e1 e2 e3
  have p := fun x => Real.exp_pos x
  have z0 := hz (v 1) (hv 1 (by decide))
  have w0 : w 0 ≤ 3 * Real.log 2 := by
    rw [e0]; exact hsmall _ (by linarith [p (-2 + 1 / 2 * v 1)]) (by linarith)
  have z2 := hz (v 2) (hv 2 (by decide))
  have z3 := hz (v 3) (hv 3 (by decide))
  have y0 := hz (w 0) w0
  have w1 : w 1 ≤ 3 * Real.log 2 := by
    rw [e1]
    exact hsmall _ (by linarith [p (-2 + 1 / 2 * v 2), p (-2 + 1 / 2 * w 0)]) (by linarith)
  have y1 := hz (w 1) w1
  have w2 : w 2 ≤ 3 * Real.log 2 := by
    rw [e2]
    exact hsmall _ (by linarith [p (-2 + 1 / 2 * v 3), p (-2 + 1 / 2 * w 1)]) (by linarith)
  have y2 := hz (w 2) w2
  have w3 : w 3 ≤ 3 * Real.log 2 := by
    rw [e3]
    exact hsmall _ (by linarith [p (-2 + 1 / 2 * w 2)]) (by linarith)
  refine ⟨fun s hs => by interval_cases s <;> assumption, ?_, ?_⟩
  · rw [e0]
    exact Real.log_lt_log (by linarith) (by linarith [p (-2 + 1 / 2 * v 1)])
  · rw [e2]
    exact Real.log_le_log (by linarith [p (-2 + 1 / 2 * v 3), p (-2 + 1 / 2 * w 1)]) (by linarith)

/-- Possible actions only: the sum over the actions, written out. -/
theorem gains_inner {π : Nat → Nat → ℝ} (hπ : Spec.IsPolicy M π) (hp : Spec.TakesPossible M π) (V : Nat → ℝ) :
    (∑ a ∈ Finset.range M.nA, (π 0 a * Spec.Q M (fun _ => -2) (1 / 2) V 0 a + Real.negMulLog (π 0 a)) = -2 + 1 / 2 * V 1) ∧
    (∀ s, s < 2 → ∃ x, 0 ≤ x ∧ x ≤ 1 ∧ x = π (s + 1) 0 ∧
      ∑ a ∈ Finset.range M.nA, (π (s + 1) a * Spec.Q M (fun _ => -2) (1 / 2) V (s + 1) a + Real.negMulLog (π (s + 1) a)) =
        x * (-2 + 1 / 2 * V (s + 2)) + (1 - x) * (-2 + 1 / 2 * V s) + Real.binEntropy x) ∧
    (∑ a ∈ Finset.range M.nA, (π 3 a * Spec.Q M (fun _ => -2) (1 / 2) V 3 a + Real.negMulLog (π 3 a)) = -2 + 1 / 2 * V 2) := by
  have hlive : ∀ s, s < 4 → Spec.Live M s := by
    intro s hs
    by_cases h : s < 3
    · exact ⟨0, by rw [hc.nA]; decide, (hc.possible hs (by decide)).2 (.inl ⟨rfl, h⟩)⟩
    · exact ⟨2, by rw [hc.nA]; decide, (hc.possible hs (by decide)).2 (.inr ⟨rfl, by omega⟩)⟩
  have hzero : ∀ s a, s < 4 → a < 4 → ¬ (a = 0 ∧ s < 3 ∨ a = 2 ∧ 0 < s) → π s a = 0 := by
    intro s a hs ha h
    by_contra hne
    exact h ((hc.possible hs ha).1 (hp s (by rw [hc.nS]; exact hs) (hlive s hs) a (by rw [hc.nA]; exact ha) hne))
  have hsum : ∀ s, s < 4 → π s 0 + π s 1 + π s 2 + π s 3 = 1 := by
    intro s hs
    have := (hπ s (by rw [hc.nS]; exact hs)).2
    rw [hc.nA] at this
    simpa only [Finset.sum_range_succ, Finset.sum_range_zero, zero_add] using this
  have hnn : ∀ s a, s < 4 → a < 4 → 0 ≤ π s a := fun s a hs ha =>
    (hπ s (by rw [hc.nS]; exact hs)).1 a (by rw [hc.nA]; exact ha)
  refine ⟨?_, fun s hs => ?_, ?_⟩
  · have h1 := hzero 0 1 (by decide) (by decide) (by decide)
    have h2 := hzero 0 2 (by decide) (by decide) (by decide)
    have h3 := hzero 0 3 (by decide) (by decide) (by decide)
    have h0 : π 0 0 = 1 := by have := hsum 0 (by decide); rw [h1, h2, h3] at this; linarith
    rw [hc.nA]
    simp only [Finset.sum_range_succ, Finset.sum_range_zero, zero_add, h0, h1, h2, h3,
      hc.Q_up _ _ _ (by decide : 0 < 3), Real.negMulLog_zero, Real.negMulLog_one]
    ring
  · have h4 : s + 1 < 4 := by omega
    have h1 := hzero (s + 1) 1 h4 (by decide) (by omega)
    have h3 := hzero (s + 1) 3 h4 (by decide) (by omega)
    have h2 : π (s + 1) 2 = 1 - π (s + 1) 0 := by have := hsum (s + 1) h4; rw [h1, h3] at this; linarith
    refine ⟨π (s + 1) 0, hnn _ _ h4 (by decide), ?_, rfl, ?_⟩
    · have := hnn (s + 1) 2 h4 (by decide); linarith
    · rw [hc.nA]
      simp only [Finset.sum_range_succ, Finset.sum_range_zero, zero_add, h1, h2, h3,
        hc.Q_up _ _ _ (by omega : s + 1 < 3), hc.Q_down _ _ _ (by omega : s < 3), Real.negMulLog_zero,
        Real.binEntropy_eq_negMulLog_add_negMulLog_one_sub]
      ring
  · have h0 := hzero 3 0 (by decide) (by decide) (by decide)
    have h1 := hzero 3 1 (by decide) (by decide) (by decide)
    have h3 := hzero 3 3 (by decide) (by decide) (by decide)
    have h2 : π 3 2 = 1 := by have := hsum 3 (by decide); rw [h0, h1, h3] at this; linarith
    rw [hc.nA]
    simp only [Finset.sum_range_succ, Finset.sum_range_zero, zero_add, h0, h1, h2, h3,
      hc.Q_down _ _ _ (by decide : 2 < 3), Real.negMulLog_zero, Real.negMulLog_one]
    ring

/-- What any policy gathers, at most. -/
theorem gains_upper {π : Nat → Nat → ℝ} (hπ : Spec.IsPolicy M π) (hp : Spec.TakesPossible M π) (n : Nat) :
    ∀ s, s < 4 → Spec.gains M (fun _ => -2) (1 / 2) π n s ≤ 2 * (Real.log 2 - 2) + 4 * (1 / 2) ^ n := by
  have hL0 : 0 < Real.log 2 := Real.log_pos (by norm_num)
  induction n with
  | zero =>
    intro s _
    have : Spec.gains M (fun _ => -2) (1 / 2) π 0 s = 0 := rfl
    rw [this]
    norm_num
    linarith
  | succ n ih =>
    intro s hs
    obtain ⟨g0, g1, g3⟩ := hc.gains_inner hπ hp (Spec.gains M (fun _ => -2) (1 / 2) π n)
    have e : Spec.gains M (fun _ => -2) (1 / 2) π (n + 1) s = ∑ a ∈ Finset.range M.nA,
      (π s a * Spec.Q M (fun _ => -2) (1 / 2) (Spec.gains M (fun _ => -2) (1 / 2) π n) s a + Real.negMulLog (π s a)) := rfl
    rw [e, pow_succ]
    rcases Nat.eq_zero_or_pos s with rfl | h
    · rw [g0]; linarith [ih 1 (by decide)]
    · by_cases h3 : s = 3
      · subst h3; rw [g3]; linarith [ih 2 (by decide)]
      · obtain ⟨k, rfl⟩ : ∃ k, s = k + 1 := ⟨s - 1, by omega⟩
        obtain ⟨x, x0, x1, -, hx⟩ := g1 k (by omega)
        rw [hx]
        have a1 := mul_le_mul_of_nonneg_left (ih (k + 2) (by omega)) x0
        have a2 := mul_le_mul_of_nonneg_left (ih k (by omega)) (by linarith : 0 ≤ 1 - x)
        have a3 := Real.binEntropy_le_log_two (p := x)
        nlinarith

end Corridor

end MaMDP
