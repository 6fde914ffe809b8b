import Mathlib.Algebra.BigOperators.Field
import Mathlib.Analysis.SpecificLimits.Basic
import Mathlib.Analysis.SpecialFunctions.BinaryEntropy
import Verif.Spec.Entropy
import Verif.Lemmas.DynamicProgramming

/-! # Reward plus entropy -/

set_option linter.unusedSectionVars false

namespace MaMDP

open Filter Topology

/-- No distribution over actions does better than the logarithm of the summed exponentials. -/
theorem gibbs {n : Nat} {p x : Nat → ℝ} (hp : ∀ a, a < n → 0 ≤ p a) (hs : ∑ a ∈ Finset.range n, p a = 1) :
    ∑ a ∈ Finset.range n, (p a * x a + Real.negMulLog (p a)) ≤
      Real.log (∑ a ∈ Finset.range n, Real.exp (x a)) := by
  have hn : 0 < n := by
    rcases Nat.eq_zero_or_pos n with rfl | h
    · simp at hs
    · exact h
  set S := ∑ a ∈ Finset.range n, Real.exp (x a) with hS
  have hS0 : 0 < S := Finset.sum_pos (fun a _ => Real.exp_pos _) ⟨0, Finset.mem_range.2 hn⟩
  have hterm : ∀ a ∈ Finset.range n, p a * x a + Real.negMulLog (p a) ≤
      p a * Real.log S + (Real.exp (x a) / S - p a) := by
    intro a ha
    rcases (hp a (Finset.mem_range.1 ha)).eq_or_lt with h | h
    · rw [← h]
      simp only [zero_mul, Real.negMulLog_zero, zero_add, sub_zero]
      positivity
    · have h1 := Real.log_le_sub_one_of_pos (x := Real.exp (x a) / (p a * S)) (by positivity)
      rw [Real.log_div (Real.exp_pos _).ne' (by positivity), Real.log_exp,
        Real.log_mul h.ne' hS0.ne'] at h1
      have h2 := mul_le_mul_of_nonneg_left h1 h.le
      have h3 : p a * (Real.exp (x a) / (p a * S) - 1) = Real.exp (x a) / S - p a := by
        field_simp
      rw [h3] at h2
      unfold Real.negMulLog
      linarith
  refine (Finset.sum_le_sum hterm).trans (le_of_eq ?_)
  rw [Finset.sum_add_distrib, ← Finset.sum_mul, Finset.sum_sub_distrib, ← Finset.sum_div, hs, ← hS,
    div_self hS0.ne']
  ring

/-- Weights proportional to the exponentials do that well. -/
theorem gibbs_eq {n : Nat} (hn : 0 < n) {x : Nat → ℝ} :
    ∑ a ∈ Finset.range n, (Real.exp (x a) / (∑ b ∈ Finset.range n, Real.exp (x b)) * x a +
      Real.negMulLog (Real.exp (x a) / ∑ b ∈ Finset.range n, Real.exp (x b))) =
      Real.log (∑ a ∈ Finset.range n, Real.exp (x a)) := by
  set S := ∑ a ∈ Finset.range n, Real.exp (x a) with hS
  have hS0 : 0 < S := Finset.sum_pos (fun a _ => Real.exp_pos _) ⟨0, Finset.mem_range.2 hn⟩
  have hterm : ∀ a ∈ Finset.range n, Real.exp (x a) / S * x a + Real.negMulLog (Real.exp (x a) / S) =
      Real.exp (x a) / S * Real.log S := by
    intro a _
    unfold Real.negMulLog
    rw [Real.log_div (Real.exp_pos _).ne' hS0.ne', Real.log_exp]
    ring
  rw [Finset.sum_congr rfl hterm, ← Finset.sum_mul, ← Finset.sum_div, ← hS, div_self hS0.ne', one_mul]

section

variable {M : Trans ℝ} {r : Nat → ℝ} {γ : ℝ} {π : Nat → Nat → ℝ}

/-- States worth at most `c` more make actions worth at most `γ c` more. -/
theorem Q_le_add (hM : Spec.SubStochastic M) (h0 : 0 < γ) {V W : Nat → ℝ} {c : ℝ} (hc : 0 ≤ c)
    (h : ∀ t, t < M.nS → V t ≤ W t + c) {s a : Nat} (hs : s < M.nS) (ha : a < M.nA) :
    Spec.Q M r γ V s a ≤ Spec.Q M r γ W s a + γ * c := by
  unfold Spec.Q
  have h1 : ∑ t ∈ Finset.range M.nS, M.p s a t * (r t + γ * V t) ≤
      ∑ t ∈ Finset.range M.nS, (M.p s a t * (r t + γ * W t) + M.p s a t * (γ * c)) := by
    refine Finset.sum_le_sum fun t ht => ?_
    rw [← mul_add]
    refine mul_le_mul_of_nonneg_left ?_ (hM.nonneg s a t hs ha (Finset.mem_range.1 ht))
    have := mul_le_mul_of_nonneg_left (h t (Finset.mem_range.1 ht)) h0.le
    linarith
  rw [Finset.sum_add_distrib, ← Finset.sum_mul] at h1
  have h2 := mul_le_mul_of_nonneg_right (hM.le_one s a hs ha) (mul_nonneg h0.le hc)
  linarith

theorem gains_le_add (hM : Spec.SubStochastic M) (h0 : 0 < γ) (hπ : Spec.IsPolicy M π) {V W : Nat → ℝ} {c : ℝ}
    (hc : 0 ≤ c) (h : ∀ t, t < M.nS → V t ≤ W t + c) {s : Nat} (hs : s < M.nS) :
    ∑ a ∈ Finset.range M.nA, (π s a * Spec.Q M r γ V s a + Real.negMulLog (π s a)) ≤
    ∑ a ∈ Finset.range M.nA, (π s a * Spec.Q M r γ W s a + Real.negMulLog (π s a)) + γ * c := by
  have h1 : ∑ a ∈ Finset.range M.nA, (π s a * Spec.Q M r γ V s a + Real.negMulLog (π s a)) ≤
      ∑ a ∈ Finset.range M.nA, ((π s a * Spec.Q M r γ W s a + Real.negMulLog (π s a)) + π s a * (γ * c)) := by
    refine Finset.sum_le_sum fun a ha => ?_
    have ha' := Finset.mem_range.1 ha
    have := mul_le_mul_of_nonneg_left (Q_le_add (r := r) hM h0 hc h hs ha') ((hπ s hs).1 a ha')
    linarith
  refine h1.trans (le_of_eq ?_)
  rw [Finset.sum_add_distrib, ← Finset.sum_mul, (hπ s hs).2, one_mul]

/-- What a policy gathers settles as it goes on. -/
theorem gains_converge (hM : Spec.SubStochastic M) (h0 : 0 < γ) (h1 : γ < 1) (hπ : Spec.IsPolicy M π) {s : Nat}
    (hs : s < M.nS) : ∃ w, Tendsto (fun n => Spec.gains M r γ π n s) atTop (𝓝 w) := by
  set C := ∑ t ∈ Finset.range M.nS, |Spec.gains M r γ π 1 t| with hC
  have hC0 : 0 ≤ C := Finset.sum_nonneg fun _ _ => abs_nonneg _
  have key : ∀ n t, t < M.nS → Spec.gains M r γ π n t ≤ Spec.gains M r γ π (n + 1) t + C * γ ^ n ∧
      Spec.gains M r γ π (n + 1) t ≤ Spec.gains M r γ π n t + C * γ ^ n := by
    intro n
    induction n with
    | zero =>
      intro t ht
      have h2 : |Spec.gains M r γ π 1 t| ≤ C :=
        Finset.single_le_sum (f := fun t => |Spec.gains M r γ π 1 t|) (fun _ _ => abs_nonneg _) (Finset.mem_range.2 ht)
      have h3 := abs_le.1 h2
      have h4 : Spec.gains M r γ π 0 t = 0 := rfl
      rw [h4, pow_zero, mul_one]
      constructor <;> linarith
    | succ n ih =>
      intro t ht
      have hc : 0 ≤ C * γ ^ n := by positivity
      have e1 := gains_le_add (r := r) hM h0 hπ hc (fun u hu => (ih u hu).1) ht
      have e2 := gains_le_add (r := r) hM h0 hπ hc (fun u hu => (ih u hu).2) ht
      have e3 : γ * (C * γ ^ n) = C * γ ^ (n + 1) := by ring
      rw [e3] at e1 e2
      exact ⟨e1, e2⟩
  refine cauchySeq_tendsto_of_complete (cauchySeq_of_le_geometric γ C h1 fun n => ?_)
  rw [Real.dist_eq, abs_le]
  have := key n s hs
  constructor <;> linarith [this.1, this.2]

/-- A solution of the soft Bellman inequality bounds what every policy gathers. -/
theorem gains_le (hM : Spec.SubStochastic M) (h0 : 0 < γ) (hπ : Spec.IsPolicy M π) {V : Nat → ℝ}
    (hV : ∀ s, s < M.nS → Real.log (∑ a ∈ Finset.range M.nA, Real.exp (Spec.Q M r γ V s a)) ≤ V s) (n : Nat) :
    ∀ s, s < M.nS → Spec.gains M r γ π n s ≤ V s + γ ^ n * ∑ t ∈ Finset.range M.nS, |V t| := by
  set D := ∑ t ∈ Finset.range M.nS, |V t| with hD
  have hD0 : 0 ≤ D := Finset.sum_nonneg fun _ _ => abs_nonneg _
  induction n with
  | zero =>
    intro s hs
    have h2 : |V s| ≤ D := Finset.single_le_sum (f := fun t => |V t|) (fun _ _ => abs_nonneg _) (Finset.mem_range.2 hs)
    have := (abs_le.1 h2).1
    have h4 : Spec.gains M r γ π 0 s = 0 := rfl
    rw [h4, pow_zero, one_mul]
    linarith
  | succ n ih =>
    intro s hs
    have e1 := gains_le_add (r := r) hM h0 hπ (by positivity) ih hs
    have e2 := gibbs (n := M.nA) (x := fun a => Spec.Q M r γ V s a) (hπ s hs).1 (hπ s hs).2
    have e3 := hV s hs
    have e4 : γ * (γ ^ n * D) = γ ^ (n + 1) * D := by ring
    rw [e4] at e1
    have e5 : Spec.gains M r γ π (n + 1) s =
      ∑ a ∈ Finset.range M.nA, (π s a * Spec.Q M r γ (Spec.gains M r γ π n) s a + Real.negMulLog (π s a)) := rfl
    rw [e5]
    linarith

/-- Choosing in proportion to the exponentials gathers almost that much. -/
theorem le_gains (hM : Spec.SubStochastic M) (hA : 0 < M.nA) (h0 : 0 < γ) (h1 : γ < 1) {V : Nat → ℝ} {δ : ℝ} (hδ : 0 ≤ δ)
    (hV : ∀ s, s < M.nS → V s ≤ Real.log (∑ a ∈ Finset.range M.nA, Real.exp (Spec.Q M r γ V s a)) + δ)
    (hsoft : ∀ s a, s < M.nS → a < M.nA → π s a = Real.exp (Spec.Q M r γ V s a) /
      ∑ b ∈ Finset.range M.nA, Real.exp (Spec.Q M r γ V s b)) (hπ : Spec.IsPolicy M π) (n : Nat) :
    ∀ s, s < M.nS → V s ≤ Spec.gains M r γ π n s + (δ / (1 - γ) + γ ^ n * ∑ t ∈ Finset.range M.nS, |V t|) := by
  set D := ∑ t ∈ Finset.range M.nS, |V t| with hD
  have hD0 : 0 ≤ D := Finset.sum_nonneg fun _ _ => abs_nonneg _
  have hg : 0 ≤ δ / (1 - γ) := div_nonneg hδ (by linarith)
  have hgg : δ + γ * (δ / (1 - γ)) = δ / (1 - γ) := by
    have : 1 - γ ≠ 0 := by linarith
    field_simp
    ring
  induction n with
  | zero =>
    intro s hs
    have h2 : |V s| ≤ D := Finset.single_le_sum (f := fun t => |V t|) (fun _ _ => abs_nonneg _) (Finset.mem_range.2 hs)
    have := (abs_le.1 h2).2
    have h4 : Spec.gains M r γ π 0 s = 0 := rfl
    rw [h4, pow_zero, one_mul]
    linarith
  | succ n ih =>
    intro s hs
    have e1 := gains_le_add (r := r) hM h0 hπ (add_nonneg hg (by positivity : 0 ≤ γ ^ n * D)) ih hs
    have e2 := gibbs_eq hA (x := fun a => Spec.Q M r γ V s a)
    have e3 := hV s hs
    have e4 : γ * (δ / (1 - γ) + γ ^ n * D) = γ * (δ / (1 - γ)) + γ ^ (n + 1) * D := by ring
    have e6 : ∑ a ∈ Finset.range M.nA, (π s a * Spec.Q M r γ V s a + Real.negMulLog (π s a)) =
        Real.log (∑ a ∈ Finset.range M.nA, Real.exp (Spec.Q M r γ V s a)) := by
      rw [← e2]
      refine Finset.sum_congr rfl fun a ha => ?_
      rw [hsoft s a hs (Finset.mem_range.1 ha)]
    have e5 : Spec.gains M r γ π (n + 1) s =
      ∑ a ∈ Finset.range M.nA, (π s a * Spec.Q M r γ (Spec.gains M r γ π n) s a + Real.negMulLog (π s a)) := rfl
    rw [e5]
    rw [e4, e6] at e1
    linarith

/-- Soft values are not below what the smallest rewards add up to. -/
theorem soft_lower (hM : Spec.SubStochastic M) (hA : 0 < M.nA) {R : ℝ} (hR : 0 ≤ R) (hr : ∀ t, t < M.nS → -R ≤ r t)
    (h0 : 0 < γ) (h1 : γ < 1) {V : Nat → ℝ} (hV : ∀ s, s < M.nS → ∀ a, a < M.nA → Spec.Q M r γ V s a ≤ V s) :
    ∀ s a, s < M.nS → a < M.nA → -(R / (1 - γ)) ≤ Spec.Q M r γ V s a := by
  have hγ : 0 < 1 - γ := by linarith
  have hB : 0 ≤ R / (1 - γ) := div_nonneg hR hγ.le
  have hBe : R + γ * (R / (1 - γ)) = R / (1 - γ) := by field_simp; ring
  have hmin : ∀ s, s < M.nS → -(R / (1 - γ)) ≤ V s := by
    intro s hs
    obtain ⟨u, hu, hmin⟩ := Finset.exists_min_image (Finset.range M.nS) V ⟨s, Finset.mem_range.2 hs⟩
    have hu' := Finset.mem_range.1 hu
    refine le_trans ?_ (hmin s (Finset.mem_range.2 hs))
    by_contra hc
    push Not at hc
    have hneg : -R + γ * V u ≤ 0 := by nlinarith
    have h2 : ∑ t ∈ Finset.range M.nS, M.p u 0 t * (-R + γ * V u) ≤ Spec.Q M r γ V u 0 := by
      refine Finset.sum_le_sum fun t ht => mul_le_mul_of_nonneg_left ?_ (hM.nonneg u 0 t hu' hA (Finset.mem_range.1 ht))
      have := mul_le_mul_of_nonneg_left (hmin t ht) h0.le
      linarith [hr t (Finset.mem_range.1 ht)]
    rw [← Finset.sum_mul] at h2
    have h3 := mul_le_mul_of_nonpos_right (hM.le_one u 0 hu' hA) hneg
    have h4 := hV u hu' 0 hA
    have h5 : -R ≤ (1 - γ) * V u := by linarith
    have h6 : (1 - γ) * V u < (1 - γ) * -(R / (1 - γ)) := mul_lt_mul_of_pos_left hc hγ
    have h7 : (1 - γ) * -(R / (1 - γ)) = -R := by field_simp
    linarith
  intro s a hs ha
  have hneg : -R + γ * -(R / (1 - γ)) = -(R / (1 - γ)) := by linarith
  have h2 : ∑ t ∈ Finset.range M.nS, M.p s a t * -(R / (1 - γ)) ≤ Spec.Q M r γ V s a := by
    refine Finset.sum_le_sum fun t ht => mul_le_mul_of_nonneg_left ?_ (hM.nonneg s a t hs ha (Finset.mem_range.1 ht))
    have := mul_le_mul_of_nonneg_left (hmin t (Finset.mem_range.1 ht)) h0.le
    linarith [hr t (Finset.mem_range.1 ht)]
  rw [← Finset.sum_mul] at h2
  have h3 := mul_le_mul_of_nonpos_right (hM.le_one s a hs ha) (by linarith : -(R / (1 - γ)) ≤ 0)
  linarith

end
end MaMDP
