import Verif.Spec.Values
import Verif.Lemmas.Py
import Mathlib.Tactic.Linarith
import Mathlib.Tactic.FieldSimp
import Mathlib.Tactic.Positivity
import Mathlib.Algebra.Order.BigOperators.Ring.Finset
import Mathlib.Analysis.SpecificLimits.Basic

set_option linter.unusedSectionVars false

namespace MaMDP

variable {K : Type} [Field K] [LinearOrder K] [IsStrictOrderedRing K]

/-- A backup that never increases the distance between action values. -/
def NonExp (nA : Nat) (B : (Nat → K) → K) : Prop :=
  ∀ x y d, 0 ≤ d → (∀ a, a < nA → |x a - y a| ≤ d) → |B x - B y| ≤ d

theorem hardBackup_nonExp {nA : Nat} (h : 0 < nA) : NonExp nA (hardBackup (K := K) nA) := by
  intro x y d _ hxy
  unfold hardBackup
  rw [abs_le]
  obtain ⟨i, hi, ei⟩ := exists_npMax x h
  obtain ⟨j, hj, ej⟩ := exists_npMax y h
  have h1 := le_npMax x hj
  have h2 := le_npMax y hi
  have h3 := abs_le.1 (hxy i hi)
  have h4 := abs_le.1 (hxy j hj)
  constructor <;> linarith [h3.1, h3.2, h4.1, h4.2]

/-- Action values of nearby value functions are nearby. -/
theorem actionValue_close {M : Trans K} (hM : Spec.SubStochastic M) (r : Nat → K) {γ : K}
    (hγ : 0 ≤ γ) {v w : Nat → K} {d : K} (hd : 0 ≤ d) (h : ∀ t, t < M.nS → |v t - w t| ≤ d)
    {s a : Nat} (hs : s < M.nS) (ha : a < M.nA) :
    |actionValue M r γ v s a - actionValue M r γ w s a| ≤ γ * d := by
  unfold actionValue npDot
  rw [← Finset.sum_sub_distrib]
  calc |∑ t ∈ Finset.range M.nS, (M.p s a t * (r t + γ * v t) - M.p s a t * (r t + γ * w t))|
      ≤ ∑ t ∈ Finset.range M.nS, |M.p s a t * (r t + γ * v t) - M.p s a t * (r t + γ * w t)| :=
        Finset.abs_sum_le_sum_abs _ _
    _ ≤ ∑ t ∈ Finset.range M.nS, M.p s a t * (γ * d) := by
        apply Finset.sum_le_sum
        intro t ht
        have ht' := Finset.mem_range.1 ht
        have hp := hM.nonneg s a t hs ha ht'
        have e : M.p s a t * (r t + γ * v t) - M.p s a t * (r t + γ * w t) =
            M.p s a t * (γ * (v t - w t)) := by ring
        rw [e, abs_mul, abs_mul, abs_of_nonneg hp, abs_of_nonneg hγ]
        exact mul_le_mul_of_nonneg_left (mul_le_mul_of_nonneg_left (h t ht') hγ) hp
    _ = (∑ t ∈ Finset.range M.nS, M.p s a t) * (γ * d) := by rw [Finset.sum_mul]
    _ ≤ 1 * (γ * d) := mul_le_mul_of_nonneg_right (hM.le_one s a hs ha) (mul_nonneg hγ hd)
    _ = γ * d := one_mul _

/-- Values after the first `n` states of a sweep. -/
def partialSweep (B : (Nat → K) → K) (M : Trans K) (r : Nat → K) (γ : K) (v : Nat → K) :
    Nat → Nat → K
  | 0 => v
  | n + 1 => upd1 (partialSweep B M r γ v n) n
      (B (actionValue M r γ (partialSweep B M r γ v n) n))

section Sweep

variable (B : (Nat → K) → K) (M : Trans K) (r : Nat → K) (γ : K) (v : Nat → K)

theorem partialSweep_ge : ∀ (n t : Nat), n ≤ t → partialSweep B M r γ v n t = v t
  | 0, _, _ => rfl
  | n + 1, t, h => by
    unfold partialSweep upd1
    rw [if_neg (by omega)]
    exact partialSweep_ge n t (by omega)

theorem partialSweep_lt : ∀ (n t : Nat), t < n → partialSweep B M r γ v n t =
    B (actionValue M r γ (partialSweep B M r γ v t) t)
  | 0, _, h => by omega
  | n + 1, t, h => by
    show upd1 (partialSweep B M r γ v n) n
      (B (actionValue M r γ (partialSweep B M r γ v n) n)) t = _
    unfold upd1
    by_cases ht : t = n
    · subst ht; rw [if_pos rfl]
    · rw [if_neg ht]; exact partialSweep_lt n t (by omega)

theorem sweep_prefix (n : Nat) :
    ((List.range n).foldl (sweepStep B M r γ) ⟨v, 0, fun _ _ => 0⟩).values =
      partialSweep B M r γ v n ∧
    (∀ s a, s < n → ((List.range n).foldl (sweepStep B M r γ) ⟨v, 0, fun _ _ => 0⟩).q s a =
      actionValue M r γ (partialSweep B M r γ v s) s a) ∧
    0 ≤ ((List.range n).foldl (sweepStep B M r γ) ⟨v, 0, fun _ _ => 0⟩).delta ∧
    (∀ s, s < n → |v s - partialSweep B M r γ v n s| ≤
      ((List.range n).foldl (sweepStep B M r γ) ⟨v, 0, fun _ _ => 0⟩).delta) ∧
    (∀ c, 0 < c → (∀ s, s < n → |v s - partialSweep B M r γ v n s| < c) →
      ((List.range n).foldl (sweepStep B M r γ) ⟨v, 0, fun _ _ => 0⟩).delta < c) := by
  induction n with
  | zero => simp [partialSweep]
  | succ n ih =>
    obtain ⟨h1, h2, h3, h4, h5⟩ := ih
    rw [List.range_succ, List.foldl_append]
    simp only [List.foldl_cons, List.foldl_nil]
    set st := (List.range n).foldl (sweepStep B M r γ) ⟨v, 0, fun _ _ => 0⟩ with hst
    have hv : (sweepStep B M r γ st n).values = partialSweep B M r γ v (n + 1) := by
      unfold sweepStep partialSweep
      simp only [h1]
    have hkeep : ∀ s, s < n → partialSweep B M r γ v (n + 1) s = partialSweep B M r γ v n s := by
      intro s hs
      show upd1 _ n _ s = _
      unfold upd1
      rw [if_neg (by omega)]
    have hdelta : (sweepStep B M r γ st n).delta =
        max st.delta |v n - partialSweep B M r γ v (n + 1) n| := by
      unfold sweepStep
      simp only [h1]
      rw [partialSweep_lt B M r γ v (n + 1) n (by omega), partialSweep_ge B M r γ v n n (le_refl _)]
    refine ⟨hv, ?_, ?_, ?_, ?_⟩
    · intro s a hs
      unfold sweepStep
      simp only [h1]
      by_cases hsn : s = n
      · subst hsn; rw [if_pos rfl]
      · rw [if_neg hsn]; exact h2 s a (by omega)
    · rw [hdelta]; exact le_trans h3 (le_max_left _ _)
    · intro s hs
      rw [hdelta]
      by_cases hsn : s = n
      · subst hsn; exact le_max_right _ _
      · rw [hkeep s (by omega)]
        exact le_trans (h4 s (by omega)) (le_max_left _ _)
    · intro c hc hall
      rw [hdelta]
      apply max_lt
      · apply h5 c hc
        intro s hs
        rw [← hkeep s hs]
        exact hall s (by omega)
      · exact hall n (by omega)

theorem sweep_values : (sweep B M r γ v).values = partialSweep B M r γ v M.nS :=
  (sweep_prefix B M r γ v M.nS).1

theorem sweep_q (s a : Nat) (h : s < M.nS) : (sweep B M r γ v).q s a =
    actionValue M r γ (partialSweep B M r γ v s) s a :=
  (sweep_prefix B M r γ v M.nS).2.1 s a h

theorem sweep_delta_nonneg : 0 ≤ (sweep B M r γ v).delta := (sweep_prefix B M r γ v M.nS).2.2.1

theorem le_sweep_delta (s : Nat) (h : s < M.nS) :
    |v s - (sweep B M r γ v).values s| ≤ (sweep B M r γ v).delta := by
  rw [sweep_values]; exact (sweep_prefix B M r γ v M.nS).2.2.2.1 s h

theorem sweep_delta_lt (c : K) (hc : 0 < c)
    (h : ∀ s, s < M.nS → |v s - (sweep B M r γ v).values s| < c) : (sweep B M r γ v).delta < c := by
  rw [sweep_values] at h; exact (sweep_prefix B M r γ v M.nS).2.2.2.2 c hc h

/-- The new value of a state is the backup of its Q values. -/
theorem sweep_value_eq (s : Nat) (h : s < M.nS) :
    (sweep B M r γ v).values s = B ((sweep B M r γ v).q s) := by
  rw [sweep_values, partialSweep_lt B M r γ v M.nS s h]
  congr 1
  funext a
  rw [sweep_q B M r γ v s a h]

end Sweep

/-- Partial sweeps from nearby value functions stay nearby, and the updated part is closer. -/
theorem partialSweep_close {B : (Nat → K) → K} {M : Trans K} (hB : NonExp M.nA B)
    (hM : Spec.SubStochastic M) (r : Nat → K) {γ : K} (h0 : 0 ≤ γ) (h1 : γ ≤ 1) {v w : Nat → K} {d : K}
    (hd : 0 ≤ d) (h : ∀ t, t < M.nS → |v t - w t| ≤ d) : ∀ n, n ≤ M.nS →
    (∀ t, t < n → |partialSweep B M r γ v n t - partialSweep B M r γ w n t| ≤ γ * d) ∧
    (∀ t, t < M.nS → |partialSweep B M r γ v n t - partialSweep B M r γ w n t| ≤ d) := by
  intro n
  induction n with
  | zero => intro _; exact ⟨fun t ht => by omega, h⟩
  | succ n ih =>
    intro hn
    obtain ⟨i1, i2⟩ := ih (by omega)
    have hstep : |B (actionValue M r γ (partialSweep B M r γ v n) n) -
        B (actionValue M r γ (partialSweep B M r γ w n) n)| ≤ γ * d :=
      hB _ _ _ (mul_nonneg h0 hd) fun a ha => actionValue_close hM r h0 hd i2 (by omega) ha
    have hle : γ * d ≤ d := by nlinarith
    constructor
    · intro t ht
      unfold partialSweep upd1
      split_ifs with htn
      · exact hstep
      · exact i1 t (by omega)
    · intro t ht
      unfold partialSweep upd1
      split_ifs with htn
      · exact hstep.trans hle
      · exact i2 t ht

/-- One sweep is a contraction. -/
theorem sweep_contraction {B : (Nat → K) → K} {M : Trans K} (hB : NonExp M.nA B)
    (hM : Spec.SubStochastic M) (r : Nat → K) {γ : K} (h0 : 0 ≤ γ) (h1 : γ ≤ 1) {v w : Nat → K} {d : K}
    (hd : 0 ≤ d) (h : ∀ t, t < M.nS → |v t - w t| ≤ d) (t : Nat) (ht : t < M.nS) :
    |(sweep B M r γ v).values t - (sweep B M r γ w).values t| ≤ γ * d := by
  rw [sweep_values, sweep_values]
  exact (partialSweep_close hB hM r h0 h1 hd h M.nS (le_refl _)).1 t ht

/-- A function satisfying `V s = B (Q V s)` is left alone by (partial) sweeps. -/
theorem partialSweep_fixed {B : (Nat → K) → K} {M : Trans K} {r : Nat → K} {γ : K} {V : Nat → K}
    (hB : NonExp M.nA B) (hM : Spec.SubStochastic M) (h0 : 0 ≤ γ)
    (hV : ∀ s, s < M.nS → V s = B (actionValue M r γ V s)) : ∀ n, n ≤ M.nS → ∀ t, t < M.nS →
    partialSweep B M r γ V n t = V t := by
  intro n
  induction n with
  | zero => intro _ t _; rfl
  | succ n ih =>
    intro hn t ht
    have ih' := ih (by omega)
    unfold partialSweep upd1
    split_ifs with htn
    · subst htn
      rw [hV t ht]
      have := hB (actionValue M r γ (partialSweep B M r γ V t) t) (actionValue M r γ V t) 0 (le_refl _)
        (fun a ha => by
          have := actionValue_close hM r h0 (le_refl (0 : K))
            (fun u hu => by rw [ih' u hu, sub_self, abs_zero] : ∀ u, u < M.nS →
              |partialSweep B M r γ V t u - V u| ≤ 0) ht ha
          rwa [mul_zero] at this)
      exact sub_eq_zero.1 (abs_nonpos_iff.1 this)
    · exact ih' t ht

/-- Values after `n` sweeps. -/
def iterV (B : (Nat → K) → K) (M : Trans K) (r : Nat → K) (γ : K) (v : Nat → K) : Nat → Nat → K
  | 0 => v
  | n + 1 => (sweep B M r γ (iterV B M r γ v n)).values

theorem iterV_succ' (B : (Nat → K) → K) (M : Trans K) (r : Nat → K) (γ : K) (v : Nat → K) :
    ∀ n, iterV B M r γ v (n + 1) = iterV B M r γ (sweep B M r γ v).values n
  | 0 => rfl
  | n + 1 => by
    show (sweep B M r γ (iterV B M r γ v (n + 1))).values = _
    rw [iterV_succ' B M r γ v n]
    rfl

/-- What the iteration loop returns: it performs some number `j` of sweeps. -/
theorem viLoop_spec (B : (Nat → K) → K) (M : Trans K) (r : Nat → K) (γ tol : K) :
    ∀ (k : Nat) (v : Nat → K) (q : Option (Nat → Nat → K)), ∃ j, j ≤ k ∧ (0 < k → 0 < j) ∧
      (∀ i, i + 1 < j → ¬ (sweep B M r γ (iterV B M r γ v i)).delta < tol) ∧
      (j < k → (sweep B M r γ (iterV B M r γ v (j - 1))).delta < tol) ∧
      viLoop B M r γ tol k v q = (iterV B M r γ v j,
        if j = 0 then q else some (sweep B M r γ (iterV B M r γ v (j - 1))).q)
  | 0, v, q => ⟨0, le_refl _, by omega, by omega, by omega, rfl⟩
  | k + 1, v, q => by
    by_cases hstop : (sweep B M r γ v).delta < tol
    · refine ⟨1, by omega, by omega, by omega, fun _ => hstop, ?_⟩
      show (if (sweep B M r γ v).delta < tol then _ else _) = _
      rw [if_pos hstop]
      rfl
    · obtain ⟨j, h1, h2, h3, h4, h5⟩ := viLoop_spec B M r γ tol k (sweep B M r γ v).values
        (some (sweep B M r γ v).q)
      refine ⟨j + 1, by omega, by omega, ?_, ?_, ?_⟩
      · intro i hi
        cases i with
        | zero => exact hstop
        | succ i => rw [iterV_succ']; exact h3 i (by omega)
      · intro hj
        have hj0 : 0 < j := h2 (by omega)
        have := h4 (by omega)
        rw [← iterV_succ'] at this
        have e : j - 1 + 1 = j + 1 - 1 := by omega
        rwa [e] at this
      · show (if (sweep B M r γ v).delta < tol then _ else _) = _
        rw [if_neg hstop, h5, ← iterV_succ']
        congr 1
        rw [if_neg (by omega : ¬ j + 1 = 0)]
        by_cases hj : j = 0
        · subst hj; rfl
        · rw [if_neg hj, ← iterV_succ']
          have e : j - 1 + 1 = j + 1 - 1 := by omega
          rw [e]

/-- Distance of the iterates to a fixed point. -/
theorem iterV_close {B : (Nat → K) → K} {M : Trans K} {r : Nat → K} {γ : K} {V v : Nat → K}
    (hB : NonExp M.nA B) (hM : Spec.SubStochastic M) (h0 : 0 ≤ γ) (h1 : γ ≤ 1)
    (hV : ∀ s, s < M.nS → V s = B (actionValue M r γ V s)) {d : K} (hd : 0 ≤ d)
    (h : ∀ t, t < M.nS → |v t - V t| ≤ d) : ∀ n t, t < M.nS → |iterV B M r γ v n t - V t| ≤ γ ^ n * d
  | 0, t, ht => by simpa [iterV] using h t ht
  | n + 1, t, ht => by
    have ih := iterV_close hB hM h0 h1 hV hd h n
    have hc := sweep_contraction hB hM r h0 h1 (mul_nonneg (pow_nonneg h0 n) hd) ih t ht
    have hfix : (sweep B M r γ V).values t = V t := by
      rw [sweep_values]; exact partialSweep_fixed hB hM h0 hV M.nS (le_refl _) t ht
    rw [hfix] at hc
    show |(sweep B M r γ (iterV B M r γ v n)).values t - V t| ≤ _
    rw [pow_succ, mul_comm (γ ^ n) γ, mul_assoc]
    exact hc

/-- Successive iterates get geometrically closer. -/
theorem iterV_step {B : (Nat → K) → K} {M : Trans K} {r : Nat → K} {γ : K} {v : Nat → K}
    (hB : NonExp M.nA B) (hM : Spec.SubStochastic M) (h0 : 0 ≤ γ) (h1 : γ ≤ 1) {d : K} (hd : 0 ≤ d)
    (h : ∀ t, t < M.nS → |v t - (sweep B M r γ v).values t| ≤ d) :
    ∀ n t, t < M.nS → |iterV B M r γ v n t - iterV B M r γ v (n + 1) t| ≤ γ ^ n * d
  | 0, t, ht => by simpa [iterV] using h t ht
  | n + 1, t, ht => by
    have ih := iterV_step hB hM h0 h1 hd h n
    have hc := sweep_contraction hB hM r h0 h1 (mul_nonneg (pow_nonneg h0 n) hd) ih t ht
    rw [pow_succ, mul_comm (γ ^ n) γ, mul_assoc]
    exact hc

/-- A bound on finitely many numbers. -/
theorem exists_bound (n : Nat) (f : Nat → K) : ∃ d, 0 ≤ d ∧ ∀ t, t < n → |f t| ≤ d := by
  refine ⟨∑ t ∈ Finset.range n, |f t|, Finset.sum_nonneg fun _ _ => abs_nonneg _, fun t ht => ?_⟩
  exact Finset.single_le_sum (f := fun t => |f t|) (fun _ _ => abs_nonneg _) (Finset.mem_range.2 ht)

/-- Over the reals a fixed point exists. -/
theorem exists_fixed {B : (Nat → ℝ) → ℝ} {M : Trans ℝ} (hB : NonExp M.nA B)
    (hM : Spec.SubStochastic M) (r : Nat → ℝ) {γ : ℝ} (h0 : 0 ≤ γ) (h1 : γ < 1) :
    ∃ V : Nat → ℝ, ∀ s, s < M.nS → V s = B (actionValue M r γ V s) := by
  obtain ⟨d, hd, hbd⟩ := exists_bound M.nS
    fun t => (0 : ℝ) - (sweep B M r γ (fun _ => 0)).values t
  have hstep := iterV_step (v := fun _ => 0) hB hM h0 h1.le hd hbd
  have hcauchy : ∀ t, t < M.nS → ∃ l, Filter.Tendsto (fun n => iterV B M r γ (fun _ => 0) n t)
      Filter.atTop (nhds l) ∧ ∀ n, |iterV B M r γ (fun _ => 0) n t - l| ≤ d * γ ^ n / (1 - γ) := by
    intro t ht
    have hle : ∀ n, dist (iterV B M r γ (fun _ => 0) n t) (iterV B M r γ (fun _ => 0) (n + 1) t) ≤
        d * γ ^ n := by
      intro n; rw [Real.dist_eq, mul_comm]; exact hstep n t ht
    obtain ⟨l, hl⟩ := cauchySeq_tendsto_of_complete (cauchySeq_of_le_geometric γ d h1 hle)
    refine ⟨l, hl, fun n => ?_⟩
    have := dist_le_of_le_geometric_of_tendsto γ d h1 hle hl n
    rwa [Real.dist_eq] at this
  choose! V hV using hcauchy
  have hfix : ∀ t, t < M.nS → (sweep B M r γ V).values t = V t := by
    intro t ht
    by_contra hne
    have hpos : 0 < |(sweep B M r γ V).values t - V t| := abs_pos.2 (sub_ne_zero.2 hne)
    have hsmall : Filter.Tendsto (fun n : ℕ => γ ^ n * (2 * (d / (1 - γ)))) Filter.atTop (nhds 0) := by
      have := (tendsto_pow_atTop_nhds_zero_of_lt_one h0 h1).mul_const (2 * (d / (1 - γ)))
      rwa [zero_mul] at this
    obtain ⟨n, hn⟩ := (hsmall.eventually (gt_mem_nhds hpos)).exists
    have hg : 0 < 1 - γ := by linarith
    have hdn : 0 ≤ d * γ ^ n / (1 - γ) := div_nonneg (mul_nonneg hd (pow_nonneg h0 n)) hg.le
    have c1 := sweep_contraction hB hM r h0 h1.le hdn (fun u hu => by
      have := (hV u hu).2 n; rw [abs_sub_comm] at this; exact this) t ht
    have c2 := (hV t ht).2 (n + 1)
    have c1' : |(sweep B M r γ V).values t - iterV B M r γ (fun _ => 0) (n + 1) t| ≤
        d * γ ^ n / (1 - γ) := by
      refine le_trans c1 ?_
      nlinarith
    have c2' : |iterV B M r γ (fun _ => 0) (n + 1) t - V t| ≤ d * γ ^ n / (1 - γ) := by
      refine le_trans c2 ?_
      apply div_le_div_of_nonneg_right _ hg.le
      rw [pow_succ]
      have := mul_nonneg hd (pow_nonneg h0 n)
      nlinarith
    have c3 := abs_sub_le ((sweep B M r γ V).values t) (iterV B M r γ (fun _ => 0) (n + 1) t) (V t)
    have e : γ ^ n * (2 * (d / (1 - γ))) = d * γ ^ n / (1 - γ) + d * γ ^ n / (1 - γ) := by ring
    rw [e] at hn
    linarith
  refine ⟨V, ?_⟩
  have hpart : ∀ n, n ≤ M.nS → ∀ t, t < M.nS → partialSweep B M r γ V n t = V t := by
    intro n hn t ht
    by_cases htn : t < n
    · rw [partialSweep_lt B M r γ V n t htn, ← partialSweep_lt B M r γ V M.nS t ht,
        ← sweep_values]
      exact hfix t ht
    · exact partialSweep_ge B M r γ V n t (by omega)
  intro s hs
  rw [← hpart M.nS (le_refl _) s hs, partialSweep_lt B M r γ V M.nS s hs]
  have := hB (actionValue M r γ (partialSweep B M r γ V s) s)
    (actionValue M r γ (partialSweep B M r γ V M.nS) s) 0 (le_refl _) (fun a ha => by
      have := actionValue_close hM r h0 (le_refl (0 : ℝ)) (fun u hu => by
        rw [hpart s (by omega) u hu, hpart M.nS (le_refl _) u hu, sub_self, abs_zero] :
          ∀ u, u < M.nS → |partialSweep B M r γ V s u - partialSweep B M r γ V M.nS u| ≤ 0) hs ha
      rwa [mul_zero] at this)
  have e := sub_eq_zero.1 (abs_nonpos_iff.1 this)
  rw [e]
  have := hB (actionValue M r γ (partialSweep B M r γ V M.nS) s) (actionValue M r γ V s) 0 (le_refl _)
    (fun a ha => by
      have := actionValue_close hM r h0 (le_refl (0 : ℝ)) (fun u hu => by
        rw [hpart M.nS (le_refl _) u hu, sub_self, abs_zero] :
          ∀ u, u < M.nS → |partialSweep B M r γ V M.nS u - V u| ≤ 0) hs ha
      rwa [mul_zero] at this)
  have e2 := sub_eq_zero.1 (abs_nonpos_iff.1 this)
  rw [e2]

/-- At most one fixed point. -/
theorem fixed_unique {B : (Nat → K) → K} {M : Trans K} {r : Nat → K} {γ : K} {V W : Nat → K}
    (hB : NonExp M.nA B) (hM : Spec.SubStochastic M) (h0 : 0 ≤ γ) (h1 : γ < 1)
    (hV : ∀ s, s < M.nS → V s = B (actionValue M r γ V s))
    (hW : ∀ s, s < M.nS → W s = B (actionValue M r γ W s)) : ∀ s, s < M.nS → V s = W s := by
  by_cases hn : 0 < M.nS
  · obtain ⟨k, hk, ek⟩ := exists_npMax (fun t => |V t - W t|) hn
    set d := |V k - W k| with hdef
    have hd : 0 ≤ d := abs_nonneg _
    have hall : ∀ t, t < M.nS → |V t - W t| ≤ d := by
      intro t ht; rw [← ek]; exact le_npMax (fun t => |V t - W t|) ht
    have hkk : d ≤ γ * d := by
      have := hB _ _ _ (mul_nonneg h0 hd) fun a ha =>
        actionValue_close (a := a) hM r h0 hd hall hk ha
      rwa [← hV k hk, ← hW k hk] at this
    have hz : d = 0 := by nlinarith
    intro s hs
    have := hall s hs
    rw [hz] at this
    exact sub_eq_zero.1 (abs_nonpos_iff.1 this)
  · intro s hs; omega

/-- The Bellman equation in terms of the model. -/
theorem bellman_iff {M : Trans K} {r : Nat → K} {γ : K} {V : Nat → K} (hA : 0 < M.nA) :
    Spec.Bellman M r γ V ↔ ∀ s, s < M.nS → V s = hardBackup M.nA (actionValue M r γ V s) := by
  unfold Spec.Bellman
  refine forall_congr' fun s => forall_congr' fun hs => ?_
  have hQ : ∀ a, Spec.Q M r γ V s a = actionValue M r γ V s a := fun a => rfl
  simp only [hQ]
  unfold hardBackup
  constructor
  · rintro ⟨h1, a, ha, h2⟩
    apply le_antisymm
    · rw [← h2]; exact le_npMax (actionValue M r γ V s) ha
    · exact npMax_le _ hA h1
  · intro h
    rw [h]
    constructor
    · intro a ha; rw [← h]; exact h ▸ le_npMax (actionValue M r γ V s) ha
    · obtain ⟨a, ha, e⟩ := exists_npMax (actionValue M r γ V s) hA
      exact ⟨a, ha, by rw [← h]; rw [h]; exact e.symm⟩

/-- A tolerance-stopped or limit-stopped run, for valid settings. -/
theorem solveVI_spec (B : (Nat → K) → K) (M : Trans K) (r : Nat → K) {γ : K} (h0 : 0 < γ) (h1 : γ < 1)
    (tol : K) {k : Nat} (hk : 0 < k) : ∃ j, 0 < j ∧ j ≤ k ∧
      (∀ i, i + 1 < j → ¬ (sweep B M r γ (iterV B M r γ (fun _ => 0) i)).delta < tol) ∧
      (j < k → (sweep B M r γ (iterV B M r γ (fun _ => 0) (j - 1))).delta < tol) ∧
      solveVI B M r k γ tol = .ok (iterV B M r γ (fun _ => 0) j,
        maskQ M (sweep B M r γ (iterV B M r γ (fun _ => 0) (j - 1))).q) := by
  obtain ⟨j, e1, e2, e3, e4, e5⟩ := viLoop_spec B M r γ tol k (fun _ => 0) none
  have hj := e2 hk
  refine ⟨j, hj, e1, e3, e4, ?_⟩
  unfold solveVI
  rw [if_neg (by simp [h0, h1]), e5, if_neg (by omega)]

theorem solveHard_eq {M : Trans K} (hA : 0 < M.nA) (r : Nat → K) (k : Nat) (γ tol : K) :
    solveHard M r k γ tol = solveVI (hardBackup M.nA) M r k γ tol := by
  unfold solveHard
  rw [if_neg]
  rintro ⟨-, h, -⟩
  omega

/-- The last value function is the result of a sweep. -/
theorem iterV_pred {B : (Nat → K) → K} {M : Trans K} {r : Nat → K} {γ : K} {v : Nat → K} {j : Nat}
    (hj : 0 < j) : iterV B M r γ v j = (sweep B M r γ (iterV B M r γ v (j - 1))).values := by
  cases j with
  | zero => omega
  | succ j => rfl

/-- Error bound when the last sweep changed every value by less than `tol`. -/
theorem stop_bound {B : (Nat → K) → K} {M : Trans K} {r : Nat → K} {γ tol : K} {V v : Nat → K}
    (hB : NonExp M.nA B) (hM : Spec.SubStochastic M) (h0 : 0 < γ) (h1 : γ < 1)
    (hV : ∀ s, s < M.nS → V s = B (actionValue M r γ V s)) (hstop : (sweep B M r γ v).delta < tol) :
    (∀ s, s < M.nS → |(sweep B M r γ v).values s - V s| < tol * γ / (1 - γ)) ∧
    (∀ s a, s < M.nS → a < M.nA →
      |(sweep B M r γ v).q s a - actionValue M r γ V s a| < tol * γ / (1 - γ)) := by
  have hg : 0 < 1 - γ := by linarith
  by_cases hn : 0 < M.nS
  swap
  · exact ⟨fun s hs => by omega, fun s a hs => by omega⟩
  obtain ⟨k, hk, ek⟩ := exists_npMax (fun t => |v t - V t|) hn
  set d := |v k - V k| with hdef
  have hd : 0 ≤ d := abs_nonneg _
  have hall : ∀ t, t < M.nS → |v t - V t| ≤ d := by
    intro t ht; rw [← ek]; exact le_npMax (fun t => |v t - V t|) ht
  set δ := (sweep B M r γ v).delta with hδ
  have hδ0 : 0 ≤ δ := sweep_delta_nonneg B M r γ v
  have hfix : ∀ n, n ≤ M.nS → ∀ t, t < M.nS → partialSweep B M r γ V n t = V t :=
    partialSweep_fixed hB hM h0.le hV
  have hc : ∀ t, t < M.nS → |(sweep B M r γ v).values t - V t| ≤ γ * d := by
    intro t ht
    have := sweep_contraction hB hM r h0.le h1.le hd hall t ht
    rwa [sweep_values B M r γ V, hfix M.nS (le_refl _) t ht] at this
  have hdd : d ≤ δ + γ * d := by
    have e1 := abs_sub_le (v k) ((sweep B M r γ v).values k) (V k)
    have e2 := le_sweep_delta B M r γ v k hk
    have e3 := hc k hk
    linarith
  have hdle : d ≤ δ / (1 - γ) := by
    rw [le_div_iff₀ hg]; linarith
  have hfin : γ * d < tol * γ / (1 - γ) := by
    have : δ / (1 - γ) < tol / (1 - γ) := div_lt_div_of_pos_right hstop hg
    have e : tol * γ / (1 - γ) = γ * (tol / (1 - γ)) := by ring
    rw [e]
    exact mul_lt_mul_of_pos_left (lt_of_le_of_lt hdle this) h0
  refine ⟨fun s hs => lt_of_le_of_lt (hc s hs) hfin, fun s a hs ha => ?_⟩
  rw [sweep_q B M r γ v s a hs]
  refine lt_of_le_of_lt (actionValue_close hM r h0.le hd ?_ hs ha) hfin
  intro t ht
  have := (partialSweep_close hB hM r h0.le h1.le hd hall s (by omega)).2 t ht
  rwa [hfix s (by omega) t ht] at this

/-- Convergence for any non-expansive backup. -/
theorem vi_converges {B : (Nat → ℝ) → ℝ} {M : Trans ℝ} (hB : NonExp M.nA B)
    (hM : Spec.SubStochastic M) (r : Nat → ℝ) {γ : ℝ} (h0 : 0 < γ) (h1 : γ < 1) :
    ∃ V : Nat → ℝ, (∀ s, s < M.nS → V s = B (actionValue M r γ V s)) ∧
      (∀ tol, 0 < tol → ∃ N, ∀ k, N ≤ k → ∃ v q, solveVI B M r k γ tol = .ok (v, q) ∧
        solveVI B M r N γ tol = .ok (v, q) ∧ ∀ s, s < M.nS → |v s - V s| < tol * γ / (1 - γ)) ∧
      (∀ ε, 0 < ε → ∃ N, ∀ k, N ≤ k → ∃ v q, solveVI B M r k γ 0 = .ok (v, q) ∧
        ∀ s, s < M.nS → |v s - V s| < ε) := by
  obtain ⟨V, hV⟩ := exists_fixed hB hM r h0.le h1
  have hsmall : ∀ c : ℝ, ∀ ε, 0 < ε → ∃ N : ℕ, ∀ n, N ≤ n → γ ^ n * c < ε := by
    intro c ε hε
    have ht : Filter.Tendsto (fun n : ℕ => γ ^ n * c) Filter.atTop (nhds 0) := by
      have := (tendsto_pow_atTop_nhds_zero_of_lt_one h0.le h1).mul_const c
      rwa [zero_mul] at this
    exact Filter.eventually_atTop.1 (ht.eventually (gt_mem_nhds hε))
  refine ⟨V, hV, ?_, ?_⟩
  · intro tol htol
    obtain ⟨d, hd, hbd⟩ := exists_bound M.nS
      fun t => (0 : ℝ) - (sweep B M r γ (fun _ => 0)).values t
    have hstep := iterV_step (v := fun _ => 0) hB hM h0.le h1.le hd hbd
    obtain ⟨N0, hN0⟩ := hsmall d tol htol
    have hdel : (sweep B M r γ (iterV B M r γ (fun _ => 0) N0)).delta < tol :=
      sweep_delta_lt B M r γ _ tol htol fun s hs =>
        lt_of_le_of_lt (hstep N0 s hs) (hN0 N0 (le_refl _))
    have key : ∀ k, N0 + 2 ≤ k → ∃ j, 0 < j ∧ j ≤ N0 + 1 ∧
        (∀ i, i + 1 < j → ¬ (sweep B M r γ (iterV B M r γ (fun _ => 0) i)).delta < tol) ∧
        (sweep B M r γ (iterV B M r γ (fun _ => 0) (j - 1))).delta < tol ∧
        solveVI B M r k γ tol = .ok (iterV B M r γ (fun _ => 0) j,
          maskQ M (sweep B M r γ (iterV B M r γ (fun _ => 0) (j - 1))).q) := by
      intro k hk
      obtain ⟨j, e1, e2, e3, e4, e5⟩ := solveVI_spec B M r h0 h1 tol (k := k) (by omega)
      have hj : j ≤ N0 + 1 := by
        by_contra hc
        exact e3 N0 (by omega) hdel
      exact ⟨j, e1, hj, e3, e4 (by omega), e5⟩
    refine ⟨N0 + 2, fun k hk => ?_⟩
    obtain ⟨j, e1, e2, e3, e4, e5⟩ := key k hk
    obtain ⟨j', f1, f2, f3, f4, f5⟩ := key (N0 + 2) (le_refl _)
    have hjj : j = j' := by
      by_contra hne
      rcases Nat.lt_or_gt_of_ne hne with hlt | hgt
      · exact f3 (j - 1) (by omega) e4
      · exact e3 (j' - 1) (by omega) f4
    subst hjj
    refine ⟨_, _, e5, f5, ?_⟩
    rw [iterV_pred e1]
    exact (stop_bound hB hM h0 h1 hV e4).1
  · intro ε hε
    obtain ⟨d, hd, hbd⟩ := exists_bound M.nS fun t => (0 : ℝ) - V t
    obtain ⟨N, hN⟩ := hsmall d ε hε
    refine ⟨N + 1, fun k hk => ?_⟩
    obtain ⟨j, e1, e2, e3, e4, e5⟩ := solveVI_spec B M r h0 h1 0 (k := k) (by omega)
    have hj : j = k := by
      by_contra hne
      exact absurd (e4 (by omega)) (not_lt.2 (sweep_delta_nonneg _ _ _ _ _))
    subst hj
    refine ⟨_, _, e5, fun s hs => ?_⟩
    exact lt_of_le_of_lt (iterV_close hB hM h0.le h1.le hV hd hbd j s hs) (hN j (by omega))

/-- Masking: an action is masked exactly when it has no successor. -/
theorem maskQ_ninf {M : Trans K} (hM : Spec.SubStochastic M) (q : Nat → Nat → K) {s a : Nat}
    (hs : s < M.nS) (ha : a < M.nA) : (maskQ M q s a = .ninf ↔ ¬ Spec.Possible M s a) ∧
      (Spec.Possible M s a → maskQ M q s a = .fin (q s a)) := by
  have hz : npSum M.nS (M.p s a) = 0 ↔ ¬ Spec.Possible M s a := by
    unfold npSum Spec.Possible
    rw [Finset.sum_eq_zero_iff_of_nonneg fun t ht => hM.nonneg s a t hs ha (Finset.mem_range.1 ht)]
    push Not
    constructor
    · intro h t ht; exact (h t (Finset.mem_range.2 ht)).le
    · intro h t ht
      have ht' := Finset.mem_range.1 ht
      exact le_antisymm (h t ht') (hM.nonneg s a t hs ha ht')
  unfold maskQ
  constructor
  · rw [← hz]
    split_ifs with h <;> simp [h]
  · intro h
    rw [if_neg fun h' => (hz.1 h') h]

/-- Impossible actions are worth 0. -/
theorem actionValue_impossible {M : Trans K} (hM : Spec.SubStochastic M) (r : Nat → K) (γ : K)
    (v : Nat → K) {s a : Nat} (hs : s < M.nS) (ha : a < M.nA) (h : ¬ Spec.Possible M s a) :
    actionValue M r γ v s a = 0 := by
  unfold actionValue npDot
  apply Finset.sum_eq_zero
  intro t ht
  have ht' := Finset.mem_range.1 ht
  have : M.p s a t = 0 := by
    apply le_antisymm _ (hM.nonneg s a t hs ha ht')
    by_contra hc
    exact h ⟨t, ht', not_le.1 hc⟩
  rw [this, zero_mul]

/-- A property of value functions preserved by each update is preserved by everything. -/
theorem iterV_induct {B : (Nat → K) → K} {M : Trans K} {r : Nat → K} {γ : K} {v : Nat → K}
    (P : Nat → K → Prop) (h0 : ∀ t, t < M.nS → P t (v t))
    (hstep : ∀ w s, s < M.nS → (∀ t, t < M.nS → P t (w t)) → P s (B (actionValue M r γ w s))) :
    ∀ n t, t < M.nS → P t (iterV B M r γ v n t) ∧
      ∀ k, k ≤ M.nS → P t (partialSweep B M r γ (iterV B M r γ v n) k t) := by
  have part : ∀ w, (∀ t, t < M.nS → P t (w t)) → ∀ k, k ≤ M.nS → ∀ t, t < M.nS →
      P t (partialSweep B M r γ w k t) := by
    intro w hw k
    induction k with
    | zero => intro _ t ht; exact hw t ht
    | succ k ih =>
      intro hk t ht
      unfold partialSweep upd1
      split_ifs with htk
      · subst htk; exact hstep _ t ht (ih (by omega))
      · exact ih (by omega) t ht
  intro n
  induction n with
  | zero => intro t ht; exact ⟨h0 t ht, fun k hk => part _ h0 k hk t ht⟩
  | succ n ih =>
    have hv : ∀ t, t < M.nS → P t (iterV B M r γ v (n + 1) t) := by
      intro t ht
      show P t ((sweep B M r γ (iterV B M r γ v n)).values t)
      rw [sweep_values]
      exact (ih t ht).2 M.nS (le_refl _)
    intro t ht
    exact ⟨hv t ht, fun k hk => part _ hv k hk t ht⟩

theorem sweeps_eq (M : Trans K) (r : Nat → K) (γ : K) : ∀ n,
    Spec.sweeps M r γ n = iterV (hardBackup M.nA) M r γ (fun _ => 0) n
  | 0 => rfl
  | n + 1 => by
    show (sweep _ M r γ (Spec.sweeps M r γ n)).values = _
    rw [sweeps_eq M r γ n]; rfl

theorem actionValue_agree (M : Trans K) (r : Nat → K) (γ : K) {v w : Nat → K} (h : ∀ t, t < M.nS → v t = w t) (s : Nat) :
    actionValue M r γ v s = actionValue M r γ w s := by
  funext a
  unfold actionValue npDot
  exact Finset.sum_congr rfl fun t ht => by simp only [h t (Finset.mem_range.1 ht)]

/-- A pass, described state by state, is what the loop over states computes. -/
theorem sweep_unique (B : (Nat → K) → K) (M : Trans K) (r : Nat → K) (γ : K) (v w : Nat → K) :
    (∀ s, s < M.nS → w s = B (actionValue M r γ (Spec.seen v w s) s)) ↔
      ∀ s, s < M.nS → w s = (sweep B M r γ v).values s := by
  have hseen : ∀ s, s ≤ M.nS → (∀ t, t < s → w t = (sweep B M r γ v).values t) →
      ∀ t, t < M.nS → Spec.seen v w s t = partialSweep B M r γ v s t := by
    intro s hs h t ht
    unfold Spec.seen
    split_ifs with hts
    · rw [h t hts, sweep_values, partialSweep_lt B M r γ v s t hts, partialSweep_lt B M r γ v M.nS t ht]
    · rw [partialSweep_ge B M r γ v s t (by omega)]
  constructor
  · intro h s
    induction s using Nat.strong_induction_on with
    | _ s ih =>
      intro hs
      rw [h s hs, sweep_values, partialSweep_lt B M r γ v M.nS s hs]
      congr 1
      exact actionValue_agree M r γ (hseen s hs.le fun t ht => ih t ht (by omega)) s
  · intro h s hs
    rw [h s hs, sweep_values, partialSweep_lt B M r γ v M.nS s hs]
    congr 1
    exact (actionValue_agree M r γ (hseen s hs.le fun t ht => h t (by omega)) s).symm

theorem npMax_iff {n : Nat} (hn : 0 < n) (x : Nat → K) (y : K) :
    ((∀ a, a < n → x a ≤ y) ∧ ∃ a, a < n ∧ x a = y) ↔ y = npMax n x := by
  constructor
  · rintro ⟨h1, a, ha, h2⟩
    exact le_antisymm (h2 ▸ le_npMax x ha) (npMax_le _ hn h1)
  · rintro rfl
    obtain ⟨a, ha, e⟩ := exists_npMax x hn
    exact ⟨fun a ha => le_npMax x ha, a, ha, e.symm⟩

theorem pass_iff {M : Trans K} (hA : 0 < M.nA) (r : Nat → K) (γ : K) (v w : Nat → K) :
    Spec.Pass M r γ v w ↔ ∀ s, s < M.nS → w s = (sweep (hardBackup M.nA) M r γ v).values s := by
  rw [← sweep_unique]
  exact forall_congr' fun s => forall_congr' fun _ => npMax_iff hA (Spec.Q M r γ (Spec.seen v w s) s) (w s)

theorem softPass_iff {M : Trans ℝ} (r : Nat → ℝ) (γ : ℝ) (v w : Nat → ℝ) :
    Spec.SoftPass M r γ v w ↔ ∀ s, s < M.nS → w s = (sweep (softBackup M.nA) M r γ v).values s := by
  rw [← sweep_unique]
  rfl

theorem seen_sweep (B : (Nat → K) → K) (M : Trans K) (r : Nat → K) (γ : K) (v : Nat → K) {s : Nat} (hs : s < M.nS)
    (a : Nat) : (sweep B M r γ v).q s a = Spec.Q M r γ (Spec.seen v (sweep B M r γ v).values s) s a := by
  rw [sweep_q B M r γ v s a hs]
  refine congrFun (actionValue_agree M r γ (fun t ht => ?_) s) a
  unfold Spec.seen
  split_ifs with hts
  · rw [sweep_values, partialSweep_lt B M r γ v s t hts, partialSweep_lt B M r γ v M.nS t ht]
  · rw [partialSweep_ge B M r γ v s t (by omega)]

theorem iterV_mem {B : (Nat → K) → K} {M : Trans K} {r : Nat → K} {γ : K} {v : Nat → K} {j s : Nat}
    (hj : 0 < j) (hs : s < M.nS) : iterV B M r γ v j s =
      B ((sweep B M r γ (iterV B M r γ v (j - 1))).q s) := by
  rw [iterV_pred hj]
  have e : (sweep B M r γ (iterV B M r γ v (j - 1))).q s =
      actionValue M r γ (partialSweep B M r γ (iterV B M r γ v (j - 1)) s) s := by
    funext a; exact sweep_q _ _ _ _ _ s a hs
  rw [sweep_value_eq _ _ _ _ _ s hs, e]

/-- The value of a state bounded by a bound on rewards. -/
theorem abs_actionValue_le {M : Trans K} (hM : Spec.SubStochastic M) {r : Nat → K} {γ R : K}
    (h0 : 0 < γ) (h1 : γ < 1) (hR : 0 ≤ R) (hr : ∀ t, t < M.nS → |r t| ≤ R) {v : Nat → K}
    (hv : ∀ t, t < M.nS → |v t| ≤ R / (1 - γ)) {s a : Nat} (hs : s < M.nS) (ha : a < M.nA) :
    |actionValue M r γ v s a| ≤ R / (1 - γ) := by
  have hg : 0 < 1 - γ := by linarith
  have hX : 0 ≤ R / (1 - γ) := div_nonneg hR hg.le
  have hfix : R + γ * (R / (1 - γ)) = R / (1 - γ) := by field_simp; ring
  unfold actionValue npDot
  calc |∑ t ∈ Finset.range M.nS, M.p s a t * (r t + γ * v t)|
      ≤ ∑ t ∈ Finset.range M.nS, |M.p s a t * (r t + γ * v t)| := Finset.abs_sum_le_sum_abs _ _
    _ ≤ ∑ t ∈ Finset.range M.nS, M.p s a t * (R / (1 - γ)) := by
        apply Finset.sum_le_sum
        intro t ht
        have ht' := Finset.mem_range.1 ht
        have hp := hM.nonneg s a t hs ha ht'
        rw [abs_mul, abs_of_nonneg hp]
        apply mul_le_mul_of_nonneg_left _ hp
        rw [← hfix]
        refine (abs_add_le _ _).trans (add_le_add (hr t ht') ?_)
        rw [abs_mul, abs_of_pos h0]
        exact mul_le_mul_of_nonneg_left (hv t ht') h0.le
    _ = (∑ t ∈ Finset.range M.nS, M.p s a t) * (R / (1 - γ)) := by rw [Finset.sum_mul]
    _ ≤ 1 * (R / (1 - γ)) := mul_le_mul_of_nonneg_right (hM.le_one s a hs ha) hX
    _ = R / (1 - γ) := one_mul _

theorem hardBackup_abs_le {nA : Nat} {x : Nat → K} {c : K} (hA : 0 < nA)
    (h : ∀ a, a < nA → |x a| ≤ c) : |hardBackup nA x| ≤ c := by
  obtain ⟨i, hi, e⟩ := exists_npMax x hA
  unfold hardBackup
  rw [e]; exact h i hi

/-- In a deterministic MDP an action leading to `t` is worth the reward there plus the discounted
value of `t`. -/
theorem actionValue_det {M : Trans K} (hM : Spec.SubStochastic M) (hdet : Spec.Deterministic M)
    (r : Nat → K) (γ : K) (v : Nat → K) {s a t : Nat} (hs : s < M.nS) (ha : a < M.nA) (ht : t < M.nS)
    (h : M.p s a t = 1) : actionValue M r γ v s a = r t + γ * v t := by
  unfold actionValue npDot
  rw [Finset.sum_eq_single t]
  · rw [h, one_mul]
  · intro u hu hne
    have hu' := Finset.mem_range.1 hu
    rcases hdet s a u hs ha hu' with h' | h'
    · rw [h', zero_mul]
    · exfalso
      have hle := hM.le_one s a hs ha
      have : M.p s a t + M.p s a u ≤ ∑ t ∈ Finset.range M.nS, M.p s a t := by
        rw [← Finset.sum_pair hne.symm]
        apply Finset.sum_le_sum_of_subset_of_nonneg
        · intro x hx
          rcases Finset.mem_insert.1 hx with rfl | hx
          · exact Finset.mem_range.2 ht
          · rw [Finset.mem_singleton.1 hx]; exact hu
        · intro x hx _
          exact hM.nonneg s a x hs ha (Finset.mem_range.1 hx)
      rw [h, h'] at this
      linarith
  · intro h'; exact absurd (Finset.mem_range.2 ht) h'

/-- Solutions of the Bellman equation are non-negative for non-negative rewards. -/
theorem bellman_nonneg {M : Trans K} (hM : Spec.SubStochastic M) {r V : Nat → K} {γ : K} (h0 : 0 < γ)
    (h1 : γ < 1) (hr : ∀ t, t < M.nS → 0 ≤ r t) (hV : Spec.Bellman M r γ V) :
    ∀ s, s < M.nS → 0 ≤ V s := by
  by_cases hn : 0 < M.nS
  swap
  · intro s hs; omega
  obtain ⟨k, hk, ek⟩ := exists_npMax (fun t => - V t) hn
  have hall : ∀ t, t < M.nS → V k ≤ V t := by
    intro t ht
    have := le_npMax (fun t => - V t) ht
    rw [ek] at this
    linarith
  by_contra hc
  push Not at hc
  obtain ⟨s, hs, hneg⟩ := hc
  have hk0 : V k < 0 := lt_of_le_of_lt (hall s hs) hneg
  obtain ⟨-, a, ha, ea⟩ := hV k hk
  have : γ * V k ≤ Spec.Q M r γ V k a := by
    calc γ * V k = 1 * (γ * V k) := (one_mul _).symm
      _ ≤ (∑ t ∈ Finset.range M.nS, M.p k a t) * (γ * V k) :=
        mul_le_mul_of_nonpos_right (hM.le_one k a hk ha) (mul_nonpos_of_nonneg_of_nonpos h0.le hk0.le)
      _ = ∑ t ∈ Finset.range M.nS, M.p k a t * (γ * V k) := by rw [Finset.sum_mul]
      _ ≤ Spec.Q M r γ V k a := by
        apply Finset.sum_le_sum
        intro t ht
        have ht' := Finset.mem_range.1 ht
        apply mul_le_mul_of_nonneg_left _ (hM.nonneg k a t hk ha ht')
        have := mul_le_mul_of_nonneg_left (hall t ht') h0.le
        linarith [hr t ht']
  rw [ea] at this
  nlinarith

/-- Log-sum-exp never increases distances. -/
theorem softBackup_nonExp (nA : Nat) : NonExp nA (softBackup nA) := by
  have hc : (0 : ℝ) < 1 / 10 ^ 200 := by positivity
  have half : ∀ (x y : Nat → ℝ) (d : ℝ), 0 ≤ d → (∀ a, a < nA → |x a - y a| ≤ d) →
      softBackup nA x - softBackup nA y ≤ d := by
    intro x y d hd h
    unfold softBackup npSum
    set c : ℝ := 1 / 10 ^ 200
    have py : 0 ≤ ∑ a ∈ Finset.range nA, Real.exp (y a) :=
      Finset.sum_nonneg fun _ _ => (Real.exp_pos _).le
    have px : 0 ≤ ∑ a ∈ Finset.range nA, Real.exp (x a) :=
      Finset.sum_nonneg fun _ _ => (Real.exp_pos _).le
    have hle : (∑ a ∈ Finset.range nA, Real.exp (x a)) + c ≤
        Real.exp d * ((∑ a ∈ Finset.range nA, Real.exp (y a)) + c) := by
      rw [mul_add, Finset.mul_sum]
      apply add_le_add
      · apply Finset.sum_le_sum
        intro a ha
        rw [← Real.exp_add]
        apply Real.exp_le_exp.2
        have := (abs_le.1 (h a (Finset.mem_range.1 ha))).2
        linarith
      · have := Real.one_le_exp hd
        nlinarith
    have := Real.log_le_log (by linarith) hle
    rw [Real.log_mul (Real.exp_pos _).ne' (by linarith), Real.log_exp] at this
    linarith
  intro x y d hd h
  rw [abs_le]
  constructor
  · have := half y x d hd fun a ha => by rw [abs_sub_comm]; exact h a ha
    linarith
  · exact half x y d hd h

end MaMDP
