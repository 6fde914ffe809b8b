import Verif.Lemmas.Monotone
import Verif.Lemmas.Entropy

/-! # Values of several rewards added up -/

set_option linter.unusedSectionVars false

namespace MaMDP

variable {K : Type} [Field K] [LinearOrder K] [IsStrictOrderedRing K]

/-- A backup that grows with the values of actions. -/
def Grows (nA : Nat) (B : (Nat → K) → K) : Prop := ∀ x y, (∀ a, a < nA → x a ≤ y a) → B x ≤ B y

/-- A backup of a weighted sum is at most the weighted sum of the backups. -/
def Mixes (n : Nat) (c : Nat → K) (B : (Nat → K) → K) : Prop := ∀ x : Nat → Nat → K,
  B (fun a => ∑ i ∈ Finset.range n, c i * x i a) ≤ ∑ i ∈ Finset.range n, c i * B (x i)

theorem actionValue_mix (M : Trans K) (r v : Nat → Nat → K) (γ : K) (n : Nat) (c : Nat → K) (s a : Nat) :
    actionValue M (fun t => ∑ i ∈ Finset.range n, c i * r i t) γ (fun t => ∑ i ∈ Finset.range n, c i * v i t) s a =
      ∑ i ∈ Finset.range n, c i * actionValue M (r i) γ (v i) s a := by
  unfold actionValue npDot
  simp only [Finset.mul_sum]
  rw [Finset.sum_comm]
  refine Finset.sum_congr rfl fun t _ => ?_
  rw [← Finset.sum_add_distrib, Finset.mul_sum]
  exact Finset.sum_congr rfl fun i _ => by ring

theorem actionValue_mono {M : Trans K} (hM : Spec.SubStochastic M) {r v w : Nat → K} {γ : K} (h0 : 0 ≤ γ)
    (h : ∀ t, t < M.nS → v t ≤ w t) {s a : Nat} (hs : s < M.nS) (ha : a < M.nA) :
    actionValue M r γ v s a ≤ actionValue M r γ w s a := by
  unfold actionValue npDot
  refine Finset.sum_le_sum fun t ht => ?_
  have ht := Finset.mem_range.1 ht
  refine mul_le_mul_of_nonneg_left ?_ (hM.nonneg s a t hs ha ht)
  have := mul_le_mul_of_nonneg_left (h t ht) h0
  linarith

theorem hardBackup_grows {nA : Nat} (h : 0 < nA) : Grows nA (hardBackup (K := K) nA) := fun _ _ => hardBackup_le h

theorem hardBackup_mixes {nA n : Nat} (h : 0 < nA) {c : Nat → K} (hc : ∀ i, i < n → 0 ≤ c i) :
    Mixes n c (hardBackup nA) := fun x =>
  npMax_le _ h fun _ ha => Finset.sum_le_sum fun i hi =>
    mul_le_mul_of_nonneg_left (le_npMax (x i) ha) (hc i (Finset.mem_range.1 hi))

theorem softBackup_grows (nA : Nat) : Grows nA (softBackup nA) := fun x y h => by
  unfold softBackup npSum
  refine Real.log_le_log (by positivity) ?_
  have := Finset.sum_le_sum (s := Finset.range nA) fun a ha => Real.exp_le_exp.2 (h a (Finset.mem_range.1 ha))
  linarith

/-- The soft backup as a logarithm of summed exponentials: the constant counts as one more action. -/
theorem softBackup_extra (nA : Nat) (x : Nat → ℝ) : softBackup nA x =
    Real.log (∑ a ∈ Finset.range (nA + 1), Real.exp (if a < nA then x a else Real.log (1 / 10 ^ 200))) := by
  unfold softBackup npSum
  rw [Finset.sum_range_succ, if_neg (lt_irrefl _), Real.exp_log (by positivity)]
  congr 2
  exact Finset.sum_congr rfl fun a ha => by rw [if_pos (Finset.mem_range.1 ha)]

/-- Logarithms of summed exponentials are convex. -/
theorem logSumExp_mix {m n : Nat} (hm : 0 < m) {c : Nat → ℝ} (hc : ∀ i, i < n → 0 ≤ c i)
    (h1 : ∑ i ∈ Finset.range n, c i = 1) (x : Nat → Nat → ℝ) :
    Real.log (∑ a ∈ Finset.range m, Real.exp (∑ i ∈ Finset.range n, c i * x i a)) ≤
      ∑ i ∈ Finset.range n, c i * Real.log (∑ a ∈ Finset.range m, Real.exp (x i a)) := by
  set y : Nat → ℝ := fun a => ∑ i ∈ Finset.range n, c i * x i a with hy
  set S := ∑ a ∈ Finset.range m, Real.exp (y a) with hS
  have hS0 : 0 < S := Finset.sum_pos (fun a _ => Real.exp_pos _) ⟨0, Finset.mem_range.2 hm⟩
  set p : Nat → ℝ := fun a => Real.exp (y a) / S with hp
  have hp0 : ∀ a, a < m → 0 ≤ p a := fun a _ => div_nonneg (Real.exp_pos _).le hS0.le
  have hp1 : ∑ a ∈ Finset.range m, p a = 1 := by
    rw [hp, ← Finset.sum_div, ← hS, div_self hS0.ne']
  have e := gibbs_eq hm (x := y)
  rw [← hS] at e
  rw [← e]
  have hi : ∀ i ∈ Finset.range n, c i * ∑ a ∈ Finset.range m, (p a * x i a + Real.negMulLog (p a)) ≤
      c i * Real.log (∑ a ∈ Finset.range m, Real.exp (x i a)) := fun i hi =>
    mul_le_mul_of_nonneg_left (gibbs hp0 hp1) (hc i (Finset.mem_range.1 hi))
  refine le_trans (le_of_eq ?_) (Finset.sum_le_sum hi)
  simp only [Finset.sum_add_distrib, mul_add, ← Finset.sum_mul, h1, one_mul]
  congr 1
  simp only [Finset.mul_sum]
  rw [Finset.sum_comm]
  refine Finset.sum_congr rfl fun a _ => ?_
  rw [hy, Finset.mul_sum]
  exact Finset.sum_congr rfl fun i _ => by ring

theorem softBackup_mixes {nA n : Nat} {c : Nat → ℝ} (hc : ∀ i, i < n → 0 ≤ c i)
    (h1 : ∑ i ∈ Finset.range n, c i = 1) : Mixes n c (softBackup nA) := fun x => by
  simp only [softBackup_extra]
  refine le_trans (le_of_eq ?_) (logSumExp_mix (Nat.succ_pos nA) hc h1
    (fun i a => if a < nA then x i a else Real.log (1 / 10 ^ 200)))
  congr 1
  refine Finset.sum_congr rfl fun a _ => ?_
  congr 1
  split_ifs
  · rfl
  · rw [← Finset.sum_mul, h1, one_mul]

theorem partialSweep_mix {B : (Nat → K) → K} {M : Trans K} (hM : Spec.SubStochastic M) {n : Nat} {c : Nat → K}
    (hg : Grows M.nA B) (hb : Mixes n c B) {r w : Nat → Nat → K} {v : Nat → K} {γ : K} (h0 : 0 ≤ γ)
    (hv : ∀ t, t < M.nS → v t ≤ ∑ i ∈ Finset.range n, c i * w i t) : ∀ m t, t < M.nS →
    partialSweep B M (fun t => ∑ i ∈ Finset.range n, c i * r i t) γ v m t ≤
      ∑ i ∈ Finset.range n, c i * partialSweep B M (r i) γ (w i) m t := by
  intro m
  induction m with
  | zero => exact hv
  | succ m ih =>
    intro t ht
    unfold partialSweep upd1
    by_cases hm : t = m
    · simp only [if_pos hm]
      subst hm
      refine le_trans (hg _ _ fun a ha => actionValue_mono hM h0 ih ht ha) ?_
      refine le_trans (le_of_eq ?_) (hb _)
      exact congrArg B (funext fun a => actionValue_mix M r _ γ n c t a)
    · simp only [if_neg hm]
      exact ih t ht

/-- A state is worth at most what any bound on its own backups says. -/
theorem fixed_le {B : (Nat → K) → K} {M : Trans K} (hM : Spec.SubStochastic M) (hg : Grows M.nA B)
    (hn : NonExp M.nA B) {r V U : Nat → K} {γ : K} (h0 : 0 < γ) (h1 : γ < 1)
    (hV : ∀ s, s < M.nS → V s = B (actionValue M r γ V s)) (hU : ∀ s, s < M.nS → B (actionValue M r γ U s) ≤ U s) :
    ∀ s, s < M.nS → V s ≤ U s := by
  intro s hs
  obtain ⟨k, hk, ek⟩ := exists_npMax (fun t => V t - U t) (Nat.lt_of_le_of_lt (Nat.zero_le s) hs)
  have hmax : ∀ t, t < M.nS → V t - U t ≤ V k - U k := fun t ht => by
    have := le_npMax (fun t => V t - U t) ht
    rw [ek] at this
    exact this
  have hs' := hmax s hs
  rcases le_or_gt (V k - U k) 0 with hD | hD
  · linarith
  exfalso
  set D := V k - U k with hDd
  have hup : B (actionValue M r γ V k) ≤ B (actionValue M r γ (fun t => U t + D) k) :=
    hg _ _ fun a ha => actionValue_mono hM h0.le (fun t ht => by have := hmax t ht; linarith) hk ha
  have hclose : |B (actionValue M r γ (fun t => U t + D) k) - B (actionValue M r γ U k)| ≤ γ * D := by
    refine hn _ _ _ (mul_nonneg h0.le hD.le) fun a ha => ?_
    have e : actionValue M r γ (fun t => U t + D) k a - actionValue M r γ U k a =
        (∑ t ∈ Finset.range M.nS, M.p k a t) * (γ * D) := by
      unfold actionValue npDot
      rw [← Finset.sum_sub_distrib, Finset.sum_mul]
      exact Finset.sum_congr rfl fun t _ => by ring
    have hp : 0 ≤ ∑ t ∈ Finset.range M.nS, M.p k a t :=
      Finset.sum_nonneg fun t ht => hM.nonneg k a t hk ha (Finset.mem_range.1 ht)
    rw [e, abs_of_nonneg (mul_nonneg hp (mul_nonneg h0.le hD.le))]
    have := mul_le_mul_of_nonneg_right (hM.le_one k a hk ha) (mul_nonneg h0.le hD.le)
    linarith
  have h2 := (abs_le.1 hclose).2
  have h3 := hV k hk
  have h4 := hU k hk
  have h5 : γ * D < D := by nlinarith
  linarith

/-- The same for weighted sums of values. -/
theorem fixed_mix {B : (Nat → K) → K} {M : Trans K} (hM : Spec.SubStochastic M) {n : Nat} {c : Nat → K}
    (hg : Grows M.nA B) (hb : Mixes n c B) (hn : NonExp M.nA B) {r W : Nat → Nat → K} {V : Nat → K} {γ : K}
    (h0 : 0 < γ) (h1 : γ < 1)
    (hV : ∀ s, s < M.nS → V s = B (actionValue M (fun t => ∑ i ∈ Finset.range n, c i * r i t) γ V s))
    (hW : ∀ i, i < n → ∀ s, s < M.nS → W i s = B (actionValue M (r i) γ (W i) s)) :
    ∀ s, s < M.nS → V s ≤ ∑ i ∈ Finset.range n, c i * W i s :=
  fixed_le hM hg hn h0 h1 hV fun s hs => by
    refine le_trans (le_of_eq (congrArg B (funext fun a => actionValue_mix M r W γ n c s a))) ((hb _).trans (le_of_eq ?_))
    exact Finset.sum_congr rfl fun i hi => by rw [hW i (Finset.mem_range.1 hi) s hs]

theorem bellman_fixed {M : Trans K} {r V : Nat → K} {γ : K} (h : Spec.Bellman M r γ V) :
    ∀ s, s < M.nS → V s = hardBackup M.nA (actionValue M r γ V s) := by
  intro s hs
  obtain ⟨hle, a, ha, e⟩ := h s hs
  refine le_antisymm ?_ (npMax_le _ (Nat.lt_of_le_of_lt (Nat.zero_le a) ha) hle)
  exact e.symm.le.trans (le_npMax _ ha)

end MaMDP
