import Verif.Lemmas.Chance
import Verif.Lemmas.IRL

/-! # The visits expected by the learner and the chances of where an agent stands (C166) -/

set_option linter.unusedSectionVars false

namespace MaMDP

/-- Following a policy one step, then `k` more. -/
theorem stateDist_shift {K : Type} [Field K] [LinearOrder K] [IsStrictOrderedRing K] (M : Trans K) (π : Nat → Nat → K) (p0 : Nat → K) :
    ∀ k, Spec.stateDist M π p0 (k + 1) =
      Spec.stateDist M π (fun t => ∑ s ∈ Finset.range M.nS, p0 s * ∑ a ∈ Finset.range M.nA, π s a * M.p s a t) k
  | 0 => rfl
  | k + 1 => by
    funext t
    show ∑ s ∈ Finset.range M.nS, Spec.stateDist M π p0 (k + 1) s * _ = ∑ s ∈ Finset.range M.nS, _
    rw [stateDist_shift M π p0 k]

/-- The distribution of a policy that agrees with the softmax rule wherever something can be done. -/
theorem stateDist_standing (M : Trans ℝ) (T : ℝ) (q : Arr2 (Ext ℝ)) (π : Nat → Nat → ℝ)
    (hπ : ∀ s a u, s < M.nS → a < M.nA → u < M.nS → π s a * M.p s a u = Spec.moveChance T q s a * M.p s a u) :
    ∀ (k : Nat) (p0 : Nat → ℝ) (t : Nat), t < M.nS →
      Spec.stateDist M π p0 k t = ∑ s ∈ Finset.range M.nS, p0 s * Spec.standing M T q k s t
  | 0, p0, t, ht => by
    show p0 t = ∑ s ∈ Finset.range M.nS, p0 s * (if s = t then 1 else 0)
    simp [ht]
  | k + 1, p0, t, ht => by
    rw [stateDist_shift, stateDist_standing M T q π hπ k _ t ht]
    show _ = ∑ s ∈ Finset.range M.nS, p0 s * ∑ x ∈ Finset.range M.nA, ∑ u ∈ Finset.range M.nS,
      Spec.moveChance T q s x * M.p s x u * Spec.standing M T q k u t
    simp only [Finset.sum_mul, Finset.mul_sum]
    rw [Finset.sum_comm]
    refine Finset.sum_congr rfl fun s hs => ?_
    rw [Finset.sum_comm]
    refine Finset.sum_congr rfl fun x hx => Finset.sum_congr rfl fun u hu => ?_
    rw [hπ s x u (Finset.mem_range.1 hs) (Finset.mem_range.1 hx) (Finset.mem_range.1 hu)]
    ring

theorem moveChance_nonneg (T : ℝ) (q : Arr2 (Ext ℝ)) (s x : Nat) : 0 ≤ Spec.moveChance T q s x :=
  div_nonneg (weight_nonneg T _) (Finset.sum_nonneg fun _ _ => weight_nonneg T _)

theorem standing_nonneg {M : Trans ℝ} (hM : Spec.SubStochastic M) (T : ℝ) (q : Arr2 (Ext ℝ)) :
    ∀ k s t, s < M.nS → 0 ≤ Spec.standing M T q k s t
  | 0, s, t, _ => by
    show 0 ≤ if s = t then (1 : ℝ) else 0
    split_ifs <;> norm_num
  | k + 1, s, t, hs => by
    refine Finset.sum_nonneg fun x hx => Finset.sum_nonneg fun u hu => ?_
    exact mul_nonneg (mul_nonneg (moveChance_nonneg T q s x)
      (hM.1 s x u hs (Finset.mem_range.1 hx) (Finset.mem_range.1 hu)))
      (standing_nonneg hM T q k u t (Finset.mem_range.1 hu))

/-- Where something can be done, the reported probabilities are those of the softmax rule. -/
theorem piP_moveChance {M : Trans ℝ} {T : ℝ} (hT : 0 < T) {q P : Arr2 (Ext ℝ)} (hP : (softmaxSelector T).piP q = .ok P)
    {s : Nat} (hs : s < M.nS) (hmask : Spec.MaskedAt M q s) (hfin : ∀ x, x < M.nA → q.get s x ≠ .pinf)
    (hlive : Spec.Live M s) {x : Nat} (hx : x < M.nA) : P.get s x = .fin (Spec.moveChance T q s x) := by
  obtain ⟨m1, m2, m3⟩ := hmask
  obtain ⟨b, hb, hpb⟩ := hlive
  have hub : ¬ Spec.Unusable (q.get s b) := fun hu => (m3 b hb).1 hu hpb
  obtain ⟨y, hy⟩ : ∃ y, q.get s b = .fin y := by
    have := hfin b hb
    revert this hub
    cases q.get s b <;> simp [Spec.Unusable]
  exact (C105_exact T hT q _ (by unfold mkSoftmax; rw [if_neg (not_le.2 hT)]) P hP s (by rw [m1]; exact hs)
    (fun c hc => hfin c (by rw [← m2]; exact hc)) ⟨b, y, by rw [m2]; exact hb, hy⟩).2 x (by rw [m2]; exact hx)

/-- Masked action values mark exactly the impossible actions. -/
theorem maskQ_masked {M : Trans ℝ} (hM : Spec.SubStochastic M) (q0 : Nat → Nat → ℝ) (u : Nat) (hu : u < M.nS) :
    Spec.MaskedAt M ⟨M.nS, M.nA, maskQ M q0⟩ u := by
  refine ⟨rfl, rfl, fun x hx => ?_⟩
  obtain ⟨h1, h2⟩ := maskQ_ninf hM q0 hu hx
  show Spec.Unusable (maskQ M q0 u x) ↔ _
  by_cases hp : Spec.Possible M u x
  · rw [h2 hp]
    exact ⟨fun h => h.elim, fun h => absurd hp h⟩
  · rw [h1.2 hp]
    exact ⟨fun _ => hp, fun _ => trivial⟩

end MaMDP
