import Verif.Props.SoftUnique
import Verif.Props.RewardErrors
import Verif.Props.Unreachable
import Verif.Lemmas.Interests

/-! # C111 and C114 for the soft solver -/

set_option linter.unusedSectionVars false

namespace MaMDP

theorem softBackup_shift {nA : Nat} {x y : Nat → ℝ} {d : ℝ} (hd : 0 ≤ d) (h : ∀ a, a < nA → x a ≤ y a + d) :
    softBackup nA x ≤ softBackup nA y + d := by
  have h1 := softBackup_grows nA x (fun a => y a + d) h
  have h2 := softBackup_nonExp nA (fun a => y a + d) y d hd fun a _ => by
    rw [show y a + d - y a = d by ring, abs_of_nonneg hd]
  linarith [(abs_le.1 h2).2]

/-- Rewards that are at most `ε` higher give soft values that are at most `ε / (1 - γ)` higher. -/
theorem softBellman_compare {M : Trans ℝ} (hM : Spec.SubStochastic M) {r r' V V' : Nat → ℝ} {γ ε : ℝ} (h0 : 0 < γ)
    (h1 : γ < 1) (hε : 0 ≤ ε) (hr : ∀ t, t < M.nS → r t ≤ r' t + ε)
    (hV : ∀ s, s < M.nS → V s = Real.log ((∑ a ∈ Finset.range M.nA, Real.exp (Spec.Q M r γ V s a)) + 1 / 10 ^ 200))
    (hV' : ∀ s, s < M.nS → V' s = Real.log ((∑ a ∈ Finset.range M.nA, Real.exp (Spec.Q M r' γ V' s a)) + 1 / 10 ^ 200)) :
    ∀ s, s < M.nS → V s ≤ V' s + ε / (1 - γ) := by
  intro s hs
  obtain ⟨k, hk, ek⟩ := exists_npMax (fun t => V t - V' t) (Nat.lt_of_le_of_lt (Nat.zero_le s) hs)
  have hmax : ∀ t, t < M.nS → V t - V' t ≤ V k - V' k := fun t ht => by
    have := le_npMax (fun t => V t - V' t) ht
    rw [ek] at this
    exact this
  have h1g : 0 < 1 - γ := by linarith
  have hs' := hmax s hs
  have hdiv : 0 ≤ ε / (1 - γ) := div_nonneg hε h1g.le
  rcases le_or_gt (V k - V' k) 0 with hD | hD
  · linarith
  have hx : 0 ≤ ε + γ * (V k - V' k) := add_nonneg hε (mul_nonneg h0.le hD.le)
  have hQ : ∀ a, a < M.nA → Spec.Q M r γ V k a ≤ Spec.Q M r' γ V' k a + (ε + γ * (V k - V' k)) := by
    intro a ha
    unfold Spec.Q
    calc ∑ t ∈ Finset.range M.nS, M.p k a t * (r t + γ * V t)
        ≤ ∑ t ∈ Finset.range M.nS, (M.p k a t * (r' t + γ * V' t) + M.p k a t * (ε + γ * (V k - V' k))) := by
          refine Finset.sum_le_sum fun t ht => ?_
          have ht' := Finset.mem_range.1 ht
          rw [← mul_add]
          refine mul_le_mul_of_nonneg_left ?_ (hM.nonneg k a t hk ha ht')
          have := mul_le_mul_of_nonneg_left (hmax t ht') h0.le
          have := hr t ht'
          linarith
      _ = ∑ t ∈ Finset.range M.nS, M.p k a t * (r' t + γ * V' t) +
          (∑ t ∈ Finset.range M.nS, M.p k a t) * (ε + γ * (V k - V' k)) := by
          rw [Finset.sum_add_distrib, Finset.sum_mul]
      _ ≤ _ := by
          have := mul_le_mul_of_nonneg_right (hM.le_one k a hk ha) hx
          linarith
  have hb := softBackup_shift hx hQ
  have e1 : V k = softBackup M.nA (Spec.Q M r γ V k) := hV k hk
  have e2 : V' k = softBackup M.nA (Spec.Q M r' γ V' k) := hV' k hk
  rw [← e1, ← e2] at hb
  have hfin : (V k - V' k) * (1 - γ) ≤ ε := by nlinarith
  have := (le_div_iff₀ h1g).2 hfin
  linarith

/-- **C111** for the soft solver: with enough iterations, raising the rewards by at most `ε` (and lowering some as you
like) raises no soft value by more than `ε / (1 - γ)`, up to the tolerance. -/
theorem C111_soft (M : Trans ℝ) (hM : Spec.SubStochastic M) (r r' : Nat → ℝ) (ε : ℝ) (hε : 0 ≤ ε)
    (hr : ∀ t, t < M.nS → r t ≤ r' t + ε) (γ tol : ℝ) (h0 : 0 < γ) (h1 : γ < 1) (htol : 0 < tol) :
    ∃ N, ∀ k k', N ≤ k → N ≤ k' → ∃ v q v' q', solveSoft M r k γ tol = .ok (v, q) ∧ solveSoft M r' k' γ tol = .ok (v', q') ∧
      ∀ s, s < M.nS → v s < v' s + ε / (1 - γ) + 2 * tol * γ / (1 - γ) := by
  obtain ⟨V, e1, c1, -⟩ := C34_soft_converges M hM r γ h0 h1
  obtain ⟨V', e2, c2, -⟩ := C34_soft_converges M hM r' γ h0 h1
  obtain ⟨N, hN⟩ := c1 tol htol
  obtain ⟨N', hN'⟩ := c2 tol htol
  refine ⟨max N N', fun k k' hk hk' => ?_⟩
  obtain ⟨v, q, a1, -, a2⟩ := hN k (le_trans (le_max_left _ _) hk)
  obtain ⟨v', q', b1, -, b2⟩ := hN' k' (le_trans (le_max_right _ _) hk')
  refine ⟨v, q, v', q', a1, b1, fun s hs => ?_⟩
  have h2 := abs_lt.1 (a2 s hs)
  have h3 := abs_lt.1 (b2 s hs)
  have h4 := softBellman_compare hM h0 h1 hε hr e1 e2 s hs
  have e : 2 * tol * γ / (1 - γ) = tol * γ / (1 - γ) + tol * γ / (1 - γ) := by ring
  linarith [h2.1, h2.2, h3.1, h3.2]

/-- What soft values are in the limit depends on what can be reached only. -/
theorem softBellman_around {M M' : Trans ℝ} (hM : Spec.SubStochastic M) {r r' V V' : Nat → ℝ} {γ : ℝ} (h0 : 0 < γ)
    (h1 : γ < 1) {s : Nat} (hs : s < M.nS) (h : Spec.SameAround M M' r r' s)
    (hV : ∀ s, s < M.nS → V s = Real.log ((∑ a ∈ Finset.range M.nA, Real.exp (Spec.Q M r γ V s a)) + 1 / 10 ^ 200))
    (hV' : ∀ s, s < M'.nS → V' s = Real.log ((∑ a ∈ Finset.range M'.nA, Real.exp (Spec.Q M' r' γ V' s a)) + 1 / 10 ^ 200)) :
    V' s = V s := by
  obtain ⟨d, hd0, hd⟩ := exists_bound M.nS fun t => V' t - V t
  have hn : ∀ n t, t < M.nS → Spec.CanReach M s t → |V' t - V t| ≤ γ ^ n * d := by
    intro n
    induction n with
    | zero => intro t ht _; simpa using hd t ht
    | succ n ih =>
      intro t ht hst
      have e1 : V t = softBackup M.nA (Spec.Q M r γ V t) := hV t ht
      have e2 : V' t = softBackup M.nA (Spec.Q M' r' γ V' t) := by
        have := hV' t (by rw [h.nS]; exact ht)
        rw [h.nA] at this
        exact this
      rw [e1, e2, pow_succ']
      have hp : 0 ≤ γ ^ n * d := mul_nonneg (pow_nonneg h0.le n) hd0
      refine softBackup_nonExp M.nA _ _ _ (by rw [mul_assoc]; exact mul_nonneg h0.le hp) fun a ha => ?_
      have hQ : Spec.Q M' r' γ V' t a - Spec.Q M r γ V t a =
          ∑ u ∈ Finset.range M.nS, M.p t a u * (γ * (if M.p t a u = 0 then 0 else V' u - V u)) := by
        unfold Spec.Q
        rw [h.nS, ← Finset.sum_sub_distrib]
        refine Finset.sum_congr rfl fun u hu => ?_
        have hu := Finset.mem_range.1 hu
        rw [h.p t hst a u ha hu]
        by_cases hz : M.p t a u = 0
        · rw [hz]; simp
        · rw [h.r u (hst.tail ⟨hu, a, ha, hz⟩), if_neg hz]
          ring
      rw [hQ]
      calc |∑ u ∈ Finset.range M.nS, M.p t a u * (γ * (if M.p t a u = 0 then 0 else V' u - V u))|
          ≤ ∑ u ∈ Finset.range M.nS, |M.p t a u * (γ * (if M.p t a u = 0 then 0 else V' u - V u))| :=
            Finset.abs_sum_le_sum_abs _ _
        _ ≤ ∑ u ∈ Finset.range M.nS, M.p t a u * (γ * (γ ^ n * d)) := by
            refine Finset.sum_le_sum fun u hu => ?_
            have hu := Finset.mem_range.1 hu
            have hpu := hM.nonneg t a u ht ha hu
            rw [abs_mul, abs_of_nonneg hpu, abs_mul, abs_of_pos h0]
            refine mul_le_mul_of_nonneg_left (mul_le_mul_of_nonneg_left ?_ h0.le) hpu
            by_cases hz : M.p t a u = 0
            · rw [if_pos hz, abs_zero]; exact hp
            · rw [if_neg hz]
              exact ih u hu (hst.tail ⟨hu, a, ha, hz⟩)
        _ = (∑ u ∈ Finset.range M.nS, M.p t a u) * (γ * (γ ^ n * d)) := by rw [Finset.sum_mul]
        _ ≤ _ := by
            have := mul_le_mul_of_nonneg_right (hM.le_one t a ht ha) (mul_nonneg h0.le hp)
            linarith
  by_contra hne
  have hpos : 0 < |V' s - V s| := abs_pos.2 (sub_ne_zero.2 hne)
  obtain ⟨n, hsmall⟩ := exists_pow_lt_of_lt_one (show 0 < |V' s - V s| / (d + 1) by positivity) h1
  have h2 := hn n s hs .refl
  rw [lt_div_iff₀ (by linarith)] at hsmall
  have h3 : 0 < γ ^ n := pow_pos h0 n
  nlinarith

/-- **C114** for the soft solver, what does hold: with enough iterations, soft values agree up to the tolerance. -/
theorem C114_soft_partial (M M' : Trans ℝ) (hM : Spec.SubStochastic M) (hM' : Spec.SubStochastic M')
    (r r' : Nat → ℝ) (s : Nat) (hs : s < M.nS) (h : Spec.SameAround M M' r r' s)
    (γ tol : ℝ) (h0 : 0 < γ) (h1 : γ < 1) (htol : 0 < tol) :
    ∃ N, ∀ k k', N ≤ k → N ≤ k' → ∃ v q v' q', solveSoft M r k γ tol = .ok (v, q) ∧ solveSoft M' r' k' γ tol = .ok (v', q') ∧
      |v' s - v s| < 2 * tol * γ / (1 - γ) := by
  obtain ⟨V, e1, c1, -⟩ := C34_soft_converges M hM r γ h0 h1
  obtain ⟨V', e2, c2, -⟩ := C34_soft_converges M' hM' r' γ h0 h1
  obtain ⟨N, hN⟩ := c1 tol htol
  obtain ⟨N', hN'⟩ := c2 tol htol
  refine ⟨max N N', fun k k' hk hk' => ?_⟩
  obtain ⟨v, q, a1, -, a2⟩ := hN k (le_trans (le_max_left _ _) hk)
  obtain ⟨v', q', b1, -, b2⟩ := hN' k' (le_trans (le_max_right _ _) hk')
  refine ⟨v, q, v', q', a1, b1, ?_⟩
  have h2 := abs_lt.1 (a2 s hs)
  have h3 := abs_lt.1 (b2 s (by rw [h.nS]; exact hs))
  rw [softBellman_around hM h0 h1 hs h e1 e2] at h3
  have e : 2 * tol * γ / (1 - γ) = tol * γ / (1 - γ) + tol * γ / (1 - γ) := by ring
  rw [abs_lt]
  constructor <;> linarith [h2.1, h2.2, h3.1, h3.2]

/-- Two islands of one state each: from the first, the reward on the second makes no difference; and a reward on the
first that is wrong by a half. -/
example : ∃ M : Trans ℝ, Spec.SubStochastic M ∧ M.nS = 2 ∧ M.nA = 1 ∧
    Spec.SameAround M M (fun _ => 1) (fun t => if t = 1 then 5 else 1) 0 ∧
    ∀ t, t < M.nS → (if t = 0 then (3 / 2 : ℝ) else 1) ≤ 1 + 1 / 2 := by
  let M : Trans ℝ := ⟨2, 1, fun s _ t => if s = t then 1 else 0⟩
  have hreach : ∀ t, Spec.CanReach M 0 t → t = 0 := by
    intro t h
    induction h with
    | refl => rfl
    | tail _ h ih =>
      subst ih
      obtain ⟨-, a, -, hp⟩ := h
      by_contra hne
      exact hp (if_neg (fun h => hne h.symm))
  refine ⟨M, ⟨fun s a t _ _ _ => ?_, fun s a hs _ => ?_⟩, rfl, rfl, ⟨rfl, rfl, fun _ _ _ _ _ _ => rfl, fun t ht => ?_⟩, fun t _ => ?_⟩
  · show (0 : ℝ) ≤ if s = t then 1 else 0
    split <;> norm_num
  · show ∑ t ∈ Finset.range 2, (if s = t then (1 : ℝ) else 0) ≤ 1
    rw [Finset.sum_ite_eq]
    split <;> norm_num
  · rw [hreach t ht]
    rfl
  · split <;> norm_num

end MaMDP
