import Verif.Lemmas.SuccessorRepresentation

/-! # C35–C36: the successor representation -/

set_option linter.unusedSectionVars false

namespace MaMDP

variable {K : Type} [Field K] [LinearOrder K] [IsStrictOrderedRing K]

/-! ## C35 -/

/-- What the matrix `T` built by `get_sa_sr` is: from the pair `(s, a)` to the pair `(t, b)` the
probability is `1/nA` if `t` is the (first) successor of `(s, a)` and 0 otherwise. -/
theorem C35_matrix (M : Trans K) (s a t b : Nat) (ha : a < M.nA) (hb : b < M.nA)
    (h1 : s * M.nA + a < M.nS * M.nA) (h2 : t * M.nA + b < M.nS * M.nA) :
    (Spec.IsFirstSuccessor M s a t → saMatrix M ⟨s * M.nA + a, h1⟩ ⟨t * M.nA + b, h2⟩ = 1 / M.nA) ∧
    (¬ Spec.IsFirstSuccessor M s a t → saMatrix M ⟨s * M.nA + a, h1⟩ ⟨t * M.nA + b, h2⟩ = 0) := by
  have e1 : ∀ u c, c < M.nA → (u * M.nA + c) / M.nA = u := by
    intro u c hc
    rw [Nat.mul_comm, Nat.mul_add_div (by omega), Nat.div_eq_of_lt hc, Nat.add_zero]
  have e2 : ∀ u c, c < M.nA → (u * M.nA + c) % M.nA = c := by
    intro u c hc
    rw [Nat.mul_comm, Nat.mul_add_mod, Nat.mod_eq_of_lt hc]
  unfold saMatrix
  simp only [e1 s a ha, e2 s a ha, e1 t b hb]
  exact ⟨fun h => if_pos (firstSuccessor_some.2 h), fun h => if_neg fun h' => h (firstSuccessor_some.1 h')⟩

theorem saMatrix_unique (M : Trans K) (T : Matrix (Fin (M.nS * M.nA)) (Fin (M.nS * M.nA)) K)
    (hT : ∀ s a t b, a < M.nA → b < M.nA → ∀ (h1 : s * M.nA + a < M.nS * M.nA)
      (h2 : t * M.nA + b < M.nS * M.nA),
      (Spec.IsFirstSuccessor M s a t → T ⟨s * M.nA + a, h1⟩ ⟨t * M.nA + b, h2⟩ = 1 / M.nA) ∧
      (¬ Spec.IsFirstSuccessor M s a t → T ⟨s * M.nA + a, h1⟩ ⟨t * M.nA + b, h2⟩ = 0)) : T = saMatrix M := by
  ext i j
  have hA : 0 < M.nA := by
    have h : 0 < M.nS * M.nA := Nat.lt_of_le_of_lt (Nat.zero_le _) i.2
    exact Nat.pos_of_mul_pos_left h
  have e : ∀ i : Fin (M.nS * M.nA), ∃ s a, ∃ _ : a < M.nA, ∃ h : s * M.nA + a < M.nS * M.nA, i = ⟨s * M.nA + a, h⟩ :=
    fun i => ⟨i / M.nA, i % M.nA, Nat.mod_lt _ hA, by rw [Nat.div_add_mod']; exact i.2,
      Fin.ext (Nat.div_add_mod' _ _).symm⟩
  obtain ⟨s, a, ha, h1, rfl⟩ := e i
  obtain ⟨t, b, hb, h2, rfl⟩ := e j
  have k1 := hT s a t b ha hb h1 h2
  have k2 := C35_matrix M s a t b ha hb h1 h2
  by_cases h : Spec.IsFirstSuccessor M s a t
  · rw [k1.1 h, k2.1 h]
  · rw [k1.2 h, k2.2 h]

/-- **C35**: for every discount in `[0,1)` and every transition array, `get_sa_sr` succeeds; the
result is a two-sided inverse of `I - γT`, where `T` takes the pair `(s, a)` to each action of the first successor of
`(s, a)` with equal probability. It has non-negative entries, and rows summing to at most `1/(1-γ)`. -/
theorem C35_sr_exists (M : Trans K) (γ : K) (g0 : 0 ≤ γ) (g1 : γ < 1)
    (T : Matrix (Fin (M.nS * M.nA)) (Fin (M.nS * M.nA)) K)
    (hT : ∀ s a t b, a < M.nA → b < M.nA → ∀ (h1 : s * M.nA + a < M.nS * M.nA)
      (h2 : t * M.nA + b < M.nS * M.nA),
      (Spec.IsFirstSuccessor M s a t → T ⟨s * M.nA + a, h1⟩ ⟨t * M.nA + b, h2⟩ = 1 / M.nA) ∧
      (¬ Spec.IsFirstSuccessor M s a t → T ⟨s * M.nA + a, h1⟩ ⟨t * M.nA + b, h2⟩ = 0)) :
    ∃ sr, getSaSr M γ = .ok sr ∧ sr * (1 - γ • T) = 1 ∧ (1 - γ • T) * sr = 1 ∧
      (∀ i j, 0 ≤ sr i j) ∧ ∀ i, ∑ j, sr i j ≤ 1 / (1 - γ) := by
  rw [saMatrix_unique M T hT]
  have hu := srMatrix_isUnit M g0 g1
  have hg : 0 < 1 - γ := by linarith
  refine ⟨_, by unfold getSaSr; rw [if_pos hu], Matrix.nonsing_inv_mul _ hu, Matrix.mul_nonsing_inv _ hu,
    ?_, ?_⟩
  · intro i j
    set A := 1 - γ • saMatrix M
    have hcol : A.mulVec (fun i => A⁻¹ i j) = fun i => (1 : Matrix _ _ K) i j := by
      have := Matrix.mul_nonsing_inv A hu
      funext i
      have h2 := congrFun (congrFun this i) j
      rw [← h2]; rfl
    exact min_principle (saMatrix_nonneg M) (saMatrix_row_sum M) g0 g1 (x := fun i => A⁻¹ i j)
      (fun i => by
        rw [hcol]
        simp only [Matrix.one_apply]
        split_ifs <;> simp) i
  · intro i
    set A := 1 - γ • saMatrix M with hAdef
    have hy : A.mulVec (A⁻¹.mulVec fun _ => 1) = fun _ => 1 := by
      rw [Matrix.mulVec_mulVec, Matrix.mul_nonsing_inv A hu, Matrix.one_mulVec]
    have hx := min_principle (saMatrix_nonneg M) (saMatrix_row_sum M) g0 g1
      (x := fun i => 1 / (1 - γ) - A⁻¹.mulVec (fun _ => 1) i) (fun i => by
        have e : (fun i => 1 / (1 - γ) - A⁻¹.mulVec (fun _ => 1) i) =
            (fun _ => 1 / (1 - γ)) - A⁻¹.mulVec (fun _ => 1) := rfl
        rw [e, Matrix.mulVec_sub, ← hAdef, hy, hAdef, Matrix.sub_mulVec, Matrix.one_mulVec,
          Matrix.smul_mulVec]
        simp only [Pi.sub_apply, Pi.smul_apply, smul_eq_mul]
        have hr : (saMatrix M).mulVec (fun _ => 1 / (1 - γ)) i = (∑ j, saMatrix M i j) * (1 / (1 - γ)) := by
          simp only [Matrix.mulVec, dotProduct, Finset.sum_mul]
        rw [hr]
        have h1 := saMatrix_row_sum M i
        have h2 : (∑ j, saMatrix M i j) * (1 / (1 - γ)) ≤ 1 * (1 / (1 - γ)) :=
          mul_le_mul_of_nonneg_right h1 (by positivity)
        have h3 : γ * ((∑ j, saMatrix M i j) * (1 / (1 - γ))) ≤ γ * (1 * (1 / (1 - γ))) :=
          mul_le_mul_of_nonneg_left h2 g0
        have h4 : 1 / (1 - γ) - γ * (1 * (1 / (1 - γ))) = 1 := by field_simp
        linarith) i
    have e : A⁻¹.mulVec (fun _ => 1) i = ∑ j, A⁻¹ i j := by simp [Matrix.mulVec, dotProduct]
    simp only [e] at hx
    linarith

/-! ## C36 -/

/-- **C36**: the Q values computed from the successor representation. `x` below is the unmasked
table: it satisfies the Bellman equation of the uniformly random policy (an action without successor
is worth the reward of its state only), and the returned table is `-inf` exactly where the action has
no successor and equals `x` elsewhere. -/
theorem C36_sr_q_values (nF : Nat) (theta : Nat → K) (features : Nat → Nat → K) (M : Trans K)
    (hM : Spec.SubStochastic M) (γ : K) (g0 : 0 ≤ γ) (g1 : γ < 1) :
    ∃ sr q, getSaSr M γ = .ok sr ∧ getSrQValues nF M.nS theta features M sr = .ok q ∧
      ∃ x : Nat → Nat → K,
        (∀ s a, s < M.nS → a < M.nA →
          (∀ t, Spec.IsFirstSuccessor M s a t → x s a = (∑ f ∈ Finset.range nF, theta f * features f s) +
            γ * ((∑ a' ∈ Finset.range M.nA, x t a') / M.nA)) ∧
          ((∀ t, t < M.nS → M.p s a t = 0) → x s a = ∑ f ∈ Finset.range nF, theta f * features f s)) ∧
        (∀ s a, s < M.nS → a < M.nA →
          (q s a = .ninf ↔ ∀ t, t < M.nS → M.p s a t = 0) ∧
          ((∃ t, t < M.nS ∧ M.p s a t ≠ 0) → q s a = .fin (x s a))) := by
  have hu := srMatrix_isUnit M g0 g1
  refine ⟨_, _, by unfold getSaSr; rw [if_pos hu], by unfold getSrQValues; rw [if_neg (by simp)],
    fun s a => if h : s * M.nA + a < M.nS * M.nA then ((1 - γ • saMatrix M)⁻¹.mulVec
      fun j => stateReward nF theta features (j / M.nA)) ⟨s * M.nA + a, h⟩ else 0, ?_, ?_⟩
  · intro s a hs ha
    set A := 1 - γ • saMatrix M with hAdef
    set rw' : Fin (M.nS * M.nA) → K := fun j => stateReward nF theta features (j / M.nA) with hrw
    have hlt : ∀ t a', t < M.nS → a' < M.nA → t * M.nA + a' < M.nS * M.nA := by
      intro t a' ht ha'
      calc t * M.nA + a' < t * M.nA + M.nA := by omega
        _ = (t + 1) * M.nA := by ring
        _ ≤ M.nS * M.nA := Nat.mul_le_mul_right _ ht
    set y := A⁻¹.mulVec rw' with hy
    have hAy : A.mulVec y = rw' := by
      rw [hy, Matrix.mulVec_mulVec, Matrix.mul_nonsing_inv A hu, Matrix.one_mulVec]
    have hrow : y ⟨s * M.nA + a, hlt s a hs ha⟩ = stateReward nF theta features s +
        γ * (saMatrix M).mulVec y ⟨s * M.nA + a, hlt s a hs ha⟩ := by
      have := congrFun hAy ⟨s * M.nA + a, hlt s a hs ha⟩
      rw [hAdef, Matrix.sub_mulVec, Matrix.one_mulVec, Matrix.smul_mulVec] at this
      simp only [Pi.sub_apply, Pi.smul_apply, smul_eq_mul, hrw] at this
      have ediv : (s * M.nA + a) / M.nA = s := by
        rw [Nat.mul_comm, Nat.mul_add_div (by omega), Nat.div_eq_of_lt ha, Nat.add_zero]
      rw [ediv] at this
      linarith
    set z : Nat → K := fun n => if h : n < M.nS * M.nA then y ⟨n, h⟩ else 0 with hz
    have hyz : y = fun j : Fin (M.nS * M.nA) => z j := by
      funext j; simp only [hz, j.2, dif_pos]
    have hsa := saMatrix_mulVec M z ⟨s * M.nA + a, hlt s a hs ha⟩
    rw [← hyz] at hsa
    have ediv : (s * M.nA + a) / M.nA = s := by
      rw [Nat.mul_comm, Nat.mul_add_div (by omega), Nat.div_eq_of_lt ha, Nat.add_zero]
    have emod : (s * M.nA + a) % M.nA = a := by
      rw [Nat.mul_comm, Nat.mul_add_mod, Nat.mod_eq_of_lt ha]
    simp only [ediv, emod] at hsa
    simp only [hlt s a hs ha, dif_pos]
    constructor
    · intro t ht
      rw [firstSuccessor_some.2 ht] at hsa
      simp only at hsa
      rw [hrow, hsa]
      rfl
    · intro hno
      rw [firstSuccessor_none.2 hno] at hsa
      simp only at hsa
      rw [hrow, hsa, mul_zero, add_zero]
      rfl
  · intro s a hs ha
    have hm := maskQ_ninf hM (fun s a => if h : s * M.nA + a < M.nS * M.nA then
      ((1 - γ • saMatrix M)⁻¹.mulVec fun j => stateReward nF theta features (j / M.nA))
        ⟨s * M.nA + a, h⟩ else 0) hs ha
    have hposs : Spec.Possible M s a ↔ ∃ t, t < M.nS ∧ M.p s a t ≠ 0 := by
      unfold Spec.Possible
      constructor
      · rintro ⟨t, ht, h⟩; exact ⟨t, ht, ne_of_gt h⟩
      · rintro ⟨t, ht, h⟩
        exact ⟨t, ht, lt_of_le_of_ne (hM.nonneg s a t hs ha ht) (Ne.symm h)⟩
    constructor
    · rw [hm.1, hposs]; push Not; rfl
    · intro h; exact hm.2 (hposs.2 h)

/-- **C36**, error branch: features with a number of columns different from the number of states. -/
theorem C36_error (nF fCols : Nat) (theta : Nat → K) (features : Nat → Nat → K) (M : Trans K) (sr)
    (h : fCols ≠ M.nS) : getSrQValues nF fCols theta features M sr = .error .assertionError := by
  unfold getSrQValues; rw [if_pos h]

/-- A two-state MDP where state 0 has one action moving to state 1 and state 1 is terminal. -/
example : ∃ M : Trans ℚ, Spec.SubStochastic M ∧ Spec.IsFirstSuccessor M 0 0 1 ∧
    (∀ t, t < M.nS → M.p 1 0 t = 0) ∧ 1 < M.nS ∧ 0 < M.nA := by
  refine ⟨⟨2, 1, fun s a t => if s = 0 ∧ a = 0 ∧ t = 1 then 1 else 0⟩, ⟨?_, ?_⟩, ⟨?_, ?_, ?_⟩, ?_, ?_, ?_⟩
  · intro s a t _ _ _; dsimp only; split_ifs <;> norm_num
  · intro s a hs ha
    show ∑ t ∈ Finset.range 2, _ ≤ (1 : ℚ)
    simp only [Finset.sum_range_succ, Finset.sum_range_zero]
    by_cases h : s = 0 <;> by_cases h' : a = 0 <;> simp [h, h']
  · show 1 < 2; norm_num
  · simp
  · intro u hu; have : u = 0 := by omega
    subst this; simp
  · intro t _; simp
  · show 1 < 2; norm_num
  · show 0 < 1; norm_num

end MaMDP
