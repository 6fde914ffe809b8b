import Verif.Lemmas.DynamicProgramming

/-! # C27–C34: value iteration -/

set_option linter.unusedSectionVars false

namespace MaMDP

variable {K : Type} [Field K] [LinearOrder K] [IsStrictOrderedRing K]

/-! ## C27 Convergence -/

/-- **C27**, contraction: one pass over the states brings two value functions closer by the discount factor. -/
theorem C27_contraction (M : Trans K) (hM : Spec.SubStochastic M) (hA : 0 < M.nA) (r : Nat → K) (γ : K)
    (h0 : 0 < γ) (h1 : γ < 1) (v w v' w' : Nat → K) (hv : Spec.Pass M r γ v v') (hw : Spec.Pass M r γ w w') (d : K)
    (h : ∀ t, t < M.nS → |v t - w t| ≤ d) : ∀ t, t < M.nS → |v' t - w' t| ≤ γ * d := by
  intro t ht
  rw [(pass_iff hA r γ v v').1 hv t ht, (pass_iff hA r γ w w').1 hw t ht]
  exact sweep_contraction (hardBackup_nonExp hA) hM r h0.le h1.le ((abs_nonneg _).trans (h t ht)) h t ht

/-- **C27**, iterates: `Spec.sweeps` are the results of passes starting from 0, and there are no others. -/
theorem C27_sweeps (M : Trans K) (hA : 0 < M.nA) (r : Nat → K) (γ : K) :
    (∀ s, Spec.sweeps M r γ 0 s = 0) ∧ (∀ n, Spec.Pass M r γ (Spec.sweeps M r γ n) (Spec.sweeps M r γ (n + 1))) ∧
    ∀ x : Nat → Nat → K, x 0 = (fun _ => 0) → (∀ n, Spec.Pass M r γ (x n) (x (n + 1))) →
      ∀ n s, s < M.nS → x n s = Spec.sweeps M r γ n s := by
  refine ⟨fun _ => rfl, fun n => (pass_iff hA r γ _ _).2 fun _ _ => rfl, fun x h0 hx n => ?_⟩
  induction n with
  | zero => intro s _; rw [h0]; rfl
  | succ n ih =>
    intro s hs
    rw [(pass_iff hA r γ _ _).1 (hx n) s hs]
    change _ = (sweep (hardBackup M.nA) M r γ (Spec.sweeps M r γ n)).values s
    have e : Spec.Pass M r γ (Spec.sweeps M r γ n) (x (n + 1)) := by
      intro t ht
      have h2 := hx n t ht
      have h3 : ∀ a, Spec.Q M r γ (Spec.seen (x n) (x (n + 1)) t) t a =
          Spec.Q M r γ (Spec.seen (Spec.sweeps M r γ n) (x (n + 1)) t) t a := fun a =>
        congrFun (actionValue_agree M r γ (fun u hu => by unfold Spec.seen; rw [ih u hu]) t) a
      simp only [h3] at h2
      exact h2
    rw [← (pass_iff hA r γ _ _).1 e s hs, (pass_iff hA r γ _ _).1 (hx n) s hs]

/-- **C27**, what is returned: the values after some number `j` of passes, from 1 to the iteration limit, and for each
action that can be taken its expected value during the last pass. The first pass that changes every value by less than
the tolerance is the last; otherwise the limit is. -/
theorem C27_returned (M : Trans K) (hM : Spec.SubStochastic M) (hA : 0 < M.nA) (r : Nat → K) (γ tol : K) (h0 : 0 < γ)
    (h1 : γ < 1) (htol : 0 < tol) (maxIter : Nat) (hk : 0 < maxIter) :
    ∃ v q j, ∃ x : Nat → Nat → K, solveHard M r maxIter γ tol = .ok (v, q) ∧
      x 0 = (fun _ => 0) ∧ (∀ n, Spec.Pass M r γ (x n) (x (n + 1))) ∧ j < maxIter ∧
      (∀ s, s < M.nS → v s = x (j + 1) s) ∧
      (∀ s a, s < M.nS → a < M.nA → Spec.Possible M s a →
        q s a = .fin (Spec.Q M r γ (Spec.seen (x j) (x (j + 1)) s) s a)) ∧
      (∀ i, i < j → ∃ s, s < M.nS ∧ tol ≤ |x i s - x (i + 1) s|) ∧
      (j + 1 < maxIter → ∀ s, s < M.nS → |x j s - x (j + 1) s| < tol) := by
  obtain ⟨j, e1, e2, e3, e4, e5⟩ := solveVI_spec (hardBackup M.nA) M r h0 h1 tol hk
  obtain ⟨j, rfl⟩ : ∃ i, j = i + 1 := ⟨j - 1, by omega⟩
  rw [Nat.add_sub_cancel] at e4 e5
  refine ⟨_, _, j, iterV (hardBackup M.nA) M r γ (fun _ => 0), (solveHard_eq hA r maxIter γ tol).trans e5, rfl,
    fun n => (pass_iff hA r γ _ _).2 fun s _ => rfl, by omega, fun s _ => rfl, fun s a hs ha hp => ?_, fun i hi => ?_,
    fun hj s hs => ?_⟩
  · rw [(maskQ_ninf hM _ hs ha).2 hp, seen_sweep _ _ _ _ _ hs]
    rfl
  · by_contra hcon
    push Not at hcon
    exact e3 i (by omega) (sweep_delta_lt _ M r γ _ tol htol hcon)
  · exact lt_of_le_of_lt (le_sweep_delta _ M r γ _ s hs) (e4 hj)

/-- **C27**: there is exactly one value function satisfying the Bellman equation the code iterates;
for every positive tolerance there is an iteration limit beyond which raising the limit no longer
changes the answer (the tolerance test has succeeded); and without early stopping the returned values
tend to the Bellman solution as the limit grows. -/
theorem C27_converges (M : Trans ℝ) (hM : Spec.SubStochastic M) (hA : 0 < M.nA) (r : Nat → ℝ) (γ : ℝ)
    (h0 : 0 < γ) (h1 : γ < 1) : ∃ V : Nat → ℝ, Spec.Bellman M r γ V ∧
      (∀ W, Spec.Bellman M r γ W → ∀ s, s < M.nS → W s = V s) ∧
      (∀ tol, 0 < tol → ∃ N, ∀ k, N ≤ k → ∃ v q, solveHard M r k γ tol = .ok (v, q) ∧
        solveHard M r N γ tol = .ok (v, q) ∧ ∀ s, s < M.nS → |v s - V s| < tol * γ / (1 - γ)) ∧
      (∀ ε, 0 < ε → ∃ N, ∀ k, N ≤ k → ∃ v q, solveHard M r k γ 0 = .ok (v, q) ∧
        ∀ s, s < M.nS → |v s - V s| < ε) := by
  obtain ⟨V, e1, e2, e3⟩ := vi_converges (hardBackup_nonExp hA) hM r h0 h1
  refine ⟨V, (bellman_iff hA).2 e1, fun W hW => ?_, ?_, ?_⟩
  · exact fixed_unique (hardBackup_nonExp hA) hM h0.le h1 ((bellman_iff hA).1 hW) e1
  · simpa only [solveHard_eq hA] using e2
  · simpa only [solveHard_eq hA] using e3

/-- The two-state chain used in the examples: action 0 moves `0 → 1` and stays in `1`, action 1
exists only in state 1 and goes back. -/
def chain2 (K : Type) [Zero K] [One K] : Trans K where
  nS := 2
  nA := 2
  p s a t := if (s, a, t) = (0, 0, 1) ∨ (s, a, t) = (1, 0, 1) ∨ (s, a, t) = (1, 1, 0) then 1 else 0

theorem chain2_ok : Spec.SubStochastic (chain2 K) ∧ Spec.Deterministic (chain2 K) := by
  refine ⟨⟨fun s a t _ _ _ => ?_, fun s a hs ha => ?_⟩, fun s a t _ _ _ => ?_⟩
  · simp only [chain2]; split_ifs <;> simp
  · change s < 2 at hs; change a < 2 at ha
    have hs' : s = 0 ∨ s = 1 := by omega
    have ha' : a = 0 ∨ a = 1 := by omega
    rcases hs' with rfl | rfl <;> rcases ha' with rfl | rfl <;>
      simp [chain2]
  · simp only [chain2]; split_ifs <;> simp

/-- The hypotheses of C27 hold for the chain with a negative and a positive reward. -/
example := C27_converges (chain2 ℝ) chain2_ok.1 (by simp [chain2]) (fun t => if t = 0 then -1 else 2)
  (9 / 10) (by norm_num) (by norm_num)

/-! ## C28 Accuracy -/

/-- **C28**: if some pass within the iteration limit changes every state's value by less than `tol`
then every returned value, and every returned Q value of an action that can be taken, is within
`tol * γ / (1 - γ)` of the solution of the Bellman equation. -/
theorem C28_accuracy (M : Trans K) (hM : Spec.SubStochastic M) (hA : 0 < M.nA) (r : Nat → K)
    (γ tol : K) (h0 : 0 < γ) (h1 : γ < 1) (htol : 0 < tol) (V : Nat → K) (hV : Spec.Bellman M r γ V)
    (maxIter : Nat) (hstop : ∃ i, i < maxIter ∧ ∀ s, s < M.nS →
      |Spec.sweeps M r γ (i + 1) s - Spec.sweeps M r γ i s| < tol) :
    ∃ v q, solveHard M r maxIter γ tol = .ok (v, q) ∧
      (∀ s, s < M.nS → |v s - V s| < tol * γ / (1 - γ)) ∧
      (∀ s a, s < M.nS → a < M.nA → Spec.Possible M s a →
        ∃ x, q s a = .fin x ∧ |x - Spec.Q M r γ V s a| < tol * γ / (1 - γ)) := by
  obtain ⟨i, hi, hsmall⟩ := hstop
  obtain ⟨j, e1, e2, e3, e4, e5⟩ := solveVI_spec (hardBackup M.nA) M r h0 h1 tol (k := maxIter) (by omega)
  have hdel : ∀ n, (∀ s, s < M.nS → |Spec.sweeps M r γ (n + 1) s - Spec.sweeps M r γ n s| < tol) →
      (sweep (hardBackup M.nA) M r γ (iterV (hardBackup M.nA) M r γ (fun _ => 0) n)).delta < tol := by
    intro n hn
    refine sweep_delta_lt _ M r γ _ tol htol fun s hs => ?_
    have := hn s hs
    rw [abs_sub_comm, sweeps_eq, sweeps_eq] at this
    exact this
  have hstopj : (sweep (hardBackup M.nA) M r γ
      (iterV (hardBackup M.nA) M r γ (fun _ => 0) (j - 1))).delta < tol := by
    by_cases hj : j < maxIter
    · exact e4 hj
    · have hij : i + 1 = j := by
        by_contra hne
        exact e3 i (by omega) (hdel i hsmall)
      have := hdel i hsmall
      rwa [show j - 1 = i by omega]
  have hb := stop_bound (hardBackup_nonExp hA) hM h0 h1 ((bellman_iff hA).1 hV) hstopj
  refine ⟨_, _, by rw [solveHard_eq hA]; exact e5, ?_, ?_⟩
  · rw [iterV_pred e1]; exact hb.1
  · intro s a hs ha hp
    exact ⟨_, (maskQ_ninf hM _ hs ha).2 hp, hb.2 s a hs ha⟩

/-- Two passes over the chain with discount 1/2 and reward 1 in state 0: the second pass changes
nothing any more by more than 1. -/
example : ∃ i, i < 3 ∧ ∀ s, s < (chain2 ℚ).nS →
    |Spec.sweeps (chain2 ℚ) (fun t => if t = 0 then 1 else 0) (1 / 2) (i + 1) s -
      Spec.sweeps (chain2 ℚ) (fun t => if t = 0 then 1 else 0) (1 / 2) i s| < 1 := by
  refine ⟨1, by norm_num, ?_⟩
  show ∀ s, s < 2 → _
  decide +kernel

/-! ## C29 Masking -/

/-- **C29**: a returned Q value is `-inf` exactly when the action has no successor, otherwise it is
finite. -/
theorem C29_mask (M : Trans K) (hM : Spec.SubStochastic M) (r : Nat → K) (maxIter : Nat) (γ tol : K)
    (v : Nat → K) (q : Nat → Nat → Ext K) (h : solveHard M r maxIter γ tol = .ok (v, q)) (s a : Nat)
    (hs : s < M.nS) (ha : a < M.nA) :
    (q s a = .ninf ↔ ∀ t, t < M.nS → M.p s a t = 0) ∧ (q s a ≠ .ninf → ∃ x, q s a = .fin x) := by
  unfold solveHard solveVI at h
  split_ifs at h with h1 h2
  · split at h
    · simp at h
    · obtain ⟨-, rfl⟩ := Prod.mk.inj (Except.ok.inj h)
      have hm := maskQ_ninf hM (by assumption) hs ha
      constructor
      · rw [hm.1]
        unfold Spec.Possible
        push Not
        constructor
        · intro h t ht; exact le_antisymm (h t ht) (hM.nonneg s a t hs ha ht)
        · intro h t ht; rw [h t ht]
      · intro hne
        by_cases hp : Spec.Possible M s a
        · exact ⟨_, hm.2 hp⟩
        · exact absurd (hm.1.2 hp) hne

/-- A run on the chain: action 1 of state 0 is masked, the others are not. -/
example : (match solveHard (chain2 ℚ) (fun t => if t = 0 then 1 else 0) 2 (1 / 2) (1 / 100) with
    | .ok (_, q) => decide (q 0 1 = .ninf) && decide (q 1 1 = .fin (5 / 4)) | _ => false) = true := by
  decide +kernel

/-! ## C30 Values are the best Q values: false in general -/

/-- **C30 is false of the code**: with negative rewards, a state where some action is impossible gets
value 0 although all its Q values are negative (the impossible action took part in the maximum with
value 0). Holds for every such MDP, iteration limit and tolerance. -/
theorem C30_refuted (M : Trans K) (hM : Spec.SubStochastic M) (r : Nat → K)
    (hr : ∀ t, t < M.nS → r t < 0) (γ tol : K) (h0 : 0 < γ) (h1 : γ < 1) (maxIter : Nat)
    (hk : 0 < maxIter) (s a₀ : Nat) (hs : s < M.nS) (ha₀ : a₀ < M.nA)
    (himp : ¬ Spec.Possible M s a₀) :
    ∃ v q, solveHard M r maxIter γ tol = .ok (v, q) ∧ v s = 0 ∧
      ∀ a x, a < M.nA → q s a = .fin x → x < 0 := by
  have hA : 0 < M.nA := by omega
  obtain ⟨j, e1, e2, e3, e4, e5⟩ := solveVI_spec (hardBackup M.nA) M r h0 h1 tol hk
  have hle : ∀ w : Nat → K, ∀ u, u < M.nS → (∀ t, t < M.nS → w t ≤ 0) → ∀ a, a < M.nA →
      actionValue M r γ w u a ≤ 0 ∧ (Spec.Possible M u a → actionValue M r γ w u a < 0) := by
    intro w u hu hw a ha
    have hterm : ∀ t ∈ Finset.range M.nS, M.p u a t * (r t + γ * w t) ≤ 0 := by
      intro t ht
      have ht' := Finset.mem_range.1 ht
      have := mul_nonpos_of_nonneg_of_nonpos h0.le (hw t ht')
      exact mul_nonpos_of_nonneg_of_nonpos (hM.nonneg u a t hu ha ht') (by linarith [hr t ht'])
    refine ⟨Finset.sum_nonpos hterm, ?_⟩
    rintro ⟨t, ht, hp⟩
    refine Finset.sum_neg' hterm ⟨t, Finset.mem_range.2 ht, ?_⟩
    have := mul_nonpos_of_nonneg_of_nonpos h0.le (hw t ht)
    exact mul_neg_of_pos_of_neg hp (by linarith [hr t ht])
  have hind := iterV_induct (B := hardBackup M.nA) (M := M) (r := r) (γ := γ) (v := fun _ => 0)
    (fun _ x => x ≤ 0) (fun _ _ => le_refl _) (fun w u hu hw => by
      show npMax _ _ ≤ 0
      exact npMax_le _ hA fun a ha => (hle w u hu hw a ha).1)
  have hq : ∀ a, a < M.nA → (sweep (hardBackup M.nA) M r γ
      (iterV (hardBackup M.nA) M r γ (fun _ => 0) (j - 1))).q s a = actionValue M r γ
        (partialSweep (hardBackup M.nA) M r γ (iterV (hardBackup M.nA) M r γ (fun _ => 0) (j - 1)) s) s a :=
    fun a _ => sweep_q _ _ _ _ _ s a hs
  have hpart : ∀ t, t < M.nS → partialSweep (hardBackup M.nA) M r γ
      (iterV (hardBackup M.nA) M r γ (fun _ => 0) (j - 1)) s t ≤ 0 :=
    fun t ht => (hind (j - 1) t ht).2 s (by omega)
  refine ⟨_, _, by rw [solveHard_eq hA]; exact e5, ?_, ?_⟩
  · apply le_antisymm ((hind j s hs).1)
    rw [iterV_mem e1 hs]
    refine le_trans ?_ (le_npMax _ ha₀)
    rw [hq a₀ ha₀, actionValue_impossible hM r γ _ hs ha₀ himp]
  · intro a x ha hx
    by_cases hp : Spec.Possible M s a
    · rw [(maskQ_ninf hM _ hs ha).2 hp] at hx
      cases hx
      rw [hq a ha]
      exact (hle _ s hs hpart a ha).2 hp
    · rw [(maskQ_ninf hM _ hs ha).1.2 hp] at hx
      cases hx

/-- Concrete witness: the chain with reward -1 everywhere; state 0 has value 0 and Q values
`[-1.5, -inf]`. -/
theorem C30_refuted_witness : (match solveHard (chain2 ℚ) (fun _ => -1) 2 (1 / 2) (1 / 100) with
    | .ok (v, q) => decide (v 0 = 0) && decide (q 0 0 = .fin (-3 / 2)) && decide (q 0 1 = .ninf)
    | _ => false) = true := by
  decide +kernel

/-- **C30 (partial)**: what is true. The returned value of a state is the larger of its best Q value
and, if some action is impossible there, 0. It equals the best Q value if every action is possible
there, or if rewards are non-negative and some action is possible. Missing: equality for negative
rewards at states with impossible actions, where it fails (`C30_refuted`). -/
theorem C30_partial (M : Trans K) (hM : Spec.SubStochastic M) (hA : 0 < M.nA) (r : Nat → K)
    (γ tol : K) (maxIter : Nat) (v : Nat → K) (q : Nat → Nat → Ext K)
    (h : solveHard M r maxIter γ tol = .ok (v, q)) (s : Nat) (hs : s < M.nS) :
    ((∀ a x, a < M.nA → q s a = .fin x → x ≤ v s) ∧
      (∀ a, a < M.nA → ¬ Spec.Possible M s a → 0 ≤ v s) ∧
      ((∃ a, a < M.nA ∧ q s a = .fin (v s)) ∨
        (v s = 0 ∧ ∃ a, a < M.nA ∧ ¬ Spec.Possible M s a))) ∧
    (((∀ a, a < M.nA → Spec.Possible M s a) ∨
      ((∀ t, t < M.nS → 0 ≤ r t) ∧ ∃ a, a < M.nA ∧ Spec.Possible M s a)) →
      ∃ a, a < M.nA ∧ q s a = .fin (v s)) := by
  by_cases hγ : γ < 1 ∧ 0 < γ
  swap
  · rw [solveHard_eq hA] at h; unfold solveVI at h; rw [if_pos hγ] at h; simp at h
  have hk : 0 < maxIter := by
    by_contra hk
    have : maxIter = 0 := by omega
    subst this
    rw [solveHard_eq hA] at h; unfold solveVI at h; rw [if_neg (by simpa using hγ)] at h
    simp [viLoop] at h
  obtain ⟨h1, h0⟩ := hγ
  obtain ⟨j, e1, -, -, -, e5⟩ := solveVI_spec (hardBackup M.nA) M r h0 h1 tol hk
  rw [solveHard_eq hA, e5] at h
  obtain ⟨rfl, rfl⟩ := Prod.mk.inj (Except.ok.inj h)
  have hv := iterV_mem (B := hardBackup M.nA) (r := r) (γ := γ) (v := fun _ => 0) e1 hs
  have hq : ∀ a, a < M.nA → (sweep (hardBackup M.nA) M r γ
      (iterV (hardBackup M.nA) M r γ (fun _ => 0) (j - 1))).q s a = actionValue M r γ
        (partialSweep (hardBackup M.nA) M r γ (iterV (hardBackup M.nA) M r γ (fun _ => 0) (j - 1)) s) s a :=
    fun a _ => sweep_q _ _ _ _ _ s a hs
  set qq := (sweep (hardBackup M.nA) M r γ (iterV (hardBackup M.nA) M r γ (fun _ => 0) (j - 1))).q
  have hle : ∀ a, a < M.nA → qq s a ≤ iterV (hardBackup M.nA) M r γ (fun _ => 0) j s := by
    intro a ha; rw [hv]; exact le_npMax (qq s) ha
  have hz : ∀ a, a < M.nA → ¬ Spec.Possible M s a → qq s a = 0 := by
    intro a ha hp; rw [hq a ha]; exact actionValue_impossible hM r γ _ hs ha hp
  obtain ⟨b, hb, eb⟩ := exists_npMax (qq s) hA
  have eb' : iterV (hardBackup M.nA) M r γ (fun _ => 0) j s = qq s b := by rw [hv]; exact eb
  refine ⟨⟨?_, ?_, ?_⟩, ?_⟩
  · intro a x ha hx
    by_cases hp : Spec.Possible M s a
    · rw [(maskQ_ninf hM _ hs ha).2 hp] at hx
      cases hx
      exact hle a ha
    · rw [(maskQ_ninf hM _ hs ha).1.2 hp] at hx
      cases hx
  · intro a ha hp
    have := hle a ha
    rwa [hz a ha hp] at this
  · by_cases hp : Spec.Possible M s b
    · left; exact ⟨b, hb, by rw [(maskQ_ninf hM _ hs hb).2 hp, eb']⟩
    · right; exact ⟨by rw [eb', hz b hb hp], b, hb, hp⟩
  · rintro (hall | ⟨hr, a, ha, hp⟩)
    · exact ⟨b, hb, by rw [(maskQ_ninf hM _ hs hb).2 (hall b hb), eb']⟩
    · by_cases hpb : Spec.Possible M s b
      · exact ⟨b, hb, by rw [(maskQ_ninf hM _ hs hb).2 hpb, eb']⟩
      · refine ⟨a, ha, ?_⟩
        rw [(maskQ_ninf hM _ hs ha).2 hp]
        congr 1
        apply le_antisymm (hle a ha)
        rw [eb', hz b hb hpb, hq a ha]
        have hav : ∀ w : Nat → K, ∀ u, u < M.nS → (∀ t, t < M.nS → 0 ≤ w t) → ∀ a, a < M.nA →
            0 ≤ actionValue M r γ w u a := by
          intro w u hu hw a ha
          unfold actionValue npDot
          refine Finset.sum_nonneg fun t ht => ?_
          have ht' := Finset.mem_range.1 ht
          exact mul_nonneg (hM.nonneg u a t hu ha ht')
            (add_nonneg (hr t ht') (mul_nonneg h0.le (hw t ht')))
        have hind := iterV_induct (B := hardBackup M.nA) (M := M) (r := r) (γ := γ) (v := fun _ => 0)
          (fun _ x => 0 ≤ x) (fun _ _ => le_refl _) (fun w u hu hw => by
            exact (hav w u hu hw 0 hA).trans (le_npMax _ hA))
        exact hav _ s hs (fun t ht => (hind (j - 1) t ht).2 s (by omega)) a ha

/-- Non-negative rewards on the chain: the value of each state is one of its Q values. -/
example : (match solveHard (chain2 ℚ) (fun t => if t = 0 then 1 else 0) 2 (1 / 2) (1 / 100) with
    | .ok (v, q) => decide (q 0 0 = .fin (v 0)) && decide (q 1 1 = .fin (v 1)) && decide (v 1 = 5 / 4)
    | _ => false) = true := by
  decide +kernel

/-! ## C31 Bounds -/

/-- **C31**: rewards in `[-R, R]` give values and finite Q values in `[-R/(1-γ), R/(1-γ)]`. -/
theorem C31_bounds (M : Trans K) (hM : Spec.SubStochastic M) (hA : 0 < M.nA) (r : Nat → K) (R : K)
    (hr : ∀ t, t < M.nS → |r t| ≤ R) (γ tol : K) (maxIter : Nat) (v : Nat → K) (q : Nat → Nat → Ext K)
    (h : solveHard M r maxIter γ tol = .ok (v, q)) :
    (∀ s, s < M.nS → |v s| ≤ R / (1 - γ)) ∧
    (∀ s a x, s < M.nS → a < M.nA → q s a = .fin x → |x| ≤ R / (1 - γ)) := by
  by_cases hn : 0 < M.nS
  swap
  · exact ⟨fun s hs => by omega, fun s a x hs => by omega⟩
  have hR : 0 ≤ R := (abs_nonneg _).trans (hr 0 hn)
  by_cases hγ : γ < 1 ∧ 0 < γ
  swap
  · rw [solveHard_eq hA] at h; unfold solveVI at h; rw [if_pos hγ] at h; simp at h
  have hk : 0 < maxIter := by
    by_contra hk
    have : maxIter = 0 := by omega
    subst this
    rw [solveHard_eq hA] at h; unfold solveVI at h; rw [if_neg (by simpa using hγ)] at h
    simp [viLoop] at h
  obtain ⟨h1, h0⟩ := hγ
  obtain ⟨j, e1, -, -, -, e5⟩ := solveVI_spec (hardBackup M.nA) M r h0 h1 tol hk
  rw [solveHard_eq hA, e5] at h
  obtain ⟨rfl, rfl⟩ := Prod.mk.inj (Except.ok.inj h)
  have hind := iterV_induct (B := hardBackup M.nA) (M := M) (r := r) (γ := γ) (v := fun _ => 0)
    (fun _ x => |x| ≤ R / (1 - γ))
    (fun _ _ => by rw [abs_zero]; exact div_nonneg hR (by linarith)) (fun w u hu hw => by
      exact hardBackup_abs_le hA fun a ha => abs_actionValue_le hM h0 h1 hR hr hw hu ha)
  refine ⟨fun s hs => (hind j s hs).1, fun s a x hs ha hx => ?_⟩
  by_cases hp : Spec.Possible M s a
  · rw [(maskQ_ninf hM _ hs ha).2 hp] at hx
    cases hx
    rw [sweep_q _ _ _ _ _ s a hs]
    exact abs_actionValue_le hM h0 h1 hR hr (fun t ht => (hind (j - 1) t ht).2 s (by omega)) hs ha
  · rw [(maskQ_ninf hM _ hs ha).1.2 hp] at hx
    cases hx

example := C31_bounds (chain2 ℚ) chain2_ok.1 (by simp [chain2]) (fun t => if t = 0 then -1 else 1) 1
  (fun t _ => by split_ifs <;> simp) (1 / 2) (1 / 100) 5

/-! ## C32 Optimality -/

/-- **C32**: in a deterministic MDP with non-negative rewards the Bellman solution bounds the
discounted reward of every valid action sequence, and for every `n` some valid sequence of at most
`n` actions comes within `γ ^ n` times the largest value. -/
theorem C32_optimal (M : Trans K) (hM : Spec.SubStochastic M) (hdet : Spec.Deterministic M)
    (r : Nat → K) (hr : ∀ t, t < M.nS → 0 ≤ r t) (γ : K) (h0 : 0 < γ) (h1 : γ < 1) (V : Nat → K)
    (hV : Spec.Bellman M r γ V) (s : Nat) (hs : s < M.nS) :
    (∀ l, Spec.Plays M s l → Spec.discounted r γ l ≤ V s) ∧
    (∀ c, (∀ t, t < M.nS → V t ≤ c) → ∀ n, ∃ l, l.length ≤ n ∧ Spec.Plays M s l ∧
      V s - γ ^ n * c ≤ Spec.discounted r γ l) := by
  have hpos := bellman_nonneg hM h0 h1 hr hV
  constructor
  · intro l
    induction l generalizing s with
    | nil => intro _; exact hpos s hs
    | cons x l ih =>
      obtain ⟨a, t⟩ := x
      rintro ⟨ha, ht, hp, hl⟩
      have := (hV s hs).1 a ha
      have e : Spec.Q M r γ V s a = r t + γ * V t := actionValue_det hM hdet r γ V hs ha ht hp
      rw [e] at this
      have h2 := mul_le_mul_of_nonneg_left (ih t ht hl) h0.le
      show r t + γ * _ ≤ _
      linarith
  · intro c hc n
    induction n generalizing s with
    | zero => exact ⟨[], le_refl _, trivial, by
        show V s - γ ^ 0 * c ≤ 0
        rw [pow_zero, one_mul]; linarith [hc s hs]⟩
    | succ n ih =>
      obtain ⟨-, a, ha, ea⟩ := hV s hs
      by_cases hp : Spec.Possible M s a
      · obtain ⟨t, ht, hpt⟩ := hp
        have hp1 : M.p s a t = 1 := (hdet s a t hs ha ht).resolve_left (ne_of_gt hpt)
        obtain ⟨l, hl1, hl2, hl3⟩ := ih t ht
        refine ⟨(a, t) :: l, by simpa using hl1, ⟨ha, ht, hp1, hl2⟩, ?_⟩
        have e : Spec.Q M r γ V s a = r t + γ * V t := actionValue_det hM hdet r γ V hs ha ht hp1
        show _ ≤ r t + γ * _
        rw [← ea, e]
        have := mul_le_mul_of_nonneg_left hl3 h0.le
        rw [pow_succ]
        nlinarith
      · refine ⟨[], Nat.zero_le _, trivial, ?_⟩
        have e : Spec.Q M r γ V s a = 0 := actionValue_impossible hM r γ V hs ha hp
        show _ ≤ (0 : K)
        rw [← ea, e]
        have := mul_nonneg (pow_nonneg h0.le (n + 1)) ((hpos s hs).trans (hc s hs))
        linarith

/-- **C32**, for the returned values: with a large enough iteration limit (and no early stopping) the
returned value of a state is, up to any `ε`, an upper bound on what any valid action sequence
collects and collected by some sequence. -/
theorem C32_returned (M : Trans ℝ) (hM : Spec.SubStochastic M) (hA : 0 < M.nA)
    (hdet : Spec.Deterministic M) (r : Nat → ℝ) (hr : ∀ t, t < M.nS → 0 ≤ r t) (γ : ℝ) (h0 : 0 < γ)
    (h1 : γ < 1) (ε : ℝ) (hε : 0 < ε) : ∃ N, ∀ k, N ≤ k → ∃ v q, solveHard M r k γ 0 = .ok (v, q) ∧
      ∀ s, s < M.nS → (∀ l, Spec.Plays M s l → Spec.discounted r γ l ≤ v s + ε) ∧
        ∃ l, Spec.Plays M s l ∧ v s - ε ≤ Spec.discounted r γ l := by
  obtain ⟨V, hV, -, -, hconv⟩ := C27_converges M hM hA r γ h0 h1
  obtain ⟨N, hN⟩ := hconv (ε / 2) (by linarith)
  refine ⟨N, fun k hk => ?_⟩
  obtain ⟨v, q, e, hv⟩ := hN k hk
  refine ⟨v, q, e, fun s hs => ?_⟩
  obtain ⟨o1, o2⟩ := C32_optimal M hM hdet r hr γ h0 h1 V hV s hs
  have hb := abs_lt.1 (hv s hs)
  constructor
  · intro l hl
    linarith [o1 l hl, hb.1]
  · obtain ⟨c, hc0, hc⟩ := exists_bound M.nS V
    have ht : Filter.Tendsto (fun n : ℕ => γ ^ n * c) Filter.atTop (nhds 0) := by
      have := (tendsto_pow_atTop_nhds_zero_of_lt_one h0.le h1).mul_const c
      rwa [zero_mul] at this
    obtain ⟨n, hn⟩ := (ht.eventually (gt_mem_nhds (show (0 : ℝ) < ε / 2 by linarith))).exists
    obtain ⟨l, -, hl, hl2⟩ := o2 c (fun t ht => (le_abs_self _).trans (hc t ht)) n
    exact ⟨l, hl, by linarith [hb.2]⟩

/-- On the chain with reward 1 in state 0, going back and forth from state 0 is a valid sequence. -/
example : Spec.Plays (chain2 ℚ) 0 [(0, 1), (1, 0), (0, 1), (1, 0)] ∧
    Spec.discounted (K := ℚ) (fun t => if t = 0 then 1 else 0) (1 / 2)
      [(0, 1), (1, 0), (0, 1), (1, 0)] = 5 / 8 := by
  constructor
  · simp [Spec.Plays, chain2]
  · norm_num [Spec.discounted]

/-! ## C33 Rejected settings -/

/-- **C33**: a discount outside `(0,1)` raises `AssertionError`; a valid discount with iteration limit
zero fails because no Q values were ever computed; conversely a valid discount, at least one action
and a positive limit always give a result. -/
theorem C33_settings (M : Trans K) (r : Nat → K) (maxIter : Nat) (γ tol : K) :
    (γ ≤ 0 ∨ 1 ≤ γ → solveHard M r maxIter γ tol = .error .assertionError) ∧
    (0 < γ → γ < 1 → solveHard M r 0 γ tol = .error .unboundLocalError) ∧
    (0 < γ → γ < 1 → 0 < maxIter → 0 < M.nA → ∃ v q, solveHard M r maxIter γ tol = .ok (v, q)) := by
  refine ⟨fun h => ?_, fun h0 h1 => ?_, fun h0 h1 hk hA => ?_⟩
  · have : ¬ (γ < 1 ∧ 0 < γ) := by
      rintro ⟨a, b⟩
      rcases h with h | h <;> linarith
    unfold solveHard solveVI
    rw [if_neg (fun h => this h.1), if_pos this]
  · unfold solveHard solveVI
    rw [if_neg (by simp), if_neg (by simp [h0, h1])]
    rfl
  · obtain ⟨j, -, -, -, -, e⟩ := solveVI_spec (hardBackup M.nA) M r h0 h1 tol hk
    exact ⟨_, _, by rw [solveHard_eq hA]; exact e⟩

/-- **C33**, soft variant. -/
theorem C33_soft_settings (M : Trans ℝ) (r : Nat → ℝ) (maxIter : Nat) (γ tol : ℝ) :
    (γ ≤ 0 ∨ 1 ≤ γ → solveSoft M r maxIter γ tol = .error .assertionError) ∧
    (0 < γ → γ < 1 → solveSoft M r 0 γ tol = .error .unboundLocalError) := by
  refine ⟨fun h => ?_, fun h0 h1 => ?_⟩
  · have : ¬ (γ < 1 ∧ 0 < γ) := by
      rintro ⟨a, b⟩
      rcases h with h | h <;> linarith
    unfold solveSoft solveVI
    rw [if_pos this]
  · unfold solveSoft solveVI
    rw [if_neg (by simp [h0, h1])]
    rfl

/-! ## C34 Soft value iteration -/

/-- **C34**, backup: the soft value of a state lies between its best action value `m` and
`m + log (nA + 1e-200 * exp (-m))`. -/
theorem C34_soft_backup (nA : Nat) (x : Nat → ℝ) (m : ℝ) (hmax : ∀ a, a < nA → x a ≤ m)
    (hatt : ∃ a, a < nA ∧ x a = m) :
    m ≤ Real.log ((∑ a ∈ Finset.range nA, Real.exp (x a)) + 1 / 10 ^ 200) ∧
    Real.log ((∑ a ∈ Finset.range nA, Real.exp (x a)) + 1 / 10 ^ 200) ≤
      m + Real.log (nA + 1 / 10 ^ 200 * Real.exp (-m)) := by
  have hc : (0 : ℝ) < 1 / 10 ^ 200 := by positivity
  set c : ℝ := 1 / 10 ^ 200
  obtain ⟨b, hb, eb⟩ := hatt
  have hge : Real.exp m ≤ ∑ a ∈ Finset.range nA, Real.exp (x a) := by
    rw [← eb]
    exact Finset.single_le_sum (f := fun a => Real.exp (x a)) (fun _ _ => (Real.exp_pos _).le)
      (Finset.mem_range.2 hb)
  have hle : ∑ a ∈ Finset.range nA, Real.exp (x a) ≤ nA * Real.exp m := by
    calc ∑ a ∈ Finset.range nA, Real.exp (x a) ≤ ∑ _a ∈ Finset.range nA, Real.exp m :=
          Finset.sum_le_sum fun a ha => Real.exp_le_exp.2 (hmax a (Finset.mem_range.1 ha))
      _ = nA * Real.exp m := by rw [Finset.sum_const, Finset.card_range, nsmul_eq_mul]
  have hem := Real.exp_pos m
  constructor
  · rw [Real.le_log_iff_exp_le (by linarith)]
    linarith
  · have hrhs : 0 < (nA : ℝ) + c * Real.exp (-m) := by
      have := mul_pos hc (Real.exp_pos (-m))
      have : (0 : ℝ) ≤ nA := Nat.cast_nonneg _
      linarith
    rw [Real.log_le_iff_le_exp (by linarith), Real.exp_add, Real.exp_log hrhs, mul_add]
    have e : Real.exp m * (c * Real.exp (-m)) = c := by
      rw [mul_comm c, ← mul_assoc, ← Real.exp_add]; simp
    rw [e]
    linarith

/-- **C34**, contraction: one soft pass brings two value functions closer by the discount factor. -/
theorem C34_soft_contraction (M : Trans ℝ) (hM : Spec.SubStochastic M) (r : Nat → ℝ) (γ : ℝ)
    (h0 : 0 < γ) (h1 : γ < 1) (v w v' w' : Nat → ℝ) (hv : Spec.SoftPass M r γ v v') (hw : Spec.SoftPass M r γ w w')
    (d : ℝ) (h : ∀ t, t < M.nS → |v t - w t| ≤ d) : ∀ t, t < M.nS → |v' t - w' t| ≤ γ * d := by
  intro t ht
  rw [(softPass_iff r γ v v').1 hv t ht, (softPass_iff r γ w w').1 hw t ht]
  exact sweep_contraction (softBackup_nonExp _) hM r h0.le h1.le ((abs_nonneg _).trans (h t ht)) h t ht

/-- **C34**, what is returned: the values after some number of soft passes, from 1 to the iteration limit, and for each
action that can be taken its expected value during the last pass. The first pass that changes every value by less than the
tolerance is the last; otherwise the limit is. -/
theorem C34_returned (M : Trans ℝ) (hM : Spec.SubStochastic M) (r : Nat → ℝ) (γ tol : ℝ) (h0 : 0 < γ)
    (h1 : γ < 1) (htol : 0 < tol) (maxIter : Nat) (hk : 0 < maxIter) :
    ∃ v q j, ∃ x : Nat → Nat → ℝ, solveSoft M r maxIter γ tol = .ok (v, q) ∧
      x 0 = (fun _ => 0) ∧ (∀ n, Spec.SoftPass M r γ (x n) (x (n + 1))) ∧ j < maxIter ∧
      (∀ s, s < M.nS → v s = x (j + 1) s) ∧
      (∀ s a, s < M.nS → a < M.nA →
        (Spec.Possible M s a → q s a = .fin (Spec.Q M r γ (Spec.seen (x j) (x (j + 1)) s) s a)) ∧
        (¬ Spec.Possible M s a → q s a = .ninf)) ∧
      (∀ i, i < j → ∃ s, s < M.nS ∧ tol ≤ |x i s - x (i + 1) s|) ∧
      (j + 1 < maxIter → ∀ s, s < M.nS → |x j s - x (j + 1) s| < tol) := by
  obtain ⟨j, e1, e2, e3, e4, e5⟩ := solveVI_spec (softBackup M.nA) M r h0 h1 tol hk
  obtain ⟨j, rfl⟩ : ∃ i, j = i + 1 := ⟨j - 1, by omega⟩
  rw [Nat.add_sub_cancel] at e4 e5
  refine ⟨_, _, j, iterV (softBackup M.nA) M r γ (fun _ => 0), e5, rfl,
    fun n => (softPass_iff r γ _ _).2 fun s _ => rfl, by omega, fun s _ => rfl,
    fun s a hs ha => ⟨fun hp => ?_, (maskQ_ninf hM _ hs ha).1.2⟩, fun i hi => ?_, fun hj s hs => ?_⟩
  · rw [(maskQ_ninf hM _ hs ha).2 hp, seen_sweep _ _ _ _ _ hs]
    rfl
  · by_contra hcon
    push Not at hcon
    exact e3 i (by omega) (sweep_delta_lt _ M r γ _ tol htol hcon)
  · exact lt_of_le_of_lt (le_sweep_delta _ M r γ _ s hs) (e4 hj)

/-- **C34**, convergence: soft value iteration converges to the unique solution of the soft Bellman
equation. -/
theorem C34_soft_converges (M : Trans ℝ) (hM : Spec.SubStochastic M) (r : Nat → ℝ) (γ : ℝ)
    (h0 : 0 < γ) (h1 : γ < 1) : ∃ V : Nat → ℝ,
      (∀ s, s < M.nS → V s =
        Real.log ((∑ a ∈ Finset.range M.nA, Real.exp (Spec.Q M r γ V s a)) + 1 / 10 ^ 200)) ∧
      (∀ tol, 0 < tol → ∃ N, ∀ k, N ≤ k → ∃ v q, solveSoft M r k γ tol = .ok (v, q) ∧
        solveSoft M r N γ tol = .ok (v, q) ∧ ∀ s, s < M.nS → |v s - V s| < tol * γ / (1 - γ)) ∧
      (∀ ε, 0 < ε → ∃ N, ∀ k, N ≤ k → ∃ v q, solveSoft M r k γ 0 = .ok (v, q) ∧
        ∀ s, s < M.nS → |v s - V s| < ε) :=
  vi_converges (softBackup_nonExp _) hM r h0 h1

example := C27_returned (chain2 ℚ) chain2_ok.1 (by simp [chain2]) (fun t => if t = 0 then -1 else 2) (9 / 10) (1 / 100)
  (by norm_num) (by norm_num) (by norm_num) 5 (by norm_num)

example := C34_returned (chain2 ℝ) chain2_ok.1 (fun t => if t = 0 then -1 else 2) (9 / 10) (1 / 100)
  (by norm_num) (by norm_num) (by norm_num) 5 (by norm_num)

example := C34_soft_converges (chain2 ℝ) chain2_ok.1 (fun t => if t = 0 then -1 else 2)
  (9 / 10) (by norm_num) (by norm_num)

example := C34_soft_backup 2 (fun a => if a = 0 then 1 else 3) 3
  (fun a _ => by split_ifs <;> norm_num) ⟨1, by norm_num, by norm_num⟩

end MaMDP
