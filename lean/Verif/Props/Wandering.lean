import Verif.Props.SuccessorRepresentation
import Verif.Props.DynamicProgramming
import Verif.Lemmas.RandomWalk
import Verif.Props.Instances

/-! # C163: planning is never worth less than wandering; C164: with the successor representation, interests add up -/

set_option linter.unusedSectionVars false

namespace MaMDP

variable {K : Type} [Field K] [LinearOrder K] [IsStrictOrderedRing K]

/-- In a deterministic MDP an action is worth what its successor is worth. -/
theorem Q_first {M : Trans K} (hM : Spec.SubStochastic M) (hdet : Spec.Deterministic M) {r : Nat → K} {γ : K} {V : Nat → K}
    {s a t : Nat} (hs : s < M.nS) (ha : a < M.nA) (ht : Spec.IsFirstSuccessor M s a t) :
    Spec.Q M r γ V s a = r t + γ * V t := by
  obtain ⟨h1, h2, -⟩ := ht
  have hp : M.p s a t = 1 := (hdet s a t hs ha h1).resolve_left h2
  have hz : ∀ u ∈ Finset.range M.nS, u ≠ t → M.p s a u = 0 := by
    intro u hu hne
    have hu' := Finset.mem_range.1 hu
    by_contra hc
    have hu1 : M.p s a u = 1 := (hdet s a u hs ha hu').resolve_left hc
    have hle := hM.le_one s a hs ha
    have : M.p s a u + M.p s a t ≤ ∑ z ∈ Finset.range M.nS, M.p s a z := by
      rw [← Finset.sum_pair hne]
      refine Finset.sum_le_sum_of_subset_of_nonneg ?_ fun z hz _ => hM.nonneg s a z hs ha (Finset.mem_range.1 hz)
      intro z hz
      rw [Finset.mem_insert, Finset.mem_singleton] at hz
      rw [Finset.mem_range]
      rcases hz with rfl | rfl
      · exact hu'
      · exact h1
    rw [hp, hu1] at this
    linarith
  unfold Spec.Q
  rw [Finset.sum_eq_single t (fun u hu hne => by rw [hz u hu hne, zero_mul]) fun h => absurd (Finset.mem_range.2 h1) h, hp,
    one_mul]

/-- **C163**, against the solution of the planner's equation: in a deterministic MDP, with rewards of any sign, the
successor representation's value of an action is at most the reward of the state it is taken in plus the discounted
value that planning gives the action. (The successor representation counts the reward of the state one is in, the
planner the rewards of the states to come.) -/
theorem C163_bound (nF : Nat) (theta : Nat → K) (features : Nat → Nat → K) (M : Trans K) (hM : Spec.SubStochastic M)
    (hdet : Spec.Deterministic M) (hA : 0 < M.nA) (γ : K) (g0 : 0 ≤ γ) (g1 : γ < 1) (r : Nat → K)
    (hr : r = fun t => ∑ f ∈ Finset.range nF, theta f * features f t) (V : Nat → K) (hV : Spec.Bellman M r γ V) :
    ∃ sr q, getSaSr M γ = .ok sr ∧ getSrQValues nF M.nS theta features M sr = .ok q ∧
      ∀ s a x, s < M.nS → a < M.nA → q s a = .fin x → x ≤ r s + γ * Spec.Q M r γ V s a := by
  obtain ⟨sr, q, e1, e2, x, h1, h2⟩ := C36_sr_q_values nF theta features M hM γ g0 g1
  refine ⟨sr, q, e1, e2, ?_⟩
  have hr' : ∀ t, (∑ f ∈ Finset.range nF, theta f * features f t) = r t := fun t => by rw [hr]
  simp only [hr'] at h1
  have key : ∀ s a, s < M.nS → a < M.nA → x s a ≤ r s + γ * Spec.Q M r γ V s a := by
    intro s a hs ha
    by_contra hc
    push Not at hc
    -- the pair with the largest excess
    obtain ⟨⟨s1, a1⟩, hm, hmax⟩ := Finset.exists_max_image (Finset.range M.nS ×ˢ Finset.range M.nA)
      (fun p => x p.1 p.2 - r p.1 - γ * Spec.Q M r γ V p.1 p.2) ⟨(s, a), by simp [hs, ha]⟩
    rw [Finset.mem_product, Finset.mem_range, Finset.mem_range] at hm
    have hms := hmax (s, a) (by simp [hs, ha])
    dsimp only at hms hm hmax
    set D := x s1 a1 - r s1 - γ * Spec.Q M r γ V s1 a1 with hD
    have hDpos : 0 < D := by linarith
    by_cases hno : ∀ t, t < M.nS → M.p s1 a1 t = 0
    · have hq : Spec.Q M r γ V s1 a1 = 0 := by
        unfold Spec.Q
        refine Finset.sum_eq_zero fun t ht => ?_
        rw [hno t (Finset.mem_range.1 ht), zero_mul]
      have := (h1 s1 a1 hm.1 hm.2).2 hno
      rw [hD, this, hq] at hDpos
      simp at hDpos
    · push Not at hno
      obtain ⟨t, ht⟩ : ∃ t, Spec.IsFirstSuccessor M s1 a1 t := by
        classical
        refine ⟨Nat.find hno, (Nat.find_spec hno).1, (Nat.find_spec hno).2, fun u hu => ?_⟩
        by_contra hc
        exact Nat.find_min hno hu ⟨lt_trans hu (Nat.find_spec hno).1, hc⟩
      have htS : t < M.nS := ht.1
      have hx := (h1 s1 a1 hm.1 hm.2).1 t ht
      have hq : Spec.Q M r γ V s1 a1 = r t + γ * V t := Q_first hM hdet hm.1 hm.2 ht
      have hsum : (∑ a' ∈ Finset.range M.nA, x t a') ≤ M.nA * (r t + γ * V t + D) := by
        have : ∀ a' ∈ Finset.range M.nA, x t a' ≤ r t + γ * V t + D := by
          intro a' ha'
          have ha'' := Finset.mem_range.1 ha'
          have e1 := hmax (t, a') (by simp [htS, ha''])
          dsimp only at e1
          have e2 := mul_le_mul_of_nonneg_left ((hV t htS).1 a' ha'') g0
          linarith
        have := Finset.sum_le_sum this
        rwa [Finset.sum_const, Finset.card_range, nsmul_eq_mul] at this
      have hA' : (0 : K) < M.nA := by exact_mod_cast hA
      have hmean : (∑ a' ∈ Finset.range M.nA, x t a') / M.nA ≤ r t + γ * V t + D := by
        rw [div_le_iff₀ hA']
        linarith
      have := mul_le_mul_of_nonneg_left hmean g0
      have hDe : D ≤ γ * D := by
        have e : D = x s1 a1 - r s1 - γ * Spec.Q M r γ V s1 a1 := hD
        rw [hx, hq] at e
        linarith
      nlinarith
  intro s a y hs ha hy
  by_cases hno : ∀ t, t < M.nS → M.p s a t = 0
  · rw [(h2 s a hs ha).1.2 hno] at hy
    cases hy
  · push Not at hno
    rw [(h2 s a hs ha).2 hno] at hy
    cases hy
    exact key s a hs ha

/-- **C163**, for what the two planners return: up to the tolerance of value iteration. -/
theorem C163_returned (nF : Nat) (theta : Nat → ℝ) (features : Nat → Nat → ℝ) (M : Trans ℝ) (hM : Spec.SubStochastic M)
    (hdet : Spec.Deterministic M) (hA : 0 < M.nA) (γ tol : ℝ) (h0 : 0 < γ) (h1 : γ < 1) (htol : 0 < tol) (r : Nat → ℝ)
    (hr : r = fun t => ∑ f ∈ Finset.range nF, theta f * features f t) (maxIter : Nat)
    (hstop : ∃ i, i < maxIter ∧ ∀ s, s < M.nS → |Spec.sweeps M r γ (i + 1) s - Spec.sweeps M r γ i s| < tol)
    (v : Nat → ℝ) (q : Nat → Nat → Ext ℝ) (hsol : solveHard M r maxIter γ tol = .ok (v, q)) :
    ∃ sr q', getSaSr M γ = .ok sr ∧ getSrQValues nF M.nS theta features M sr = .ok q' ∧
      ∀ s a, s < M.nS → a < M.nA → (q' s a = .ninf ∧ q s a = .ninf) ∨
        ∃ x y, q' s a = .fin x ∧ q s a = .fin y ∧ x ≤ r s + γ * (y + tol * γ / (1 - γ)) := by
  obtain ⟨V, hV, -⟩ := C27_converges M hM hA r γ h0 h1
  obtain ⟨sr, q', e1, e2, hb⟩ := C163_bound nF theta features M hM hdet hA γ h0.le h1 r hr V hV
  obtain ⟨v', q'', e3, -, hq⟩ := C28_accuracy M hM hA r γ tol h0 h1 htol V hV maxIter hstop
  rw [hsol] at e3
  cases e3
  refine ⟨sr, q', e1, e2, fun s a hs ha => ?_⟩
  obtain ⟨sr', q2, f1, f2, x, -, g2⟩ := C36_sr_q_values nF theta features M hM γ h0.le h1
  rw [e1] at f1
  cases f1
  rw [e2] at f2
  cases f2
  by_cases hno : ∀ t, t < M.nS → M.p s a t = 0
  · exact .inl ⟨(g2 s a hs ha).1.2 hno, (C29_mask M hM r maxIter γ tol v q hsol s a hs ha).1.2 hno⟩
  · push Not at hno
    have hp : Spec.Possible M s a := by
      obtain ⟨t, ht, hne⟩ := hno
      exact ⟨t, ht, lt_of_le_of_ne (hM.nonneg s a t hs ha ht) (Ne.symm hne)⟩
    obtain ⟨y, hy, hclose⟩ := hq s a hs ha hp
    refine .inr ⟨x s a, y, (g2 s a hs ha).2 hno, hy, ?_⟩
    have h3 := hb s a _ hs ha ((g2 s a hs ha).2 hno)
    have h4 := (abs_lt.1 hclose).1
    have h5 := mul_le_mul_of_nonneg_left (show Spec.Q M r γ V s a ≤ y + tol * γ / (1 - γ) by linarith) h0.le
    linarith

/-- **C163**, on every grid after any sequence of calls. -/
theorem C163_grid {kind : GridKind} {W H : Nat} {selfT : Bool} {m : Mdp ℝ} (hm : Mdp.GridReach kind W H selfT m) (nF : Nat)
    (theta : Nat → ℝ) (features : Nat → Nat → ℝ) (γ tol : ℝ) (h0 : 0 < γ) (h1 : γ < 1) (htol : 0 < tol) (r : Nat → ℝ)
    (hr : r = fun t => ∑ f ∈ Finset.range nF, theta f * features f t) (maxIter : Nat)
    (hstop : ∃ i, i < maxIter ∧ ∀ s, s < W * H →
      |Spec.sweeps m.trans r γ (i + 1) s - Spec.sweeps m.trans r γ i s| < tol)
    (v : Nat → ℝ) (q : Nat → Nat → Ext ℝ) (hsol : solveHard m.trans r maxIter γ tol = .ok (v, q)) :
    ∃ sr q', getSaSr m.trans γ = .ok sr ∧ getSrQValues nF (W * H) theta features m.trans sr = .ok q' ∧
      ∀ s a, s < W * H → a < m.nActions → (q' s a = .ninf ∧ q s a = .ninf) ∨
        ∃ x y, q' s a = .fin x ∧ q s a = .fin y ∧ x ≤ r s + γ * (y + tol * γ / (1 - γ)) := by
  obtain ⟨hsub, hdet, hA, -⟩ := C27_grid kind W H selfT m hm
  have hS : m.trans.nS = W * H := hm.ok.nStates
  rw [← hS] at hstop ⊢
  exact C163_returned nF theta features m.trans hsub hdet hA γ tol h0 h1 htol r hr maxIter hstop v q hsol

/-- From state 0, worth 1, one can only go to state 1, worth 3, and from there back or nowhere else. Planning expects 6
from there on; so whoever wanders at random gets at most `1 + 6 / 2`. -/
example : ∃ sr q, getSaSr (chain2 ℚ) (1 / 2) = .ok sr ∧
    getSrQValues 1 2 (fun _ => 1) (fun _ t => if t = 1 then 3 else 1) (chain2 ℚ) sr = .ok q ∧
    ∃ x, q 0 0 = .fin x ∧ x ≤ 4 := by
  obtain ⟨hM, hdet⟩ := chain2_ok (K := ℚ)
  have hB : Spec.Bellman (chain2 ℚ)
      (fun t => ∑ f ∈ Finset.range 1, (fun _ => (1 : ℚ)) f * (fun _ t => if t = 1 then 3 else 1) f t) (1 / 2) fun _ => 6 := by
    intro s hs
    have hs : s < 2 := hs
    have h : ∀ s : Fin 2, (∀ a : Fin 2, Spec.Q (chain2 ℚ)
        (fun t => ∑ f ∈ Finset.range 1, (fun _ => (1 : ℚ)) f * (fun _ t => if t = 1 then 3 else 1) f t) (1 / 2) (fun _ => 6) s a
          ≤ 6) ∧ Spec.Q (chain2 ℚ)
        (fun t => ∑ f ∈ Finset.range 1, (fun _ => (1 : ℚ)) f * (fun _ t => if t = 1 then 3 else 1) f t) (1 / 2) (fun _ => 6) s 0
          = 6 := by decide +kernel
    exact ⟨fun a ha => (h ⟨s, hs⟩).1 ⟨a, ha⟩, 0, by decide, (h ⟨s, hs⟩).2⟩
  obtain ⟨sr, q, e1, e2, h⟩ := C163_bound 1 (fun _ => 1) (fun _ t => if t = 1 then 3 else 1) (chain2 ℚ) hM hdet (by decide) (1 / 2)
    (by norm_num) (by norm_num) _ rfl _ hB
  obtain ⟨sr', q', f1, f2, x, -, g2⟩ := C36_sr_q_values 1 (fun _ => 1) (fun _ t => if t = 1 then (3 : ℚ) else 1) (chain2 ℚ) hM
    (1 / 2) (by norm_num) (by norm_num)
  rw [e1] at f1
  cases f1
  rw [e2] at f2
  cases f2
  have hx := (g2 0 0 (by decide) (by decide)).2 ⟨1, by decide, by decide +kernel⟩
  refine ⟨sr, q, e1, e2, x 0 0, hx, le_trans (h 0 0 _ (by decide) (by decide) hx) (le_of_eq ?_)⟩
  decide +kernel

/-- **C163**: the MDP has to be deterministic. Where an action leads to one of two states, each with probability 1/2, the
successor representation takes the first of them for certain: here the action's value is 2, and planning expects 1 on top
of the state's own reward of 1, discounted by half. -/
theorem C163_chance_witness : ∃ M : Trans ℚ, Spec.SubStochastic M ∧ M.nS = 2 ∧ M.nA = 1 ∧
    Spec.Bellman M (fun t => if t = 0 then 1 else 0) (1 / 2) (fun _ => 1) ∧
    ∃ sr q, getSaSr M (1 / 2) = .ok sr ∧
      getSrQValues 1 M.nS (fun _ => 1) (fun _ t => if t = 0 then 1 else 0) M sr = .ok q ∧
      q 0 0 = .fin 2 ∧ ¬ (2 : ℚ) ≤ 1 + 1 / 2 * Spec.Q M (fun t => if t = 0 then 1 else 0) (1 / 2) (fun _ => 1) 0 0 := by
  have hM : Spec.SubStochastic (⟨2, 1, fun _ _ _ => 1 / 2⟩ : Trans ℚ) := by
    refine ⟨fun _ _ _ _ _ _ => by norm_num, fun _ _ _ _ => ?_⟩
    norm_num
  refine ⟨⟨2, 1, fun _ _ _ => 1 / 2⟩, hM, rfl, rfl, ?_, ?_⟩
  · intro s _
    have hq : ∀ a, Spec.Q (⟨2, 1, fun _ _ _ => 1 / 2⟩ : Trans ℚ) (fun t => if t = 0 then 1 else 0) (1 / 2) (fun _ => 1) s a =
        1 := by
      intro a
      unfold Spec.Q
      norm_num [Finset.sum_range_succ]
    exact ⟨fun a _ => le_of_eq (hq a), 0, by decide, hq 0⟩
  · obtain ⟨sr, q, e1, e2, x, h1, h2⟩ := C36_sr_q_values 1 (fun _ => 1) (fun _ t => if t = 0 then (1 : ℚ) else 0) _ hM (1 / 2)
      (by norm_num) (by norm_num)
    refine ⟨sr, q, e1, e2, ?_, ?_⟩
    · rw [(h2 0 0 (by decide) (by decide)).2 ⟨0, by decide, by norm_num⟩]
      have := (h1 0 0 (by decide) (by decide)).1 0 ⟨by decide, by norm_num, fun u hu => by omega⟩
      norm_num at this
      congr 1
      linarith
    · unfold Spec.Q
      norm_num [Finset.sum_range_succ]

/-! ## C164 -/

/-- **C164**: one successor representation serves all rewards, and with it interests add up: the values for a weighted sum
of feature weights are the weighted sums of the values for each of them, whatever the signs. Impossible actions are
worth `-inf` throughout. -/
theorem C164_additive (M : Trans K) (hM : Spec.SubStochastic M) (γ : K) (g0 : 0 ≤ γ) (g1 : γ < 1) :
    ∃ sr, getSaSr M γ = .ok sr ∧ ∀ (nF : Nat) (features : Nat → Nat → K) (n : Nat) (c : Nat → K) (w : Nat → Nat → K),
      ∃ (q : Nat → Nat → Ext K) (qs : Nat → Nat → Nat → Ext K),
        getSrQValues nF M.nS (fun f => ∑ i ∈ Finset.range n, c i * w i f) features M sr = .ok q ∧
        (∀ i, getSrQValues nF M.nS (w i) features M sr = .ok (qs i)) ∧
        ∀ s a, s < M.nS → a < M.nA →
          (¬ Spec.Possible M s a → q s a = .ninf ∧ ∀ i, qs i s a = .ninf) ∧
          (Spec.Possible M s a → ∃ y : Nat → K, (∀ i, qs i s a = .fin (y i)) ∧
            q s a = .fin (∑ i ∈ Finset.range n, c i * y i)) := by
  have hu := srMatrix_isUnit M g0 g1
  refine ⟨_, by unfold getSaSr; rw [if_pos hu], fun nF features n c w => ?_⟩
  set sr := (1 - γ • saMatrix M)⁻¹
  refine ⟨_, fun i => _, by unfold getSrQValues; rw [if_neg (by simp)],
    fun i => by unfold getSrQValues; rw [if_neg (by simp)], fun s a hs ha => ?_⟩
  refine ⟨fun hp => ⟨(maskQ_ninf hM _ hs ha).1.2 hp, fun i => (maskQ_ninf hM _ hs ha).1.2 hp⟩, fun hp => ?_⟩
  refine ⟨_, fun i => (maskQ_ninf hM _ hs ha).2 hp, ?_⟩
  rw [(maskQ_ninf hM _ hs ha).2 hp]
  have hlt : s * M.nA + a < M.nS * M.nA := pair_lt hs ha
  simp only [hlt, dif_pos]
  congr 1
  have hrew : ∀ t, stateReward nF (fun f => ∑ i ∈ Finset.range n, c i * w i f) features t =
      ∑ i ∈ Finset.range n, c i * stateReward nF (w i) features t := by
    intro t
    unfold stateReward npDot
    simp only [Finset.sum_mul, Finset.mul_sum]
    rw [Finset.sum_comm]
    exact Finset.sum_congr rfl fun i _ => Finset.sum_congr rfl fun f _ => by ring
  simp only [Matrix.mulVec, dotProduct, hrew, Finset.mul_sum]
  rw [Finset.sum_comm]
  exact Finset.sum_congr rfl fun i _ => Finset.sum_congr rfl fun j _ => by ring

/-- **C164**: raising rewards never lowers a value, and rewards between `-R` and `R` give values between `-R / (1 - γ)` and
`R / (1 - γ)`. -/
theorem C164_monotone (M : Trans K) (hM : Spec.SubStochastic M) (γ : K) (g0 : 0 ≤ γ) (g1 : γ < 1) (nF nF' : Nat)
    (w w' : Nat → K) (features features' : Nat → Nat → K) (r r' : Nat → K)
    (hr : r = fun t => ∑ f ∈ Finset.range nF, w f * features f t)
    (hr' : r' = fun t => ∑ f ∈ Finset.range nF', w' f * features' f t) :
    ∃ sr q q', getSaSr M γ = .ok sr ∧ getSrQValues nF M.nS w features M sr = .ok q ∧
      getSrQValues nF' M.nS w' features' M sr = .ok q' ∧
      ((∀ t, t < M.nS → r t ≤ r' t) → ∀ s a x x', s < M.nS → a < M.nA → q s a = .fin x → q' s a = .fin x' → x ≤ x') ∧
      ∀ R, (∀ t, t < M.nS → |r t| ≤ R) → ∀ s a x, s < M.nS → a < M.nA → q s a = .fin x → |x| ≤ R / (1 - γ) := by
  obtain ⟨sr, e1, -, -, hnn, hrow⟩ := C35_sr_exists M γ g0 g1 (saMatrix M) (fun s a t b ha hb h1 h2 => C35_matrix M s a t b ha hb h1 h2)
  have hfin : ∀ {nF : Nat} {w : Nat → K} {features : Nat → Nat → K} {q : Nat → Nat → Ext K},
      getSrQValues nF M.nS w features M sr = .ok q → ∀ {s a : Nat} {x : K} (hs : s < M.nS) (ha : a < M.nA), q s a = .fin x →
      x = ∑ j, sr ⟨s * M.nA + a, pair_lt hs ha⟩ j * stateReward nF w features (j / M.nA) := by
    intro nF w features q h s a x hs ha hx
    unfold getSrQValues at h
    rw [if_neg (by simp)] at h
    cases h
    by_cases hp : Spec.Possible M s a
    · rw [(maskQ_ninf hM _ hs ha).2 hp] at hx
      simp only [pair_lt hs ha, dif_pos, Ext.fin.injEq] at hx
      rw [← hx]
      rfl
    · rw [(maskQ_ninf hM _ hs ha).1.2 hp] at hx
      cases hx
  obtain ⟨q, hq⟩ : ∃ q, getSrQValues nF M.nS w features M sr = .ok q :=
    ⟨_, by unfold getSrQValues; rw [if_neg (by simp)]⟩
  obtain ⟨q', hq'⟩ : ∃ q', getSrQValues nF' M.nS w' features' M sr = .ok q' :=
    ⟨_, by unfold getSrQValues; rw [if_neg (by simp)]⟩
  have hin : ∀ j : Fin (M.nS * M.nA), (j : Nat) / M.nA < M.nS := fun j => by
    exact Nat.div_lt_of_lt_mul (lt_of_lt_of_eq j.2 (Nat.mul_comm _ _))
  refine ⟨sr, q, q', e1, hq, hq', fun hle s a x x' hs ha hx hx' => ?_, fun R hR s a x hs ha hx => ?_⟩
  · rw [hfin hq hs ha hx, hfin hq' hs ha hx']
    refine Finset.sum_le_sum fun j _ => mul_le_mul_of_nonneg_left ?_ (hnn _ _)
    have := hle _ (hin j)
    rw [hr, hr'] at this
    exact this
  · rw [hfin hq hs ha hx]
    have hR0 : 0 ≤ R := le_trans (abs_nonneg _) (hR s hs)
    calc |∑ j, sr ⟨s * M.nA + a, pair_lt hs ha⟩ j * stateReward nF w features (j / M.nA)|
        ≤ ∑ j, sr ⟨s * M.nA + a, pair_lt hs ha⟩ j * R := by
          refine le_trans (Finset.abs_sum_le_sum_abs _ _) (Finset.sum_le_sum fun j _ => ?_)
          rw [abs_mul, abs_of_nonneg (hnn _ _)]
          refine mul_le_mul_of_nonneg_left ?_ (hnn _ _)
          have := hR _ (hin j)
          rw [hr] at this
          exact this
      _ = (∑ j, sr ⟨s * M.nA + a, pair_lt hs ha⟩ j) * R := by rw [Finset.sum_mul]
      _ ≤ 1 / (1 - γ) * R := mul_le_mul_of_nonneg_right (hrow _) hR0
      _ = R / (1 - γ) := by ring

/-- One representation of the chain for liking state 1 and disliking state 0 twice as much. -/
example : ∃ sr, getSaSr (chain2 ℚ) (1 / 2) = .ok sr ∧ ∃ (q : Nat → Nat → Ext ℚ) (qs : Nat → Nat → Nat → Ext ℚ),
    getSrQValues 2 2 (fun f => ∑ i ∈ Finset.range 2, (fun i => if i = 0 then -2 else 1) i * (if f = i then 1 else 0))
      (fun f t => if f = t then 1 else 0) (chain2 ℚ) sr = .ok q ∧
    (∀ i, getSrQValues 2 2 (fun f => if f = i then 1 else 0) (fun f t => if f = t then 1 else 0) (chain2 ℚ) sr =
      .ok (qs i)) ∧ q 0 1 = .ninf ∧
    ∃ y : Nat → ℚ, (∀ i, qs i 0 0 = .fin (y i)) ∧ q 0 0 = .fin (-2 * y 0 + y 1) := by
  obtain ⟨sr, e, h⟩ := C164_additive (chain2 ℚ) chain2_ok.1 (1 / 2) (by norm_num) (by norm_num)
  refine ⟨sr, e, ?_⟩
  obtain ⟨q, qs, h1, h2, h3⟩ := h 2 (fun f t => if f = t then 1 else 0) 2 (fun i => if i = 0 then -2 else 1)
    (fun i f => if f = i then 1 else 0)
  refine ⟨q, qs, h1, h2, ((h3 0 1 (by decide) (by decide)).1 ?_).1, ?_⟩
  · rintro ⟨t, ht, hp⟩
    have : ∀ t : Fin 2, ¬ 0 < (chain2 ℚ).p 0 1 t := by decide +kernel
    exact this ⟨t, ht⟩ hp
  · obtain ⟨y, h4, h5⟩ := (h3 0 0 (by decide) (by decide)).2 ⟨1, by decide, by decide +kernel⟩
    refine ⟨y, h4, ?_⟩
    rw [h5]
    simp [Finset.sum_range_succ]

end MaMDP
