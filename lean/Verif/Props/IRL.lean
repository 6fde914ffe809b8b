import Verif.Lemmas.IRL
import Verif.Lemmas.DynamicProgramming
import Verif.Props.ActionSelection
import Verif.Props.Algorithm
import Mathlib.Tactic.NormNum

/-! # Inverse reinforcement learning: C66-C69, C83, C84 -/

set_option linter.unusedSectionVars false

namespace MaMDP

variable {K : Type} [Field K] [LinearOrder K] [IsStrictOrderedRing K] {δ : Type}

/-! ## C66 expected state visitation -/

/-- `state_visitation_iterator` adds up the distributions of the first `n` steps. -/
theorem C66_sum_of_distributions (M : Trans K) (π : Nat → Nat → K) (p0 : Nat → K) (n t : Nat) (ht : t < M.nS) :
    visitation M π p0 n t = ∑ k ∈ Finset.range n, Spec.stateDist M π p0 k t :=
  visitation_eq M π p0 n t ht

/-- Non-negative. -/
theorem C66_nonneg (M : Trans K) (hM : Spec.SubStochastic M) (π : Nat → Nat → K) (hπ : Spec.IsPolicy M π)
    (p0 : Nat → K) (h0 : ∀ s, s < M.nS → 0 ≤ p0 s) (n t : Nat) (ht : t < M.nS) : 0 ≤ visitation M π p0 n t := by
  rw [visitation_eq M π p0 n t ht]
  exact Finset.sum_nonneg fun k _ => stateDist_nonneg hM (fun s a hs ha => (hπ s hs).1 a ha) h0 k t ht

/-- The total is the number of iterations, when every action the policy takes has successor probabilities
summing to 1. -/
theorem C66_total (M : Trans K) (π : Nat → Nat → K) (hπ : Spec.IsPolicy M π) (p0 : Nat → K)
    (h0 : ∑ s ∈ Finset.range M.nS, p0 s = 1)
    (hrow : ∀ s a, s < M.nS → a < M.nA → π s a ≠ 0 → ∑ t ∈ Finset.range M.nS, M.p s a t = 1) (n : Nat) :
    ∑ t ∈ Finset.range M.nS, visitation M π p0 n t = n := by
  have hd : ∀ k, ∑ s ∈ Finset.range M.nS, Spec.stateDist M π p0 k s = 1 := by
    intro k
    induction k with
    | zero => exact h0
    | succ k ih =>
      rw [stateDist_succ_sum, ← ih]
      refine Finset.sum_congr rfl fun s hs => ?_
      have hs' := Finset.mem_range.1 hs
      have : ∑ a ∈ Finset.range M.nA, π s a * ∑ t ∈ Finset.range M.nS, M.p s a t = 1 := by
        rw [← (hπ s hs').2]
        refine Finset.sum_congr rfl fun a ha => ?_
        by_cases e : π s a = 0
        · simp [e]
        · rw [hrow s a hs' (Finset.mem_range.1 ha) e, mul_one]
      rw [this, mul_one]
  rw [Finset.sum_congr rfl fun t ht => visitation_eq M π p0 n t (Finset.mem_range.1 ht), Finset.sum_comm,
    Finset.sum_congr rfl fun k _ => hd k]
  simp

/-- With impossible actions the total is never more than the number of iterations. -/
theorem C66_total_le (M : Trans K) (hM : Spec.SubStochastic M) (π : Nat → Nat → K) (hπ : Spec.IsPolicy M π)
    (p0 : Nat → K) (h0 : ∀ s, s < M.nS → 0 ≤ p0 s) (h1 : ∑ s ∈ Finset.range M.nS, p0 s ≤ 1) (n : Nat) :
    ∑ t ∈ Finset.range M.nS, visitation M π p0 n t ≤ n := by
  have hnn := stateDist_nonneg hM (pi := π) (fun s a hs ha => (hπ s hs).1 a ha) h0
  have hd : ∀ k, ∑ s ∈ Finset.range M.nS, Spec.stateDist M π p0 k s ≤ 1 := by
    intro k
    induction k with
    | zero => exact h1
    | succ k ih =>
      rw [stateDist_succ_sum]
      refine le_trans (Finset.sum_le_sum fun s hs => ?_) ih
      have hs' := Finset.mem_range.1 hs
      have : ∑ a ∈ Finset.range M.nA, π s a * ∑ t ∈ Finset.range M.nS, M.p s a t ≤ 1 := by
        rw [← (hπ s hs').2]
        refine Finset.sum_le_sum fun a ha => ?_
        exact mul_le_of_le_one_right ((hπ s hs').1 a (Finset.mem_range.1 ha))
          (hM.le_one s a hs' (Finset.mem_range.1 ha))
      exact mul_le_of_le_one_right (hnn k s hs') this
  rw [Finset.sum_congr rfl fun t ht => visitation_eq M π p0 n t (Finset.mem_range.1 ht), Finset.sum_comm]
  refine le_trans (Finset.sum_le_sum fun k _ => hd k) ?_
  simp

/-- Two states, one action swapping them, one staying, a mixed policy. -/
def exSwap : Trans ℚ := ⟨2, 2, fun s a t => if a = 0 then (if t = s then 0 else 1) else if t = s then 1 else 0⟩

example : Spec.SubStochastic exSwap ∧ Spec.IsPolicy exSwap (fun _ a => if a = 0 then 1/4 else 3/4) ∧
    visitation exSwap (fun _ a => if a = 0 then 1/4 else 3/4) (fun s => if s = 0 then 1 else 0) 3 0 = 1 + 3/4 + 5/8 := by
  refine ⟨⟨?_, ?_⟩, ?_, by decide +kernel⟩
  · intro s a t _ _ _; unfold exSwap; dsimp only; split_ifs <;> norm_num
  · have : ∀ s < 2, ∀ a < 2, ∑ t ∈ Finset.range 2, exSwap.p s a t ≤ 1 := by decide +kernel
    exact fun s a hs ha => this s hs a ha
  · intro s _
    exact ⟨fun a _ => by beta_reduce; split_ifs <;> norm_num, by simp [exSwap, Finset.sum_range_succ]; norm_num⟩

/-! ### The expectation used by `MaxCausalEntIRL` -/

theorem maskQ_notPinf (M : Trans K) (q : Nat → Nat → K) (s a : Nat) : maskQ M q s a ≠ .pinf ∧ maskQ M q s a ≠ .nan := by
  unfold maskQ; split_ifs <;> simp

/-- Hard value iteration and greedy selection: the policy is a distribution over possible actions. -/
theorem maxPolicy (M : Trans K) (hM : Spec.SubStochastic M) (hA : 0 < M.nA) (hS : 0 < M.nS)
    (q0 : Nat → Nat → K) : ∃ P, maxSelector.piP ⟨M.nS, M.nA, maskQ M q0⟩ = .ok P ∧
      Spec.IsPolicy M (fun s a => (P.get s a).toK) ∧ Spec.TakesPossible M (fun s a => (P.get s a).toK) ∧
      Spec.EvenOverBest (⟨M.nS, M.nA, maskQ M q0⟩ : Arr2 (Ext K)) (fun s a => (P.get s a).toK) := by
  have hne : ∃ s, s < M.nS ∧ ¬ Spec.NoEstimate (⟨M.nS, M.nA, maskQ M q0⟩ : Arr2 (Ext K)) s :=
    ⟨0, hS, fun h => (maskQ_notPinf M q0 0 0).2 (h 0 hA)⟩
  obtain ⟨P, h1, -, -, h2⟩ := (C23_max_pi_p (⟨M.nS, M.nA, maskQ M q0⟩ : Arr2 (Ext K))).2 hne
  have hest : ∀ s, Spec.HasEstimate (⟨M.nS, M.nA, maskQ M q0⟩ : Arr2 (Ext K)) s := fun s =>
    ⟨⟨0, hA, (maskQ_notPinf M q0 s 0).2⟩, fun h => by
      obtain ⟨⟨a, _, e⟩, _⟩ := h; exact (maskQ_notPinf M q0 s a).1 e⟩
  refine ⟨P, h1, fun s hs => ?_, fun s hs hl a ha hne => ?_, fun s hs => ?_⟩
  · obtain ⟨p, e1, e2, e3, -, e5⟩ := (h2 s hs).2 (hest s)
    have e6 : ∀ a, a < M.nA → (P.get s a).toK = p a := fun a ha => by rw [e1 a ha]; rfl
    refine ⟨fun a ha => ?_, ?_⟩
    · beta_reduce
      rw [e6 a ha]
      by_cases hb : Spec.IsBest (⟨M.nS, M.nA, maskQ M q0⟩ : Arr2 (Ext K)) s a
      · exact (e3 a hb).le
      · exact (e5 a ha hb).ge
    · rw [Finset.sum_congr rfl fun a ha => e6 a (Finset.mem_range.1 ha)]; exact e2
  · obtain ⟨p, e1, -, -, -, e5⟩ := (h2 s hs).2 (hest s)
    have hb : Spec.IsBest (⟨M.nS, M.nA, maskQ M q0⟩ : Arr2 (Ext K)) s a := by
      by_contra hb
      apply hne
      show (P.get s a).toK = 0
      rw [e1 a ha, e5 a ha hb]; rfl
    by_contra hp
    obtain ⟨b, hb1, hb2⟩ := hl
    have := hb.2 b hb1
    change Spec.NoBetter (maskQ M q0 s b) (maskQ M q0 s a) at this
    rw [(maskQ_ninf hM q0 hs ha).1.2 hp, (maskQ_ninf hM q0 hs hb1).2 hb2] at this
    exact this
  · obtain ⟨p, e1, -, -, e4, e5⟩ := (h2 s hs).2 (hest s)
    refine ⟨fun a b ha hb => ?_, fun a ha hb => ?_⟩
    · change (P.get s a).toK = (P.get s b).toK
      rw [e1 a ha.1, e1 b hb.1]; exact e4 a b ha hb
    · change (P.get s a).toK = 0
      rw [e1 a ha]; exact e5 a ha hb

/-- Soft value iteration and softmax selection. -/
theorem softmaxPolicy (M : Trans ℝ) (hM : Spec.SubStochastic M) (hA : 0 < M.nA) (hS : 0 < M.nS) (T : ℝ) (hT : 0 < T)
    (q0 : Nat → Nat → ℝ) : ∃ P, (softmaxSelector T).piP ⟨M.nS, M.nA, maskQ M q0⟩ = .ok P ∧
      Spec.IsPolicy M (fun s a => (P.get s a).toK) ∧ Spec.TakesPossible M (fun s a => (P.get s a).toK) ∧
      Spec.Exponential T (⟨M.nS, M.nA, maskQ M q0⟩ : Arr2 (Ext ℝ)) (fun s a => (P.get s a).toK) := by
  have hne : ∃ s, s < M.nS ∧ ¬ Spec.NoEstimate (⟨M.nS, M.nA, maskQ M q0⟩ : Arr2 (Ext ℝ)) s :=
    ⟨0, hS, fun h => (maskQ_notPinf M q0 0 0).2 (h 0 hA)⟩
  obtain ⟨sel, P, h0, h1, -, -, h2⟩ := C25_softmax_pi_p T hT (⟨M.nS, M.nA, maskQ M q0⟩ : Arr2 (Ext ℝ)) hne
  have hsel : sel = softmaxSelector T := by
    unfold mkSoftmax at h0; rw [if_neg (not_le.2 hT)] at h0; exact (Except.ok.inj h0).symm
  subst hsel
  have hest : ∀ s, Spec.HasEstimate (⟨M.nS, M.nA, maskQ M q0⟩ : Arr2 (Ext ℝ)) s := fun s =>
    ⟨⟨0, hA, (maskQ_notPinf M q0 s 0).2⟩, fun h => by
      obtain ⟨⟨a, _, e⟩, _⟩ := h; exact (maskQ_notPinf M q0 s a).1 e⟩
  have hpi : ∀ s a, a < M.nA → (⟨M.nS, M.nA, maskQ M q0⟩ : Arr2 (Ext ℝ)).get s a ≠ .pinf :=
    fun s a _ => (maskQ_notPinf M q0 s a).1
  refine ⟨P, h1, fun s hs => ?_, fun s hs hl a ha hne => ?_, fun s hs a b x y ha hb hx hy => ?_⟩
  · obtain ⟨p, e1, e2, -⟩ := (h2 s hs).2 (hest s) (hpi s)
    have e6 : ∀ a, a < M.nA → (P.get s a).toK = p a := fun a ha => by rw [(e1 a ha).1]; rfl
    refine ⟨fun a ha => by beta_reduce; rw [e6 a ha]; exact (e1 a ha).2, ?_⟩
    rw [Finset.sum_congr rfl fun a ha => e6 a (Finset.mem_range.1 ha)]; exact e2
  · obtain ⟨p, e1, -, e3, -⟩ := (h2 s hs).2 (hest s) (hpi s)
    obtain ⟨b, hb1, hb2⟩ := hl
    by_contra hp
    apply hne
    show (P.get s a).toK = 0
    rw [(e1 a ha).1]
    exact (e3 ⟨b, q0 s b, hb1, (maskQ_ninf hM q0 hs hb1).2 hb2⟩ a ha).1 (Or.inl ((maskQ_ninf hM q0 hs ha).1.2 hp))
  · obtain ⟨p, e1, -, -, -, e5⟩ := (h2 s hs).2 (hest s) (hpi s)
    change (P.get s a).toK = (P.get s b).toK * _
    rw [(e1 a ha).1, (e1 b hb).1]
    exact (e5 a b x y ha hb hx hy).1

theorem walkFeatures_eq (m : Mdp K) (π : Nat → Nat → K) (ts : List (List Int)) (n f : Nat) :
    Spec.walkFeatures m π ts n f = ∑ s ∈ Finset.range m.nStates, m.features.get f s *
      ∑ k ∈ Finset.range n, Spec.stateDist m.trans π (Spec.startShare m.nStates ts) k s := by
  unfold Spec.walkFeatures
  rw [Finset.sum_comm]
  refine Finset.sum_congr rfl fun s _ => ?_
  rw [Finset.mul_sum]
  exact Finset.sum_congr rfl fun k _ => mul_comm _ _

/-- `_maxcausalent_innerloop` with `soft=False`, for all weights: it never fails, and returns the features
expected over the first `n` steps of the greedy policy for the Q values that value iteration finds with these
weights. The policy takes possible actions only; the walk starts where the trajectories start. -/
theorem C66_expected_hard (m : Mdp K) (hM : Spec.SubStochastic m.trans) (hA : 0 < m.nActions) (hS : 0 < m.nStates)
    (ts : List (List Int)) (hts : ∀ t ∈ ts, ∃ i l, t = i :: l ∧ Spec.InRange m.nStates i)
    (n : Nat) (hn : 0 < n) (γ tol : K) (h0 : 0 < γ) (h1 : γ < 1) (θ : Nat → K) :
    ∃ g π v q, mceHard m n γ tol ts θ = .ok g ∧ Spec.IsPolicy m.trans π ∧ Spec.TakesPossible m.trans π ∧
      (∀ f, g f = Spec.walkFeatures m π ts n f) ∧
      solveHard m.trans (Spec.weighted m θ) n γ tol = .ok (v, q) ∧ Spec.EvenOverBest ⟨m.nStates, m.nActions, q⟩ π := by
  obtain ⟨j, -, -, -, -, e⟩ := solveVI_spec (hardBackup m.nActions) m.trans (Spec.weighted m θ) h0 h1 tol hn
  obtain ⟨P, hP, h2, h3, h6⟩ := maxPolicy m.trans hM hA hS
    (sweep (hardBackup m.nActions) m.trans (Spec.weighted m θ) γ
      (iterV (hardBackup m.nActions) m.trans (Spec.weighted m θ) γ (fun _ => 0) (j - 1))).q
  have e' := (solveHard_eq (M := m.trans) hA (Spec.weighted m θ) n γ tol).trans e
  obtain ⟨g, h4, h5⟩ := mceExpected_ok m
    (fun θ => solveHard m.trans (stateReward m.nFeatures θ m.features.get) n γ tol) maxSelector ts n θ _ _ P hts e' hP
  exact ⟨g, _, _, _, h4, h2, h3, fun f => (h5 f).trans (walkFeatures_eq ..).symm, e', h6⟩

/-- The same with `soft=True`: the policy weighs the actions by the exponential of the Q values of soft value
iteration. -/
theorem C66_expected_soft (m : Mdp ℝ) (hM : Spec.SubStochastic m.trans) (hA : 0 < m.nActions) (hS : 0 < m.nStates)
    (ts : List (List Int)) (hts : ∀ t ∈ ts, ∃ i l, t = i :: l ∧ Spec.InRange m.nStates i)
    (n : Nat) (hn : 0 < n) (γ tol : ℝ) (h0 : 0 < γ) (h1 : γ < 1) (θ : Nat → ℝ) :
    ∃ g π v q, mceSoft m n γ tol ts θ = .ok g ∧ Spec.IsPolicy m.trans π ∧ Spec.TakesPossible m.trans π ∧
      (∀ f, g f = Spec.walkFeatures m π ts n f) ∧
      solveSoft m.trans (Spec.weighted m θ) n γ tol = .ok (v, q) ∧ Spec.Exponential 1 ⟨m.nStates, m.nActions, q⟩ π := by
  obtain ⟨j, -, -, -, -, e⟩ := solveVI_spec (softBackup m.nActions) m.trans (Spec.weighted m θ) h0 h1 tol hn
  obtain ⟨P, hP, h2, h3, h6⟩ := softmaxPolicy m.trans hM hA hS 1 one_pos
    (sweep (softBackup m.nActions) m.trans (Spec.weighted m θ) γ
      (iterV (softBackup m.nActions) m.trans (Spec.weighted m θ) γ (fun _ => 0) (j - 1))).q
  obtain ⟨g, h4, h5⟩ := mceExpected_ok m
    (fun θ => solveSoft m.trans (stateReward m.nFeatures θ m.features.get) n γ tol) (softmaxSelector 1) ts n θ _ _ P hts e hP
  exact ⟨g, _, _, _, h4, h2, h3, fun f => (h5 f).trans (walkFeatures_eq ..).symm, e, h6⟩

/-! ## C67 empirical state visitation -/

/-- Exactly when it fails, and what it returns otherwise: counts divided again for every later trajectory. -/
theorem C67_exact (n : Nat) (ts : List (List Int)) :
    ((∀ t ∈ ts, ∀ i ∈ t, Spec.InRange n i) →
      empirical (K := K) n ts = .ok fun s => Spec.nestedVisits n ts s / (ts.length : K)) ∧
    ((∃ t ∈ ts, ∃ i ∈ t, ¬ Spec.InRange n i) → empirical (K := K) n ts = .error .indexError) := by
  rw [empirical_eq]
  constructor
  · intro h; rw [if_pos h]
  · rintro ⟨t, ht, i, hi, h⟩
    rw [if_neg fun h' => h (h' t ht i hi)]

/-- The total is 1 exactly when every trajectory but the first has length 1; otherwise it is less. -/
theorem C67_total (n : Nat) (ts : List (List Int)) (h0 : ts ≠ []) (hne : ∀ t ∈ ts, t ≠ [])
    (v : Nat → K) (h : empirical n ts = .ok v) :
    ∑ s ∈ Finset.range n, v s ≤ 1 ∧
      (∑ s ∈ Finset.range n, v s = 1 ↔ ∀ t ∈ ts.tail, t.length = 1) := by
  rw [empirical_eq] at h
  split_ifs at h with hr
  obtain rfl := Except.ok.inj h
  obtain ⟨h1, h2⟩ := sum_nested (K := K) n ts hr hne
  have hl : (0 : K) < ts.length := by
    have := List.length_pos_iff.2 h0; exact_mod_cast this
  rw [← Finset.sum_div, div_le_one hl, div_eq_one_iff_eq hl.ne']
  exact ⟨h1, h2⟩

/-- **C67 is false of the code**: with any trajectory after the first longer than one state, the result is not
the average. -/
theorem C67_refuted (n : Nat) (ts : List (List Int)) (hne : ∀ t ∈ ts, t ≠ [])
    (t : List Int) (ht : t ∈ ts.tail) (hl : t.length ≠ 1) (v : Nat → K) (h : empirical n ts = .ok v) :
    ∃ s, s < n ∧ v s ≠ Spec.averageVisits n ts s := by
  have h0 : ts ≠ [] := by rintro rfl; simp at ht
  have hr : ∀ t ∈ ts, ∀ i ∈ t, Spec.InRange n i := by
    rw [empirical_eq] at h
    split_ifs at h with hr
    exact hr
  by_contra hc
  push Not at hc
  have h1 := (C67_total n ts h0 hne v h).2
  rw [Finset.sum_congr rfl fun s hs => hc s (Finset.mem_range.1 hs), sum_average n ts hr hne h0] at h1
  exact hl (h1.1 rfl t ht)

/-- What holds: a single trajectory (or later ones of length 1). Missing: any other list of trajectories. -/
theorem C67_partial (n : Nat) (ts : List (List Int)) (h0 : ts ≠ []) (hne : ∀ t ∈ ts, t ≠ [])
    (hr : ∀ t ∈ ts, ∀ i ∈ t, Spec.InRange n i) (ht : ∀ t ∈ ts.tail, t.length = 1) :
    ∃ v : Nat → K, empirical n ts = .ok v ∧ (∀ s, v s = Spec.averageVisits n ts s) ∧
      ∑ s ∈ Finset.range n, v s = 1 := by
  refine ⟨_, (C67_exact n ts).1 hr, fun s => ?_, ?_⟩
  · unfold Spec.averageVisits
    rw [nested_eq_average n ts ht]
  · exact (C67_total n ts h0 hne _ ((C67_exact n ts).1 hr)).2.2 ht

/-- Trajectories 0,0 and 1,1 on two states: a quarter of the mass is lost. -/
example : ∃ v : Nat → ℚ, empirical 2 [[0, 0], [1, -1]] = .ok v ∧ v 0 = 1/4 ∧ v 1 = 1/2 ∧
    Spec.averageVisits 2 [[0, 0], [1, -1]] 0 = (1/2 : ℚ) := by
  refine ⟨_, (C67_exact 2 _).1 (by decide), ?_, ?_, ?_⟩ <;> decide +kernel

/-! ## C68 learning from data -/

/-- The observed feature counts. -/
def observedCounts (m : Mdp K) (ts : List (List Int)) (f : Nat) : K :=
  ∑ s ∈ Finset.range m.nStates, m.features.get f s * (Spec.nestedVisits m.nStates ts s / (ts.length : K))

/-- What `fit` does for every valid `ignore_features`, every initial weights and every expectation. -/
theorem mceFit_spec (o : MceIrl K) (m : Mdp K) (ts : List (List Int)) (ign : Ignore)
    (hv : Spec.ValidIgnore m.nFeatures ign) (h0 : ts ≠ []) (h1 : ts.head? ≠ some [])
    (hr : ∀ t ∈ ts, ∀ i ∈ t, Spec.InRange m.nStates i)
    (expected : (Nat → K) → Py (Nat → K)) (E : (Nat → K) → Nat → K) (hE : ∀ x, expected x = .ok (E x))
    (start : Nat → K) (hs : o.theta = .none ∧ start = (fun _ => 0) ∨ o.theta = .vec start)
    (hk : 0 < o.set.maxIter) (w : Nat → Nat → K)
    (hw : w = Spec.ascend (Spec.Ignored m.nFeatures ign) (Spec.actualRate o.lr o.set.decay)
      (observedCounts m ts) E start) :
    ∃ N o', 0 < N ∧ N ≤ o.set.maxIter ∧ o.fit m ts ign expected = (o', .ok (w N)) ∧ o'.theta = .vec (w N) ∧
      o'.lr = o.lr / (N.factorial : K) ^ o.set.decay ∧
      (o'.original = o.original ∨ o.aliased = true ∧ o'.original = .vec (w N)) ∧ o'.originalLr = o.originalLr ∧
      (N < o.set.maxIter → meanErr m.nFeatures (Spec.Ignored m.nFeatures ign) (observedCounts m ts) E w (N - 1)
        < o.set.tol) ∧
      ∀ j, j + 1 < N → ¬ meanErr m.nFeatures (Spec.Ignored m.nFeatures ign) (observedCounts m ts) E w j < o.set.tol := by
  obtain ⟨N, -, h3, h4, h5, h6, h7⟩ := irlLoop_spec o.set m.nFeatures ign hv expected E hE (observedCounts m ts) start
    o.lr w hw o.set.maxIter 0 []
  have hlr : lrAfter o.lr o.set.decay 0 = o.lr := by simp [lrAfter]
  have hw0 : w 0 = fun f => if Spec.Ignored m.nFeatures ign f then 0 else start f := by rw [hw]; rfl
  rw [hlr, hw0] at h5
  have hF : featureCounts m (fun s => Spec.nestedVisits m.nStates ts s / (ts.length : K)) = observedCounts m ts := by
    funext f; rfl
  have hrun : ∀ o1 : MceIrl K, o1.set = o.set → o1.lr = o.lr →
      MceIrl.fit.run m ign expected o1 (fun f => if Spec.Ignored m.nFeatures ign f then 0 else observedCounts m ts f)
        start = (o1.write (w N) (lrAfter o.lr o.set.decay N), .ok (w N)) := by
    intro o1 e1 e2
    unfold MceIrl.fit.run
    rw [zeroAt_valid hv]
    simp only
    rw [e1, e2, h5]
    simp only
    rw [if_neg (by omega)]
  have hfit : o.fit m ts ign expected =
      (({ o with aliased := if o.theta matches .none then false else o.aliased } : MceIrl K).write (w N)
        (lrAfter o.lr o.set.decay N), .ok (w N)) := by
    match ts, h0, h1 with
    | [] :: _, _, h1 => exact absurd rfl h1
    | (i :: t) :: ts, _, _ =>
      unfold MceIrl.fit
      rw [empirical_eq, if_pos hr]
      simp only
      rw [hF, zeroAt_valid hv]
      simp only
      rcases hs with ⟨e, e'⟩ | e
      · subst e'
        rw [e]
        simp only
        exact (hrun { o with theta := .none, aliased := false } rfl rfl).trans (by simp)
      · rw [e]
        simp only
        rw [hrun o rfl rfl]
        simp [MceIrl.write]
  refine ⟨N, _, h4 hk, by omega, hfit, rfl, rfl, ?_, rfl, fun h => h6 (by omega), fun j h => h7 j (by omega) h⟩
  unfold MceIrl.write
  simp only
  rcases hs with ⟨e, -⟩ | e
  · left; simp [e]
  · rw [e]
    by_cases ha : o.aliased = true
    · right; simp [ha]
    · left; simp [ha]

/-- **C68 is false of the code**: with the default `ignore_features=()` the result is all zeros, whatever the
data, the expectation and the initial weights. -/
theorem C68_refuted (o : MceIrl K) (m : Mdp K) (ts : List (List Int)) (h0 : ts ≠ []) (h1 : ts.head? ≠ some [])
    (hr : ∀ t ∈ ts, ∀ i ∈ t, Spec.InRange m.nStates i)
    (expected : (Nat → K) → Py (Nat → K)) (E : (Nat → K) → Nat → K) (hE : ∀ x, expected x = .ok (E x))
    (start : Nat → K) (hs : o.theta = .none ∧ start = (fun _ => 0) ∨ o.theta = .vec start)
    (hk : 0 < o.set.maxIter) : ∃ x, (o.fit m ts (.tuple []) expected).2 = .ok x ∧ ∀ f, x f = 0 := by
  obtain ⟨N, o', -, -, h, -⟩ := mceFit_spec o m ts (.tuple []) trivial h0 h1 hr expected E hE start hs hk _ rfl
  refine ⟨_, by rw [h], fun f => ?_⟩
  cases N <;> simp [Spec.ascend, Spec.Ignored]

/-- What holds: with a list of features to ignore, `fit` follows the ascent for at least one and at most
`max_iter_irl` iterations, and stops early exactly at the first iteration whose mean absolute error is below the
tolerance. Missing: the default argument, and the documented step sizes (C69). -/
theorem C68_partial (o : MceIrl K) (m : Mdp K) (ts : List (List Int)) (l : List Int)
    (hv : ∀ i ∈ l, Spec.InRange m.nFeatures i) (h0 : ts ≠ []) (h1 : ts.head? ≠ some [])
    (hr : ∀ t ∈ ts, ∀ i ∈ t, Spec.InRange m.nStates i)
    (expected : (Nat → K) → Py (Nat → K)) (E : (Nat → K) → Nat → K) (hE : ∀ x, expected x = .ok (E x))
    (start : Nat → K) (hs : o.theta = .none ∧ start = (fun _ => 0) ∨ o.theta = .vec start)
    (hk : 0 < o.set.maxIter) (w : Nat → Nat → K)
    (hw : w = Spec.ascend (Spec.Names m.nFeatures l) (Spec.actualRate o.lr o.set.decay) (observedCounts m ts) E start)
    (mean : Nat → K) (hmean : ∀ i, mean i = (∑ f ∈ Finset.range m.nFeatures,
      |if Spec.Names m.nFeatures l f then 0 else observedCounts m ts f - E (w i) f|) / m.nFeatures) :
    ∃ N o', 0 < N ∧ N ≤ o.set.maxIter ∧ o.fit m ts (.list l) expected = (o', .ok (w N)) ∧ o'.theta = .vec (w N) ∧
      (N < o.set.maxIter → mean (N - 1) < o.set.tol) ∧ ∀ j, j + 1 < N → ¬ mean j < o.set.tol := by
  obtain ⟨N, o', a1, a2, a3, a4, -, -, -, a5, a6⟩ :=
    mceFit_spec o m ts (.list l) hv h0 h1 hr expected E hE start hs hk w hw
  have : ∀ j, meanErr m.nFeatures (Spec.Ignored m.nFeatures (.list l)) (observedCounts m ts) E w j = mean j :=
    fun j => by rw [hmean]; rfl
  simp only [this] at a5 a6
  exact ⟨N, o', a1, a2, a3, a4, a5, a6⟩

/-- The whole of `fit` for a learner made with `soft=False`: on every MDP, for all trajectories through existing
states and every list of features to ignore, it succeeds. The weights move, for at least one and at most
`max_iter_irl` steps, by the step size times the difference between the observed features and those a walk of
`VI_max_iter` states meets under the greedy policy for the current weights. -/
theorem C68_partial_hard (o : MceIrl K) (m : Mdp K) (hM : Spec.SubStochastic m.trans) (hA : 0 < m.nActions)
    (hS : 0 < m.nStates) (ts : List (List Int)) (l : List Int) (hv : ∀ i ∈ l, Spec.InRange m.nFeatures i)
    (h0 : ts ≠ []) (hne : ∀ t ∈ ts, t ≠ []) (hr : ∀ t ∈ ts, ∀ i ∈ t, Spec.InRange m.nStates i)
    (n : Nat) (hn : 0 < n) (γ : K) (g0 : 0 < γ) (g1 : γ < 1)
    (start : Nat → K) (hs : o.theta = .none ∧ start = (fun _ => 0) ∨ o.theta = .vec start)
    (hk : 0 < o.set.maxIter) :
    ∃ (N : Nat) (o' : MceIrl K) (w err : Nat → Nat → K), 0 < N ∧ N ≤ o.set.maxIter ∧
      o.fit m ts (.list l) (mceHard m n γ o.set.tol ts) = (o', .ok (w N)) ∧
      (N < o.set.maxIter → (∑ f ∈ Finset.range m.nFeatures, |err (N - 1) f|) / m.nFeatures < o.set.tol) ∧
      (∀ j, j + 1 < N → ¬ (∑ f ∈ Finset.range m.nFeatures, |err j f|) / m.nFeatures < o.set.tol) ∧
      (∀ f, w 0 f = if Spec.Names m.nFeatures l f then 0 else start f) ∧
      ∀ i, ∃ π v q, solveHard m.trans (Spec.weighted m (w i)) n γ o.set.tol = .ok (v, q) ∧
        Spec.IsPolicy m.trans π ∧ Spec.TakesPossible m.trans π ∧ Spec.EvenOverBest ⟨m.nStates, m.nActions, q⟩ π ∧
        (∀ f, err i f = if Spec.Names m.nFeatures l f then 0 else
          observedCounts m ts f - Spec.walkFeatures m π ts n f) ∧
        ∀ f, w (i + 1) f = if Spec.Names m.nFeatures l f then 0 else
          w i f + Spec.actualRate o.lr o.set.decay (i + 1) * err i f := by
  have hts : ∀ t ∈ ts, ∃ i l, t = i :: l ∧ Spec.InRange m.nStates i := by
    intro u hu
    match u, hne u hu, hr u hu with
    | i :: l, _, hr => exact ⟨i, l, rfl, hr i List.mem_cons_self⟩
  have hE := fun θ => C66_expected_hard m hM hA hS ts hts n hn γ o.set.tol g0 g1 θ
  choose E π v q e1 e2 e3 e4 e5 e6 using hE
  obtain ⟨N, o', h1, h2, h3, -, h4, h5⟩ := C68_partial o m ts l hv h0 (fun h => hne [] (List.mem_of_head? h) rfl) hr
    (mceHard m n γ o.set.tol ts) E e1 start hs hk _ rfl _ (fun _ => rfl)
  refine ⟨N, o', _, _, h1, h2, h3, h4, h5, fun f => rfl, fun i => ⟨_, _, _, e5 _, e2 _, e3 _, e6 _, fun f => ?_, fun f => ?_⟩⟩
  · rw [← e4]
  · show (if _ then _ else _) = _
    split_ifs with hc
    · rfl
    · rfl

/-- The same for a learner made with `soft=True`, the default: soft value iteration and the softmax policy. -/
theorem C68_partial_soft (o : MceIrl ℝ) (m : Mdp ℝ) (hM : Spec.SubStochastic m.trans) (hA : 0 < m.nActions)
    (hS : 0 < m.nStates) (ts : List (List Int)) (l : List Int) (hv : ∀ i ∈ l, Spec.InRange m.nFeatures i)
    (h0 : ts ≠ []) (hne : ∀ t ∈ ts, t ≠ []) (hr : ∀ t ∈ ts, ∀ i ∈ t, Spec.InRange m.nStates i)
    (n : Nat) (hn : 0 < n) (γ : ℝ) (g0 : 0 < γ) (g1 : γ < 1)
    (start : Nat → ℝ) (hs : o.theta = .none ∧ start = (fun _ => 0) ∨ o.theta = .vec start)
    (hk : 0 < o.set.maxIter) :
    ∃ (N : Nat) (o' : MceIrl ℝ) (w err : Nat → Nat → ℝ), 0 < N ∧ N ≤ o.set.maxIter ∧
      o.fit m ts (.list l) (mceSoft m n γ o.set.tol ts) = (o', .ok (w N)) ∧
      (N < o.set.maxIter → (∑ f ∈ Finset.range m.nFeatures, |err (N - 1) f|) / m.nFeatures < o.set.tol) ∧
      (∀ j, j + 1 < N → ¬ (∑ f ∈ Finset.range m.nFeatures, |err j f|) / m.nFeatures < o.set.tol) ∧
      (∀ f, w 0 f = if Spec.Names m.nFeatures l f then 0 else start f) ∧
      ∀ i, ∃ π v q, solveSoft m.trans (Spec.weighted m (w i)) n γ o.set.tol = .ok (v, q) ∧
        Spec.IsPolicy m.trans π ∧ Spec.TakesPossible m.trans π ∧ Spec.Exponential 1 ⟨m.nStates, m.nActions, q⟩ π ∧
        (∀ f, err i f = if Spec.Names m.nFeatures l f then 0 else
          observedCounts m ts f - Spec.walkFeatures m π ts n f) ∧
        ∀ f, w (i + 1) f = if Spec.Names m.nFeatures l f then 0 else
          w i f + Spec.actualRate o.lr o.set.decay (i + 1) * err i f := by
  have hts : ∀ t ∈ ts, ∃ i l, t = i :: l ∧ Spec.InRange m.nStates i := by
    intro u hu
    match u, hne u hu, hr u hu with
    | i :: l, _, hr => exact ⟨i, l, rfl, hr i List.mem_cons_self⟩
  have hE := fun θ => C66_expected_soft m hM hA hS ts hts n hn γ o.set.tol g0 g1 θ
  choose E π v q e1 e2 e3 e4 e5 e6 using hE
  obtain ⟨N, o', h1, h2, h3, -, h4, h5⟩ := C68_partial o m ts l hv h0 (fun h => hne [] (List.mem_of_head? h) rfl) hr
    (mceSoft m n γ o.set.tol ts) E e1 start hs hk _ rfl _ (fun _ => rfl)
  refine ⟨N, o', _, _, h1, h2, h3, h4, h5, fun f => rfl, fun i => ⟨_, _, _, e5 _, e2 _, e3 _, e6 _, fun f => ?_, fun f => ?_⟩⟩
  · rw [← e4]
  · show (if _ then _ else _) = _
    split_ifs with hc
    · rfl
    · rfl

/-- Inputs `fit` refuses. -/
theorem C68_errors (o : MceIrl K) (m : Mdp K) (ign : Ignore) (expected : (Nat → K) → Py (Nat → K)) :
    o.fit m [] ign expected = (o, .error .indexError) ∧
    (∀ ts, o.fit m ([] :: ts) ign expected = (o, .error .typeError)) ∧
    (∀ ts t i, ts.head? ≠ some [] → t ∈ ts → i ∈ t → ¬ Spec.InRange m.nStates i →
      o.fit m ts ign expected = (o, .error .indexError)) ∧
    (∀ ts, ts ≠ [] → ts.head? ≠ some [] → (∀ t ∈ ts, ∀ i ∈ t, Spec.InRange m.nStates i) →
      ¬ Spec.ValidIgnore m.nFeatures ign → o.fit m ts ign expected = (o, .error .indexError)) ∧
    (∀ lr : K, lr ≤ 0 → ∀ set θ, MceIrl.init set lr θ = .error .assertionError) := by
  refine ⟨rfl, fun _ => rfl, ?_, ?_, ?_⟩
  · intro ts t i h1 ht hi hr
    match ts, h1 with
    | [] :: _, h1 => exact absurd rfl h1
    | (j :: u) :: ts, _ =>
      unfold MceIrl.fit
      rw [(C67_exact m.nStates _).2 ⟨t, ht, i, hi, hr⟩]
  · intro ts h0 h1 hr hv
    match ts, h0, h1 with
    | [] :: _, _, h1 => exact absurd rfl h1
    | (j :: u) :: ts, _, _ =>
      unfold MceIrl.fit
      rw [(C67_exact m.nStates _).1 hr]
      simp only
      rw [zeroAt_invalid hv]
  · intro lr h set θ
    unfold MceIrl.init
    rw [if_pos (not_lt.2 h)]

/-! ## C69 learning rate -/

/-- With a non-positive tolerance (no early stopping) the `n`-th iteration moves the weights by
`lr / (n!^d n^d)` times the error. -/
theorem C69_exact (o o' : MceIrl K) (m : Mdp K) (ts : List (List Int)) (l : List Int)
    (hv : ∀ i ∈ l, Spec.InRange m.nFeatures i) (h0 : ts ≠ []) (h1 : ts.head? ≠ some [])
    (hr : ∀ t ∈ ts, ∀ i ∈ t, Spec.InRange m.nStates i)
    (expected : (Nat → K) → Py (Nat → K)) (E : (Nat → K) → Nat → K) (hE : ∀ x, expected x = .ok (E x))
    (start : Nat → K) (hs : o.theta = .none ∧ start = (fun _ => 0) ∨ o.theta = .vec start) (htol : o.set.tol ≤ 0)
    (n : Nat) (hn : 0 < n) (hk : o.set.maxIter = n)
    (ho' : o' = { o with set := { o.set with maxIter := n + 1 } }) :
    ∃ x y, (o.fit m ts (.list l) expected).2 = .ok x ∧ (o'.fit m ts (.list l) expected).2 = .ok y ∧
      ∀ f, ¬ Spec.Names m.nFeatures l f → y f - x f =
        o.lr / (((n + 1).factorial : K) ^ o.set.decay * ((n + 1 : Nat) : K) ^ o.set.decay) *
          (observedCounts m ts f - E x f) := by
  have nonneg : ∀ (p : Nat → Prop) [DecidablePred p] (w : Nat → Nat → K) j,
      ¬ meanErr m.nFeatures p (observedCounts m ts) E w j < o.set.tol := by
    intro p _ w j
    have : 0 ≤ meanErr m.nFeatures p (observedCounts m ts) E w j :=
      div_nonneg (Finset.sum_nonneg fun f _ => abs_nonneg _) (Nat.cast_nonneg _)
    exact not_lt.2 (htol.trans this)
  obtain ⟨N, o1, -, a2, a3, -, -, -, -, a4, -⟩ :=
    mceFit_spec o m ts (.list l) hv h0 h1 hr expected E hE start hs (by omega) _ rfl
  obtain ⟨N', o2, -, b2, b3, -, -, -, -, b4, -⟩ :=
    mceFit_spec o' m ts (.list l) hv h0 h1 hr expected E hE start (by rw [ho']; exact hs) (by rw [ho']; simp) _ rfl
  have e1 : N = n := by
    by_contra hne
    exact nonneg _ _ _ (a4 (by omega))
  have e2 : N' = n + 1 := by
    have hb : N' ≤ n + 1 := by rw [ho'] at b2; exact b2
    by_contra hne
    have := b4 (by rw [ho']; show N' < n + 1; omega)
    rw [ho'] at this
    exact nonneg _ _ _ this
  subst e1 e2
  refine ⟨_, _, by rw [a3], by rw [b3], fun f hf => ?_⟩
  subst ho'
  have hf' : ¬ Spec.Ignored m.nFeatures (.list l) f := hf
  simp only [Spec.ascend, if_neg hf', Spec.actualRate]
  ring

/-- **C69 is false of the code** for every decay of at least 1 and every iteration after the first whose error
is not zero. -/
theorem C69_refuted (o o' : MceIrl K) (m : Mdp K) (ts : List (List Int)) (l : List Int)
    (hv : ∀ i ∈ l, Spec.InRange m.nFeatures i) (h0 : ts ≠ []) (h1 : ts.head? ≠ some [])
    (hr : ∀ t ∈ ts, ∀ i ∈ t, Spec.InRange m.nStates i)
    (expected : (Nat → K) → Py (Nat → K)) (E : (Nat → K) → Nat → K) (hE : ∀ x, expected x = .ok (E x))
    (start : Nat → K) (hs : o.theta = .none ∧ start = (fun _ => 0) ∨ o.theta = .vec start) (htol : o.set.tol ≤ 0)
    (n : Nat) (hn : 0 < n) (hk : o.set.maxIter = n)
    (ho' : o' = { o with set := { o.set with maxIter := n + 1 } }) (hd : 0 < o.set.decay) (hlr : 0 < o.lr)
    (x y : Nat → K) (hx : (o.fit m ts (.list l) expected).2 = .ok x)
    (hy : (o'.fit m ts (.list l) expected).2 = .ok y) (f : Nat) (hf : ¬ Spec.Names m.nFeatures l f)
    (herr : observedCounts m ts f - E x f ≠ 0) :
    y f - x f ≠ Spec.documentedRate o.lr o.set.decay (n + 1) * (observedCounts m ts f - E x f) := by
  obtain ⟨x', y', h2, h3, h4⟩ := C69_exact o o' m ts l hv h0 h1 hr expected E hE start hs htol n hn hk ho'
  rw [hx] at h2
  rw [hy] at h3
  obtain rfl := Except.ok.inj h2
  obtain rfl := Except.ok.inj h3
  rw [h4 f hf]
  intro e
  have e := mul_right_cancel₀ herr e
  unfold Spec.documentedRate at e
  have hn1 : (0 : K) < ((n + 1 : Nat) : K) ^ o.set.decay := by positivity
  have hfac : (1 : K) < ((n + 1).factorial : K) ^ o.set.decay := by
    apply one_lt_pow₀ _ hd.ne'
    have : 1 < (n + 1).factorial := Nat.one_lt_factorial.2 (by omega)
    exact_mod_cast this
  rw [div_eq_div_iff (by positivity) hn1.ne'] at e
  have e := mul_left_cancel₀ hlr.ne' e
  nlinarith

/-- What holds: the documented step in the first iteration, and in every iteration if the decay is 0.
Missing: later iterations with decay. -/
theorem C69_partial (lr : K) (d n : Nat) (h : n = 1 ∨ d = 0) :
    Spec.actualRate lr d n = Spec.documentedRate lr d n := by
  unfold Spec.actualRate Spec.documentedRate
  rcases h with rfl | rfl <;> simp

/-- The learning rate is left decayed: a second `fit` starts with `lr / N!^d`. -/
theorem C69_rate_persists (o : MceIrl K) (m : Mdp K) (ts : List (List Int)) (ign : Ignore)
    (hv : Spec.ValidIgnore m.nFeatures ign) (h0 : ts ≠ []) (h1 : ts.head? ≠ some [])
    (hr : ∀ t ∈ ts, ∀ i ∈ t, Spec.InRange m.nStates i)
    (expected : (Nat → K) → Py (Nat → K)) (E : (Nat → K) → Nat → K) (hE : ∀ x, expected x = .ok (E x))
    (hθ : o.theta = .none ∨ ∃ x, o.theta = .vec x) (hk : 0 < o.set.maxIter) :
    ∃ N, 0 < N ∧ N ≤ o.set.maxIter ∧
      (o.fit m ts ign expected).1.lr = o.lr / (N.factorial : K) ^ o.set.decay ∧
      ((o.fit m ts ign expected).1.resetLr).lr = o.originalLr := by
  have hs : ∃ start, o.theta = .none ∧ start = (fun _ => (0 : K)) ∨ o.theta = .vec start := by
    rcases hθ with h | ⟨x, h⟩
    · exact ⟨_, Or.inl ⟨h, rfl⟩⟩
    · exact ⟨x, Or.inr h⟩
  obtain ⟨start, hs⟩ := hs
  obtain ⟨N, o', a1, a2, a3, -, a4, -, a5, -⟩ :=
    mceFit_spec o m ts ign hv h0 h1 hr expected E hE start hs hk _ rfl
  exact ⟨N, a1, a2, by rw [a3]; exact a4, by rw [a3]; exact a5⟩

/-! ### Concrete runs -/

/-- A 1x3 corridor with features "first cell" and "everywhere". -/
def exIrlMdp : Py (Mdp ℚ) := Mdp.initGrid .square 1 3 false ⟨2, 3, fun f s => if f = 1 ∨ s = 0 then 1 else 0⟩ none

/-- An expectation that depends on the weights. -/
def exExpected (θ : Nat → ℚ) : Nat → ℚ := fun f => θ f / 2 + 1 / 4

/-- A learner with decay 1 that never stops early. -/
def exIrl (k : Nat) : MceIrl ℚ := ⟨⟨1, k, 0⟩, 1/2, 1/2, .none, .obj, false⟩

/-- With `[]` the run moves, with the default `()` it does not; the second step is a quarter of the first times
the error where half was documented. -/
example : (match exIrlMdp with
    | .error _ => false
    | .ok m =>
      (match (exIrl 1).fit m [[0, 0, 1]] (.list []) (fun θ => .ok (exExpected θ)),
          (exIrl 2).fit m [[0, 0, 1]] (.list []) (fun θ => .ok (exExpected θ)),
          (exIrl 2).fit m [[0, 0, 1]] (.tuple []) (fun θ => .ok (exExpected θ)) with
        | (_, .ok x), (o, .ok y), (_, .ok z) =>
          decide (x 0 = 5/24) && decide (y 0 - x 0 = (1/2) * (1/4) * (2/3 - exExpected x 0)) && decide (o.lr = 1/4) &&
            decide (y 0 ≠ 0) && decide (z 0 = 0) && decide (z 1 = 0)
        | _, _, _ => false)) = true := by decide +kernel

/-! ## C83 observed and expected counts on the same scale -/

/-- **C83 is false of the code**: on an MDP without dead ends a feature present in every state has the expected
count `VI_max_iter`, whatever the weights; its observed count for one trajectory is 1. -/
theorem C83_refuted (m : Mdp K) (hM : Spec.SubStochastic m.trans) (hD : Spec.NoDeadEnds m.trans)
    (hS : 0 < m.nStates) (t : List Int) (ht : t ≠ []) (hr : ∀ i ∈ t, Spec.InRange m.nStates i)
    (f : Nat) (hf : ∀ s, s < m.nStates → m.features.get f s = 1)
    (n : Nat) (hn : 1 < n) (γ tol : K) (h0 : 0 < γ) (h1 : γ < 1) (θ : Nat → K) :
    ∃ g v, mceHard m n γ tol [t] θ = .ok g ∧ empirical m.nStates [t] = .ok v ∧
      g f = n ∧ ∑ s ∈ Finset.range m.nStates, m.features.get f s * v s = 1 := by
  have hA : 0 < m.nActions := by
    obtain ⟨⟨a, ha, -⟩, -⟩ := hD 0 hS
    exact Nat.lt_of_le_of_lt (Nat.zero_le a) ha
  have hts : ∀ u ∈ [t], ∃ i l, u = i :: l ∧ Spec.InRange m.nStates i := by
    intro u hu
    rw [List.mem_singleton] at hu
    subst hu
    match u, ht with
    | i :: l, _ => exact ⟨i, l, rfl, hr i List.mem_cons_self⟩
  obtain ⟨g, π, -, -, e1, e2, e3, e4, -⟩ := C66_expected_hard m hM hA hS [t] hts n (by omega) γ tol h0 h1 θ
  obtain ⟨v, c1, -, c3⟩ := C67_partial (K := K) m.nStates [t] (by simp) (by simpa using ht) (by simpa using hr) (by simp)
  have eg : g f = n := by
    have hd : ∀ k, ∑ s ∈ Finset.range m.nStates, Spec.stateDist m.trans π (Spec.startShare m.nStates [t]) k s = 1 :=
      fun k => stateDist_sum hD e2 e3 _ (sum_startShare m.nStates [t] (by simp) hts) k
    rw [e4 f, walkFeatures_eq, Finset.sum_congr rfl fun s hs => by rw [hf s (Finset.mem_range.1 hs), one_mul], Finset.sum_comm,
      Finset.sum_congr rfl fun k _ => hd k]
    simp
  refine ⟨g, v, e1, c1, eg, ?_⟩
  rw [← c3]
  exact Finset.sum_congr rfl fun s hs => by rw [hf s (Finset.mem_range.1 hs), one_mul]

/-- What holds: with `VI_max_iter = 1` the two agree. Missing: every other setting. -/
theorem C83_partial (m : Mdp K) (hM : Spec.SubStochastic m.trans) (hD : Spec.NoDeadEnds m.trans)
    (hS : 0 < m.nStates) (t : List Int) (ht : t ≠ []) (hr : ∀ i ∈ t, Spec.InRange m.nStates i)
    (f : Nat) (hf : ∀ s, s < m.nStates → m.features.get f s = 1) (γ tol : K) (h0 : 0 < γ) (h1 : γ < 1) (θ : Nat → K) :
    ∃ g v, mceHard m 1 γ tol [t] θ = .ok g ∧ empirical m.nStates [t] = .ok v ∧
      ∑ s ∈ Finset.range m.nStates, m.features.get f s * v s = g f := by
  have hA : 0 < m.nActions := by
    obtain ⟨⟨a, ha, -⟩, -⟩ := hD 0 hS
    exact Nat.lt_of_le_of_lt (Nat.zero_le a) ha
  have hts : ∀ u ∈ [t], ∃ i l, u = i :: l ∧ Spec.InRange m.nStates i := by
    intro u hu
    rw [List.mem_singleton] at hu
    subst hu
    match u, ht with
    | i :: l, _ => exact ⟨i, l, rfl, hr i List.mem_cons_self⟩
  obtain ⟨g, π, -, -, e1, e2, e3, e4, -⟩ := C66_expected_hard m hM hA hS [t] hts 1 one_pos γ tol h0 h1 θ
  obtain ⟨v, c1, -, c3⟩ := C67_partial (K := K) m.nStates [t] (by simp) (by simpa using ht) (by simpa using hr) (by simp)
  refine ⟨g, v, e1, c1, ?_⟩
  rw [e4 f, walkFeatures_eq]
  have e5 : ∑ s ∈ Finset.range m.nStates, m.features.get f s * v s = 1 := by
    rw [← c3]
    exact Finset.sum_congr rfl fun s hs => by rw [hf s (Finset.mem_range.1 hs), one_mul]
  rw [e5, ← sum_startShare (K := K) m.nStates [t] (by simp) hts]
  refine Finset.sum_congr rfl fun s hs => ?_
  rw [hf s (Finset.mem_range.1 hs), one_mul]
  simp [Spec.stateDist]

/-- The corridor has no dead ends. -/
example : (match exIrlMdp with
    | .error _ => false
    | .ok m => (List.range 3).all fun s =>
        ((List.range 4).any fun a => (List.range 3).any fun t => decide (0 < m.sas s a t)) &&
        ((List.range 4).all fun a => decide (∑ t ∈ Finset.range 3, m.sas s a t = 0 ∨
          ∑ t ∈ Finset.range 3, m.sas s a t = 1))) = true := by decide +kernel

/-! ## C84 reset -/

theorem fit_frame (o : MceIrl K) (m : Mdp K) (ts : List (List Int)) (ign : Ignore)
    (expected : (Nat → K) → Py (Nat → K)) :
    (o.fit m ts ign expected).1.originalLr = o.originalLr ∧
    (o.aliased = false → (o.fit m ts ign expected).1.aliased = false ∧
      (o.fit m ts ign expected).1.original = o.original) := by
  have hrun : ∀ (o : MceIrl K) a b, (MceIrl.fit.run m ign expected o a b).1.originalLr = o.originalLr ∧
      (o.aliased = false → (MceIrl.fit.run m ign expected o a b).1.aliased = false ∧
        (MceIrl.fit.run m ign expected o a b).1.original = o.original) := by
    intro o a b
    unfold MceIrl.fit.run
    split
    · exact ⟨rfl, fun h => ⟨h, by simp [MceIrl.write, h]⟩⟩
    · split
      · exact ⟨rfl, fun h => ⟨h, by simp [MceIrl.write, h]⟩⟩
      · split_ifs
        · exact ⟨rfl, fun h => ⟨h, by simp [MceIrl.write, h]⟩⟩
        · exact ⟨rfl, fun h => ⟨h, by simp [MceIrl.write, h]⟩⟩
  unfold MceIrl.fit
  split
  · exact ⟨rfl, fun h => ⟨h, rfl⟩⟩
  · exact ⟨rfl, fun h => ⟨h, rfl⟩⟩
  · split
    · exact ⟨rfl, fun h => ⟨h, rfl⟩⟩
    · split
      · exact ⟨rfl, fun h => ⟨h, rfl⟩⟩
      · split
        · split
          · exact ⟨rfl, fun h => ⟨h, rfl⟩⟩
          · exact ⟨rfl, fun h => ⟨h, rfl⟩⟩
        · exact ⟨(hrun _ _ _).1, fun _ => (hrun _ _ _).2 rfl⟩
        · exact hrun _ _ _

/-- The learning rate given at construction is restored by `reset` and `reset_learning_rate` after every list of
calls, failing ones included. -/
theorem C84_learning_rate (set : IrlSettings K) (lr : K) (θ : Option (Nat → K)) (o : MceIrl K)
    (h : MceIrl.init set lr θ = .ok o) (ops : List (IrlOp K)) :
    (o.runOps ops).reset.lr = lr ∧ (o.runOps ops).resetLr.lr = lr := by
  have key : ∀ (ops : List (IrlOp K)) (o : MceIrl K), (o.runOps ops).originalLr = o.originalLr := by
    intro ops
    induction ops with
    | nil => intro o; rfl
    | cons op ops ih =>
      intro o
      rw [MceIrl.runOps, ih]
      cases op with
      | fit m ts ign ex => exact (fit_frame o m ts ign ex).1
      | reset => rfl
      | resetLr => rfl
  have h0 : o.originalLr = lr := by
    unfold MceIrl.init at h
    split_ifs at h
    rw [← Except.ok.inj h]
  exact ⟨(key ops o).trans h0, (key ops o).trans h0⟩

/-- What holds of the weights: the first `reset` of a learner built with weights restores them, after any calls.
Missing: later resets, learners built without weights. -/
theorem C84_partial (set : IrlSettings K) (lr : K) (x : Nat → K) (o : MceIrl K)
    (h : MceIrl.init set lr (some x) = .ok o) (ops : List (IrlOp K)) (hops : ∀ op ∈ ops, op ≠ .reset) :
    (o.runOps ops).reset.theta = .vec x := by
  have key : ∀ (ops : List (IrlOp K)) (o : MceIrl K), (∀ op ∈ ops, op ≠ .reset) → o.aliased = false →
      (o.runOps ops).original = o.original := by
    intro ops
    induction ops with
    | nil => intro o _ _; rfl
    | cons op ops ih =>
      intro o hops ha
      have hops' : ∀ op ∈ ops, op ≠ .reset := fun p hp => hops p (List.mem_cons_of_mem _ hp)
      rw [MceIrl.runOps]
      cases op with
      | fit m ts ign ex =>
        obtain ⟨e1, e2⟩ := (fit_frame o m ts ign ex).2 ha
        exact (ih _ hops' e1).trans e2
      | reset => exact absurd rfl (hops _ List.mem_cons_self)
      | resetLr => exact ih _ hops' ha
  unfold MceIrl.init at h
  split_ifs at h
  obtain rfl := Except.ok.inj h
  exact key ops _ hops rfl

/-- **C84 is false of the code**: after one reset, the next successful `fit` overwrites the saved weights, so
that another reset keeps the fitted ones. -/
theorem C84_refuted (o : MceIrl K) (start : Nat → K) (ho : o.original = .vec start) (m : Mdp K)
    (ts : List (List Int)) (ign : Ignore) (hv : Spec.ValidIgnore m.nFeatures ign) (h0 : ts ≠ [])
    (h1 : ts.head? ≠ some []) (hr : ∀ t ∈ ts, ∀ i ∈ t, Spec.InRange m.nStates i)
    (expected : (Nat → K) → Py (Nat → K)) (E : (Nat → K) → Nat → K) (hE : ∀ x, expected x = .ok (E x))
    (hk : 0 < o.set.maxIter) :
    ∃ x, (o.reset.fit m ts ign expected).2 = .ok x ∧ (o.reset.fit m ts ign expected).1.reset.theta = .vec x := by
  match ts, h0, h1 with
  | [] :: _, _, h1 => exact absurd rfl h1
  | (i :: t) :: ts, h0, h1 =>
    obtain ⟨N, o', -, -, a3, -⟩ := mceFit_spec o.reset m _ ign hv h0 h1 hr expected E hE start (Or.inr ho) hk _ rfl
    refine ⟨_, by rw [a3], ?_⟩
    unfold MceIrl.fit at a3 ⊢
    rw [empirical_eq, if_pos hr] at a3 ⊢
    simp only at a3 ⊢
    rw [zeroAt_valid hv] at a3 ⊢
    simp only [MceIrl.reset, ho] at a3 ⊢
    unfold MceIrl.fit.run at a3 ⊢
    rw [zeroAt_valid hv] at a3 ⊢
    simp only at a3 ⊢
    split at a3
    · simp at a3
    · split_ifs at a3 with hc
      · simp at a3
      · simp only [if_neg hc, MceIrl.write, if_true]
        exact congrArg Theta.vec (Except.ok.inj (Prod.mk.inj a3).2)

/-- Without initial weights, `reset` makes every later `fit` fail. -/
theorem C84_refuted_none (set : IrlSettings K) (lr : K) (o : MceIrl K) (h : MceIrl.init set lr none = .ok o)
    (m : Mdp K) (ts : List (List Int)) (ign : Ignore) (expected : (Nat → K) → Py (Nat → K)) (x : Nat → K) :
    (o.reset.fit m ts ign expected).2 ≠ .ok x := by
  unfold MceIrl.init at h
  split_ifs at h
  obtain rfl := Except.ok.inj h
  unfold MceIrl.fit MceIrl.reset
  split
  · simp
  · simp
  · split
    · simp
    · split
      · simp
      · simp only
        split <;> simp

/-- Weights (1, 0), one reset, one fit, another reset: the fitted weights stay. -/
example : (match exIrlMdp, MceIrl.init (⟨1, 2, 0⟩ : IrlSettings ℚ) (1/2) (some fun f => if f = 0 then 1 else 0) with
    | .ok m, .ok o =>
      (match ((o.reset.fit m [[0, 0, 1]] (.list []) (fun θ => .ok (exExpected θ))).1.reset).theta,
          ((o.fit m [[0, 0, 1]] (.list []) (fun θ => .ok (exExpected θ))).1.reset).theta with
        | .vec x, .vec y => decide (x 0 ≠ 1) && decide (y 0 = 1)
        | _, _ => false)
    | _, _ => false) = true := by decide +kernel

end MaMDP
