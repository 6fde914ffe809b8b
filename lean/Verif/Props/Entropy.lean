import Verif.Lemmas.Corridor
import Verif.Props.DynamicProgramming
import Verif.Props.Grid
import Verif.Lemmas.EnvMove

/-! # C134: soft value iteration and reward plus entropy -/

set_option linter.unusedSectionVars false

namespace MaMDP

open Filter Topology

/-- What soft value iteration computes on every MDP: up to the constant 1e-200 in the code, the most reward plus entropy
that can be gathered **when impossible actions may be chosen as well**, at no cost and ending the walk. The values it
returns converge to `V`; no policy gathers more than `V`; choosing in proportion to the exponentials of the action values
gathers that much. -/
theorem C134_exact (M : Trans ℝ) (hM : Spec.SubStochastic M) (hA : 0 < M.nA) (r : Nat → ℝ) (R : ℝ) (hR : 0 ≤ R)
    (hr : ∀ t, t < M.nS → -R ≤ r t) (γ : ℝ) (h0 : 0 < γ) (h1 : γ < 1) : ∃ V : Nat → ℝ,
    (∀ ε, 0 < ε → ∃ N, ∀ k, N ≤ k → ∃ v q, solveSoft M r k γ 0 = .ok (v, q) ∧ ∀ s, s < M.nS → |v s - V s| < ε) ∧
    (∀ π, Spec.IsPolicy M π → ∀ s, s < M.nS →
      ∃ w, Tendsto (fun n => Spec.gains M r γ π n s) atTop (𝓝 w) ∧ w ≤ V s) ∧
    ∃ π, Spec.IsPolicy M π ∧
      (∀ s a b, s < M.nS → a < M.nA → b < M.nA →
        π s a = π s b * Real.exp (Spec.Q M r γ V s a - Spec.Q M r γ V s b)) ∧
      ∀ s, s < M.nS → ∃ w, Tendsto (fun n => Spec.gains M r γ π n s) atTop (𝓝 w) ∧
        V s ≤ w + 1 / 10 ^ 200 * Real.exp (R / (1 - γ)) / (1 - γ) := by
  obtain ⟨V, hV, -, hconv⟩ := C34_soft_converges M hM r γ h0 h1
  have hγ : 0 < 1 - γ := by linarith
  have hS : ∀ s, 0 < ∑ a ∈ Finset.range M.nA, Real.exp (Spec.Q M r γ V s a) := fun s =>
    Finset.sum_pos (fun a _ => Real.exp_pos _) ⟨0, Finset.mem_range.2 hA⟩
  have hε : (0 : ℝ) < 1 / 10 ^ 200 := by positivity
  have hlog : ∀ s, s < M.nS → Real.log (∑ a ∈ Finset.range M.nA, Real.exp (Spec.Q M r γ V s a)) ≤ V s := by
    intro s hs
    rw [hV s hs]
    exact Real.log_le_log (hS s) (by linarith)
  have hQV : ∀ s, s < M.nS → ∀ a, a < M.nA → Spec.Q M r γ V s a ≤ V s := by
    intro s hs a ha
    refine le_trans ?_ (hlog s hs)
    rw [Real.le_log_iff_exp_le (hS s)]
    exact Finset.single_le_sum (f := fun a => Real.exp (Spec.Q M r γ V s a)) (fun _ _ => (Real.exp_pos _).le)
      (Finset.mem_range.2 ha)
  have hlow := soft_lower hM hA hR hr h0 h1 hQV
  set δ := 1 / 10 ^ 200 * Real.exp (R / (1 - γ)) with hδ
  have hδ0 : 0 ≤ δ := by positivity
  have hup : ∀ s, s < M.nS → V s ≤ Real.log (∑ a ∈ Finset.range M.nA, Real.exp (Spec.Q M r γ V s a)) + δ := by
    intro s hs
    set S := ∑ a ∈ Finset.range M.nA, Real.exp (Spec.Q M r γ V s a) with hSd
    have hSp : 0 < S := hS s
    rw [hV s hs]
    have e1 : S + 1 / 10 ^ 200 = S * (1 + 1 / 10 ^ 200 / S) := by field_simp
    have e2 : Real.exp (-(R / (1 - γ))) ≤ S :=
      (Real.exp_le_exp.2 (hlow s 0 hs hA)).trans
        (Finset.single_le_sum (f := fun a => Real.exp (Spec.Q M r γ V s a)) (fun _ _ => (Real.exp_pos _).le)
          (Finset.mem_range.2 hA))
    have e3 : (1 : ℝ) / 10 ^ 200 / S ≤ δ := by
      rw [hδ, div_le_iff₀ hSp]
      have := mul_le_mul_of_nonneg_left e2 hδ0
      rw [hδ, mul_assoc, ← Real.exp_add, add_neg_cancel, Real.exp_zero, mul_one] at this
      exact this
    rw [← hSd, e1, Real.log_mul hSp.ne' (by positivity)]
    have := Real.log_le_sub_one_of_pos (x := 1 + 1 / 10 ^ 200 / S) (by positivity)
    linarith
  have hD : Tendsto (fun n : Nat => γ ^ n * ∑ t ∈ Finset.range M.nS, |V t|) atTop (𝓝 0) := by
    have := (tendsto_pow_atTop_nhds_zero_of_lt_one h0.le h1).mul_const (∑ t ∈ Finset.range M.nS, |V t|)
    rwa [zero_mul] at this
  refine ⟨V, hconv, fun π hπ s hs => ?_, ?_⟩
  · obtain ⟨w, hw⟩ := gains_converge (r := r) hM h0 h1 hπ hs
    refine ⟨w, hw, ?_⟩
    have h2 := le_of_tendsto_of_tendsto hw (hD.const_add (V s))
      (Eventually.of_forall fun n => gains_le hM h0 hπ hlog n s hs)
    rwa [add_zero] at h2
  · set π : Nat → Nat → ℝ := fun s a => Real.exp (Spec.Q M r γ V s a) /
      ∑ b ∈ Finset.range M.nA, Real.exp (Spec.Q M r γ V s b) with hπd
    have hπ : Spec.IsPolicy M π := by
      intro s _
      refine ⟨fun a _ => div_nonneg (Real.exp_pos _).le (hS s).le, ?_⟩
      rw [← Finset.sum_div, div_self (hS s).ne']
    refine ⟨π, hπ, fun s a b _ _ _ => ?_, fun s hs => ?_⟩
    · rw [hπd]
      simp only
      rw [Real.exp_sub]
      have := (hS s).ne'
      have := (Real.exp_pos (Spec.Q M r γ V s b)).ne'
      field_simp
    · obtain ⟨w, hw⟩ := gains_converge (r := r) hM h0 h1 hπ hs
      refine ⟨w, hw, ?_⟩
      have h2 := le_of_tendsto_of_tendsto (tendsto_const_nhds (x := V s))
        (hw.add (hD.const_add (δ / (1 - γ))))
        (Eventually.of_forall fun n => le_gains hM hA h0 h1 hδ0 hup (fun _ _ _ _ => rfl) hπ n s hs)
      rwa [add_zero] at h2

/-- The same for values computed with a tolerance, as the learners do: once the limit on iterations is large enough, the value returned is
exceeded by no policy by more than `tol * γ / (1 - γ)`, and there is a policy that gathers as much up to that and the constant in the code. -/
theorem C134_stopped (M : Trans ℝ) (hM : Spec.SubStochastic M) (hA : 0 < M.nA) (r : Nat → ℝ) (R : ℝ) (hR : 0 ≤ R)
    (hr : ∀ t, t < M.nS → -R ≤ r t) (γ tol : ℝ) (h0 : 0 < γ) (h1 : γ < 1) (htol : 0 < tol) :
    ∃ N, ∀ k, N ≤ k → ∃ v q, solveSoft M r k γ tol = .ok (v, q) ∧
      (∀ π, Spec.IsPolicy M π → ∀ s, s < M.nS →
        ∃ w, Tendsto (fun n => Spec.gains M r γ π n s) atTop (𝓝 w) ∧ w < v s + tol * γ / (1 - γ)) ∧
      ∃ π, Spec.IsPolicy M π ∧ ∀ s, s < M.nS → ∃ w, Tendsto (fun n => Spec.gains M r γ π n s) atTop (𝓝 w) ∧
        v s < w + 1 / 10 ^ 200 * Real.exp (R / (1 - γ)) / (1 - γ) + tol * γ / (1 - γ) := by
  obtain ⟨V, k1, k2, π, k3, -, k5⟩ := C134_exact M hM hA r R hR hr γ h0 h1
  obtain ⟨V', -, l1, l2⟩ := C34_soft_converges M hM r γ h0 h1
  have e : ∀ s, s < M.nS → V' s = V s := by
    intro s hs
    by_contra hne
    have hpos : 0 < |V' s - V s| / 2 := half_pos (abs_pos.2 (sub_ne_zero.2 hne))
    obtain ⟨N1, a1⟩ := k1 _ hpos
    obtain ⟨N2, a2⟩ := l2 _ hpos
    obtain ⟨v, q, b1, b2⟩ := a1 (max N1 N2) (le_max_left _ _)
    obtain ⟨v', q', c1, c2⟩ := a2 (max N1 N2) (le_max_right _ _)
    rw [b1] at c1
    cases c1
    have b3 := b2 s hs
    have c3 := c2 s hs
    have t := abs_sub_le (V' s) (v s) (V s)
    rw [abs_sub_comm (V' s) (v s)] at t
    linarith
  obtain ⟨N, hN⟩ := l1 tol htol
  refine ⟨N, fun k hk => ?_⟩
  obtain ⟨v, q, b1, -, b2⟩ := hN k hk
  refine ⟨v, q, b1, fun π' hπ' s hs => ?_, π, k3, fun s hs => ?_⟩
  · obtain ⟨w, w1, w2⟩ := k2 π' hπ' s hs
    have := abs_lt.1 (b2 s hs)
    rw [e s hs] at this
    exact ⟨w, w1, by linarith [this.1]⟩
  · obtain ⟨w, w1, w2⟩ := k5 s hs
    have := abs_lt.1 (b2 s hs)
    rw [e s hs] at this
    exact ⟨w, w1, by linarith [this.2]⟩

/-- What is true of the claim: where every action can be taken in every state, soft value iteration converges to the most
reward plus entropy any policy gathers, up to the constant 1e-200 in the code, and the exponential policy gathers that
much. -/
theorem C134_partial (M : Trans ℝ) (hM : Spec.SubStochastic M) (hA : 0 < M.nA)
    (hall : ∀ s a, s < M.nS → a < M.nA → Spec.Possible M s a) (r : Nat → ℝ) (R : ℝ) (hR : 0 ≤ R)
    (hr : ∀ t, t < M.nS → -R ≤ r t) (γ : ℝ) (h0 : 0 < γ) (h1 : γ < 1) : ∃ V : Nat → ℝ,
    (∀ ε, 0 < ε → ∃ N, ∀ k, N ≤ k → ∃ v q, solveSoft M r k γ 0 = .ok (v, q) ∧ ∀ s, s < M.nS → |v s - V s| < ε) ∧
    (∀ π, Spec.IsPolicy M π → Spec.TakesPossible M π → ∀ s, s < M.nS →
      ∃ w, Tendsto (fun n => Spec.gains M r γ π n s) atTop (𝓝 w) ∧ w ≤ V s) ∧
    ∃ π, Spec.IsPolicy M π ∧ Spec.TakesPossible M π ∧
      (∀ s a b, s < M.nS → a < M.nA → b < M.nA →
        π s a = π s b * Real.exp (Spec.Q M r γ V s a - Spec.Q M r γ V s b)) ∧
      ∀ s, s < M.nS → ∃ w, Tendsto (fun n => Spec.gains M r γ π n s) atTop (𝓝 w) ∧
        V s ≤ w + 1 / 10 ^ 200 * Real.exp (R / (1 - γ)) / (1 - γ) := by
  obtain ⟨V, k1, k2, π, k3, k4, k5⟩ := C134_exact M hM hA r R hR hr γ h0 h1
  exact ⟨V, k1, fun π hπ _ => k2 π hπ, π, k3, fun s hs _ a ha _ => hall s a hs ha, k4, k5⟩

/-- A ring of three states with two actions, both possible everywhere. -/
example : ∃ M : Trans ℝ, Spec.SubStochastic M ∧ 0 < M.nA ∧ M.nS = 3 ∧
    ∀ s a, s < M.nS → a < M.nA → Spec.Possible M s a := by
  refine ⟨⟨3, 2, fun s a t => if t = (s + 1 + a) % 3 then 1 else 0⟩, ⟨?_, ?_⟩, by decide, rfl, ?_⟩
  · intro s a t _ _ _
    simp only
    split_ifs <;> norm_num
  · intro s a _ _
    rw [Finset.sum_ite_eq']
    split_ifs <;> norm_num
  · intro s a _ _
    exact ⟨(s + 1 + a) % 3, Nat.mod_lt _ (by decide), by simp⟩

/-- Both ways along the corridor with the same chance. -/
noncomputable def exEitherWay (s a : Nat) : ℝ :=
  if a = 0 then (if s = 0 then 1 else if s < 3 then 1 / 2 else 0)
  else if a = 2 then (if s = 0 then 0 else if s < 3 then 1 / 2 else 1) else 0

/-- **C134 is false of the code**: actions that cannot be taken enter the soft values as if they could be taken and were
worth 0. In a corridor of four states where every step costs 2, soft value iteration values the end of the corridor above
the middle after any number of passes, so the exponential policy prefers to go from state 1 to the end; but going either
way with even chances from state 2 gathers more reward plus entropy than anything that can be done from the end. -/
theorem C134_refuted : ∃ m : Mdp ℝ, Mdp.initGrid .square 1 4 false ⟨1, 4, fun _ _ => 1⟩ none = .ok m ∧
    m.sas 1 2 0 = 1 ∧ m.sas 1 0 2 = 1 ∧
    (∀ maxIter tol, 0 < maxIter → 0 < tol → ∃ v q x y, solveSoft m.trans (fun _ => -2) maxIter (1 / 2) tol = .ok (v, q) ∧
      v 2 < v 0 ∧ q 1 2 = .fin x ∧ q 1 0 = .fin y ∧ y < x) ∧
    ∃ π w, Spec.IsPolicy m.trans π ∧ Spec.TakesPossible m.trans π ∧
      Tendsto (fun n => Spec.gains m.trans (fun _ => -2) (1 / 2) π n 2) atTop (𝓝 w) ∧
      ∀ π' w', Spec.IsPolicy m.trans π' → Spec.TakesPossible m.trans π' →
        Tendsto (fun n => Spec.gains m.trans (fun _ => -2) (1 / 2) π' n 0) atTop (𝓝 w') → w' < w := by
  obtain ⟨m, hi, -, -, -, -, -, -, hW⟩ := Mdp.initGrid_ok (K := ℝ) (kind := .square) (W := 1) (H := 4)
    (selfT := false) (f := ⟨1, 4, fun _ _ => 1⟩) (w := none) (by decide) rfl (by intro v hv; cases hv)
  have g : Mdp.GridOk .square 1 4 false m := (Mdp.GridReach.init hi).ok
  have hw : ∀ s, m.walls.get s = 0 := by intro s; rw [hW]
  have hp : ∀ s x t, s < 4 → t < 4 → m.sas s x t = if GridKind.square.Move 4 false s x t then (1 : ℝ) else 0 := by
    intro s x t hs ht
    rw [g.sas s x t hs ht, hw, hw]
    simp
  have hc : Corridor m.trans := by
    refine ⟨g.nStates, g.nActions, fun s a t hs ha ht => ?_⟩
    show m.sas s a t = _
    rw [hp s a t hs ht]
    refine if_congr ?_ rfl rfl
    interval_cases s <;> interval_cases a <;> interval_cases t <;> decide
  refine ⟨m, hi, ?_, ?_, ?_, ?_⟩
  · exact (hc.p 1 2 0 (by decide) (by decide) (by decide)).trans (by norm_num)
  · exact (hc.p 1 0 2 (by decide) (by decide) (by decide)).trans (by norm_num)
  · intro maxIter tol hk htol
    obtain ⟨v, q, j, x, hsol, hx0, hpass, -, hv, hq, -⟩ := C34_returned m.trans hc.sub (fun _ => -2) (1 / 2) tol (by norm_num)
      (by norm_num) htol maxIter hk
    have hL0 : 0 < Real.log 2 := Real.log_pos (by norm_num)
    have hb : ∀ n s, s < 4 → x n s ≤ 3 * Real.log 2 := by
      intro n
      induction n with
      | zero => intro s _; rw [hx0]; simp only; linarith
      | succ n ih => exact (hc.pass_bound ih (hpass n)).1
    have hpos : 0 < Real.log (3 + 1 / 10 ^ 200) := Real.log_pos (by norm_num)
    have h2 : ∀ n, x n 2 ≤ Real.log (3 + 1 / 10 ^ 200) := by
      intro n
      cases n with
      | zero => rw [hx0]; exact hpos.le
      | succ n => exact (hc.pass_bound (hb n) (hpass n)).2.2
    have h0 := (hc.pass_bound (hb j) (hpass j)).2.1
    refine ⟨v, q, _, _, hsol, ?_, (hq 1 2 (by rw [hc.nS]; decide) (by rw [hc.nA]; decide)).1
      ((hc.possible (by decide) (by decide)).2 (.inr ⟨rfl, by decide⟩)), (hq 1 0 (by rw [hc.nS]; decide) (by rw [hc.nA]; decide)).1
      ((hc.possible (by decide) (by decide)).2 (.inl ⟨rfl, by decide⟩)), ?_⟩
    · rw [hv 2 (by rw [hc.nS]; decide), hv 0 (by rw [hc.nS]; decide)]
      exact (h2 (j + 1)).trans_lt h0
    · rw [hc.Q_up _ _ _ (by decide : 1 < 3), hc.Q_down _ _ _ (by decide : 0 < 3)]
      simp only [Spec.seen, Nat.reduceAdd, Nat.reduceLT, if_true, if_false]
      linarith [h2 j]
  · have hπ : Spec.IsPolicy m.trans exEitherWay := by
      intro s hs
      rw [hc.nS] at hs
      rw [hc.nA]
      constructor
      · intro a _
        unfold exEitherWay
        split_ifs <;> norm_num
      · simp only [Finset.sum_range_succ, Finset.sum_range_zero]
        interval_cases s <;> norm_num [exEitherWay]
    have hpo : Spec.TakesPossible m.trans exEitherWay := by
      intro s hs _ a ha hne
      rw [hc.nS] at hs
      rw [hc.nA] at ha
      rw [hc.possible hs ha]
      by_contra hno
      apply hne
      interval_cases s <;> interval_cases a <;> first | (exfalso; apply hno; decide) | norm_num [exEitherWay]
    have hL0 : 0 < Real.log 2 := Real.log_pos (by norm_num)
    have hL1 : Real.log 2 < 1 := by have := Real.log_two_lt_d9; norm_num at this ⊢; linarith
    have hlow : ∀ n, 8 / 10 * Real.log 2 - 4 ≤ Spec.gains m.trans (fun _ => -2) (1 / 2) exEitherWay n 0 ∧
        16 / 10 * Real.log 2 - 4 ≤ Spec.gains m.trans (fun _ => -2) (1 / 2) exEitherWay n 1 ∧
        16 / 10 * Real.log 2 - 4 ≤ Spec.gains m.trans (fun _ => -2) (1 / 2) exEitherWay n 2 ∧
        8 / 10 * Real.log 2 - 4 ≤ Spec.gains m.trans (fun _ => -2) (1 / 2) exEitherWay n 3 := by
      intro n
      induction n with
      | zero => exact ⟨by simp only [Spec.gains]; linarith, by simp only [Spec.gains]; linarith,
          by simp only [Spec.gains]; linarith, by simp only [Spec.gains]; linarith⟩
      | succ n ih =>
        obtain ⟨i0, i1, i2, i3⟩ := ih
        obtain ⟨g0, g1, g3⟩ := hc.gains_inner hπ hpo (Spec.gains m.trans (fun _ => -2) (1 / 2) exEitherWay n)
        have hhalf : ∀ s, s < 2 → exEitherWay (s + 1) 0 = 2⁻¹ := by
          intro s hs
          interval_cases s <;> norm_num [exEitherWay]
        obtain ⟨x1, -, -, e1, g1'⟩ := g1 0 (by decide)
        obtain ⟨x2, -, -, e2, g2'⟩ := g1 1 (by decide)
        rw [hhalf 0 (by decide)] at e1
        rw [hhalf 1 (by decide)] at e2
        subst e1
        subst e2
        rw [Real.binEntropy_two_inv] at g1' g2'
        refine ⟨?_, ?_, ?_, ?_⟩
        · refine le_trans ?_ g0.ge; linarith
        · refine le_trans ?_ g1'.ge; norm_num; linarith
        · refine le_trans ?_ g2'.ge; norm_num; linarith
        · refine le_trans ?_ g3.ge; linarith
    obtain ⟨w, hw⟩ := gains_converge (r := fun _ => -2) hc.sub (by norm_num : (0 : ℝ) < 1 / 2) (by norm_num) hπ
      (s := 2) (by rw [hc.nS]; decide)
    refine ⟨exEitherWay, w, hπ, hpo, hw, fun π' w' hπ' hp' hw' => ?_⟩
    have b1 : 16 / 10 * Real.log 2 - 4 ≤ w := ge_of_tendsto hw (Eventually.of_forall fun n => (hlow n).2.2.1)
    have hpow : Tendsto (fun n : Nat => (4 : ℝ) * (1 / 2) ^ n) atTop (𝓝 0) := by
      have := (tendsto_pow_atTop_nhds_zero_of_lt_one (by norm_num : (0 : ℝ) ≤ 1 / 2) (by norm_num)).const_mul 4
      rwa [mul_zero] at this
    have b2 : w' ≤ Real.log 2 - 4 := by
      have hle : ∀ n, Spec.gains m.trans (fun _ => -2) (1 / 2) π' (n + 1) 0 ≤ Real.log 2 - 4 + 4 * (1 / 2) ^ n := by
        intro n
        obtain ⟨g0, -, -⟩ := hc.gains_inner hπ' hp' (Spec.gains m.trans (fun _ => -2) (1 / 2) π' n)
        have := hc.gains_upper hπ' hp' n 1 (by decide)
        have h0 : (0 : ℝ) ≤ (1 / 2) ^ n := by positivity
        refine le_trans g0.le ?_
        linarith
      have := le_of_tendsto_of_tendsto ((tendsto_add_atTop_iff_nat 1).2 hw') (hpow.const_add (Real.log 2 - 4))
        (Eventually.of_forall hle)
      rwa [add_zero] at this
    linarith

end MaMDP
