import Verif.Props.NearbyCounts
import Verif.Props.SoftStable

/-! # C180: wanting nearly the same -/

set_option linter.unusedSectionVars false

namespace MaMDP

theorem NearTables.trans {E E' : ℝ} {p q r : Arr2 (Ext ℝ)} (h : Spec.NearTables E p q) (h' : Spec.NearTables E' q r) :
    Spec.NearTables (E + E') p r := by
  refine ⟨h.1.trans h'.1, h.2.1.trans h'.2.1, fun s a hs ha => ?_⟩
  rcases h.2.2 s a hs ha with ⟨e1, e2⟩ | ⟨x, y, e1, e2, hd⟩ <;>
    rcases h'.2.2 s a (by have := h.1; omega) (by have := h.2.1; omega) with ⟨f1, f2⟩ | ⟨y', z, f1, f2, hd'⟩
  · exact .inl ⟨e1, f2⟩
  · rw [e2] at f1; cases f1
  · rw [e2] at f1; cases f1
  · rw [e2] at f1
    cases f1
    exact .inr ⟨x, z, e1, f2, (abs_sub_le x y z).trans (add_le_add hd hd')⟩

/-- Exact tables for rewards and values that are close. -/
theorem exactTable_near {M : Trans ℝ} (hM : Spec.SubStochastic M) {r r' V V' : Nat → ℝ} {γ ε : ℝ} (h0 : 0 < γ) (h1 : γ < 1)
    (hε : 0 ≤ ε) (hr : ∀ t, t < M.nS → |r t - r' t| ≤ ε) (hV : ∀ s, s < M.nS → |V s - V' s| ≤ ε / (1 - γ)) :
    Spec.NearTables (ε / (1 - γ)) (Spec.exactTable M r γ V) (Spec.exactTable M r' γ V') := by
  have h1g : 0 < 1 - γ := by linarith
  refine ⟨rfl, rfl, fun s a hs ha => ?_⟩
  have hs : s < M.nS := hs
  have ha : a < M.nA := ha
  by_cases hp : Spec.Possible M s a
  · refine .inr ⟨_, _, if_pos hp, if_pos hp, ?_⟩
    have hb : ε + γ * (ε / (1 - γ)) = ε / (1 - γ) := by field_simp; ring
    unfold Spec.Q
    rw [← Finset.sum_sub_distrib]
    calc _ ≤ ∑ t ∈ Finset.range M.nS, M.p s a t * (ε / (1 - γ)) := by
          refine (Finset.abs_sum_le_sum_abs _ _).trans (Finset.sum_le_sum fun t ht => ?_)
          have ht' := Finset.mem_range.1 ht
          rw [← mul_sub, abs_mul, abs_of_nonneg (hM.nonneg s a t hs ha ht')]
          refine mul_le_mul_of_nonneg_left ?_ (hM.nonneg s a t hs ha ht')
          have e : r t + γ * V t - (r' t + γ * V' t) = (r t - r' t) + γ * (V t - V' t) := by ring
          rw [e, ← hb]
          refine (abs_add_le _ _).trans (add_le_add (hr t ht') ?_)
          rw [abs_mul, abs_of_pos h0]
          exact mul_le_mul_of_nonneg_left (hV t ht') h0.le
      _ = (∑ t ∈ Finset.range M.nS, M.p s a t) * (ε / (1 - γ)) := (Finset.sum_mul _ _ _).symm
      _ ≤ 1 * (ε / (1 - γ)) := mul_le_mul_of_nonneg_right (hM.le_one s a hs ha) (div_nonneg hε h1g.le)
      _ = _ := one_mul _
  · exact .inl ⟨if_neg hp, if_neg hp⟩

/-- **C180**, planning: rewards that differ by at most `ε` give tables of action values that differ by at most `ε / (1 - γ)`
and twice the error of planning. -/
theorem C180_planning (M : Trans ℝ) (hM : Spec.SubStochastic M) (hA : 0 < M.nA) (r r' : Nat → ℝ) (R ε : ℝ) (hR : 0 ≤ R)
    (hε : 0 ≤ ε) (hr : ∀ t, t < M.nS → |r t| ≤ R) (hr' : ∀ t, t < M.nS → |r' t| ≤ R) (hd : ∀ t, t < M.nS → |r t - r' t| ≤ ε)
    (γ tol : ℝ) (h0 : 0 < γ) (h1 : γ < 1) (htol : 0 < tol) (n : Nat) (hn : 0 < n) :
    ∃ v q v' q', solveHard M r n γ tol = .ok (v, q) ∧ solveHard M r' n γ tol = .ok (v', q') ∧
      Spec.NearTables (ε / (1 - γ) + 2 * max (γ * tol / (1 - γ)) (γ ^ n * (R / (1 - γ)))) ⟨M.nS, M.nA, q⟩ ⟨M.nS, M.nA, q'⟩ := by
  obtain ⟨V, hV, -⟩ := C27_converges M hM hA r γ h0 h1
  obtain ⟨V', hV', -⟩ := C27_converges M hM hA r' γ h0 h1
  obtain ⟨v, q, e1, e2⟩ := C178_planning M hM hA r R hR hr γ tol h0 h1 htol V hV n hn
  obtain ⟨v', q', f1, f2⟩ := C178_planning M hM hA r' R hR hr' γ tol h0 h1 htol V' hV' n hn
  refine ⟨v, q, v', q', e1, f1, ?_⟩
  have hVV : ∀ s, s < M.nS → |V s - V' s| ≤ ε / (1 - γ) := fun s hs => by
    have a1 := bellman_compare hM h0 h1 hε (fun t ht => by linarith [(abs_le.1 (hd t ht)).2]) hV hV' s hs
    have a2 := bellman_compare hM h0 h1 hε (fun t ht => by linarith [(abs_le.1 (hd t ht)).1]) hV' hV s hs
    exact abs_le.2 ⟨by linarith, by linarith⟩
  have := NearTables.trans (NearTables.trans e2 (exactTable_near hM h0 h1 hε hd hVV)) (NearTables.symm f2)
  rwa [show ∀ x y : ℝ, x + y + x = y + 2 * x from fun x y => by ring] at this

/-- **C180**, soft planning. -/
theorem C180_planning_soft (M : Trans ℝ) (hM : Spec.SubStochastic M) (hA : 0 < M.nA) (r r' : Nat → ℝ) (R ε : ℝ) (hR : 0 ≤ R)
    (hε : 0 ≤ ε) (hr : ∀ t, t < M.nS → |r t| ≤ R) (hr' : ∀ t, t < M.nS → |r' t| ≤ R) (hd : ∀ t, t < M.nS → |r t - r' t| ≤ ε)
    (γ tol : ℝ) (h0 : 0 < γ) (h1 : γ < 1) (htol : 0 < tol) (n : Nat) (hn : 0 < n) :
    ∃ v q v' q', solveSoft M r n γ tol = .ok (v, q) ∧ solveSoft M r' n γ tol = .ok (v', q') ∧
      Spec.NearTables (ε / (1 - γ) + 2 * max (γ * tol / (1 - γ)) (γ ^ n * ((R + Real.log (M.nA + 1)) / (1 - γ))))
        ⟨M.nS, M.nA, q⟩ ⟨M.nS, M.nA, q'⟩ := by
  obtain ⟨V, hV, -⟩ := C34_soft_converges M hM r γ h0 h1
  obtain ⟨V', hV', -⟩ := C34_soft_converges M hM r' γ h0 h1
  obtain ⟨v, q, e1, e2⟩ := C178_planning_soft M hM hA r R hR hr γ tol h0 h1 htol V hV n hn
  obtain ⟨v', q', f1, f2⟩ := C178_planning_soft M hM hA r' R hR hr' γ tol h0 h1 htol V' hV' n hn
  refine ⟨v, q, v', q', e1, f1, ?_⟩
  have hVV : ∀ s, s < M.nS → |V s - V' s| ≤ ε / (1 - γ) := fun s hs => by
    have a1 := softBellman_compare hM h0 h1 hε (fun t ht => by linarith [(abs_le.1 (hd t ht)).2]) hV hV' s hs
    have a2 := softBellman_compare hM h0 h1 hε (fun t ht => by linarith [(abs_le.1 (hd t ht)).1]) hV' hV s hs
    exact abs_le.2 ⟨by linarith, by linarith⟩
  have := NearTables.trans (NearTables.trans e2 (exactTable_near hM h0 h1 hε hd hVV)) (NearTables.symm f2)
  rwa [show ∀ x y : ℝ, x + y + x = y + 2 * x from fun x y => by ring] at this

/-- **C180**, choosing: a softmax agent whose rewards change by at most `ε` gives every action almost the same
probability. -/
theorem C180_choice (M : Trans ℝ) (hM : Spec.SubStochastic M) (hA : 0 < M.nA) (hS : 0 < M.nS) (r r' : Nat → ℝ) (R ε : ℝ)
    (hR : 0 ≤ R) (hε : 0 ≤ ε) (hr : ∀ t, t < M.nS → |r t| ≤ R) (hr' : ∀ t, t < M.nS → |r' t| ≤ R)
    (hd : ∀ t, t < M.nS → |r t - r' t| ≤ ε) (γ tol : ℝ) (h0 : 0 < γ) (h1 : γ < 1) (htol : 0 < tol) (n : Nat) (hn : 0 < n)
    (T : ℝ) (hT : 0 < T) (D : ℝ) (hD : D = ε / (1 - γ) + 2 * max (γ * tol / (1 - γ)) (γ ^ n * (R / (1 - γ)))) :
    ∃ v q v' q' sel P P', solveHard M r n γ tol = .ok (v, q) ∧ solveHard M r' n γ tol = .ok (v', q') ∧
      mkSoftmax T = .ok sel ∧ sel.piP ⟨M.nS, M.nA, q⟩ = .ok P ∧ sel.piP ⟨M.nS, M.nA, q'⟩ = .ok P' ∧
      ∀ s a, s < M.nS → a < M.nA → ∃ p p', P.get s a = .fin p ∧ P'.get s a = .fin p' ∧
        p ≤ Real.exp (2 * D / T) * p' ∧ p' ≤ Real.exp (2 * D / T) * p := by
  obtain ⟨v, q, v', q', e1, e2, e3⟩ := C180_planning M hM hA r r' R ε hR hε hr hr' hd γ tol h0 h1 htol n hn
  rw [← hD] at e3
  have h1g : 0 < 1 - γ := by linarith
  have hD0 : 0 ≤ D := by
    rw [hD]
    exact add_nonneg (div_nonneg hε h1g.le) (mul_nonneg zero_le_two (le_max_of_le_left (by positivity)))
  obtain ⟨sel, P, P', c1, c2, c3, c4⟩ := C178_choice T hT D hD0 ⟨M.nS, M.nA, q⟩ ⟨M.nS, M.nA, q'⟩ hS hA e3
  exact ⟨v, q, v', q', sel, P, P', e1, e2, c1, c2, c3, c4⟩

/-- **C180**, learning: what max-causal-entropy IRL expects of a feature changes little when the weights change such that no
state's reward changes by more than `ε`. -/
theorem C180_expected (m : Mdp ℝ) (hM : Spec.SubStochastic m.trans) (hA : 0 < m.nActions) (hS : 0 < m.nStates)
    (ts : List (List Int)) (hne : ts ≠ []) (hts : ∀ t ∈ ts, ∃ i l, t = i :: l ∧ Spec.InRange m.nStates i)
    (n : Nat) (hn : 0 < n) (γ tol : ℝ) (h0 : 0 < γ) (h1 : γ < 1) (htol : 0 < tol) (θ θ' : Nat → ℝ) (R ε : ℝ) (hR : 0 ≤ R)
    (hε : 0 ≤ ε) (hr : ∀ s, s < m.nStates → |Spec.weighted m θ s| ≤ R) (hr' : ∀ s, s < m.nStates → |Spec.weighted m θ' s| ≤ R)
    (hd : ∀ s, s < m.nStates → |Spec.weighted m θ s - Spec.weighted m θ' s| ≤ ε) (D : ℝ)
    (hD : D = ε / (1 - γ) + 2 * max (γ * tol / (1 - γ)) (γ ^ n * ((R + Real.log (m.nActions + 1)) / (1 - γ)))) :
    ∃ g g', mceSoft m n γ tol ts θ = .ok g ∧ mceSoft m n γ tol ts θ' = .ok g' ∧
      ∀ f F, 0 ≤ F → (∀ s, s < m.nStates → |m.features.get f s| ≤ F) →
        |g f - g' f| ≤ (Real.exp (2 * D) ^ n - 1) * (n * F) := by
  obtain ⟨g, π, v, q, e1, e2, e3, e4, e5, e6⟩ := C66_expected_soft m hM hA hS ts hts n hn γ tol h0 h1 θ
  obtain ⟨g', π', v', q', e1', e2', e3', e4', e5', e6'⟩ := C66_expected_soft m hM hA hS ts hts n hn γ tol h0 h1 θ'
  obtain ⟨w, p, w', p', f1, f1', f2⟩ := C180_planning_soft m.trans hM hA (Spec.weighted m θ) (Spec.weighted m θ') R ε hR hε
    hr hr' hd γ tol h0 h1 htol n hn
  obtain ⟨-, rfl⟩ := Prod.mk.inj (Except.ok.inj (e5.symm.trans f1))
  obtain ⟨-, rfl⟩ := Prod.mk.inj (Except.ok.inj (e5'.symm.trans f1'))
  have hD' : D = ε / (1 - γ) + 2 * max (γ * tol / (1 - γ)) (γ ^ n * ((R + Real.log (m.trans.nA + 1)) / (1 - γ))) := hD
  rw [← hD'] at f2
  have h1g : 0 < 1 - γ := by linarith
  have hD0 : 0 ≤ D := by
    rw [hD]
    exact add_nonneg (div_nonneg hε h1g.le) (mul_nonneg zero_le_two (le_max_of_le_left (by positivity)))
  obtain ⟨V, hV, -⟩ := C34_soft_converges m.trans hM (Spec.weighted m θ) γ h0 h1
  obtain ⟨w1, q1, k1, k2⟩ := C178_planning_soft m.trans hM hA (Spec.weighted m θ) R hR hr γ tol h0 h1 htol V hV n hn
  obtain ⟨-, rfl⟩ := Prod.mk.inj (Except.ok.inj (e5.symm.trans k1))
  have hfin : ∀ s a, s < m.trans.nS → a < m.trans.nA → Spec.Possible m.trans s a → ∃ x, q s a = .fin x := by
    intro s a hs ha h
    rcases k2.2.2 s a hs ha with ⟨-, e⟩ | ⟨x, y, e, -, -⟩
    · rw [show (Spec.exactTable m.trans (Spec.weighted m θ) γ V).get s a = _ from if_pos h] at e
      cases e
    · exact ⟨x, e⟩
  have hfin' : ∀ s a, s < m.trans.nS → a < m.trans.nA → Spec.Possible m.trans s a → ∃ x, q' s a = .fin x := by
    intro s a hs ha h
    obtain ⟨x, hx⟩ := hfin s a hs ha h
    rcases f2.2.2 s a hs ha with ⟨e, -⟩ | ⟨_, y, -, e, -⟩
    · exact nomatch hx.symm.trans e
    · exact ⟨y, e⟩
  refine ⟨g, g', e1, e1', fun f F hF hf => ?_⟩
  rw [e4 f, e4' f]
  refine walkFeatures_close hM (Real.one_le_exp (by linarith)) e2 e2' (fun s a hs hl ha => ?_) (fun s a hs hl ha => ?_)
    ts hne hts n f F hF hf
  · have := exponential_near one_pos f2 rfl rfl hfin e2 e2' e3 e3' e6 e6' hs hl ha
    rwa [div_one] at this
  · have := exponential_near one_pos (NearTables.symm f2) rfl rfl hfin' e2' e2 e3' e3 e6' e6 hs hl ha
    rwa [div_one] at this

/-- **C180**, weights: weights that differ by at most `δ` give rewards that differ by at most `δ` times the sum of the
sizes of the features. -/
theorem C180_weights (m : Mdp ℝ) (θ θ' : Nat → ℝ) (δ : ℝ) (h : ∀ f, f < m.nFeatures → |θ f - θ' f| ≤ δ) (s : Nat) :
    |Spec.weighted m θ s - Spec.weighted m θ' s| ≤ δ * ∑ f ∈ Finset.range m.nFeatures, |m.features.get f s| := by
  unfold Spec.weighted
  rw [← Finset.sum_sub_distrib, Finset.mul_sum]
  refine (Finset.abs_sum_le_sum_abs _ _).trans (Finset.sum_le_sum fun f hf => ?_)
  rw [← sub_mul, abs_mul]
  exact mul_le_mul_of_nonneg_right (h f (Finset.mem_range.1 hf)) (abs_nonneg _)

/-- Rewards of two agents in a chain of two states that differ by 0.01. -/
example : Spec.SubStochastic (chain2 ℝ) ∧ 0 < (chain2 ℝ).nA ∧ 0 < (chain2 ℝ).nS ∧
    (∀ t, t < (chain2 ℝ).nS → |(if t = 0 then (1 : ℝ) else 0)| ≤ 2) ∧
    (∀ t, t < (chain2 ℝ).nS → |(if t = 0 then (101 / 100 : ℝ) else 0)| ≤ 2) ∧
    ∀ t, t < (chain2 ℝ).nS → |(if t = 0 then (1 : ℝ) else 0) - (if t = 0 then (101 / 100 : ℝ) else 0)| ≤ 1 / 100 := by
  refine ⟨chain2_ok.1, by decide, by decide, fun t _ => ?_, fun t _ => ?_, fun t _ => ?_⟩ <;> split_ifs <;>
    norm_num [abs_le]

end MaMDP
