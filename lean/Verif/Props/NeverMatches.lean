import Verif.Lemmas.NeverMatches

/-! # C158: whether max-causal-entropy IRL gets to match what was observed -/

set_option linter.unusedSectionVars false

namespace MaMDP

variable {K : Type} [Field K] [LinearOrder K] [IsStrictOrderedRing K]

theorem noNames (n f : Nat) : ¬ Spec.Ignored n (.list []) f := by
  rintro ⟨i, hi, -⟩
  cases hi

theorem fit_keeps_settings (o : MceIrl K) (m : Mdp K) (ts : List (List Int)) (ign : Ignore)
    (expected : (Nat → K) → Py (Nat → K)) : (o.fit m ts ign expected).1.set = o.set := by
  have hrun : ∀ (o : MceIrl K) a b, (MceIrl.fit.run m ign expected o a b).1.set = o.set := by
    intro o a b
    unfold MceIrl.fit.run
    split
    · rfl
    · split
      · rfl
      · split_ifs <;> rfl
  unfold MceIrl.fit
  split
  · rfl
  · rfl
  · split
    · rfl
    · split
      · rfl
      · split
        · split <;> rfl
        · exact hrun _ _ _
        · exact hrun _ _ _

/-- Every fit whose expected counts add up to too much. -/
theorem never_matches (o : MceIrl K) (m : Mdp K) (ts : List (List Int)) (h0 : ts ≠ []) (hne : ∀ t ∈ ts, t ≠ [])
    (hr : ∀ t ∈ ts, ∀ i ∈ t, Spec.InRange m.nStates i) (c : K) (hc : 0 < c)
    (hF : Spec.TotalIs m c)
    (hS : 0 < m.nStates) (n : Nat) (hn : 1 < n) (expected : (Nat → K) → Py (Nat → K)) (E : (Nat → K) → Nat → K)
    (hE : ∀ x, expected x = .ok (E x)) (hT : ∀ x, ∑ f ∈ Finset.range m.nFeatures, E x f = c * n)
    (start : Nat → K) (hs : o.theta = .none ∧ start = (fun _ => 0) ∨ o.theta = .vec start) (hk : 0 < o.set.maxIter)
    (hlr : 0 < o.lr) (htol : o.set.tol ≤ c * (n - 1) / m.nFeatures) :
    ∃ o' x errs, o.fit m ts (.list []) expected = (o', .ok x) ∧ o'.theta = .vec x ∧ o'.set = o.set ∧
      x = Spec.ascend (Spec.Ignored m.nFeatures (.list [])) (Spec.actualRate o.lr o.set.decay) (observedCounts m ts) E start
        o.set.maxIter ∧
      o'.lr = o.lr / (o.set.maxIter.factorial : K) ^ o.set.decay ∧
      o.errorHistory m ts (.list []) expected = some errs ∧ errs.length = o.set.maxIter ∧
      (∀ err ∈ errs, c * (n - 1) / m.nFeatures ≤ (∑ f ∈ Finset.range m.nFeatures, |err f|) / m.nFeatures) ∧
      (0 < o.set.tol → o.warns m ts (.list []) expected = false) ∧
      ∑ f ∈ Finset.range m.nFeatures, x f ≤ ∑ f ∈ Finset.range m.nFeatures, start f -
        (∑ i ∈ Finset.range o.set.maxIter, Spec.actualRate o.lr o.set.decay (i + 1)) * (c * (n - 1)) ∧
      (ts.length = 1 → ∑ f ∈ Finset.range m.nFeatures, x f = ∑ f ∈ Finset.range m.nFeatures, start f -
        (∑ i ∈ Finset.range o.set.maxIter, Spec.actualRate o.lr o.set.decay (i + 1)) * (c * (n - 1))) := by
  have hnF : (0 : K) < m.nFeatures := by
    have : 0 < m.nFeatures := by
      by_contra h
      have := hF 0 hS
      rw [Nat.eq_zero_of_not_pos h, Finset.range_zero, Finset.sum_empty] at this
      exact hc.ne this
    exact_mod_cast this
  have h1 : ts.head? ≠ some [] := fun h => hne [] (List.mem_of_head? h) rfl
  obtain ⟨t1, t2⟩ := observed_total h0 hne hr hc.le hF
  obtain ⟨N, o', a1, a2, a3, a4, a5, -, -, a6, -⟩ := mceFit_spec o m ts (.list []) (by intro i hi; cases hi) h0 h1 hr
    expected E hE start hs hk _ rfl
  obtain ⟨N', b1, b2, b3, b4, b5, -⟩ := errorHistory_spec o m ts (.list []) (by intro i hi; cases hi) h0 h1 hr
    expected E hE start hs hk _ rfl
  set w := Spec.ascend (Spec.Ignored m.nFeatures (.list [])) (Spec.actualRate o.lr o.set.decay) (observedCounts m ts) E start
    with hw
  set t := ∑ f ∈ Finset.range m.nFeatures, observedCounts m ts f with ht
  have total : ∀ i, ∑ f ∈ Finset.range m.nFeatures,
      errAt (Spec.Ignored m.nFeatures (.list [])) (observedCounts m ts) E w i f = t - c * n := by
    intro i
    simp only [errAt, if_neg (noNames _ _)]
    rw [Finset.sum_sub_distrib, hT, ht]
  have cn : c * (n - 1) ≤ c * n - t := by linarith [mul_sub c (n : K) 1]
  have pos : 0 < c * ((n : K) - 1) := mul_pos hc (by
    have : (1 : K) < n := by exact_mod_cast hn
    linarith)
  have mean : ∀ i, c * (n - 1) / m.nFeatures ≤
      meanErr m.nFeatures (Spec.Ignored m.nFeatures (.list [])) (observedCounts m ts) E w i := by
    intro i
    unfold meanErr
    refine div_le_div_of_nonneg_right ?_ hnF.le
    refine le_trans cn (le_trans ?_ (Finset.abs_sum_le_sum_abs _ _))
    rw [total i, abs_sub_comm]
    exact le_abs_self _
  have hN : N = o.set.maxIter := by
    by_contra h
    exact absurd (a6 (by omega)) (not_lt.2 (le_trans htol (mean _)))
  have hN' : N' = o.set.maxIter := by
    by_contra h
    exact absurd (b5 (by omega)) (not_lt.2 (le_trans htol (mean _)))
  subst hN
  rw [hN'] at b4
  have tot := ascend_total m.nFeatures (Spec.Ignored m.nFeatures (.list [])) (noNames _)
    (rate := Spec.actualRate o.lr o.set.decay) (obs := observedCounts m ts) (E := E) (start := start) ht.symm hT
    o.set.maxIter
  rw [← hw] at tot
  have rates : 0 ≤ ∑ i ∈ Finset.range o.set.maxIter, Spec.actualRate o.lr o.set.decay (i + 1) :=
    Finset.sum_nonneg fun i _ => actualRate_nonneg hlr.le _ _
  refine ⟨o', _, _, a3, a4, ?_, rfl, a5, b4, by simp, ?_, ?_, ?_, ?_⟩
  · have := fit_keeps_settings o m ts (.list []) expected
    rw [a3] at this
    exact this
  · intro err he
    obtain ⟨i, -, rfl⟩ := List.mem_map.1 he
    exact mean i
  · intro h
    unfold MceIrl.warns
    rw [b4]
    simp only
    obtain ⟨k, hk'⟩ : ∃ k, o.set.maxIter = k + 1 := ⟨o.set.maxIter - 1, by omega⟩
    rw [hk', List.range_succ, List.map_append, List.map_singleton, List.getLast?_append, List.getLast?_singleton]
    simp only [Option.some_or]
    refine decide_eq_false (not_not.2 ?_)
    unfold npSum
    rw [total]
    refine lt_trans (div_neg_of_neg_of_pos ?_ hnF) h
    linarith
  · rw [tot]
    have := mul_le_mul_of_nonneg_left cn rates
    linarith
  · intro hl
    rw [tot, t2 hl]
    ring

/-- **C158 is false of the code.** Let every state have the same total of features, as when each state shows exactly
one, on an MDP without dead ends, and let `VI_max_iter` be at least 2. Then whatever the trajectories, the weights and
the number of iterations: every iteration is used up and in each of them the mean absolute difference between observed
and expected counts is at least `c (VI_max_iter - 1) / n_features`. No warning is given. Without decay the total of the
weights falls by at least `lr c (VI_max_iter - 1)` in every iteration. -/
theorem C158_refuted (o : MceIrl K) (m : Mdp K) (hM : Spec.SubStochastic m.trans) (hD : Spec.NoDeadEnds m.trans)
    (hS : 0 < m.nStates) (ts : List (List Int)) (h0 : ts ≠ []) (hne : ∀ t ∈ ts, t ≠ [])
    (hr : ∀ t ∈ ts, ∀ i ∈ t, Spec.InRange m.nStates i) (c : K) (hc : 0 < c)
    (hF : Spec.TotalIs m c)
    (n : Nat) (hn : 1 < n) (γ : K) (g0 : 0 < γ) (g1 : γ < 1)
    (start : Nat → K) (hs : o.theta = .none ∧ start = (fun _ => 0) ∨ o.theta = .vec start) (hk : 0 < o.set.maxIter)
    (hlr : 0 < o.lr) (t0 : 0 < o.set.tol) (htol : o.set.tol ≤ c * (n - 1) / m.nFeatures) :
    ∃ x errs, (o.fit m ts (.list []) (mceHard m n γ o.set.tol ts)).2 = .ok x ∧
      o.errorHistory m ts (.list []) (mceHard m n γ o.set.tol ts) = some errs ∧ errs.length = o.set.maxIter ∧
      (∀ err ∈ errs, c * (n - 1) / m.nFeatures ≤ (∑ f ∈ Finset.range m.nFeatures, |err f|) / m.nFeatures) ∧
      o.warns m ts (.list []) (mceHard m n γ o.set.tol ts) = false ∧
      (o.set.decay = 0 → ∑ f ∈ Finset.range m.nFeatures, x f ≤
        ∑ f ∈ Finset.range m.nFeatures, start f - o.set.maxIter * (o.lr * (c * (n - 1)))) := by
  have hA : 0 < m.nActions := by
    obtain ⟨⟨a, ha, -⟩, -⟩ := hD 0 hS
    exact Nat.lt_of_le_of_lt (Nat.zero_le a) ha
  have hts : ∀ t ∈ ts, ∃ i l, t = i :: l ∧ Spec.InRange m.nStates i := by
    intro u hu
    match u, hne u hu, hr u hu with
    | i :: l, _, hr => exact ⟨i, l, rfl, hr i List.mem_cons_self⟩
  have hE := fun θ => C66_expected_hard m hM hA hS ts hts n (by omega) γ o.set.tol g0 g1 θ
  choose E π v q e1 e2 e3 e4 e5 e6 using hE
  have hT : ∀ x, ∑ f ∈ Finset.range m.nFeatures, E x f = c * n := by
    intro x
    rw [Finset.sum_congr rfl fun f _ => e4 x f]
    exact walkFeatures_total hD (e2 x) (e3 x) h0 hts hF n
  obtain ⟨o', x, errs, h1, -, -, -, -, h2, h3, h4, h5, h6, -⟩ := never_matches o m ts h0 hne hr c hc hF hS n hn _ E e1 hT start hs
    hk hlr htol
  refine ⟨x, errs, by rw [h1], h2, h3, h4, h5 t0, fun hd => le_trans h6 (le_of_eq ?_)⟩
  simp only [hd, Spec.actualRate, pow_zero, mul_one, div_one, Finset.sum_const, Finset.card_range, nsmul_eq_mul]
  ring

/-- The same for `soft=True`, the default. -/
theorem C158_refuted_soft (o : MceIrl ℝ) (m : Mdp ℝ) (hM : Spec.SubStochastic m.trans) (hD : Spec.NoDeadEnds m.trans)
    (hS : 0 < m.nStates) (ts : List (List Int)) (h0 : ts ≠ []) (hne : ∀ t ∈ ts, t ≠ [])
    (hr : ∀ t ∈ ts, ∀ i ∈ t, Spec.InRange m.nStates i) (c : ℝ) (hc : 0 < c)
    (hF : Spec.TotalIs m c)
    (n : Nat) (hn : 1 < n) (γ : ℝ) (g0 : 0 < γ) (g1 : γ < 1)
    (start : Nat → ℝ) (hs : o.theta = .none ∧ start = (fun _ => 0) ∨ o.theta = .vec start) (hk : 0 < o.set.maxIter)
    (hlr : 0 < o.lr) (t0 : 0 < o.set.tol) (htol : o.set.tol ≤ c * (n - 1) / m.nFeatures) :
    ∃ x errs, (o.fit m ts (.list []) (mceSoft m n γ o.set.tol ts)).2 = .ok x ∧
      o.errorHistory m ts (.list []) (mceSoft m n γ o.set.tol ts) = some errs ∧ errs.length = o.set.maxIter ∧
      (∀ err ∈ errs, c * (n - 1) / m.nFeatures ≤ (∑ f ∈ Finset.range m.nFeatures, |err f|) / m.nFeatures) ∧
      o.warns m ts (.list []) (mceSoft m n γ o.set.tol ts) = false ∧
      (o.set.decay = 0 → ∑ f ∈ Finset.range m.nFeatures, x f ≤
        ∑ f ∈ Finset.range m.nFeatures, start f - o.set.maxIter * (o.lr * (c * (n - 1)))) := by
  have hA : 0 < m.nActions := by
    obtain ⟨⟨a, ha, -⟩, -⟩ := hD 0 hS
    exact Nat.lt_of_le_of_lt (Nat.zero_le a) ha
  have hts : ∀ t ∈ ts, ∃ i l, t = i :: l ∧ Spec.InRange m.nStates i := by
    intro u hu
    match u, hne u hu, hr u hu with
    | i :: l, _, hr => exact ⟨i, l, rfl, hr i List.mem_cons_self⟩
  have hE := fun θ => C66_expected_soft m hM hA hS ts hts n (by omega) γ o.set.tol g0 g1 θ
  choose E π v q e1 e2 e3 e4 e5 e6 using hE
  have hT : ∀ x, ∑ f ∈ Finset.range m.nFeatures, E x f = c * n := by
    intro x
    rw [Finset.sum_congr rfl fun f _ => e4 x f]
    exact walkFeatures_total hD (e2 x) (e3 x) h0 hts hF n
  obtain ⟨o', x, errs, h1, -, -, -, -, h2, h3, h4, h5, h6, -⟩ := never_matches o m ts h0 hne hr c hc hF hS n hn _ E e1 hT start hs
    hk hlr htol
  refine ⟨x, errs, by rw [h1], h2, h3, h4, h5 t0, fun hd => le_trans h6 (le_of_eq ?_)⟩
  simp only [hd, Spec.actualRate, pow_zero, mul_one, div_one, Finset.sum_const, Finset.card_range, nsmul_eq_mul]
  ring

/-- How far a fit gets with a decay of at least 1, whatever the number of iterations: a feature between 0 and `b`
changes its weight by at most one and a half times `lr b VI_max_iter`. -/
theorem C158_reach (o : MceIrl K) (hd : 1 ≤ o.set.decay) (hlr : 0 < o.lr) (m : Mdp K) (hM : Spec.SubStochastic m.trans)
    (hA : 0 < m.nActions) (hS : 0 < m.nStates) (ts : List (List Int)) (l : List Int)
    (hv : ∀ i ∈ l, Spec.InRange m.nFeatures i) (h0 : ts ≠ []) (hne : ∀ t ∈ ts, t ≠ [])
    (hr : ∀ t ∈ ts, ∀ i ∈ t, Spec.InRange m.nStates i) (n : Nat) (hn : 0 < n) (γ : K) (g0 : 0 < γ) (g1 : γ < 1)
    (start : Nat → K) (hs : o.theta = .none ∧ start = (fun _ => 0) ∨ o.theta = .vec start) (hk : 0 < o.set.maxIter)
    (f : Nat) (hf : ¬ Spec.Names m.nFeatures l f) (b : K) (b0 : 0 ≤ b)
    (hb : ∀ s, s < m.nStates → 0 ≤ m.features.get f s ∧ m.features.get f s ≤ b) :
    ∃ x, (o.fit m ts (.list l) (mceHard m n γ o.set.tol ts)).2 = .ok x ∧ |x f - start f| ≤ 3 / 2 * (o.lr * (b * n)) := by
  have hts : ∀ t ∈ ts, ∃ i l, t = i :: l ∧ Spec.InRange m.nStates i := by
    intro u hu
    match u, hne u hu, hr u hu with
    | i :: l, _, hr => exact ⟨i, l, rfl, hr i List.mem_cons_self⟩
  have hE := fun θ => C66_expected_hard m hM hA hS ts hts n hn γ o.set.tol g0 g1 θ
  choose E π v q e1 e2 e3 e4 e5 e6 using hE
  obtain ⟨N, o', a1, a2, a3, -⟩ := mceFit_spec o m ts (.list l) hv h0 (fun h => hne [] (List.mem_of_head? h) rfl) hr
    _ E e1 start hs hk _ rfl
  refine ⟨_, congrArg Prod.snd a3, le_trans (ascend_reach (Spec.Ignored m.nFeatures (.list l)) (actualRate_nonneg hlr.le _) hf (B := b * n) (fun x => ?_) N) ?_⟩
  · rw [e4]; exact error_between hM (e2 x) h0 hne hr hn b0 hb
  · rw [← mul_assoc (3 / 2)]
    exact mul_le_mul_of_nonneg_right (sum_actualRate hd hlr.le N) (mul_nonneg b0 (Nat.cast_nonneg n))

/-- The same for `soft=True`, the default. -/
theorem C158_reach_soft (o : MceIrl ℝ) (hd : 1 ≤ o.set.decay) (hlr : 0 < o.lr) (m : Mdp ℝ)
    (hM : Spec.SubStochastic m.trans) (hA : 0 < m.nActions) (hS : 0 < m.nStates) (ts : List (List Int)) (l : List Int)
    (hv : ∀ i ∈ l, Spec.InRange m.nFeatures i) (h0 : ts ≠ []) (hne : ∀ t ∈ ts, t ≠ [])
    (hr : ∀ t ∈ ts, ∀ i ∈ t, Spec.InRange m.nStates i) (n : Nat) (hn : 0 < n) (γ : ℝ) (g0 : 0 < γ) (g1 : γ < 1)
    (start : Nat → ℝ) (hs : o.theta = .none ∧ start = (fun _ => 0) ∨ o.theta = .vec start) (hk : 0 < o.set.maxIter)
    (f : Nat) (hf : ¬ Spec.Names m.nFeatures l f) (b : ℝ) (b0 : 0 ≤ b)
    (hb : ∀ s, s < m.nStates → 0 ≤ m.features.get f s ∧ m.features.get f s ≤ b) :
    ∃ x, (o.fit m ts (.list l) (mceSoft m n γ o.set.tol ts)).2 = .ok x ∧ |x f - start f| ≤ 3 / 2 * (o.lr * (b * n)) := by
  have hts : ∀ t ∈ ts, ∃ i l, t = i :: l ∧ Spec.InRange m.nStates i := by
    intro u hu
    match u, hne u hu, hr u hu with
    | i :: l, _, hr => exact ⟨i, l, rfl, hr i List.mem_cons_self⟩
  have hE := fun θ => C66_expected_soft m hM hA hS ts hts n hn γ o.set.tol g0 g1 θ
  choose E π v q e1 e2 e3 e4 e5 e6 using hE
  obtain ⟨N, o', a1, a2, a3, -⟩ := mceFit_spec o m ts (.list l) hv h0 (fun h => hne [] (List.mem_of_head? h) rfl) hr
    _ E e1 start hs hk _ rfl
  refine ⟨_, congrArg Prod.snd a3, le_trans (ascend_reach (Spec.Ignored m.nFeatures (.list l)) (actualRate_nonneg hlr.le _) hf (B := b * n) (fun x => ?_) N) ?_⟩
  · rw [e4]; exact error_between hM (e2 x) h0 hne hr hn b0 hb
  · rw [← mul_assoc (3 / 2)]
    exact mul_le_mul_of_nonneg_right (sum_actualRate hd hlr.le N) (mul_nonneg b0 (Nat.cast_nonneg n))

/-- Calling `fit` `k` times with the same arguments. -/
def MceIrl.refit (m : Mdp K) (ts : List (List Int)) (ign : Ignore) (expected : (Nat → K) → Py (Nat → K)) :
    Nat → MceIrl K → MceIrl K
  | 0, o => o
  | k + 1, o => MceIrl.refit m ts ign expected k (o.fit m ts ign expected).1

theorem refit_reach (m : Mdp K) (ts : List (List Int))
    (h0 : ts ≠ []) (hne : ∀ t ∈ ts, t ≠ []) (hr : ∀ t ∈ ts, ∀ i ∈ t, Spec.InRange m.nStates i) (c : K) (hc : 0 < c)
    (hF : Spec.TotalIs m c)
    (hS : 0 < m.nStates) (n : Nat) (hn : 1 < n) (expected : (Nat → K) → Py (Nat → K)) (E : (Nat → K) → Nat → K)
    (hE : ∀ x, expected x = .ok (E x)) (hT : ∀ x, ∑ f ∈ Finset.range m.nFeatures, E x f = c * n)
    (f : Nat) (B : K) (hB : ∀ x, |observedCounts m ts f - E x f| ≤ B) :
    ∀ (k : Nat) (o : MceIrl K) (start : Nat → K), 1 ≤ o.set.decay → 0 < o.lr → 2 ≤ o.set.maxIter →
      o.set.tol ≤ c * (n - 1) / m.nFeatures → (o.theta = .none ∧ start = (fun _ => 0) ∨ o.theta = .vec start) →
      ∃ x, ((MceIrl.refit m ts (.list []) expected k o).fit m ts (.list []) expected).2 = .ok x ∧
        |x f - start f| ≤ 3 * (o.lr * B)
  | k, o, start, hd, hlr, hk, htol, hs => by
    have B0 : 0 ≤ B := le_trans (abs_nonneg _) (hB fun _ => 0)
    obtain ⟨o', y, -, h1, h2, h3, h4, h5, -⟩ := never_matches o m ts h0 hne hr c hc hF hS n hn _ E hE hT start hs
      (by omega) hlr htol
    have hy : |y f - start f| ≤ 3 / 2 * (o.lr * B) := by
      rw [h4]
      refine le_trans (ascend_reach _ (actualRate_nonneg hlr.le _) (noNames _ _) hB _) ?_
      rw [← mul_assoc (3 / 2)]
      exact mul_le_mul_of_nonneg_right (sum_actualRate hd hlr.le _) B0
    cases k with
    | zero =>
      refine ⟨y, by rw [MceIrl.refit, h1], le_trans hy ?_⟩
      have := mul_nonneg hlr.le B0
      linarith
    | succ k =>
      have hfac : (2 : K) ≤ (o.set.maxIter.factorial : K) ^ o.set.decay := by
        have h6 : 2 ≤ o.set.maxIter.factorial := le_trans hk (Nat.self_le_factorial _)
        have h7 : o.set.maxIter.factorial ≤ o.set.maxIter.factorial ^ o.set.decay := Nat.le_self_pow (by omega) _
        exact_mod_cast le_trans h6 h7
      have hlr' : o'.lr ≤ o.lr / 2 := by
        rw [h5]
        exact div_le_div_of_nonneg_left hlr.le two_pos hfac
      have hlr0 : 0 < o'.lr := by
        rw [h5]
        exact div_pos hlr (by linarith)
      obtain ⟨x, e1, e2⟩ := refit_reach m ts h0 hne hr c hc hF hS n hn expected E hE hT f B hB k o' y (by rw [h3]; exact hd) hlr0
        (by rw [h3]; exact hk) (by rw [h3]; exact htol) (Or.inr h2)
      refine ⟨x, by rw [MceIrl.refit, h1]; exact e1, ?_⟩
      have h8 : x f - start f = (x f - y f) + (y f - start f) := by ring
      rw [h8]
      refine le_trans (abs_add_le _ _) ?_
      have := mul_le_mul_of_nonneg_right hlr' B0
      linarith

/-- Nor do more calls of `fit` help: with a decay of at least 1 (the default is 1) and at least two iterations each,
any number of calls leaves the weight of a feature between 0 and `b` within `3 lr b VI_max_iter` of its start. -/
theorem C158_refits (o : MceIrl K) (hd : 1 ≤ o.set.decay) (hlr : 0 < o.lr) (m : Mdp K) (hM : Spec.SubStochastic m.trans)
    (hD : Spec.NoDeadEnds m.trans) (hS : 0 < m.nStates) (ts : List (List Int)) (h0 : ts ≠ []) (hne : ∀ t ∈ ts, t ≠ [])
    (hr : ∀ t ∈ ts, ∀ i ∈ t, Spec.InRange m.nStates i) (c : K) (hc : 0 < c) (hF : Spec.TotalIs m c)
    (n : Nat) (hn : 1 < n) (γ : K) (g0 : 0 < γ) (g1 : γ < 1)
    (start : Nat → K) (hs : o.theta = .none ∧ start = (fun _ => 0) ∨ o.theta = .vec start) (hk : 2 ≤ o.set.maxIter)
    (htol : o.set.tol ≤ c * (n - 1) / m.nFeatures) (f : Nat) (b : K) (b0 : 0 ≤ b)
    (hb : ∀ s, s < m.nStates → 0 ≤ m.features.get f s ∧ m.features.get f s ≤ b) (k : Nat) :
    ∃ x, ((MceIrl.refit m ts (.list []) (mceHard m n γ o.set.tol ts) k o).fit m ts (.list [])
        (mceHard m n γ o.set.tol ts)).2 = .ok x ∧ |x f - start f| ≤ 3 * (o.lr * (b * n)) := by
  have hA : 0 < m.nActions := by
    obtain ⟨⟨a, ha, -⟩, -⟩ := hD 0 hS
    exact Nat.lt_of_le_of_lt (Nat.zero_le a) ha
  have hts : ∀ t ∈ ts, ∃ i l, t = i :: l ∧ Spec.InRange m.nStates i := by
    intro u hu
    match u, hne u hu, hr u hu with
    | i :: l, _, hr => exact ⟨i, l, rfl, hr i List.mem_cons_self⟩
  have hE := fun θ => C66_expected_hard m hM hA hS ts hts n (by omega) γ o.set.tol g0 g1 θ
  choose E π v q e1 e2 e3 e4 e5 e6 using hE
  refine refit_reach m ts h0 hne hr c hc hF hS n hn _ E e1 (fun x => ?_) f _ (fun x => ?_) k o start hd hlr hk htol hs
  · rw [Finset.sum_congr rfl fun f _ => e4 x f]
    exact walkFeatures_total hD (e2 x) (e3 x) h0 hts hF n
  · rw [e4]; exact error_between hM (e2 x) h0 hne hr (by omega) b0 hb

/-- The same for `soft=True`, the default. -/
theorem C158_refits_soft (o : MceIrl ℝ) (hd : 1 ≤ o.set.decay) (hlr : 0 < o.lr) (m : Mdp ℝ) (hM : Spec.SubStochastic m.trans)
    (hD : Spec.NoDeadEnds m.trans) (hS : 0 < m.nStates) (ts : List (List Int)) (h0 : ts ≠ []) (hne : ∀ t ∈ ts, t ≠ [])
    (hr : ∀ t ∈ ts, ∀ i ∈ t, Spec.InRange m.nStates i) (c : ℝ) (hc : 0 < c) (hF : Spec.TotalIs m c)
    (n : Nat) (hn : 1 < n) (γ : ℝ) (g0 : 0 < γ) (g1 : γ < 1)
    (start : Nat → ℝ) (hs : o.theta = .none ∧ start = (fun _ => 0) ∨ o.theta = .vec start) (hk : 2 ≤ o.set.maxIter)
    (htol : o.set.tol ≤ c * (n - 1) / m.nFeatures) (f : Nat) (b : ℝ) (b0 : 0 ≤ b)
    (hb : ∀ s, s < m.nStates → 0 ≤ m.features.get f s ∧ m.features.get f s ≤ b) (k : Nat) :
    ∃ x, ((MceIrl.refit m ts (.list []) (mceSoft m n γ o.set.tol ts) k o).fit m ts (.list [])
        (mceSoft m n γ o.set.tol ts)).2 = .ok x ∧ |x f - start f| ≤ 3 * (o.lr * (b * n)) := by
  have hA : 0 < m.nActions := by
    obtain ⟨⟨a, ha, -⟩, -⟩ := hD 0 hS
    exact Nat.lt_of_le_of_lt (Nat.zero_le a) ha
  have hts : ∀ t ∈ ts, ∃ i l, t = i :: l ∧ Spec.InRange m.nStates i := by
    intro u hu
    match u, hne u hu, hr u hu with
    | i :: l, _, hr => exact ⟨i, l, rfl, hr i List.mem_cons_self⟩
  have hE := fun θ => C66_expected_soft m hM hA hS ts hts n (by omega) γ o.set.tol g0 g1 θ
  choose E π v q e1 e2 e3 e4 e5 e6 using hE
  refine refit_reach m ts h0 hne hr c hc hF hS n hn _ E e1 (fun x => ?_) f _ (fun x => ?_) k o start hd hlr hk htol hs
  · rw [Finset.sum_congr rfl fun f _ => e4 x f]
    exact walkFeatures_total hD (e2 x) (e3 x) h0 hts hF n
  · rw [e4]; exact error_between hM (e2 x) h0 hne hr (by omega) b0 hb

theorem shares_of_single {n : Nat} : ∀ {ts : List (List Int)}, (∀ t ∈ ts, ∃ i, t = [i]) → ∀ s,
    (ts.map fun t => (Spec.visits n t s : K) / (t.length : K)).sum =
      ((ts.map fun t => Spec.stateOf n (t.headD 0)).count s : K)
  | [], _, s => by simp
  | t :: ts, h, s => by
    obtain ⟨i, rfl⟩ := h t List.mem_cons_self
    rw [List.map_cons, List.sum_cons, shares_of_single (fun u hu => h u (List.mem_cons_of_mem _ hu)) s, List.map_cons,
      List.count_cons]
    by_cases e : Spec.stateOf n i = s
    · simp [Spec.visits, e, add_comm]
    · simp [Spec.visits, e]

/-- What holds: with `VI_max_iter = 1` and trajectories of a single state, observed and expected counts agree from the
start. The fit stops after one iteration, without a warning, and only ignored weights are changed (to 0). Missing: all
other settings and trajectories. -/
theorem C158_partial (o : MceIrl K) (m : Mdp K) (hM : Spec.SubStochastic m.trans) (hA : 0 < m.nActions)
    (hS : 0 < m.nStates) (ts : List (List Int)) (l : List Int) (hv : ∀ i ∈ l, Spec.InRange m.nFeatures i) (h0 : ts ≠ [])
    (hts : ∀ t ∈ ts, ∃ i, t = [i] ∧ Spec.InRange m.nStates i) (γ : K) (g0 : 0 < γ) (g1 : γ < 1)
    (start : Nat → K) (hs : o.theta = .none ∧ start = (fun _ => 0) ∨ o.theta = .vec start) (hk : 0 < o.set.maxIter)
    (t0 : 0 < o.set.tol) :
    ∃ x err, (o.fit m ts (.list l) (mceHard m 1 γ o.set.tol ts)).2 = .ok x ∧
      (∀ f, x f = if Spec.Names m.nFeatures l f then 0 else start f) ∧
      o.errorHistory m ts (.list l) (mceHard m 1 γ o.set.tol ts) = some [err] ∧ (∀ f, err f = 0) ∧
      o.warns m ts (.list l) (mceHard m 1 γ o.set.tol ts) = false := by
  have hts' : ∀ t ∈ ts, ∃ i l, t = i :: l ∧ Spec.InRange m.nStates i := fun t ht => by
    obtain ⟨i, rfl, hi⟩ := hts t ht
    exact ⟨i, [], rfl, hi⟩
  have hr : ∀ t ∈ ts, ∀ i ∈ t, Spec.InRange m.nStates i := by
    intro t ht i hi
    obtain ⟨j, rfl, hj⟩ := hts t ht
    rw [List.mem_singleton] at hi
    rwa [hi]
  have h1 : ts.head? ≠ some [] := by
    intro h
    obtain ⟨j, hj, -⟩ := hts [] (List.mem_of_head? h)
    cases hj
  have hE := fun θ => C66_expected_hard m hM hA hS ts hts' 1 one_pos γ o.set.tol g0 g1 θ
  choose E π v q e1 e2 e3 e4 e5 e6 using hE
  have same : ∀ x f, observedCounts m ts f - E x f = 0 := by
    intro x f
    rw [e4, walkFeatures_eq, sub_eq_zero]
    unfold observedCounts
    refine Finset.sum_congr rfl fun s _ => ?_
    rw [nested_eq_average m.nStates ts (fun t ht => by
        obtain ⟨i, rfl, -⟩ := hts t (List.mem_of_mem_tail ht)
        rfl) s,
      shares_of_single (fun t ht => by
        obtain ⟨i, rfl, -⟩ := hts t ht
        exact ⟨i, rfl⟩) s]
    simp [Spec.stateDist, Spec.startShare]
  obtain ⟨N, a1, a2, a3, a4, -, a5⟩ := errorHistory_spec o m ts (.list l) hv h0 h1 hr _ E e1 start hs hk _ rfl
  set w := Spec.ascend (Spec.Ignored m.nFeatures (.list l)) (Spec.actualRate o.lr o.set.decay) (observedCounts m ts) E start
    with hw
  have hz : ∀ i f, errAt (Spec.Ignored m.nFeatures (.list l)) (observedCounts m ts) E w i f = 0 := by
    intro i f
    unfold errAt
    rw [same]
    simp
  have hmean : ∀ i, meanErr m.nFeatures (Spec.Ignored m.nFeatures (.list l)) (observedCounts m ts) E w i < o.set.tol := by
    intro i
    unfold meanErr
    rw [Finset.sum_eq_zero fun f _ => by rw [hz, abs_zero], zero_div]
    exact t0
  have hN : N = 1 := by
    by_contra h
    exact a5 0 (by omega) (hmean 0)
  subst hN
  refine ⟨_, _, a3, fun f => ?_, a4, fun f => hz 0 f, ?_⟩
  · show (if Spec.Names m.nFeatures l f then _ else _) = _
    split_ifs with hc
    · rfl
    · show (if Spec.Names m.nFeatures l f then 0 else start f) + _ * _ = start f
      rw [same, mul_zero, add_zero, if_neg hc]
  · unfold MceIrl.warns
    rw [a4]
    simp only [List.range_one, List.map_singleton, List.getLast?_singleton]
    refine decide_eq_false (not_not.2 ?_)
    unfold npSum
    rw [Finset.sum_eq_zero fun f _ => hz 0 f, zero_div]
    exact t0

/-- A corridor of three states, each with one of two features, which are 0 or 1. -/
theorem exOneOfTwo : ∃ m : Mdp Rat, Mdp.GridReach .square 1 3 false m ∧ Spec.NoDeadEnds m.trans ∧
    Spec.TotalIs m 1 ∧ m.nFeatures = 2 ∧ m.nStates = 3 ∧
    ∀ s, s < m.nStates → 0 ≤ m.features.get 0 s ∧ m.features.get 0 s ≤ 1 := by
  have key : ∀ x : Py (Mdp Rat), Mdp.initGrid .square 1 3 false
      ⟨2, 3, fun f s => if f = 0 then (if s = 1 then 1 else 0) else if s = 1 then 0 else 1⟩ none = x →
      (match x with
        | .error _ => false
        | .ok m => decide (m.trans.nS = 3 ∧ m.trans.nA = 4 ∧ m.nFeatures = 2) &&
          decide (∀ s : Fin 3, (∃ a : Fin 4, ∃ t : Fin 3, 0 < m.trans.p s.1 a.1 t.1) ∧
            (∀ a : Fin 4, (∃ t : Fin 3, 0 < m.trans.p s.1 a.1 t.1) →
              ∑ t ∈ Finset.range 3, m.trans.p s.1 a.1 t = 1) ∧
            ∑ f ∈ Finset.range 2, m.features.get f s.1 = 1 ∧ 0 ≤ m.features.get 0 s.1 ∧ m.features.get 0 s.1 ≤ 1)) = true →
      ∃ m : Mdp Rat, Mdp.GridReach .square 1 3 false m ∧ Spec.NoDeadEnds m.trans ∧
        Spec.TotalIs m 1 ∧ m.nFeatures = 2 ∧ m.nStates = 3 ∧
        ∀ s, s < m.nStates → 0 ≤ m.features.get 0 s ∧ m.features.get 0 s ≤ 1 := by
    intro x hx h
    rcases x with err | m
    · cases h
    simp only [Bool.and_eq_true, decide_eq_true_eq] at h
    obtain ⟨⟨n1, n2, n3⟩, h⟩ := h
    refine ⟨m, .init hx, ?_, ?_, n3, n1, fun s hs => (h ⟨s, by rw [← n1]; exact hs⟩).2.2.2⟩
    · intro s hs
      rw [n1] at hs
      obtain ⟨⟨a, t, h1⟩, h2, -⟩ := h ⟨s, hs⟩
      refine ⟨⟨a, by rw [n2]; exact a.2, t, by rw [n1]; exact t.2, h1⟩, ?_⟩
      rintro b hb ⟨u, hu, h3⟩
      rw [n2] at hb
      rw [n1] at hu ⊢
      exact h2 ⟨b, hb⟩ ⟨⟨u, hu⟩, h3⟩
    · intro s hs
      have hs' : s < 3 := by rw [← n1]; exact hs
      rw [n3]
      exact (h ⟨s, hs'⟩).2.2.1
  exact key _ rfl (by decide +kernel)

/-- Default rates, five iterations: however often it is fitted, the weights stay within `3 · 0.3 · 10` of zero. -/
example : ∃ (m : Mdp Rat) (o : MceIrl Rat), MceIrl.init ⟨1, 5, 1 / 100000000⟩ (3 / 10) none = .ok o ∧ ∀ k, ∃ x,
    ((MceIrl.refit m [[0, 1, 2]] (.list []) (mceHard m 10 (9 / 10) (1 / 100000000) [[0, 1, 2]]) k o).fit m [[0, 1, 2]]
      (.list []) (mceHard m 10 (9 / 10) (1 / 100000000) [[0, 1, 2]])).2 = .ok x ∧ |x 0| ≤ 9 := by
  obtain ⟨m, hm, hD, hT, hF, hS, hb⟩ := exOneOfTwo
  refine ⟨m, ⟨⟨1, 5, 1 / 100000000⟩, 3 / 10, 3 / 10, .none, .obj, false⟩, by rw [MceIrl.init, if_neg (by norm_num)],
    fun k => ?_⟩
  obtain ⟨x, h1, h2⟩ := C158_refits ⟨⟨1, 5, 1 / 100000000⟩, 3 / 10, 3 / 10, .none, .obj, false⟩ (le_refl _) (by norm_num) m
    (C27_grid _ _ _ _ _ hm).1 hD (by rw [hS]; decide) [[0, 1, 2]] (by simp) (by simp) (by rw [hS]; decide) 1 one_pos hT
    10 (by decide) (9 / 10) (by norm_num) (by norm_num) (fun _ => 0) (.inl ⟨rfl, rfl⟩) (by decide)
    (by rw [hF]; norm_num) 0 1 zero_le_one hb k
  refine ⟨x, h1, ?_⟩
  simpa using le_trans h2 (by norm_num)

/-- Without decay, a hundred iterations leave a total weight of at most `-100 · 0.3 · 9`. -/
example : ∃ (m : Mdp Rat) (o : MceIrl Rat) (x : Nat → Rat), MceIrl.init ⟨0, 100, 1 / 100000000⟩ (3 / 10) none = .ok o ∧
    (o.fit m [[0, 1, 2], [1, 0]] (.list []) (mceHard m 10 (9 / 10) (1 / 100000000) [[0, 1, 2], [1, 0]])).2 = .ok x ∧
    x 0 + x 1 ≤ -270 := by
  obtain ⟨m, hm, hD, hT, hF, hS, -⟩ := exOneOfTwo
  obtain ⟨x, errs, h1, -, -, -, -, h2⟩ := C158_refuted ⟨⟨0, 100, 1 / 100000000⟩, 3 / 10, 3 / 10, .none, .obj, false⟩ m
    (C27_grid _ _ _ _ _ hm).1 hD (by rw [hS]; decide) [[0, 1, 2], [1, 0]] (by simp) (by simp) (by rw [hS]; decide) 1
    one_pos hT 10 (by decide) (9 / 10) (by norm_num) (by norm_num) (fun _ => 0) (.inl ⟨rfl, rfl⟩) (by decide)
    (by norm_num) (by norm_num) (by rw [hF]; norm_num)
  refine ⟨m, _, x, by rw [MceIrl.init, if_neg (by norm_num)], h1, ?_⟩
  have := h2 rfl
  rw [hF, Finset.sum_range_succ, Finset.sum_range_one] at this
  refine le_trans this ?_
  norm_num

/-- Two trajectories of one state each. -/
example : ∃ (m : Mdp Rat) (o : MceIrl Rat) (x : Nat → Rat), MceIrl.init ⟨1, 5, 1 / 100⟩ (3 / 10) (some fun _ => 7) = .ok o ∧
    (o.fit m [[0], [2]] (.list [1]) (mceHard m 1 (9 / 10) (1 / 100) [[0], [2]])).2 = .ok x ∧ x 0 = 7 ∧ x 1 = 0 := by
  obtain ⟨m, hm, hD, hT, hF, hS, -⟩ := exOneOfTwo
  obtain ⟨x, err, h1, h2, -⟩ := C158_partial ⟨⟨1, 5, 1 / 100⟩, 3 / 10, 3 / 10, .vec fun _ => 7, .vec fun _ => 7, false⟩ m
    (C27_grid _ _ _ _ _ hm).1 (by rw [hm.ok.nActions]; decide) (by rw [hS]; decide) [[0], [2]] [1] (by rw [hF]; decide) (by simp)
    (by rw [hS]; intro t ht; simp at ht; rcases ht with rfl | rfl <;> exact ⟨_, rfl, by decide⟩)
    (9 / 10) (by norm_num) (by norm_num) _ (.inr rfl) (by decide) (by norm_num)
  refine ⟨m, _, x, by rw [MceIrl.init, if_neg (by norm_num)], h1, ?_, ?_⟩
  · rw [h2, hF]; decide +kernel
  · rw [h2, hF]; decide +kernel

end MaMDP
