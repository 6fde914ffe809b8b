import Verif.Spec.IRLReport
import Verif.Model.IRLReport
import Verif.Props.IRL
import Verif.Props.Algorithm

/-! # C119: what a max-causal-entropy fit reports -/

set_option linter.unusedSectionVars false

namespace MaMDP

variable {K : Type} [Field K] [LinearOrder K] [IsStrictOrderedRing K]

theorem errorHistory_spec (o : MceIrl K) (m : Mdp K) (ts : List (List Int)) (ign : Ignore)
    (hv : Spec.ValidIgnore m.nFeatures ign) (h0 : ts ≠ []) (h1 : ts.head? ≠ some [])
    (hr : ∀ t ∈ ts, ∀ i ∈ t, Spec.InRange m.nStates i)
    (expected : (Nat → K) → Py (Nat → K)) (E : (Nat → K) → Nat → K) (hE : ∀ x, expected x = .ok (E x))
    (start : Nat → K) (hs : o.theta = .none ∧ start = (fun _ => 0) ∨ o.theta = .vec start)
    (hk : 0 < o.set.maxIter) (w : Nat → Nat → K)
    (hw : w = Spec.ascend (Spec.Ignored m.nFeatures ign) (Spec.actualRate o.lr o.set.decay)
      (observedCounts m ts) E start) :
    ∃ N, 0 < N ∧ N ≤ o.set.maxIter ∧ (o.fit m ts ign expected).2 = .ok (w N) ∧
      o.errorHistory m ts ign expected =
        some ((List.range N).map (errAt (Spec.Ignored m.nFeatures ign) (observedCounts m ts) E w)) ∧
      (N < o.set.maxIter → meanErr m.nFeatures (Spec.Ignored m.nFeatures ign) (observedCounts m ts) E w (N - 1)
        < o.set.tol) ∧
      ∀ j, j + 1 < N → ¬ meanErr m.nFeatures (Spec.Ignored m.nFeatures ign) (observedCounts m ts) E w j < o.set.tol := by
  obtain ⟨N, -, h3, h4, h5, h6, h7⟩ := irlLoop_spec o.set m.nFeatures ign hv expected E hE (observedCounts m ts) start
    o.lr w hw o.set.maxIter 0 []
  have hlr : lrAfter o.lr o.set.decay 0 = o.lr := by simp [lrAfter]
  have hw0 : w 0 = fun f => if Spec.Ignored m.nFeatures ign f then 0 else start f := by rw [hw]; rfl
  rw [hlr, hw0] at h5
  have hF : featureCounts m (fun s => Spec.nestedVisits m.nStates ts s / (ts.length : K)) = observedCounts m ts := by
    funext f; rfl
  have hrun1 : ∀ o1 : MceIrl K, o1.set = o.set → o1.lr = o.lr →
      (MceIrl.fit.run m ign expected o1 (fun f => if Spec.Ignored m.nFeatures ign f then 0 else observedCounts m ts f)
        start).2 = .ok (w N) := by
    intro o1 e1 e2
    unfold MceIrl.fit.run
    rw [zeroAt_valid hv]
    simp only
    rw [e1, e2, h5]
    simp only
    rw [if_neg (by omega)]
  have hrun : MceIrl.errorHistory.run o m ign expected
      (fun f => if Spec.Ignored m.nFeatures ign f then 0 else observedCounts m ts f) start =
      some ((List.range N).map (errAt (Spec.Ignored m.nFeatures ign) (observedCounts m ts) E w)) := by
    unfold MceIrl.errorHistory.run
    rw [zeroAt_valid hv]
    simp only
    rw [h5]
    simp only
    rw [if_neg (by omega), List.nil_append, Nat.sub_zero, List.range_eq_range']
  refine ⟨N, h4 hk, by omega, ?_, ?_, fun h => h6 (by omega), fun j h => h7 j (by omega) h⟩
  all_goals
    match ts, h0, h1 with
    | [] :: _, _, h1 => exact absurd rfl h1
    | (i :: t) :: ts, _, _ =>
      first | unfold MceIrl.fit | unfold MceIrl.errorHistory
      rw [empirical_eq, if_pos hr]
      simp only
      rw [hF, zeroAt_valid hv]
      simp only
      rcases hs with ⟨e, e'⟩ | e
      · subst e'
        rw [e]
        first | exact hrun | exact hrun1 _ rfl rfl
      · rw [e]
        first | exact hrun | exact hrun1 _ rfl rfl

/-- **C119, what a fit records**: one error per iteration, observed minus expected counts at the weights before the
iteration, 0 for ignored features. -/
theorem C119_history (o : MceIrl K) (m : Mdp K) (ts : List (List Int)) (l : List Int)
    (hv : ∀ i ∈ l, Spec.InRange m.nFeatures i) (h0 : ts ≠ []) (h1 : ts.head? ≠ some [])
    (hr : ∀ t ∈ ts, ∀ i ∈ t, Spec.InRange m.nStates i)
    (expected : (Nat → K) → Py (Nat → K)) (E : (Nat → K) → Nat → K) (hE : ∀ x, expected x = .ok (E x))
    (start : Nat → K) (hs : o.theta = .none ∧ start = (fun _ => 0) ∨ o.theta = .vec start)
    (hk : 0 < o.set.maxIter) (w : Nat → Nat → K)
    (hw : w = Spec.ascend (Spec.Names m.nFeatures l) (Spec.actualRate o.lr o.set.decay) (observedCounts m ts) E start) :
    ∃ N errs, 0 < N ∧ N ≤ o.set.maxIter ∧ (o.fit m ts (.list l) expected).2 = .ok (w N) ∧
      o.errorHistory m ts (.list l) expected = some errs ∧ errs.length = N ∧
      ∀ i, i < N → ∃ err, errs[i]? = some err ∧
        ∀ f, err f = if Spec.Names m.nFeatures l f then 0 else observedCounts m ts f - E (w i) f := by
  obtain ⟨N, a1, a2, a3, a4, -⟩ := errorHistory_spec o m ts (.list l) hv h0 h1 hr expected E hE start hs hk w hw
  refine ⟨N, _, a1, a2, a3, a4, by simp, fun i hi =>
    ⟨errAt (Spec.Ignored m.nFeatures (.list l)) (observedCounts m ts) E w i, ?_, fun f => rfl⟩⟩
  rw [List.getElem?_map, List.getElem?_range hi]; rfl

/-- A fit returns exactly if it leaves a list of errors. -/
theorem C119_returns (o : MceIrl K) (m : Mdp K) (ts : List (List Int)) (ign : Ignore)
    (expected : (Nat → K) → Py (Nat → K)) :
    (∃ x, (o.fit m ts ign expected).2 = .ok x) ↔ ∃ errs, o.errorHistory m ts ign expected = some errs := by
  have hrun : ∀ (o1 : MceIrl K) (trueF x : Nat → K), o1.set = o.set → o1.lr = o.lr →
      ((∃ y, (MceIrl.fit.run m ign expected o1 trueF x).2 = .ok y) ↔
        ∃ errs, MceIrl.errorHistory.run o m ign expected trueF x = some errs) := by
    intro o1 trueF x e1 e2
    unfold MceIrl.fit.run MceIrl.errorHistory.run
    rw [e1, e2]
    cases zeroAt m.nFeatures x ign with
    | error e => simp
    | ok y =>
      simp only
      rcases irlLoop o.set m.nFeatures ign expected trueF o.set.maxIter 0 ⟨y, o.lr, []⟩ with ⟨st, err | u⟩
      · simp
      · by_cases h : o.set.maxIter = 0
        · simp [h]
        · simp [h]
  unfold MceIrl.fit MceIrl.errorHistory
  match ts with
  | [] => simp
  | [] :: _ => simp
  | (i :: t) :: ts =>
    simp only
    cases empirical (K := K) m.nStates ((i :: t) :: ts) with
    | error e => simp
    | ok D =>
      simp only
      cases zeroAt m.nFeatures (featureCounts m D) ign with
      | error e => simp
      | ok trueF =>
        simp only
        cases hth : o.theta with
        | obj =>
          simp only
          constructor
          · rintro ⟨x, hx⟩
            split at hx <;> cases hx
          · rintro ⟨x, hx⟩; cases hx
        | none => exact hrun _ _ _ rfl rfl
        | vec x => exact hrun _ _ _ rfl rfl

theorem irlLoop_errors (set : IrlSettings K) (nF : Nat) (ign : Ignore) (expected : (Nat → K) → Py (Nat → K))
    (trueF : Nat → K) : ∀ (k i : Nat) (s st : IrlState K), irlLoop set nF ign expected trueF k i s = (st, .ok ()) →
      s.errors.length ≤ st.errors.length ∧ (0 < k → s.errors.length < st.errors.length)
  | 0, i, s, st, h => by
    cases h
    exact ⟨le_refl _, fun h => absurd h (lt_irrefl _)⟩
  | k + 1, i, s, st, h => by
    rw [irlLoop] at h
    cases h1 : expected s.theta with
    | error e => rw [h1] at h; cases h
    | ok dF =>
      rw [h1] at h
      simp only at h
      cases h2 : zeroAt nF dF ign with
      | error e => rw [h2] at h; cases h
      | ok dF' =>
        rw [h2] at h
        simp only at h
        split_ifs at h
        · cases h
          simp
        · have := (irlLoop_errors set nF ign expected trueF k (i + 1) _ st h).1
          simp only [List.length_append, List.length_singleton] at this
          exact ⟨by omega, fun _ => by omega⟩

theorem errorHistory_last (o : MceIrl K) (m : Mdp K) (ts : List (List Int)) (ign : Ignore)
    (expected : (Nat → K) → Py (Nat → K)) (errs : List (Nat → K))
    (h : o.errorHistory m ts ign expected = some errs) : ∃ err, errs.getLast? = some err := by
  have hrun : ∀ trueF x, MceIrl.errorHistory.run o m ign expected trueF x = some errs → errs ≠ [] := by
    intro trueF x h
    unfold MceIrl.errorHistory.run at h
    cases h1 : zeroAt m.nFeatures x ign with
    | error e => rw [h1] at h; cases h
    | ok y =>
      rw [h1] at h
      simp only at h
      rcases h2 : irlLoop o.set m.nFeatures ign expected trueF o.set.maxIter 0 ⟨y, o.lr, []⟩ with ⟨st, err | u⟩
      · rw [h2] at h; cases h
      · rw [h2] at h
        simp only at h
        split_ifs at h with h3
        have := (irlLoop_errors _ _ _ _ _ _ _ _ _ h2).2 (Nat.pos_of_ne_zero h3)
        cases h
        exact List.ne_nil_of_length_pos (by simpa using this)
  have hne : errs ≠ [] := by
    unfold MceIrl.errorHistory at h
    match ts with
    | [] => cases h
    | [] :: _ => cases h
    | (i :: t) :: ts =>
      simp only at h
      cases h1 : empirical (K := K) m.nStates ((i :: t) :: ts) with
      | error e => rw [h1] at h; cases h
      | ok D =>
        rw [h1] at h
        simp only at h
        cases h2 : zeroAt m.nFeatures (featureCounts m D) ign with
        | error e => rw [h2] at h; cases h
        | ok trueF =>
          rw [h2] at h
          simp only at h
          cases h3 : o.theta with
          | obj => rw [h3] at h; cases h
          | none => rw [h3] at h; exact hrun _ _ h
          | vec x => rw [h3] at h; exact hrun _ _ h
  exact ⟨_, List.getLast?_eq_getLast_of_ne_nil hne⟩

/-- When the warning comes: if the mean of the last error, with its sign, is not below the tolerance. Once the mean
*absolute* error is below the tolerance it does not come. -/
theorem C119_warning (o : MceIrl K) (m : Mdp K) (ts : List (List Int)) (ign : Ignore)
    (expected : (Nat → K) → Py (Nat → K)) (errs : List (Nat → K))
    (h : o.errorHistory m ts ign expected = some errs) :
    ∃ err, errs.getLast? = some err ∧
      (o.warns m ts ign expected = true ↔ o.set.tol ≤ (∑ f ∈ Finset.range m.nFeatures, err f) / m.nFeatures) ∧
      (Spec.meanAbs m.nFeatures err < o.set.tol → o.warns m ts ign expected = false) := by
  obtain ⟨err, he⟩ := errorHistory_last o m ts ign expected errs h
  have hw : o.warns m ts ign expected = true ↔
      o.set.tol ≤ (∑ f ∈ Finset.range m.nFeatures, err f) / m.nFeatures := by
    unfold MceIrl.warns
    rw [h]
    simp only
    rw [he]
    simp only [decide_eq_true_eq, not_lt]
    rfl
  refine ⟨err, he, hw, fun hlt => ?_⟩
  rw [Bool.eq_false_iff, Ne, hw, not_le]
  refine lt_of_le_of_lt ?_ hlt
  exact div_le_div_of_nonneg_right (Finset.sum_le_sum fun f _ => le_abs_self _) (Nat.cast_nonneg _)

/-- **C119, what holds**: if no feature is expected more often than it was observed in the last iteration, then no warning
means that the mean absolute error is below the tolerance. Missing: errors of the other sign. -/
theorem C119_partial (o : MceIrl K) (m : Mdp K) (ts : List (List Int)) (ign : Ignore)
    (expected : (Nat → K) → Py (Nat → K)) (errs : List (Nat → K)) (err : Nat → K)
    (h : o.errorHistory m ts ign expected = some errs) (he : errs.getLast? = some err)
    (hpos : ∀ f, f < m.nFeatures → 0 ≤ err f) (hw : o.warns m ts ign expected = false) :
    Spec.meanAbs m.nFeatures err < o.set.tol := by
  obtain ⟨err', he', h1, -⟩ := C119_warning o m ts ign expected errs h
  rw [he] at he'
  cases he'
  rw [Bool.eq_false_iff, Ne, h1, not_le] at hw
  unfold Spec.meanAbs
  rwa [Finset.sum_congr rfl fun f hf => abs_of_nonneg (hpos f (Finset.mem_range.1 hf))]

/-- **C119 is false of the code**, and not only in special cases. Whenever every state can be left and has the same
total of features `c > 0`, expected counts add up to `VI_max_iter` times that, observed ones to no more than once
(C83): the mean error is negative in every iteration. No fit ever warns, and none has converged. -/
theorem C119_refuted (m : Mdp K) (hM : Spec.SubStochastic m.trans) (hD : Spec.NoDeadEnds m.trans)
    (hS : 0 < m.nStates) (c : K) (hc : 0 < c) (hT : Spec.TotalIs m c) (ts : List (List Int)) (h0 : ts ≠ [])
    (hne : ∀ t ∈ ts, t ≠ []) (hr : ∀ t ∈ ts, ∀ i ∈ t, Spec.InRange m.nStates i) (o : MceIrl K)
    (hs : o.theta = .none ∨ ∃ x, o.theta = .vec x) (hk : 0 < o.set.maxIter) (n : Nat) (hn : 1 < n) (γ : K)
    (g0 : 0 < γ) (g1 : γ < 1) (t0 : 0 < o.set.tol) (t1 : o.set.tol ≤ c * (n - 1) / m.nFeatures)
    (expected : (Nat → K) → Py (Nat → K)) (hexp : expected = mceHard m n γ o.set.tol ts) :
    ∃ x errs, (o.fit m ts (.list []) expected).2 = .ok x ∧ o.errorHistory m ts (.list []) expected = some errs ∧
      errs.length = o.set.maxIter ∧ (∀ err ∈ errs, o.set.tol ≤ Spec.meanAbs m.nFeatures err) ∧
      o.warns m ts (.list []) expected = false := by
  have hA : 0 < m.nActions := by
    obtain ⟨⟨a, ha, -⟩, -⟩ := hD 0 hS
    exact Nat.lt_of_le_of_lt (Nat.zero_le a) ha
  have hF : 0 < m.nFeatures := by
    rcases Nat.eq_zero_or_pos m.nFeatures with h | h
    · have := hT 0 hS
      rw [h] at this
      simp at this
      exact absurd this (ne_of_lt hc)
    · exact h
  have hF' : (0 : K) < m.nFeatures := by exact_mod_cast hF
  have hts : ∀ t ∈ ts, ∃ i l, t = i :: l ∧ Spec.InRange m.nStates i := by
    intro u hu
    match u, hne u hu, hr u hu with
    | i :: l, _, hr => exact ⟨i, l, rfl, hr i List.mem_cons_self⟩
  have h1 : ts.head? ≠ some [] := by
    intro h
    exact hne [] (List.mem_of_head? h) rfl
  have hexp' : ∀ θ, ∃ g, expected θ = .ok g ∧ ∑ f ∈ Finset.range m.nFeatures, g f = c * n := by
    intro θ
    obtain ⟨g, π, -, -, e1, e2, e3, e4, -⟩ := C66_expected_hard m hM hA hS ts hts n (by omega) γ o.set.tol g0 g1 θ
    refine ⟨g, by rw [hexp]; exact e1, ?_⟩
    have hd : ∀ k, ∑ s ∈ Finset.range m.nStates, Spec.stateDist m.trans π (Spec.startShare m.nStates ts) k s = 1 :=
      fun k => stateDist_sum hD e2 e3 _ (sum_startShare m.nStates ts h0 hts) k
    rw [Finset.sum_congr rfl fun f _ => (e4 f).trans (walkFeatures_eq ..), Finset.sum_comm,
      Finset.sum_congr rfl fun s hs' => by rw [← Finset.sum_mul, hT s (Finset.mem_range.1 hs')],
      ← Finset.mul_sum, Finset.sum_comm, Finset.sum_congr rfl fun k _ => hd k]
    simp
  choose E hE hEsum using hexp'
  obtain ⟨start, hs'⟩ : ∃ start : Nat → K, o.theta = .none ∧ start = (fun _ => 0) ∨ o.theta = .vec start := by
    rcases hs with h | ⟨x, h⟩
    · exact ⟨_, .inl ⟨h, rfl⟩⟩
    · exact ⟨x, .inr h⟩
  have hign : ∀ f, ¬ Spec.Ignored m.nFeatures (.list []) f := by
    rintro f ⟨i, hi, -⟩
    cases hi
  obtain ⟨N, a1, a2, a3, a4, a5, -⟩ := errorHistory_spec o m ts (.list []) (by intro i hi; cases hi) h0 h1 hr expected E hE
    start hs' hk _ rfl
  have hobs : ∑ f ∈ Finset.range m.nFeatures, observedCounts m ts f ≤ c := by
    have ht := (C67_total m.nStates ts h0 hne _ ((C67_exact (K := K) m.nStates ts).1 hr)).1
    unfold observedCounts
    rw [Finset.sum_comm, Finset.sum_congr rfl fun s hs' => by rw [← Finset.sum_mul, hT s (Finset.mem_range.1 hs')],
      ← Finset.mul_sum]
    nlinarith
  generalize hw : Spec.ascend (Spec.Ignored m.nFeatures (.list [])) (Spec.actualRate o.lr o.set.decay)
      (observedCounts m ts) E start = w at a3 a4 a5
  have hsum : ∀ i, ∑ f ∈ Finset.range m.nFeatures,
      errAt (Spec.Ignored m.nFeatures (.list [])) (observedCounts m ts) E w i f ≤ - (c * (n - 1)) := by
    intro i
    have : ∀ f, errAt (Spec.Ignored m.nFeatures (.list [])) (observedCounts m ts) E w i f =
        observedCounts m ts f - E (w i) f := fun f => if_neg (hign f)
    rw [Finset.sum_congr rfl fun f _ => this f, Finset.sum_sub_distrib, hEsum]
    linarith
  have habs : ∀ i, o.set.tol ≤ Spec.meanAbs m.nFeatures
      (errAt (Spec.Ignored m.nFeatures (.list [])) (observedCounts m ts) E w i) := by
    intro i
    refine t1.trans ?_
    refine div_le_div_of_nonneg_right ?_ hF'.le
    have h2 := Finset.sum_le_sum fun f (_ : f ∈ Finset.range m.nFeatures) =>
      neg_abs_le (errAt (Spec.Ignored m.nFeatures (.list [])) (observedCounts m ts) E w i f)
    rw [Finset.sum_neg_distrib] at h2
    have h3 := hsum i
    linarith
  have hN : N = o.set.maxIter := by
    by_contra hlt
    exact absurd (a5 (by omega)) (not_lt.2 (habs (N - 1)))
  refine ⟨_, _, a3, a4, by simp [hN], ?_, ?_⟩
  · intro err herr
    obtain ⟨i, -, rfl⟩ := List.mem_map.1 herr
    exact habs i
  · obtain ⟨err, e1, e2, -⟩ := C119_warning o m ts (.list []) expected _ a4
    obtain ⟨i, -, rfl⟩ := List.mem_map.1 (List.mem_of_getLast? e1)
    rw [Bool.eq_false_iff, Ne, e2, not_le]
    refine lt_of_le_of_lt (div_le_div_of_nonneg_right (hsum i) hF'.le) ?_
    have : (0 : K) < c * (n - 1) := mul_pos hc (by rw [sub_pos]; exact_mod_cast hn)
    have : - (c * (n - 1)) / m.nFeatures < (0 : K) := div_neg_of_neg_of_pos (by linarith) hF'
    linarith

/-- A corridor of three states, each with one of two features. -/
theorem exTwoFeatures : ∃ m : Mdp Rat, Mdp.GridReach .square 1 3 false m ∧ Spec.NoDeadEnds m.trans ∧
    Spec.TotalIs m 1 ∧ m.nFeatures = 2 ∧ m.nStates = 3 := by
  have key : ∀ x : Py (Mdp Rat), Mdp.initGrid .square 1 3 false
      ⟨2, 3, fun f s => if f = 0 then (if s = 1 then 1 else 0) else if s = 1 then 0 else 1⟩ none = x →
      (match x with
        | .error _ => false
        | .ok m => decide (m.trans.nS = 3 ∧ m.trans.nA = 4 ∧ m.nFeatures = 2) &&
          decide (∀ s : Fin 3, (∃ a : Fin 4, ∃ t : Fin 3, 0 < m.trans.p s.1 a.1 t.1) ∧
            (∀ a : Fin 4, (∃ t : Fin 3, 0 < m.trans.p s.1 a.1 t.1) →
              ∑ t ∈ Finset.range 3, m.trans.p s.1 a.1 t = 1) ∧
            ∑ f ∈ Finset.range 2, m.features.get f s.1 = 1)) = true →
      ∃ m : Mdp Rat, Mdp.GridReach .square 1 3 false m ∧ Spec.NoDeadEnds m.trans ∧
        Spec.TotalIs m 1 ∧ m.nFeatures = 2 ∧ m.nStates = 3 := by
    intro x hx h
    rcases x with err | m
    · cases h
    simp only [Bool.and_eq_true, decide_eq_true_eq] at h
    obtain ⟨⟨n1, n2, n3⟩, h⟩ := h
    refine ⟨m, .init hx, ?_, ?_, n3, n1⟩
    · intro s hs
      rw [n1] at hs
      obtain ⟨⟨a, t, h1⟩, h2, -⟩ := h ⟨s, hs⟩
      refine ⟨⟨a, by rw [n2]; exact a.2, t, by rw [n1]; exact t.2, h1⟩, ?_⟩
      rintro b hb ⟨u, hu, h3⟩
      rw [n2] at hb
      rw [n1] at hu ⊢
      exact h2 ⟨b, hb⟩ ⟨⟨u, hu⟩, h3⟩
    · intro s hs
      have hs' : s < 3 := by rw [← n1]; exact hs
      rw [n3]
      exact (h ⟨s, hs'⟩).2.2
  exact key _ rfl (by decide +kernel)

/-- With the defaults for everything but the iteration limits, and one trajectory of three states. -/
example : ∃ (m : Mdp Rat) (o : MceIrl Rat) (x : Nat → Rat) (errs : List (Nat → Rat)),
    MceIrl.init ⟨1, 5, 1 / 100000000⟩ (3 / 10) none = .ok o ∧
    (o.fit m [[0, 1, 2]] (.list []) (mceHard m 10 (9 / 10) (1 / 100000000) [[0, 1, 2]])).2 = .ok x ∧
    o.errorHistory m [[0, 1, 2]] (.list []) (mceHard m 10 (9 / 10) (1 / 100000000) [[0, 1, 2]]) = some errs ∧
    errs.length = 5 := by
  obtain ⟨m, hm, hD, hT, hF, hS⟩ := exTwoFeatures
  obtain ⟨x, errs, h1, h2, h3, -⟩ := C119_refuted m (C27_grid _ _ _ _ _ hm).1 hD (by rw [hS]; decide) 1 one_pos hT
    [[0, 1, 2]] (by simp) (by simp) (by rw [hS]; decide)
    ⟨⟨1, 5, 1 / 100000000⟩, 3 / 10, 3 / 10, .none, .obj, false⟩ (.inl rfl) (by decide) 10 (by decide) (9 / 10)
    (by norm_num) (by norm_num) (by norm_num) (by rw [hF]; norm_num) _ rfl
  exact ⟨m, _, x, errs, by rw [MceIrl.init, if_neg (by norm_num)], h1, h2, h3⟩

/-- The whole fit of C68 with the default `soft=True`, on a two by two grid with any features, from two
trajectories. -/
example (f : Arr2 ℝ) (hf : f.d1 = 4) : ∃ (m : Mdp ℝ) (o : MceIrl ℝ) (x : Nat → ℝ),
    Mdp.initGrid .square 2 2 false f none = .ok m ∧ MceIrl.init ⟨1, 5, 1 / 100⟩ (3 / 10) none = .ok o ∧
    (o.fit m [[0, 1, 3], [2, 3]] (.list []) (mceSoft m 10 (9 / 10) (1 / 100) [[0, 1, 3], [2, 3]])).2 = .ok x := by
  obtain ⟨m, hm, h1, h2, -⟩ := C02_square_transitions 2 2 false f (by decide) hf
  obtain ⟨N, o', w, err, -, -, h3, -⟩ := C68_partial_soft ⟨⟨1, 5, 1 / 100⟩, 3 / 10, 3 / 10, .none, .obj, false⟩ m
    (C27_grid _ _ _ _ _ (.init hm)).1 (by rw [h2]; decide) (by rw [h1]; decide) [[0, 1, 3], [2, 3]] []
    (by simp) (by simp) (by simp) (by rw [h1]; decide) 10 (by decide) (9 / 10) (by norm_num) (by norm_num) _
    (.inl ⟨rfl, rfl⟩) (by decide)
  exact ⟨m, _, w N, hm, by rw [MceIrl.init, if_neg (by norm_num)], by rw [h3]⟩

end MaMDP
