import Verif.Model.ThetaLength
import Verif.Lemmas.IRL

/-! # C179: weights for another number of features -/

set_option linter.unusedSectionVars false

namespace MaMDP

variable {K : Type} [Field K] [LinearOrder K] [IsStrictOrderedRing K]

/-! ### With one weight per feature nothing is new -/

/-- With one weight per feature `MaxCausalEntIRL.fit` is what it was. -/
theorem C179_same_mce (o : MceIrl K) (m : Mdp K) (ts : List (List Int)) (ign : Ignore)
    (expected : (Nat → K) → Py (Nat → K)) : o.fitSized m.nFeatures m ts ign expected = o.fit m ts ign expected := by
  have h : (fun θ => if m.nFeatures = m.nFeatures then expected θ else .error .valueError) = expected :=
    funext fun θ => if_pos rfl
  have hrun : ∀ (o : MceIrl K) trueF x, MceIrl.fitSized.run m ign expected o m.nFeatures trueF x =
      MceIrl.fit.run m ign expected o trueF x := by
    intro o trueF x
    unfold MceIrl.fitSized.run MceIrl.fit.run
    rw [h]
    rcases zeroAt m.nFeatures x ign with e | x
    · rfl
    dsimp only
    rcases irlLoop o.set m.nFeatures ign expected trueF o.set.maxIter 0 ⟨x, o.lr, []⟩ with ⟨st, e | _⟩ <;> rfl
  unfold MceIrl.fitSized MceIrl.fit
  rcases ts with _ | ⟨_ | ⟨i, t⟩, ts⟩
  · rfl
  · rfl
  dsimp only
  rcases empirical m.nStates ((i :: t) :: ts) with e | D
  · rfl
  dsimp only
  rcases zeroAt m.nFeatures (featureCounts m D) ign with e | trueF
  · rfl
  dsimp only
  rcases o.theta with _ | x | _
  · exact hrun _ _ _
  · exact hrun _ _ _
  · rfl

theorem htPairsSized_same (set : HtSettings K) (k : Nat) (M : Trans K)
    (z : List Nat → (Nat → Nat → Ext K) → Nat → Nat → Ext K) : ∀ (t : List Int) (Q : Py (Nat → Nat → Nat → Ext K)) n R',
    htPairsSized set k k M z Q t n R' = htPairs set false M z Q t n R'
  | [], _, _, _ => by unfold htPairsSized htPairs; rfl
  | [_], _, _, _ => by unfold htPairsSized htPairs; rfl
  | s :: t :: l, Q, n, R' => by
    unfold htPairsSized htPairs
    rcases pyIdx M.nS s with _ | i
    · rfl
    rcases pyIdx M.nS t with _ | j
    · rfl
    dsimp only
    rcases npWhere M.nA fun a => decide (M.p i a j ≠ 0) with _ | ⟨a, as⟩
    · rfl
    rcases Q with e | Q
    · rfl
    dsimp only
    rcases singleMove set M z Q s t with e | R
    · rfl
    dsimp only
    rw [if_pos rfl, htPairsSized_same set k M z (t :: l)]
    rfl

theorem htLoopSized_same (set : HtSettings K) (k : Nat) (z : List Nat → (Nat → Nat → Ext K) → Nat → Nat → Ext K) :
    ∀ (data : List (Mdp K × Py (Nat → Nat → Nat → Ext K) × List Int)) n R', (∀ d ∈ data, d.1.nFeatures = k) →
      htLoopSized set k z data n R' = htLoop set false z data n R'
  | [], _, _, _ => rfl
  | (m, Q, t) :: l, n, R', h => by
    unfold htLoopSized htLoop
    rw [show m.nFeatures = k from h _ List.mem_cons_self, htPairsSized_same]
    rcases htPairs set false m.trans z Q t n R' with ⟨⟨n', R''⟩, e | _⟩
    · rfl
    · exact htLoopSized_same set k z l n' R'' fun d hd => h d (List.mem_cons_of_mem _ hd)

/-- With one weight per feature `HyptestIRL.fit` is what it was. -/
theorem C179_same_hyptest (o : HtIrl K) (k : Nat) (x : Nat → Ext K) (hx : o.theta = .vec x)
    (z : List Nat → (Nat → Nat → Ext K) → Nat → Nat → Ext K)
    (data : List (Mdp K × Py (Nat → Nat → Nat → Ext K) × List Int)) (h : ∀ d ∈ data, d.1.nFeatures = k) :
    (o.fitSized k x z data).2 = (o.fit z data).2 ∧ (o.fitSized k x z data).1.theta = (o.fit z data).1.theta := by
  unfold HtIrl.fitSized HtIrl.fit
  rw [htLoopSized_same _ _ _ _ _ _ h]
  rcases htChecks data with e | _
  · exact ⟨rfl, hx.symm⟩
  · rw [hx]
    dsimp only
    rcases htLoop o.set false z data 1 x with ⟨⟨n, R'⟩, e | _⟩
    · exact ⟨rfl, rfl⟩
    · dsimp only
      split_ifs <;> exact ⟨rfl, rfl⟩

/-! ### Max-causal-entropy IRL -/

/-- **C179**, max-causal-entropy: a learner holding weights for another number of features than the MDP has raises, and
is left with its learning rate and its weights, except that those ignored were set to 0. -/
theorem C179_mce (o : MceIrl K) (k : Nat) (_hk : 0 < k) (x : Nat → K) (hx : o.theta = .vec x) (m : Mdp K)
    (hne : k ≠ m.nFeatures) (ts : List (List Int)) (ign : Ignore) (expected : (Nat → K) → Py (Nat → K)) :
    ∃ e, (o.fitSized k m ts ign expected).2 = .error e ∧ (o.fitSized k m ts ign expected).1.lr = o.lr ∧
      ∃ x', (o.fitSized k m ts ign expected).1.theta = .vec x' ∧
        ∀ f, x' f = x f ∨ (x' f = 0 ∧ Spec.Ignored k ign f) := by
  have hrun : ∀ trueF, ∃ e, (MceIrl.fitSized.run m ign expected o k trueF x).2 = .error e ∧
      (MceIrl.fitSized.run m ign expected o k trueF x).1.lr = o.lr ∧
      ∃ x', (MceIrl.fitSized.run m ign expected o k trueF x).1.theta = .vec x' ∧
        ∀ f, x' f = x f ∨ (x' f = 0 ∧ Spec.Ignored k ign f) := by
    intro trueF
    unfold MceIrl.fitSized.run
    by_cases hv : Spec.ValidIgnore k ign
    · rw [zeroAt_valid hv]
      dsimp only
      have hw : ∀ f, (if Spec.Ignored k ign f then (0 : K) else x f) = x f ∨
          ((if Spec.Ignored k ign f then (0 : K) else x f) = 0 ∧ Spec.Ignored k ign f) := by
        intro f
        by_cases hf : Spec.Ignored k ign f
        · exact .inr ⟨if_pos hf, hf⟩
        · exact .inl (if_neg hf)
      rcases hmi : o.set.maxIter with _ | j
      · exact ⟨.unboundLocalError, rfl, rfl, _, rfl, hw⟩
      · unfold irlLoop
        rw [if_neg hne]
        exact ⟨.valueError, rfl, rfl, _, rfl, hw⟩
    · rw [zeroAt_invalid hv]
      exact ⟨.indexError, rfl, rfl, _, rfl, fun f => .inl rfl⟩
  have hstay : ∀ e : PyErr, ∃ e', (Except.error e : Py (Nat → K)) = .error e' ∧ o.lr = o.lr ∧
      ∃ x', o.theta = .vec x' ∧ ∀ f, x' f = x f ∨ (x' f = 0 ∧ Spec.Ignored k ign f) :=
    fun e => ⟨e, rfl, rfl, x, hx, fun f => .inl rfl⟩
  unfold MceIrl.fitSized
  rcases ts with _ | ⟨_ | ⟨i, t⟩, ts⟩
  · exact hstay _
  · exact hstay _
  dsimp only
  rcases empirical m.nStates ((i :: t) :: ts) with e | D
  · exact hstay _
  dsimp only
  rcases zeroAt m.nFeatures (featureCounts m D) ign with e | trueF
  · exact hstay _
  dsimp only
  have := hrun trueF
  rw [hx]
  exact this

/-- If nothing else is wrong with the call the error is `ValueError`. -/
theorem C179_mce_value_error (o : MceIrl K) (k : Nat) (_hk : 0 < k) (x : Nat → K) (hx : o.theta = .vec x) (m : Mdp K)
    (hne : k ≠ m.nFeatures) (i : Int) (t : List Int) (ts : List (List Int))
    (hts : ∀ t' ∈ (i :: t) :: ts, ∀ j ∈ t', Spec.InRange m.nStates j) (ign : Ignore)
    (h1 : Spec.ValidIgnore m.nFeatures ign) (h2 : Spec.ValidIgnore k ign) (hit : 0 < o.set.maxIter)
    (expected : (Nat → K) → Py (Nat → K)) :
    (o.fitSized k m ((i :: t) :: ts) ign expected).2 = .error .valueError := by
  unfold MceIrl.fitSized
  dsimp only
  rw [empirical_eq, if_pos hts]
  dsimp only
  rw [zeroAt_valid h1, hx]
  dsimp only
  unfold MceIrl.fitSized.run
  rw [zeroAt_valid h2]
  dsimp only
  obtain ⟨j, hj⟩ := Nat.exists_eq_succ_of_ne_zero hit.ne'
  rw [hj]
  unfold irlLoop
  rw [if_neg hne]

/-- After a fit that succeeded the learner holds the weights that were returned. -/
theorem mce_fit_holds (o : MceIrl K) (m : Mdp K) (ts : List (List Int)) (ign : Ignore)
    (expected : (Nat → K) → Py (Nat → K)) (w : Nat → K) (h : (o.fit m ts ign expected).2 = .ok w) :
    (o.fit m ts ign expected).1.theta = .vec w := by
  have hrun : ∀ (o : MceIrl K) trueF x, (MceIrl.fit.run m ign expected o trueF x).2 = .ok w →
      (MceIrl.fit.run m ign expected o trueF x).1.theta = .vec w := by
    intro o trueF x
    unfold MceIrl.fit.run
    rcases zeroAt m.nFeatures x ign with e | x
    · exact fun h => nomatch h
    dsimp only
    rcases irlLoop o.set m.nFeatures ign expected trueF o.set.maxIter 0 ⟨x, o.lr, []⟩ with ⟨st, e | _⟩
    · exact fun h => nomatch h
    dsimp only
    by_cases hm : o.set.maxIter = 0
    · rw [if_pos hm]; exact fun h => nomatch h
    · rw [if_neg hm]; exact fun h => congrArg Theta.vec (Except.ok.inj h)
  unfold MceIrl.fit at h ⊢
  rcases ts with _ | ⟨_ | ⟨i, t⟩, ts⟩
  · cases h
  · cases h
  dsimp only at h ⊢
  rcases he : empirical m.nStates ((i :: t) :: ts) with e | D
  · rw [he] at h; cases h
  rw [he] at h
  dsimp only at h ⊢
  rcases hz : zeroAt m.nFeatures (featureCounts m D) ign with e | trueF
  · rw [hz] at h; cases h
  rw [hz] at h
  dsimp only at h ⊢
  rcases ho : o.theta with _ | x | _
  · rw [ho] at h; exact hrun _ _ _ h
  · rw [ho] at h; exact hrun _ _ _ h
  · rw [ho] at h
    dsimp only at h
    split at h <;> cases h

/-- **C179**, learning in one world and going on in another: what was learned from an MDP is not used for one with another
number of features. -/
theorem C179_other_world (o : MceIrl K) (m m' : Mdp K) (hpos : 0 < m.nFeatures) (hne : m.nFeatures ≠ m'.nFeatures)
    (ts ts' : List (List Int)) (ign ign' : Ignore) (expected expected' : (Nat → K) → Py (Nat → K)) (w : Nat → K)
    (h : (o.fit m ts ign expected).2 = .ok w) :
    ∃ e, ((o.fit m ts ign expected).1.fitSized m.nFeatures m' ts' ign' expected').2 = .error e :=
  (C179_mce _ _ hpos w (mce_fit_holds o m ts ign expected w h) m' hne ts' ign' expected').imp fun _ h => h.1

/-! ### Hypothesis testing -/

theorem htPairsSized_refused (set : HtSettings K) (k nF : Nat) (hne : k ≠ nF) (h1 : nF ≠ 1) (M : Trans K)
    (z : List Nat → (Nat → Nat → Ext K) → Nat → Nat → Ext K) (Q : Py (Nat → Nat → Nat → Ext K)) (t : List Int) (n : Nat)
    (R' : Nat → Ext K) : htPairsSized set k nF M z Q t n R' = ((n, R'), .ok ()) ∨
      ∃ e, htPairsSized set k nF M z Q t n R' = ((n, R'), .error e) ∧
        (set.norm ≠ .relative → (∃ q, Q = .ok q) → e = .valueError) := by
  match t with
  | [] => exact .inl (by unfold htPairsSized; rfl)
  | [_] => exact .inl (by unfold htPairsSized; rfl)
  | s :: t :: l =>
    refine .inr ?_
    unfold htPairsSized
    rcases h2 : pyIdx M.nS s with _ | i
    · exact ⟨_, rfl, fun _ _ => rfl⟩
    rcases h3 : pyIdx M.nS t with _ | j
    · exact ⟨_, rfl, fun _ _ => rfl⟩
    dsimp only
    rcases h4 : npWhere M.nA fun a => decide (M.p i a j ≠ 0) with _ | ⟨a, as⟩
    · exact ⟨_, rfl, fun _ _ => rfl⟩
    rcases Q with e | Q
    · exact ⟨_, rfl, fun _ ⟨q, hq⟩ => nomatch hq⟩
    dsimp only
    rcases h5 : singleMove set M z Q s t with e | R
    · refine ⟨_, rfl, fun hr _ => ?_⟩
      unfold singleMove at h5
      rw [h2, h3] at h5
      dsimp only at h5
      rw [h4] at h5
      dsimp only at h5
      rcases hn : set.norm with _ | _ | _
      · rw [hn] at h5; cases h5
      · exact absurd hn hr
      · rw [hn] at h5; cases h5
    dsimp only
    rw [if_neg hne, if_neg h1]
    exact ⟨_, rfl, fun _ _ => rfl⟩

theorem htLoopSized_refused (set : HtSettings K) (k : Nat) (z : List Nat → (Nat → Nat → Ext K) → Nat → Nat → Ext K) :
    ∀ (data : List (Mdp K × Py (Nat → Nat → Nat → Ext K) × List Int)) (n : Nat) (R' : Nat → Ext K),
      (∀ d ∈ data, k ≠ d.1.nFeatures ∧ d.1.nFeatures ≠ 1) →
      htLoopSized set k z data n R' = ((n, R'), .ok ()) ∨
      ∃ e, htLoopSized set k z data n R' = ((n, R'), .error e) ∧
        (set.norm ≠ .relative → (∀ d ∈ data, ∃ q, d.2.1 = .ok q) → e = .valueError)
  | [], _, _, _ => .inl rfl
  | (m, Q, t) :: l, n, R', h => by
    obtain ⟨a1, a2⟩ := h _ List.mem_cons_self
    unfold htLoopSized
    rcases htPairsSized_refused set k m.nFeatures a1 a2 m.trans z Q t n R' with e | ⟨e, he, hv⟩
    · rw [e]
      dsimp only
      rcases htLoopSized_refused set k z l n R' fun d hd => h d (List.mem_cons_of_mem _ hd) with e | ⟨e, he, hv⟩
      · exact .inl e
      · exact .inr ⟨e, he, fun hr hq => hv hr fun d hd => hq d (List.mem_cons_of_mem _ hd)⟩
    · rw [he]
      exact .inr ⟨e, rfl, fun hr hq => hv hr (hq _ List.mem_cons_self)⟩

/-- **C179**, hypothesis testing, worlds with several features (or none): a learner holding weights for another number of
features raises and keeps its weights; if nothing else is wrong with the call the error is `ValueError`. What is missing is worlds
with one feature: there it is false, see `C179_refuted`. -/
theorem C179_hyptest_partial (o : HtIrl K) (k : Nat) (x : Nat → Ext K)
    (z : List Nat → (Nat → Nat → Ext K) → Nat → Nat → Ext K)
    (data : List (Mdp K × Py (Nat → Nat → Nat → Ext K) × List Int))
    (h : ∀ d ∈ data, k ≠ d.1.nFeatures ∧ d.1.nFeatures ≠ 1) :
    ∃ e, (o.fitSized k x z data).2 = .error e ∧ (o.fitSized k x z data).1.theta = .vec x ∧
      (htChecks data = .ok () → o.set.norm ≠ .relative → (∀ d ∈ data, ∃ q, d.2.1 = .ok q) → e = .valueError) := by
  unfold HtIrl.fitSized
  rcases htChecks data with e | _
  · exact ⟨e, rfl, rfl, fun hc => nomatch hc⟩
  dsimp only
  rcases htLoopSized_refused o.set k z data 1 x h with e | ⟨e, he, hv⟩
  · rw [e]
    exact ⟨_, rfl, rfl, fun _ _ _ => rfl⟩
  · rw [he]
    exact ⟨_, rfl, rfl, fun _ => hv⟩

theorem htUpdate_entry (set : HtSettings K) (n : Nat) {R R' S S' : Nat → Ext K} {f g : Nat} (h : R f = S g) (h' : R' f = S' g) :
    htUpdate set n R R' f = htUpdate set n S S' g := by
  unfold htUpdate
  rw [h, h']

theorem htPairsSized_single (set : HtSettings K) (k : Nat) (M : Trans K)
    (z : List Nat → (Nat → Nat → Ext K) → Nat → Nat → Ext K) (i : Nat) (hi : i < k) :
    ∀ (t : List Int) (Q : Py (Nat → Nat → Nat → Ext K)) n R' W, W 0 = R' i →
    (htPairs set false M z Q t n W).2 = (htPairsSized set k 1 M z Q t n R').2 ∧
    (htPairs set false M z Q t n W).1.1 = (htPairsSized set k 1 M z Q t n R').1.1 ∧
    (htPairs set false M z Q t n W).1.2 0 = (htPairsSized set k 1 M z Q t n R').1.2 i
  | [], _, _, _, _, h => by unfold htPairsSized htPairs; exact ⟨rfl, rfl, h⟩
  | [_], _, _, _, _, h => by unfold htPairsSized htPairs; exact ⟨rfl, rfl, h⟩
  | s :: t :: l, Q, n, R', W, h => by
    unfold htPairsSized htPairs
    rcases pyIdx M.nS s with _ | a
    · exact ⟨rfl, rfl, h⟩
    rcases pyIdx M.nS t with _ | j
    · exact ⟨rfl, rfl, h⟩
    dsimp only
    rcases npWhere M.nA fun b => decide (M.p a b j ≠ 0) with _ | ⟨b, bs⟩
    · exact ⟨rfl, rfl, h⟩
    rcases Q with e | Q
    · exact ⟨rfl, rfl, h⟩
    dsimp only
    rcases singleMove set M z Q s t with e | R
    · exact ⟨rfl, rfl, h⟩
    dsimp only
    by_cases hk : k = 1
    · obtain rfl : i = 0 := by omega
      rw [if_pos hk]
      exact htPairsSized_single set k M z 0 hi (t :: l) (.ok Q) (n + 1) _ _ (htUpdate_entry set n rfl h)
    · rw [if_neg hk, if_pos rfl]
      exact htPairsSized_single set k M z i hi (t :: l) (.ok Q) (n + 1) _ _ (htUpdate_entry set n rfl h)

theorem htLoopSized_single (set : HtSettings K) (k : Nat) (z : List Nat → (Nat → Nat → Ext K) → Nat → Nat → Ext K) (i : Nat)
    (hi : i < k) : ∀ (data : List (Mdp K × Py (Nat → Nat → Nat → Ext K) × List Int)) n R' W,
      (∀ d ∈ data, d.1.nFeatures = 1) → W 0 = R' i →
    (htLoop set false z data n W).2 = (htLoopSized set k z data n R').2 ∧
    (htLoop set false z data n W).1.1 = (htLoopSized set k z data n R').1.1 ∧
    (htLoop set false z data n W).1.2 0 = (htLoopSized set k z data n R').1.2 i
  | [], _, _, _, _, h => ⟨rfl, rfl, h⟩
  | (m, Q, t) :: l, n, R', W, hd, h => by
    unfold htLoopSized htLoop
    rw [show m.nFeatures = 1 from hd _ List.mem_cons_self]
    obtain ⟨h1, h2, h3⟩ := htPairsSized_single set k m.trans z i hi t Q n R' W h
    rcases e1 : htPairs set false m.trans z Q t n W with ⟨⟨n1, W1⟩, o1⟩
    rcases e2 : htPairsSized set k 1 m.trans z Q t n R' with ⟨⟨n2, R2⟩, o2⟩
    rw [e1, e2] at h1 h2 h3
    dsimp only at h1 h2 h3
    subst h1 h2
    rcases o1 with e | _
    · exact ⟨rfl, rfl, h3⟩
    · exact htLoopSized_single set k z i hi l n1 R2 W1 (fun d hd' => hd d (List.mem_cons_of_mem _ hd')) h3

/-- **C179**, hypothesis testing, worlds with one feature: instead of being refused, each of the `k` weights is treated as
the weight of that feature by a learner of its own. -/
theorem C179_hyptest_single (o : HtIrl K) (k : Nat) (x : Nat → Ext K)
    (z : List Nat → (Nat → Nat → Ext K) → Nat → Nat → Ext K)
    (data : List (Mdp K × Py (Nat → Nat → Nat → Ext K) × List Int)) (h : ∀ d ∈ data, d.1.nFeatures = 1) (i : Nat) (hi : i < k) :
    (∃ e, (o.fitSized k x z data).2 = .error e ∧ htFit o.set z (some fun _ => x i) data = .error e) ∨
    ∃ R S, (o.fitSized k x z data).2 = .ok R ∧ htFit o.set z (some fun _ => x i) data = .ok S ∧ R i = S 0 := by
  unfold HtIrl.fitSized htFit HtIrl.fit
  rcases htChecks data with e | _
  · exact .inl ⟨e, rfl, rfl⟩
  dsimp only
  obtain ⟨h1, h2, h3⟩ := htLoopSized_single o.set k z i hi data 1 x (fun _ => x i) h rfl
  rcases e1 : htLoop o.set false z data 1 (fun _ => x i) with ⟨⟨n1, W1⟩, o1⟩
  rcases e2 : htLoopSized o.set k z data 1 x with ⟨⟨n2, R2⟩, o2⟩
  rw [e1, e2] at h1 h2 h3
  dsimp only at h1 h2 h3
  subst h1 h2
  rcases o1 with e | _
  · exact .inl ⟨e, rfl, rfl⟩
  · by_cases hn : n1 = 1
    · dsimp only
      rw [if_pos hn, if_pos hn]
      exact .inl ⟨_, rfl, rfl⟩
    · dsimp only
      rw [if_neg hn, if_neg hn]
      exact .inr ⟨_, _, rfl, rfl, h3.symm⟩

/-! ### Concrete runs -/

/-- A 1x3 corridor with the feature "first cell". -/
def exOneFeature : Py (Mdp ℚ) := Mdp.initGrid .square 1 3 false ⟨1, 3, fun _ s => if s = 0 then 1 else 0⟩ none

/-- A 1x3 corridor with the features "first cell" and "everywhere". -/
def exCorridorTwo : Py (Mdp ℚ) := Mdp.initGrid .square 1 3 false ⟨2, 3, fun f s => if f = 1 ∨ s = 0 then 1 else 0⟩ none

/-- A hypothesis-testing learner holding three weights. -/
def exThreeWeights : HtIrl ℚ := ⟨⟨1/2, 0, 2, .other⟩, .vec fun f => .fin f, .obj, false⟩

/-- Three weights are accepted in a world with a single feature, and three weights come back. -/
theorem C179_refuted : (match exOneFeature with
    | .error _ => false
    | .ok m => decide (m.nFeatures = 1) &&
      (match (exThreeWeights.fitSized 3 (fun f => .fin f) (fun _ x a f => x a f)
          [(m, htQ 1 [] (fun w => solveHard m.trans (stateReward 1 w m.features.get) 1 (1/2) 0), [1, 0])]).2 with
        | .error _ => false
        | .ok R => decide (R 0 = .fin (1/2)) && decide (R 1 = .fin 1) && decide (R 2 = .fin (3/2)))) = true := by
  decide +kernel

/-- The same learner is refused in a world with two features, and so is a max-causal-entropy learner. -/
example : (match exCorridorTwo with
    | .error _ => false
    | .ok m => decide (m.nFeatures = 2) &&
      (match (exThreeWeights.fitSized 3 (fun f => .fin f) (fun _ x a f => x a f)
          [(m, htQ 2 [] (fun w => solveHard m.trans (stateReward 2 w m.features.get) 1 (1/2) 0), [1, 0])]).2 with
        | .error e => decide (e = .valueError)
        | .ok _ => false) &&
      (match ((⟨⟨1, 5, 0⟩, 1/2, 1/2, .vec fun f => (f : ℚ), .obj, false⟩ : MceIrl ℚ).fitSized 3 m [[1, 0]] (.list [1])
          (mceHard m 2 (1/2) 0 [[1, 0]])) with
        | (⟨_, lr, _, .vec x, _, _⟩, .error e) =>
          decide (lr = 1/2) && decide (x 1 = 0) && decide (x 2 = 2) && decide (e = .valueError)
        | _ => false)) = true := by decide +kernel

end MaMDP
