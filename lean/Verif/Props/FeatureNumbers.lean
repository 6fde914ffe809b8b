import Verif.Lemmas.FeatureNumbers
import Verif.Lemmas.Mdp
import Verif.Model.Environment
import Verif.Props.IRL

/-! # C136: the numbers of the features do not matter; C137: features that are nowhere do not matter -/

set_option linter.unusedSectionVars false

namespace MaMDP

variable {K : Type} [Field K] [LinearOrder K] [IsStrictOrderedRing K] {δ : Type}

/-! ## Worlds that differ in the numbers of the features -/

/-- The transition array of a new MDP does not depend on the features. -/
theorem init_sas {shape : Option (Nat × Nat)} {selfT : Bool} {f : Arr2 K} {x : Arr3 K} {walls : Option (Arr1 K)} {m : Mdp K}
    (h : Mdp.init shape selfT f x walls = .ok m) :
    m.sas = Mdp.maskWalls (match walls with | some w => w | none => ⟨x.d0, fun _ => 0⟩) x.get := by
  unfold Mdp.init at h
  cases hs : (Mdp.blank shape selfT x).setSas x with
  | mk m₁ r =>
    rw [hs] at h
    cases r with
    | error e => cases h
    | ok u =>
      have k1 : m₁.nStates = x.d0 ∧ m₁.originalSas = x := by
        unfold Mdp.setSas at hs
        split_ifs at hs <;> simp only [Prod.mk.injEq, reduceCtorEq, and_false] at hs
        rw [← hs.1]
        exact ⟨rfl, rfl⟩
      simp only at h
      cases hf : m₁.setFeatures f with
      | mk m₂ r =>
        rw [hf] at h
        cases r with
        | error e => cases h
        | ok u =>
          have k2 : m₂.nStates = x.d0 ∧ m₂.originalSas = x := by
            unfold Mdp.setFeatures at hf
            split_ifs at hf <;> simp only [Prod.mk.injEq, reduceCtorEq, and_false] at hf
            rw [← hf.1]
            exact k1
          simp only [k2.1] at h
          unfold Mdp.setWalls at h
          simp only at h
          cases hsh : m₂.shape with
          | none => rw [hsh] at h; cases h
          | some p =>
            rw [hsh] at h
            simp only [k2.2] at h
            split_ifs at h
            unfold Mdp.setSas at h
            split_ifs at h
            simp only [Except.ok.injEq] at h
            rw [← h]
            cases walls <;> rfl

/-- **C136/C137 (worlds).** A grid can be built with the features in another order, or with further features that no state
has, if it can be built at all; and it is the same world. -/
theorem C137_grid (kind : GridKind) (W H : Nat) (selfT : Bool) (f f' : Arr2 K) (walls : Option (Arr1 K)) (σ : Nat → Nat)
    (hcol : f'.d1 = f.d1) (hnum : ∀ i, i < f.d0 → σ i < f'.d0)
    (hinj : ∀ i j, i < f.d0 → j < f.d0 → σ i = σ j → i = j)
    (hrow : ∀ i s, i < f.d0 → s < f.d1 → f'.get (σ i) s = f.get i s)
    (habs : ∀ g s, g < f'.d0 → (∀ i, i < f.d0 → σ i ≠ g) → s < f.d1 → f'.get g s = 0) (m : Mdp K)
    (hm : Mdp.initGrid kind W H selfT f walls = .ok m) :
    ∃ m', Mdp.initGrid kind W H selfT f' walls = .ok m' ∧ Spec.FeaturesMoved σ m m' := by
  obtain ⟨pos, hd, hw⟩ := Mdp.initGrid_inv hm
  obtain ⟨m₁, h1, g1, f1, -⟩ := Mdp.initGrid_ok (kind := kind) (selfT := selfT) pos hd hw
  obtain ⟨m₂, h2, g2, f2, -⟩ := Mdp.initGrid_ok (kind := kind) (selfT := selfT) pos (hcol.trans hd) hw
  cases hm.symm.trans h1
  have hsas : m₂.sas = m.sas := by
    unfold Mdp.initGrid at h1 h2
    cases hs : getSas (K := K) kind W H selfT with
    | error e => rw [hs] at h1; cases h1
    | ok x =>
      rw [hs] at h1 h2
      rw [init_sas h1, init_sas h2]
  have e1 : m.nFeatures = f.d0 := by unfold Mdp.nFeatures; rw [f1]
  have e2 : m₂.nFeatures = f'.d0 := by unfold Mdp.nFeatures; rw [f2]
  have e3 : m.nStates = f.d1 := by rw [g1.nStates, hd]
  refine ⟨m₂, h2, ?_, ?_, ?_, ?_, ?_, ?_, ?_⟩
  · unfold Mdp.trans
    rw [hsas, g1.nStates, g2.nStates, g1.nActions, g2.nActions]
  · rw [f1, e3]
  · rw [f2, g2.nStates, hcol, hd]
  · rw [e1, e2]; exact hnum
  · rw [e1]; exact hinj
  · rw [e1, e3, f1, f2]; exact hrow
  · rw [e1, e2, e3, f2]; exact habs

/-! ## C137 -/

/-- **C137 (planning).** With the same weights for the same features an agent ends up with the same plan, whatever its
weights for features that are nowhere. -/
theorem C137_planning {σ : Nat → Nat} {m m' : Mdp K} (h : Spec.FeaturesMoved σ m m') (a : Agent K δ) (w : Arr1 K)
    (hd : a.reward.d0 = m.nFeatures) (hd' : w.d0 = m'.nFeatures) (hw : Spec.Moved m.nFeatures σ a.reward.get w.get)
    (maxIter : Nat) (γ tol : K) (draws : Nat → δ) :
    ({ a with reward := w } : Agent K δ).fit m' (valueIterationFit m' maxIter γ tol) draws =
      ({ (a.fit m (valueIterationFit m maxIter γ tol) draws).1 with reward := w },
        (a.fit m (valueIterationFit m maxIter γ tol) draws).2) := by
  have hr : solveHard m'.trans (stateReward w.d0 w.get m'.features.get) maxIter γ tol =
      solveHard m.trans (stateReward a.reward.d0 a.reward.get m.features.get) maxIter γ tol := by
    rw [h.trans, hd, hd']
    exact congrFun (congrFun (congrFun (solveHard_rewards (M := m.trans)
      (r := stateReward m.nFeatures a.reward.get m.features.get) fun t ht => h.reward hw ht) maxIter) γ) tol
  unfold Agent.fit algFit
  simp only [PyArr.of1, checkReward, hd, hd', valueIterationFit, List.getD_cons_zero, if_true]
  rw [hd, hd'] at hr
  rw [hr, h.nStates, h.nActions]
  cases solveHard m.trans (stateReward m.nFeatures a.reward.get m.features.get) maxIter γ tol with
  | error e => rfl
  | ok r =>
    obtain ⟨v, q⟩ := r
    simp only [PyArr.of2, checkOutput, ne_eq, not_true_eq_false, if_false]
    unfold Agent.getPolicy
    simp only
    cases a.selector.piP _ with
    | error e => rfl
    | ok P =>
      simp only
      cases a.selector.pi _ draws <;> rfl

/-- **C137 (feature matching).** -/
theorem C137_matching {n n' : Nat} {σ : Nat → Nat} {l l' : List (Mdp K)} (hl : Spec.ManyMoved n n' σ l l')
    (ts : List (List Int)) (ign : List Int) :
    (∃ e, matchFit (.inr l) ts ign = .error e ∧ matchFit (.inr l') ts ign = .error e) ∨
    ∃ x x', matchFit (.inr l) ts ign = .ok ⟨n, x⟩ ∧ matchFit (.inr l') ts ign = .ok ⟨n', x'⟩ ∧
      Spec.Moved n σ x x' ∧ ∀ g, g < n' → (∀ f, f < n → σ f ≠ g) → x' g = 0 :=
  matchFit_moved hl ts ign

/-- **C137 (hypothesis testing).** `excl`: the features left out, as `ignore_features`. -/
theorem C137_hyptest {n n' : Nat} {σ : Nat → Nat} (o o' : HtIrl ℝ) (hset : o'.set = o.set)
    (hθ : Spec.StartMoved n σ o.theta o'.theta) (l l' : List (Mdp ℝ)) (hl : Spec.ManyMoved n n' σ l l')
    (hA : ∀ m ∈ l, 0 < m.nActions) (ts : List (List Int)) (excl : List Nat) (hx : ∀ f ∈ excl, f < n) (k : Nat) (hk : 0 < k)
    (γ tol : ℝ) (h0 : 0 < γ) (h1 : γ < 1) :
    Spec.ResultMoved n σ
      (o.fit zscore ((l.zip ts).map fun p => (p.1, htQ p.1.nFeatures (excl.map fun (f : Nat) => (f : Int))
        (fun w => solveHard p.1.trans (Spec.weighted p.1 w) k γ tol), p.2))).2
      (o'.fit zscore ((l'.zip ts).map fun p => (p.1, htQ p.1.nFeatures (excl.map fun (f : Nat) => (σ f : Int))
        (fun w => solveHard p.1.trans (Spec.weighted p.1 w) k γ tol), p.2))).2 := by
  refine htFit_moved (n' := n') hset hθ ?_
  induction hl generalizing ts with
  | nil => exact .nil
  | @cons m m' l l' h hl ih =>
    cases ts with
    | nil => exact .nil
    | cons t ts =>
      refine .cons ?_ (ih (fun x hx => hA x (List.mem_cons_of_mem _ hx)) ts)
      refine ⟨h.1, h.2.1, h.2.2, rfl, ?_⟩
      obtain ⟨Q, Q', e1, e2, e3⟩ := htQ_moved h.1 (hA m (List.mem_cons_self ..)) k hk γ tol h0 h1 excl
        (by rw [h.2.1]; exact hx)
      rw [h.2.1] at e3
      exact ⟨Q, Q', e1, e2, e3⟩

theorem simple_moved {n n' : Nat} {σ : Nat → Nat} {count : Mdp K → List Nat → Option (Py (Nat → K))} {l l' : List (Mdp K)}
    {ts : List (List Nat)} (hc : List.Forall₂ (fun m m' => ∀ t ∈ ts, EndsAlike σ n n' (count m t) (count m' t)) l l')
    (reset : Bool) {θ θ' : Option (Nat → K)}
    (hθ : (θ = none ∧ θ' = none) ∨ ∃ x x', θ = some x ∧ θ' = some x' ∧ Spec.Moved n σ x x') :
    Spec.OutcomeMoved n σ (simpleBody count l ts reset θ) (simpleBody count l' ts reset θ') := by
  have hloop : ∀ (l l' : List (Mdp K)) (ts : List (List Nat)) (x x' : Nat → K),
      List.Forall₂ (fun m m' => ∀ t ∈ ts, EndsAlike σ n n' (count m t) (count m' t)) l l' → Spec.Moved n σ x x' →
      Spec.OutcomeMoved n σ (simpleLoop count l ts x) (simpleLoop count l' ts x') := by
    intro l
    induction l with
    | nil => intro l' ts x x' hc hx; cases hc; exact hx
    | cons m l ih =>
      intro l' ts x x' hc hx
      cases hc with
      | @cons _ m' _ l' h hl =>
        cases ts with
        | nil => exact rfl
        | cons t ts =>
          have h1 := h t (List.mem_cons_self ..)
          unfold simpleLoop
          revert h1
          cases count m t with
          | none => cases count m' t with
            | none => exact fun _ => trivial
            | some r => exact fun e => e.elim
          | some r => cases count m' t with
            | none => exact fun e => e.elim
            | some r' =>
              intro h1
              cases r with
              | error e => cases r' with
                | error e' => exact h1
                | ok _ => exact h1.elim
              | ok d => cases r' with
                | error e' => exact h1.elim
                | ok d' =>
                  refine ih l' ts _ _ (hl.imp fun _ _ hh y hy => hh y (List.mem_cons_of_mem _ hy)) ?_
                  intro f hf
                  simp only [hx f hf, h1.1 f hf]
  have hnil : l = [] ↔ l' = [] := by cases hc <;> simp
  unfold simpleBody
  rcases hθ with ⟨rfl, rfl⟩ | ⟨x, x', rfl, rfl, hx⟩
  · simp only [hnil]
    split_ifs
    · exact rfl
    · exact hloop l l' ts _ _ hc fun _ _ => rfl
  · simp only [hnil]
    split_ifs
    · exact rfl
    · exact hloop l l' ts _ _ hc fun _ _ => rfl
    · exact hloop l l' ts x x' hc hx

/-- **C137 (simple learners).** The features in sight, counted by `SimpleActionIRL` and `SimpleActionFeatureDiffIRL`. -/
theorem C137_simple {n n' : Nat} {σ : Nat → Nat} (l l' : List (Mdp K)) (hl : Spec.ManyMoved n n' σ l l')
    (ts : List (List Nat)) (hs : ∀ m ∈ l, ∀ t ∈ ts, ∀ s ∈ t, s < m.nStates) (fuel : Nat) (reset : Bool)
    (θ θ' : Option (Nat → K)) (hθ : (θ = none ∧ θ' = none) ∨ ∃ x x', θ = some x ∧ θ' = some x' ∧ Spec.Moved n σ x x') :
    Spec.OutcomeMoved n σ (simpleFit fuel l ts reset θ) (simpleFit fuel l' ts reset θ') ∧
    Spec.OutcomeMoved n σ (simpleDiffFit fuel l ts reset θ) (simpleDiffFit fuel l' ts reset θ') := by
  have hall : ∀ (l l' : List (Mdp K)), Spec.ManyMoved n n' σ l l' → (∀ m ∈ l, ∀ t ∈ ts, ∀ s ∈ t, s < m.nStates) →
      List.Forall₂ (fun m m' => ∀ t ∈ ts, EndsAlike σ n n' (trajectoryEyeline m fuel [t] true)
        (trajectoryEyeline m' fuel [t] true) ∧ EndsAlike σ n n' (trajectoryEyelineDiff m fuel t)
        (trajectoryEyelineDiff m' fuel t)) l l' := by
    intro l l' hl
    induction hl with
    | nil => exact fun _ => .nil
    | @cons m m' l l' h _ ih =>
      intro hs
      refine .cons (fun t ht => ?_) (ih fun x hx => hs x (List.mem_cons_of_mem _ hx))
      have hst := hs m (List.mem_cons_self ..) t ht
      obtain ⟨h1, h2, h3⟩ := h
      have k1 := trajectoryEyeline_moved h1 fuel [t] (by simpa using hst) true
      have k2 := eyelineDiff_moved h1 fuel t hst
      rw [h2, h3] at k1 k2
      exact ⟨k1, k2⟩
  have := hall l l' hl hs
  exact ⟨simple_moved (this.imp fun _ _ hh t ht => (hh t ht).1) reset hθ,
    simple_moved (this.imp fun _ _ hh t ht => (hh t ht).2) reset hθ⟩

/-- **C137**, max-causal-entropy learners: what is learned with further features that are nowhere is what the same learner
would have learned without them, had it stopped after some number `j` of its `max_iter_irl` iterations; and it does not stop
earlier if its tolerance is 0. The weights of features that are nowhere stay as they are, or become 0 with the default for
`ignore_features`. -/
theorem C137_partial {σ : Nat → Nat} {m m' : Mdp K} (h : Spec.FeaturesMoved σ m m') (hn : 0 < m.nFeatures)
    (ign ign' : Ignore) (hi : Spec.IgnoreMoved m.nFeatures σ ign ign') (o o' : MceIrl K) (hset : o'.set = o.set)
    (hlr : o'.lr = o.lr) (hθ : Spec.StartMoved m.nFeatures σ o.theta o'.theta) (ts : List (List Int)) (N : Nat) (γ : K) :
    (∃ j, j ≤ o.set.maxIter ∧ (0 < o.set.maxIter → 0 < j) ∧ (o.set.tol ≤ 0 → j = o.set.maxIter) ∧
      Spec.ResultMoved m.nFeatures σ
        (({ o with set := { o.set with maxIter := j } } : MceIrl K).fit m ts ign (mceHard m N γ o.set.tol ts)).2
        (o'.fit m' ts ign' (mceHard m' N γ o.set.tol ts)).2) ∧
    ∀ θ', (o'.fit m' ts ign' (mceHard m' N γ o.set.tol ts)).2 = .ok θ' → ∀ g, g < m'.nFeatures →
      (∀ f, f < m.nFeatures → σ f ≠ g) →
      (ign' = .tuple [] ∧ θ' g = 0) ∨ (∃ x', o'.theta = .vec x' ∧ θ' g = x' g) ∨ (o'.theta = .none ∧ θ' g = 0) := by
  obtain ⟨⟨j, j1, j2, j3, j4⟩, hab⟩ := mceFit_moved h hn hi hset hlr hθ ts fun θ θ' hh => mceHard_moved h N γ o.set.tol ts hh
  exact ⟨⟨j, j1, j2, fun hh => j3 (Or.inr hh), j4⟩, hab⟩

/-- **C137**, the same for learners made with `soft=True`. -/
theorem C137_soft_partial {σ : Nat → Nat} {m m' : Mdp ℝ} (h : Spec.FeaturesMoved σ m m') (hn : 0 < m.nFeatures)
    (ign ign' : Ignore) (hi : Spec.IgnoreMoved m.nFeatures σ ign ign') (o o' : MceIrl ℝ) (hset : o'.set = o.set)
    (hlr : o'.lr = o.lr) (hθ : Spec.StartMoved m.nFeatures σ o.theta o'.theta) (ts : List (List Int)) (N : Nat) (γ : ℝ) :
    (∃ j, j ≤ o.set.maxIter ∧ (0 < o.set.maxIter → 0 < j) ∧ (o.set.tol ≤ 0 → j = o.set.maxIter) ∧
      Spec.ResultMoved m.nFeatures σ
        (({ o with set := { o.set with maxIter := j } } : MceIrl ℝ).fit m ts ign (mceSoft m N γ o.set.tol ts)).2
        (o'.fit m' ts ign' (mceSoft m' N γ o.set.tol ts)).2) ∧
    ∀ θ', (o'.fit m' ts ign' (mceSoft m' N γ o.set.tol ts)).2 = .ok θ' → ∀ g, g < m'.nFeatures →
      (∀ f, f < m.nFeatures → σ f ≠ g) →
      (ign' = .tuple [] ∧ θ' g = 0) ∨ (∃ x', o'.theta = .vec x' ∧ θ' g = x' g) ∨ (o'.theta = .none ∧ θ' g = 0) := by
  obtain ⟨⟨j, j1, j2, j3, j4⟩, hab⟩ := mceFit_moved h hn hi hset hlr hθ ts fun θ θ' hh => mceSoft_moved h N γ o.set.tol ts hh
  exact ⟨⟨j, j1, j2, fun hh => j3 (Or.inr hh), j4⟩, hab⟩

/-- A learner that may do two iterations and stops at a mean error below 1/3. -/
def exStops : MceIrl ℚ := ⟨⟨1, 2, 1 / 3⟩, 1 / 2, 1 / 2, .none, .obj, false⟩

/-- The corridor of three cells whose first cell has the only feature, and the same with a second feature that is nowhere. -/
def exFirst (n : Nat) : Arr2 ℚ := ⟨n, 3, fun f s => if f = 0 ∧ s = 0 then 1 else 0⟩

/-- **C137 is false of the code**: a feature that is nowhere changes what a max-causal-entropy learner learns about the
others, because the learner stops when the mean of the errors over all features is small. -/
theorem C137_refuted : ∃ m m' : Mdp ℚ, Mdp.initGrid .square 1 3 false (exFirst 1) none = .ok m ∧
    Mdp.initGrid .square 1 3 false (exFirst 2) none = .ok m' ∧ Spec.FeaturesMoved id m m' ∧
    ∃ x x', (exStops.fit m [[1, 0]] (.list []) (mceHard m 1 (1 / 2) (1 / 3) [[1, 0]])).2 = .ok x ∧
      (exStops.fit m' [[1, 0]] (.list []) (mceHard m' 1 (1 / 2) (1 / 3) [[1, 0]])).2 = .ok x' ∧ x' 0 ≠ x 0 := by
  have key : ∀ (y y' : Py (Mdp ℚ)), Mdp.initGrid .square 1 3 false (exFirst 1) none = y →
      Mdp.initGrid .square 1 3 false (exFirst 2) none = y' →
      (match y, y' with
        | .ok m, .ok m' => (match (exStops.fit m [[1, 0]] (.list []) (mceHard m 1 (1 / 2) (1 / 3) [[1, 0]])).2,
            (exStops.fit m' [[1, 0]] (.list []) (mceHard m' 1 (1 / 2) (1 / 3) [[1, 0]])).2 with
          | .ok x, .ok x' => decide (x' 0 ≠ x 0)
          | _, _ => false)
        | _, _ => false) = true →
      ∃ m m' : Mdp ℚ, Mdp.initGrid .square 1 3 false (exFirst 1) none = .ok m ∧
        Mdp.initGrid .square 1 3 false (exFirst 2) none = .ok m' ∧ Spec.FeaturesMoved id m m' ∧
        ∃ x x', (exStops.fit m [[1, 0]] (.list []) (mceHard m 1 (1 / 2) (1 / 3) [[1, 0]])).2 = .ok x ∧
          (exStops.fit m' [[1, 0]] (.list []) (mceHard m' 1 (1 / 2) (1 / 3) [[1, 0]])).2 = .ok x' ∧ x' 0 ≠ x 0 := by
    intro y y' hy hy' hh
    rcases y with e | m
    · cases hh
    rcases y' with e | m'
    · cases hh
    obtain ⟨m₂, k1, k2⟩ := C137_grid .square 1 3 false (exFirst 1) (exFirst 2) none id rfl
      (fun i hi => Nat.lt_of_lt_of_le hi (by decide)) (fun _ _ _ _ e => e)
      (fun i s _ _ => rfl)
      (fun g s _ hno _ => by
        have : g ≠ 0 := fun e => hno 0 (by decide) e.symm
        simp [exFirst, this]) m hy
    cases hy'.symm.trans k1
    simp only at hh
    cases hx : (exStops.fit m [[1, 0]] (.list []) (mceHard m 1 (1 / 2) (1 / 3) [[1, 0]])).2 with
    | error e => rw [hx] at hh; cases hh
    | ok x =>
      cases hx' : (exStops.fit m' [[1, 0]] (.list []) (mceHard m' 1 (1 / 2) (1 / 3) [[1, 0]])).2 with
      | error e => rw [hx, hx'] at hh; cases hh
      | ok x' =>
        rw [hx, hx'] at hh
        exact ⟨m, m', hy, hy', k2, x, x', hx, hx', of_decide_eq_true hh⟩
  exact key _ _ rfl rfl (by decide +kernel)

/-! ## C136 -/

/-- **C136 (planning).** -/
theorem C136_planning {σ : Nat → Nat} {m m' : Mdp K} (h : Spec.Reordered σ m m') (a : Agent K δ) (w : Arr1 K)
    (hd : w.d0 = a.reward.d0) (hw : Spec.Moved m.nFeatures σ a.reward.get w.get)
    (maxIter : Nat) (γ tol : K) (draws : Nat → δ) :
    ({ a with reward := w } : Agent K δ).fit m' (valueIterationFit m' maxIter γ tol) draws =
      ({ (a.fit m (valueIterationFit m maxIter γ tol) draws).1 with reward := w },
        (a.fit m (valueIterationFit m maxIter γ tol) draws).2) := by
  by_cases hx : a.reward.d0 = m.nFeatures
  · exact C137_planning h.toFeaturesMoved a w hx (by rw [hd, hx, h.count]) hw maxIter γ tol draws
  · unfold Agent.fit algFit
    simp only [PyArr.of1, checkReward, hd, h.count, if_neg hx]

/-- **C136 (max-causal-entropy learners).** -/
theorem C136_mce {σ : Nat → Nat} {m m' : Mdp K} (h : Spec.Reordered σ m m') (hn : 0 < m.nFeatures)
    (ign ign' : Ignore) (hi : Spec.IgnoreMoved m.nFeatures σ ign ign') (o o' : MceIrl K) (hset : o'.set = o.set)
    (hlr : o'.lr = o.lr) (hθ : Spec.StartMoved m.nFeatures σ o.theta o'.theta) (ts : List (List Int)) (N : Nat) (γ : K) :
    Spec.ResultMoved m.nFeatures σ (o.fit m ts ign (mceHard m N γ o.set.tol ts)).2
      (o'.fit m' ts ign' (mceHard m' N γ o.set.tol ts)).2 := by
  obtain ⟨⟨j, -, -, j3, j4⟩, -⟩ := mceFit_moved h.toFeaturesMoved hn hi hset hlr hθ ts
    fun θ θ' hh => mceHard_moved h.toFeaturesMoved N γ o.set.tol ts hh
  rw [j3 (Or.inl h.count)] at j4
  exact j4

/-- **C136 (max-causal-entropy learners made with `soft=True`).** -/
theorem C136_soft {σ : Nat → Nat} {m m' : Mdp ℝ} (h : Spec.Reordered σ m m') (hn : 0 < m.nFeatures)
    (ign ign' : Ignore) (hi : Spec.IgnoreMoved m.nFeatures σ ign ign') (o o' : MceIrl ℝ) (hset : o'.set = o.set)
    (hlr : o'.lr = o.lr) (hθ : Spec.StartMoved m.nFeatures σ o.theta o'.theta) (ts : List (List Int)) (N : Nat) (γ : ℝ) :
    Spec.ResultMoved m.nFeatures σ (o.fit m ts ign (mceSoft m N γ o.set.tol ts)).2
      (o'.fit m' ts ign' (mceSoft m' N γ o.set.tol ts)).2 := by
  obtain ⟨⟨j, -, -, j3, j4⟩, -⟩ := mceFit_moved h.toFeaturesMoved hn hi hset hlr hθ ts
    fun θ θ' hh => mceSoft_moved h.toFeaturesMoved N γ o.set.tol ts hh
  rw [j3 (Or.inl h.count)] at j4
  exact j4

/-- **C136 (other learners).** Feature matching, hypothesis testing and the two simple learners, with the features of all
worlds in the same new order. -/
theorem C136_others {n : Nat} {σ : Nat → Nat} (l l' : List (Mdp ℝ)) (hl : Spec.ManyMoved n n σ l l') :
    (∀ (ts : List (List Int)) (ign : List Int),
      (∃ e, matchFit (.inr l) ts ign = .error e ∧ matchFit (.inr l') ts ign = .error e) ∨
      ∃ x x', matchFit (.inr l) ts ign = .ok ⟨n, x⟩ ∧ matchFit (.inr l') ts ign = .ok ⟨n, x'⟩ ∧ Spec.Moved n σ x x') ∧
    (∀ (o o' : HtIrl ℝ) (ts : List (List Int)) (excl : List Nat) (k : Nat) (γ tol : ℝ), o'.set = o.set →
      Spec.StartMoved n σ o.theta o'.theta → (∀ m ∈ l, 0 < m.nActions) → (∀ f ∈ excl, f < n) → 0 < k → 0 < γ → γ < 1 →
      Spec.ResultMoved n σ
        (o.fit zscore ((l.zip ts).map fun p => (p.1, htQ p.1.nFeatures (excl.map fun (f : Nat) => (f : Int))
          (fun w => solveHard p.1.trans (Spec.weighted p.1 w) k γ tol), p.2))).2
        (o'.fit zscore ((l'.zip ts).map fun p => (p.1, htQ p.1.nFeatures (excl.map fun (f : Nat) => (σ f : Int))
          (fun w => solveHard p.1.trans (Spec.weighted p.1 w) k γ tol), p.2))).2) ∧
    ∀ (ts : List (List Nat)) (fuel : Nat) (reset : Bool) (θ θ' : Option (Nat → ℝ)),
      (∀ m ∈ l, ∀ t ∈ ts, ∀ s ∈ t, s < m.nStates) →
      ((θ = none ∧ θ' = none) ∨ ∃ x x', θ = some x ∧ θ' = some x' ∧ Spec.Moved n σ x x') →
      Spec.OutcomeMoved n σ (simpleFit fuel l ts reset θ) (simpleFit fuel l' ts reset θ') ∧
      Spec.OutcomeMoved n σ (simpleDiffFit fuel l ts reset θ) (simpleDiffFit fuel l' ts reset θ') := by
  refine ⟨fun ts ign => ?_, ?_, ?_⟩
  · rcases C137_matching hl ts ign with h | ⟨x, x', h1, h2, h3, -⟩
    · exact Or.inl h
    · exact Or.inr ⟨x, x', h1, h2, h3⟩
  · intro o o' ts excl k γ tol hset hθ hA hx hk h0 h1
    exact C137_hyptest o o' hset hθ l l' hl hA ts excl hx k hk γ tol h0 h1
  · intro ts fuel reset θ θ' hs hθ
    exact C137_simple l l' hl ts hs fuel reset θ θ' hθ

/-- The corridor with features "first cell" and "everywhere", and with these two in the other order. -/
example : ∃ m m' : Mdp ℚ, Mdp.initGrid .square 1 3 false ⟨2, 3, fun f s => if f = 1 ∨ s = 0 then 1 else 0⟩ none = .ok m ∧
    Mdp.initGrid .square 1 3 false ⟨2, 3, fun f s => if f = 0 ∨ s = 0 then 1 else 0⟩ none = .ok m' ∧
    Spec.Reordered (fun f => 1 - f) m m' ∧ Spec.ManyMoved 2 2 (fun f => 1 - f) [m, m] [m', m'] ∧
    Spec.IgnoreMoved m.nFeatures (fun f => 1 - f) (.list [1]) (.list [0]) ∧
    Spec.StartMoved m.nFeatures (fun f => 1 - f) (.vec fun f => if f = 0 then (3 : ℚ) else 5)
      (.vec fun f => if f = 0 then 5 else 3) := by
  obtain ⟨m, hm, -, f1, -⟩ := Mdp.initGrid_ok (K := ℚ) (kind := .square) (W := 1) (H := 3) (selfT := false)
    (f := ⟨2, 3, fun f s => if f = 1 ∨ s = 0 then 1 else 0⟩) (w := none) (by decide) rfl (by intro v hv; cases hv)
  have hn : m.nFeatures = 2 := by unfold Mdp.nFeatures; rw [f1]
  obtain ⟨m', hm', h⟩ := C137_grid .square 1 3 false ⟨2, 3, fun f s => if f = 1 ∨ s = 0 then 1 else 0⟩
    ⟨2, 3, fun f s => if f = 0 ∨ s = 0 then 1 else 0⟩ none (fun f => 1 - f) rfl (by simp) (by simp; omega)
    (fun i s hi _ => by
      have hi : i < 2 := hi
      rcases (by omega : i = 0 ∨ i = 1) with rfl | rfl <;> simp)
    (fun g s hg hno _ => by
      have hg : g < 2 := hg
      exact absurd (by omega : 1 - (1 - g) = g) (hno (1 - g) (by simp))) m hm
  have hn' : m'.nFeatures = 2 := by
    obtain ⟨m₂, hm₂, -, f2, -⟩ := Mdp.initGrid_ok (K := ℚ) (kind := .square) (W := 1) (H := 3) (selfT := false)
      (f := ⟨2, 3, fun f s => if f = 0 ∨ s = 0 then 1 else 0⟩) (w := none) (by decide) rfl (by intro v hv; cases hv)
    cases hm'.symm.trans hm₂
    unfold Mdp.nFeatures; rw [f2]
  refine ⟨m, m', hm, hm', ⟨h, by rw [hn, hn']⟩, .cons ⟨h, hn, hn'⟩ (.cons ⟨h, hn, hn'⟩ .nil), ?_, ?_⟩
  · exact Or.inr (Or.inr ⟨[1], by simp [hn], rfl, rfl⟩)
  · intro f hf
    rw [hn] at hf
    rcases (by omega : f = 0 ∨ f = 1) with rfl | rfl <;> simp

/-- What is learned from 0 → 0 → 1 there: the same two numbers, in the other order, and they are different numbers. -/
example : (match exIrlMdp, Mdp.initGrid .square 1 3 false ⟨2, 3, fun f s => if f = 0 ∨ s = 0 then 1 else 0⟩ none with
    | .ok m, .ok m' =>
      (match ((exIrl 2).fit m [[0, 0, 1]] (.list []) (mceHard m 1 (1/2) 0 [[0, 0, 1]])).2,
          ((exIrl 2).fit m' [[0, 0, 1]] (.list []) (mceHard m' 1 (1/2) 0 [[0, 0, 1]])).2 with
        | .ok x, .ok x' => decide (x' 0 = x 1 ∧ x' 1 = x 0 ∧ x 0 ≠ x 1)
        | _, _ => false)
    | _, _ => false) = true := by decide +kernel

/-- Features in sight on the way 0 → 1 → 2, for the two orders. -/
example : (match exIrlMdp, Mdp.initGrid .square 1 3 false ⟨2, 3, fun f s => if f = 0 ∨ s = 0 then 1 else 0⟩ none with
    | .ok m, .ok m' =>
      (match simpleFit 10 [m] [[0, 1, 2]] false none, simpleFit 10 [m'] [[0, 1, 2]] false none,
          matchFit (.inr [m]) [[1, 0]] [], matchFit (.inr [m']) [[1, 2]] [] with
        | some (.ok x), some (.ok x'), .ok y, .ok y' =>
          decide (x' 0 = x 1 ∧ x' 1 = x 0 ∧ x 0 ≠ x 1) && decide (y.get 0 = 1 ∧ y'.get 0 = 1 ∧ y'.get 1 = 0)
        | _, _, _, _ => false)
    | _, _ => false) = true := by decide +kernel

end MaMDP
