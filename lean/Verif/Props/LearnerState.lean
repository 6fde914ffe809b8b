import Verif.Props.FeatureMatching
import Verif.Props.IRL
import Verif.Props.PolicyLearning

/-! # What learners keep: resetting hypothesis testing (C92), failed fits (C93) -/

set_option linter.unusedSectionVars false

namespace MaMDP

variable {K : Type} [Field K] [LinearOrder K] [IsStrictOrderedRing K]

/-! ## C92: resetting a hypothesis-testing learner -/

theorem htFit_frame (o : HtIrl K) (z : List Nat → (Nat → Nat → Ext K) → Nat → Nat → Ext K)
    (data : List (Mdp K × Py (Nat → Nat → Nat → Ext K) × List Int)) (h : o.aliased = false) :
    (o.fit z data).1.aliased = false ∧ (o.fit z data).1.original = o.original := by
  unfold HtIrl.fit
  split
  · exact ⟨h, rfl⟩
  · split
    · split <;> exact ⟨h, rfl⟩
    · split
      · exact ⟨h, rfl⟩
      · split_ifs
        · exact ⟨h, rfl⟩
        · exact ⟨rfl, rfl⟩
    · split
      · exact ⟨h, by simp [HtIrl.write, h]⟩
      · split_ifs <;> exact ⟨h, by simp [HtIrl.write, h]⟩

/-- **C92, what holds.** The first `reset` of a learner built with weights restores them, after any fits, successful or
not. Missing: later resets, and learners built without weights. -/
theorem C92_partial (set : HtSettings K) (x : Nat → Ext K) (o : HtIrl K) (h : HtIrl.init set (some x) = .ok o)
    (ops : List (HtOp K)) (hops : .reset ∉ ops) : (o.runOps ops).reset.theta = .vec x := by
  have key : ∀ (ops : List (HtOp K)) (o : HtIrl K), .reset ∉ ops → o.aliased = false →
      (o.runOps ops).original = o.original := by
    intro ops
    induction ops with
    | nil => intro o _ _; rfl
    | cons op ops ih =>
      intro o hops ha
      rw [List.mem_cons, not_or] at hops
      rw [HtIrl.runOps]
      cases op with
      | fit z data =>
        obtain ⟨e1, e2⟩ := htFit_frame o z data ha
        exact (ih _ hops.2 e1).trans e2
      | reset => exact absurd rfl hops.1
  unfold HtIrl.init at h
  split_ifs at h
  obtain rfl := Except.ok.inj h
  exact key ops _ hops rfl

/-- **C92 is false of the code.** After one reset, a successful `fit` writes into the saved weights too, so that another
reset keeps the fitted ones. -/
theorem C92_refuted (o : HtIrl K) (hn : o.set.norm ≠ .relative) (x : Nat → Ext K) (ho : o.original = .vec x)
    (z : List Nat → (Nat → Nat → Ext K) → Nat → Nat → Ext K)
    (data : List (Mdp K × (Nat → Nat → Nat → Ext K) × List Int)) (h1 : (data.head?.map fun d => d.2.2) ≠ some [])
    (hs : SameShape (data.map fun d => d.1)) (hm : ∃ d ∈ data, Spec.moves d.2.2 ≠ [])
    (ha : ∀ d ∈ data, ∀ p ∈ Spec.moves d.2.2, Spec.Adjacent d.1.trans p) :
    ∃ o' R, o.reset.fit z (data.map fun d => (d.1, .ok d.2.1, d.2.2)) = (o', .ok R) ∧ o'.reset.theta = .vec R := by
  have hm' : allMoves data ≠ [] := by
    obtain ⟨d, hd, hp⟩ := hm
    intro he
    unfold allMoves at he
    have := List.flatMap_eq_nil_iff.1 he d hd
    exact hp (by simpa using this)
  have h := HtIrl.fit_ok o.reset hn z data h1 hs hm' ha
  rw [show o.reset.theta = .vec x from ho] at h
  exact ⟨_, _, h, rfl⟩

/-- A learner built without weights cannot be used any more after a reset: whatever it is given, `fit` raises, and moves
between adjacent states give `TypeError`. -/
theorem C92_refuted_none (set : HtSettings K) (o : HtIrl K) (h : HtIrl.init set none = .ok o)
    (z : List Nat → (Nat → Nat → Ext K) → Nat → Nat → Ext K)
    (data : List (Mdp K × Py (Nat → Nat → Nat → Ext K) × List Int)) :
    (∃ e, o.reset.fit z data = (o.reset, .error e)) ∧
      ∀ good : List (Mdp K × (Nat → Nat → Nat → Ext K) × List Int), set.norm ≠ .relative →
        (good.head?.map fun d => d.2.2) ≠ some [] → SameShape (good.map fun d => d.1) →
        (∃ d ∈ good, Spec.moves d.2.2 ≠ []) →
        (∀ d ∈ good, ∀ p ∈ Spec.moves d.2.2, Spec.Adjacent d.1.trans p) →
        (o.reset.fit z (good.map fun d => (d.1, .ok d.2.1, d.2.2))).2 = .error .typeError := by
  unfold HtIrl.init at h
  split_ifs at h
  obtain rfl := Except.ok.inj h
  refine ⟨?_, fun good hn h1 hs hm ha => ?_⟩
  · unfold HtIrl.fit
    split
    · exact ⟨_, rfl⟩
    · simp only [HtIrl.reset]
      split <;> exact ⟨_, rfl⟩
  · have hm' : allMoves good ≠ [] := by
      obtain ⟨d, hd, hp⟩ := hm
      intro he
      unfold allMoves at he
      have := List.flatMap_eq_nil_iff.1 he d hd
      exact hp (by simpa using this)
    rw [HtIrl.fit_ok _ hn z good h1 hs hm' ha]
    rfl

/-- Start (1, 1), reset, fit, reset: the start is lost, while a fit without the first reset does not lose it. Without
a start, a reset makes the next fit raise. -/
example : (match exIrlMdp, HtIrl.init (⟨1/2, 1, 2, .other⟩ : HtSettings ℚ) (some fun _ => .fin 1),
      HtIrl.init (⟨1/2, 1, 2, .other⟩ : HtSettings ℚ) none with
    | .ok m, .ok o, .ok o' =>
      let Q := htQ m.nFeatures [] fun w => solveHard m.trans (stateReward m.nFeatures w m.features.get) 3 (1/2) (1/100)
      let f : HtOp ℚ := .fit (fun _ x a f => x a f) [(m, Q, [2, 1, 0])]
      (match (o.runOps [.reset, f, .reset]).theta, (o.runOps [f, .reset]).theta,
          ((o'.runOps [f, .reset]).fit (fun _ x a f => x a f) [(m, Q, [2, 1, 0])]).2 with
        | .vec x, .vec y, .error e => (match x 1, y 1 with
          | .fin a, .fin b => decide (a ≠ 1) && decide (b = 1)
          | _, _ => false) && decide (e = .typeError)
        | _, _, _ => false)
    | _, _, _ => false) = true := by decide +kernel

/-! ## C93: failed fits -/

/-- **C93, what holds for hypothesis testing.** A fit that raises changes nothing while the learner has no weights, and
in any case when the arguments are refused or the very first move is not possible. Missing: learners with weights that
meet the bad move later. -/
theorem C93_ht_partial (o : HtIrl K) (z : List Nat → (Nat → Nat → Ext K) → Nat → Nat → Ext K)
    (data : List (Mdp K × Py (Nat → Nat → Nat → Ext K) × List Int)) (e : PyErr)
    (he : (o.fit z data).2 = .error e)
    (h : (∀ x, o.theta ≠ .vec x) ∨ ∃ m Q s t l rest, data = (m, Q, s :: t :: l) :: rest ∧
      ¬ Spec.Adjacent m.trans (s, t)) : (o.fit z data).1.theta = o.theta := by
  unfold HtIrl.fit at he ⊢
  split
  · rfl
  · rename_i hc
    rw [hc] at he
    simp only at he
    split
    · split <;> rfl
    · rename_i ht
      rw [ht] at he
      simp only at he
      split
      · exact ht.symm ▸ rfl
      · rename_i hl
        rw [hl] at he
        simp only at he
        split_ifs at he with hn
        rw [if_pos hn]
    · rename_i x ht
      rcases h with h | ⟨m, Q, s, t, l, rest, rfl, hadj⟩
      · exact absurd ht (h x)
      · rw [htLoop, htPairs_bad o.set z m.trans Q s t l 1 x hadj]
        exact ht.symm

/-- **C93 is false of the code** for hypothesis testing: a learner with weights keeps what it learned before the bad
move. After possible moves in the first trajectories and an impossible one at the start of the next, `fit` raises
`ValueError` and leaves the learner as the possible moves alone would. -/
theorem C93_ht_refuted (o : HtIrl K) (hn : o.set.norm ≠ .relative) (x : Nat → Ext K) (ho : o.theta = .vec x)
    (z : List Nat → (Nat → Nat → Ext K) → Nat → Nat → Ext K)
    (good : List (Mdp K × (Nat → Nat → Nat → Ext K) × List Int)) (h1 : (good.head?.map fun d => d.2.2) ≠ some [])
    (hm : ∃ d ∈ good, Spec.moves d.2.2 ≠ []) (ha : ∀ d ∈ good, ∀ p ∈ Spec.moves d.2.2, Spec.Adjacent d.1.trans p)
    (m : Mdp K) (Q : Nat → Nat → Nat → Ext K) (s t : Int) (l : List Int) (hb : ¬ Spec.Adjacent m.trans (s, t))
    (hs : SameShape ((good ++ [(m, Q, s :: t :: l)]).map fun d => d.1)) :
    o.fit z ((good ++ [(m, Q, s :: t :: l)]).map fun d => (d.1, .ok d.2.1, d.2.2)) =
      ((o.fit z (good.map fun d => (d.1, .ok d.2.1, d.2.2))).1, .error .valueError) := by
  have hm' : allMoves good ≠ [] := by
    obtain ⟨d, hd, hp⟩ := hm
    intro he
    unfold allMoves at he
    have := List.flatMap_eq_nil_iff.1 he d hd
    exact hp (by simpa using this)
  have hne : good ≠ [] := by rintro rfl; exact hm' rfl
  have hs' : SameShape (good.map fun d => d.1) := fun a b c d =>
    hs a (by rw [List.map_append]; exact List.mem_append_left _ b) c
      (by rw [List.map_append]; exact List.mem_append_left _ d)
  rw [HtIrl.fit_ok o hn z good h1 hs' hm' ha, ho]
  have hc := htChecks_ok ((good ++ [(m, Q, s :: t :: l)]).map fun d =>
      (d.1, (Except.ok d.2.1 : Py (Nat → Nat → Nat → Ext K)), d.2.2))
    (by simp)
    (by
      cases good with
      | nil => exact absurd rfl hne
      | cons d l => simpa using h1)
    (by
      rw [List.map_map]
      exact hs)
  unfold HtIrl.fit
  rw [hc]
  simp only [ho]
  rw [List.map_append, htLoop_append, htLoop_ok o.set z hn good 1 x ha]
  simp only [List.map_cons, List.map_nil]
  rw [htLoop, htPairs_bad o.set z m.trans _ s t l _ _ hb]
  rfl

/-- Weights (1, 1), a possible move and an impossible one: `ValueError`, and the weight of the second feature moved. -/
example : (match exIrlMdp, HtIrl.init (⟨1/2, 1, 2, .other⟩ : HtSettings ℚ) (some fun _ => .fin 1) with
    | .ok m, .ok o =>
      let Q := htQ m.nFeatures [] fun w => solveHard m.trans (stateReward m.nFeatures w m.features.get) 3 (1/2) (1/100)
      (match o.fit (fun _ x a f => x a f) [(m, Q, [2, 1]), (m, Q, [2, 0])] with
        | (o', .error e) => (match o'.theta with
          | .vec x => (match x 1 with
            | .fin a => decide (a ≠ 1)
            | _ => false)
          | _ => false) && decide (e = .valueError)
        | _ => false)
    | _, _ => false) = true := by decide +kernel

/-- **C93 is false of the code** for max-causal-entropy IRL: a learner without weights has zero weights, not none, once
solving the MDP or selecting actions has failed in the first iteration. -/
theorem C93_mce_refuted (o : MceIrl K) (ho : o.theta = .none) (m : Mdp K) (ts : List (List Int)) (ign : Ignore)
    (hv : Spec.ValidIgnore m.nFeatures ign) (h0 : ts ≠ []) (h1 : ts.head? ≠ some [])
    (hr : ∀ t ∈ ts, ∀ i ∈ t, Spec.InRange m.nStates i) (expected : (Nat → K) → Py (Nat → K)) (e : PyErr)
    (hE : ∀ x, expected x = .error e) (hk : 0 < o.set.maxIter) :
    ∃ w, (o.fit m ts ign expected).2 = .error e ∧ (o.fit m ts ign expected).1.theta = .vec w ∧ ∀ f, w f = 0 := by
  match ts, h0, h1 with
  | [] :: _, _, h1 => exact absurd rfl h1
  | (i :: t) :: ts, h0, h1 =>
    obtain ⟨k, hk'⟩ : ∃ k, o.set.maxIter = k + 1 := ⟨_, (Nat.succ_pred_eq_of_pos hk).symm⟩
    unfold MceIrl.fit
    rw [empirical_eq, if_pos hr]
    simp only
    rw [zeroAt_valid hv]
    simp only [ho]
    unfold MceIrl.fit.run
    rw [zeroAt_valid hv]
    simp only [hk', irlLoop, hE]
    exact ⟨_, trivial, rfl, fun f => by simp⟩

/-- **C93, what holds for max-causal-entropy IRL.** When the trajectories name a missing state or the ignored features
do not exist, `fit` raises and the learner is as before. Missing: errors met later. -/
theorem C93_mce_partial (o : MceIrl K) (m : Mdp K) (ts : List (List Int)) (ign : Ignore)
    (expected : (Nat → K) → Py (Nat → K))
    (h : ts = [] ∨ ts.head? = some [] ∨ (∃ t ∈ ts, ∃ i ∈ t, ¬ Spec.InRange m.nStates i) ∨
      ¬ Spec.ValidIgnore m.nFeatures ign) :
    ∃ e, o.fit m ts ign expected = (o, .error e) := by
  match ts, h with
  | [], _ => exact ⟨_, rfl⟩
  | [] :: ts, _ => exact ⟨_, rfl⟩
  | (i :: t) :: ts, h =>
    unfold MceIrl.fit
    rw [empirical_eq]
    by_cases hr : ∀ t' ∈ (i :: t) :: ts, ∀ i ∈ t', Spec.InRange m.nStates i
    · rw [if_pos hr]
      simp only
      have hv : ¬ Spec.ValidIgnore m.nFeatures ign := by
        rcases h with h | h | ⟨t', h2, j, h3, h4⟩ | h
        · cases h
        · cases h
        · exact absurd (hr t' h2 j h3) h4
        · exact h
      rw [zeroAt_invalid hv]
      exact ⟨_, rfl⟩
    · rw [if_neg hr]
      exact ⟨_, rfl⟩

/-- **C93 is false of the code** for the TD policy learner: a trajectory of two steps raises `IndexError` at the second
step (see C74) and leaves the estimates of the first behind. -/
theorem C93_td_refuted : ¬ ∀ (o : TdLearner ℚ) (m : Mdp ℚ) (ts : List (List Int)) (x : Arr1 ℚ) (e : PyErr),
    o.q = .vec x → (o.fit (.inl m) ts).2 = .error e →
    ∃ y, (o.fit (.inl m) ts).1.q = .vec y ∧ ∀ a, a < m.nActions → y.get a = x.get a := by
  intro h
  have hw : (match exStrip with
      | .ok m => (match (⟨1/2, .int 0, none, 1/2, 1, .vec ⟨4, fun _ => 0⟩, .obj, false, false⟩ :
            TdLearner ℚ).fit (.inl m) [[0, 1, 2]] with
        | (o, .error .indexError) => (match o.q with
          | .vec y => decide (y.get 0 = 1/2) && decide (0 < m.nActions)
          | _ => false)
        | _ => false)
      | .error _ => false) = true := by decide +kernel
  cases hm : exStrip with
  | error e => rw [hm] at hw; cases hw
  | ok m =>
    rw [hm] at hw
    simp only at hw
    have := h ⟨1/2, .int 0, none, 1/2, 1, .vec ⟨4, fun _ => 0⟩, .obj, false, false⟩ m [[0, 1, 2]] ⟨4, fun _ => 0⟩
      .indexError rfl
    split at hw
    · rename_i o' ho
      rw [ho] at this
      obtain ⟨y, hy, hz⟩ := this rfl
      simp only at hy
      rw [hy] at hw
      simp only [Bool.and_eq_true, decide_eq_true_eq] at hw
      have := hz 0 hw.2
      rw [hw.1] at this
      norm_num at this
    · cases hw

end MaMDP
