import Verif.Props.Mdp

/-! # C97 - C98: assigning transitions and features -/

set_option linter.unusedSectionVars false

namespace MaMDP

variable {K : Type} [Field K] [LinearOrder K] [IsStrictOrderedRing K]

/-- Assigning a valid transition array to any MDP: it is used from then on, the adjacency and the
"deterministic" flag are those of the new array, nothing else changes. -/
theorem C97_transitions (m : Mdp K) (x : Arr3 K) (h : Spec.ValidTransitions x) :
    ∃ m', m.setSas x = (m', .ok ()) ∧ m'.nStates = x.d0 ∧ m'.nActions = x.d1 ∧ m'.sas = x.get ∧
      (∀ s t, s < x.d0 → t < x.d0 → (m'.adjacency s t = true ↔ ∃ a, a < x.d1 ∧ 0 < x.get s a t)) ∧
      (m'.deterministic = true ↔ ∀ s a t, s < x.d0 → a < x.d1 → t < x.d0 →
        x.get s a t = 0 ∨ x.get s a t = 1) ∧
      m'.features = m.features ∧ m'.originalFeatures = m.originalFeatures ∧
      m'.featureNames = m.featureNames ∧ m'.nAgents = m.nAgents ∧ m'.walls = m.walls := by
  have hv := (Mdp.validTransitions_iff x).1 h
  obtain ⟨h1, h2, h3, h4⟩ := h
  refine ⟨_, Mdp.setSas_valid m hv, rfl, rfl, rfl, ?_, ?_, rfl, rfl, rfl, rfl, rfl⟩
  · intro s t hs ht
    simp only [decide_eq_true_eq, npSum]
    constructor
    · intro hp
      by_contra hc
      push Not at hc
      have : ∑ a ∈ Finset.range x.d1, x.get s a t ≤ 0 :=
        Finset.sum_nonpos fun a ha => hc a (Finset.mem_range.1 ha)
      exact absurd hp (not_lt.2 this)
    · rintro ⟨a, ha, hp⟩
      exact Finset.sum_pos' (fun b hb => (h4 s b t hs (Finset.mem_range.1 hb) ht).1)
        ⟨a, Finset.mem_range.2 ha, hp⟩
  · simp only [Bool.not_eq_true', any3_eq_false]
    constructor
    · intro hd s a t hs ha ht
      have := hd s hs a ha t (h1 ▸ ht)
      have := h4 s a t hs ha ht
      rcases eq_or_lt_of_le this.1 with h | h
      · exact .inl h.symm
      · right
        by_contra hne
        exact hd s hs a ha t (h1 ▸ ht) ⟨h, lt_of_le_of_ne this.2 hne⟩
    · intro hd s hs a ha t ht hc
      rcases hd s a t hs ha (h1.symm ▸ ht) with h | h
      · rw [h] at hc; exact lt_irrefl _ hc.1
      · rw [h] at hc; exact lt_irrefl _ hc.2

/-- Any other array is refused, and the MDP is left as it was. The kind of the exception tells whether the first and last
axis differ in length, or else an axis is empty, or else an entry is not a probability. -/
theorem C97_transitions_refused (m : Mdp K) (x : Arr3 K) (h : ¬ Spec.ValidTransitions x) :
    ∃ e, m.setSas x = (m, .error e) ∧ (x.d0 ≠ x.d2 → e = .typeError) ∧
      (x.d0 = x.d2 → (x.d0 = 0 ∨ x.d1 = 0) → e = .valueError) ∧
      (x.d0 = x.d2 → 0 < x.d0 → 0 < x.d1 → e = .attributeError) := by
  have h1 : (m.setSas x).2 ≠ .ok () := fun h2 =>
    h ((Mdp.validTransitions_iff x).2 (m.validSas_of_ok h2))
  unfold Mdp.setSas at h1 ⊢
  split_ifs at h1 ⊢ with h2 h3 h4
  · exact ⟨_, rfl, fun _ => rfl, fun h5 => absurd h5 h2, fun h5 => absurd h5 h2⟩
  · exact ⟨_, rfl, fun h5 => absurd h5 h2, fun _ _ => rfl, fun _ _ _ => by omega⟩
  · exact ⟨_, rfl, fun h5 => absurd h5 h2, fun _ h5 => absurd h5 h3, fun _ _ _ => rfl⟩
  · exact absurd rfl h1

/-- Consuming changes nothing but feature values. -/
theorem consumeLoop_frame (s : Int) : ∀ (fs : List Int) (m : Mdp K) (c : Nat → Nat),
    ∃ g, (Mdp.consumeLoop s fs m c).1 = { m with features := { m.features with get := g } } := by
  intro fs
  induction fs with
  | nil => intro m c; exact ⟨m.features.get, rfl⟩
  | cons f fs ih =>
    intro m c
    unfold Mdp.consumeLoop
    split
    · split_ifs
      · obtain ⟨g, hg⟩ := ih _ _
        exact ⟨g, hg⟩
      · exact ih _ _
    · exact ⟨m.features.get, rfl⟩

/-- Assigning features succeeds exactly when there is one column per state. The array given becomes the
features, their number and default names follow, and a later `reset` goes back to this array; a refused
assignment changes nothing. -/
theorem C97_features (m : Mdp K) (f : Arr2 K) :
    (f.d1 = m.nStates → ∃ m', m.setFeatures f = (m', .ok ()) ∧ m'.features = f ∧ m'.nFeatures = f.d0 ∧
      m'.featureNames.length = f.d0 ∧
      (∀ i, i < f.d0 → m'.featureNames[i]? = some ("Feature_" ++ toString i)) ∧
      (∀ ops : List (MdpOp K), (∀ op ∈ ops, ∃ fs s, op = .consumeFeatures fs s) →
        (m'.run ops).reset.1.features = f) ∧
      m'.sas = m.sas ∧ m'.nStates = m.nStates ∧ m'.walls = m.walls ∧ m'.nAgents = m.nAgents) ∧
    (f.d1 ≠ m.nStates → m.setFeatures f = (m, .error .attributeError)) := by
  constructor
  · intro h
    refine ⟨{ m with features := f, originalFeatures := f, featureNames := Mdp.defaultNames f.d0 },
      by rw [Mdp.setFeatures, if_neg (by simpa using h)], rfl, rfl, by simp [Mdp.defaultNames], ?_, ?_, rfl, rfl,
      rfl, rfl⟩
    · intro i hi
      simp [Mdp.defaultNames, hi]
    · intro ops hops
      have key : ∀ (l : List (MdpOp K)) (m0 : Mdp K), (∀ op ∈ l, ∃ fs s, op = .consumeFeatures fs s) →
          (m0.run l).originalFeatures = m0.originalFeatures ∧ (m0.run l).nStates = m0.nStates := by
        intro l
        induction l with
        | nil => intro m0 _; exact ⟨rfl, rfl⟩
        | cons op l ih =>
          intro m0 hl
          obtain ⟨fs, s, rfl⟩ := hl op (by simp)
          have := ih (m0.apply (.consumeFeatures fs s)) (fun o ho => hl o (List.mem_cons_of_mem _ ho))
          obtain ⟨g, hg⟩ := consumeLoop_frame s fs m0 (fun _ => 0)
          have h0 : (m0.apply (.consumeFeatures fs s)).originalFeatures = m0.originalFeatures ∧
              (m0.apply (.consumeFeatures fs s)).nStates = m0.nStates := by
            change (Mdp.consumeLoop s fs m0 (fun _ => 0)).1.originalFeatures = _ ∧
              (Mdp.consumeLoop s fs m0 (fun _ => 0)).1.nStates = _
            rw [hg]
            exact ⟨rfl, rfl⟩
          exact ⟨this.1.trans h0.1, this.2.trans h0.2⟩
      obtain ⟨k1, k2⟩ := key ops _ hops
      unfold Mdp.reset Mdp.setFeatures
      rw [k1, k2, if_neg (by simpa using h)]
  · intro h
    rw [Mdp.setFeatures, if_pos h]

/-- A stochastic array with two states and two actions, and one with an entry above 1. -/
example : Spec.ValidTransitions (⟨2, 2, 2, fun s a t => if a = 0 then (if t = s then 1 else 0) else 1 / 2⟩ :
      Arr3 Rat) ∧
    ¬ Spec.ValidTransitions (⟨2, 2, 2, fun _ _ _ => 3 / 2⟩ : Arr3 Rat) := by
  refine ⟨⟨rfl, by decide, by decide, ?_⟩, ?_⟩
  · intro s a t _ _ _
    simp only
    split_ifs <;> norm_num
  · rintro ⟨-, -, -, h⟩
    have := (h 0 0 0 (by decide) (by decide) (by decide)).2
    norm_num at this

/-! ## C98 -/

/-- A transition array for the grid's own states and actions: stay wherever you are. -/
def exStay (n k : Nat) : Arr3 Rat := ⟨n, k, n, fun s _ t => if t = s then 1 else 0⟩

/-- The claim fails: assigning any valid array with another number of states is accepted and leaves
features and walls of the old size. -/
theorem C98_refuted_sizes (kind : GridKind) (W H : Nat) (selfT : Bool) (m : Mdp K)
    (hm : Mdp.GridReach kind W H selfT m) (x : Arr3 K) (hx : Spec.ValidTransitions x) (hn : x.d0 ≠ W * H) :
    Spec.Fitting m ∧ ∃ m', m.setSas x = (m', .ok ()) ∧ m'.nStates = x.d0 ∧ m'.features.d1 = W * H ∧
      m'.walls.d0 = W * H ∧ ¬ Spec.Fitting m' := by
  have g := hm.ok
  obtain ⟨m', h1, h2, -, -, -, -, h3, -, -, -, h4⟩ := C97_transitions m x hx
  have e1 : m'.features.d1 = W * H := by rw [h3]; exact g.featStates
  have e2 : m'.walls.d0 = W * H := by rw [h4]; exact g.wallsLen
  refine ⟨⟨g.featStates.trans g.nStates.symm, g.wallsLen.trans g.nStates.symm⟩, m', h1, h2, e1, e2, ?_⟩
  rintro ⟨h5, -⟩
  exact hn (by rw [← h2, ← h5, e1])

/-- The claim fails also for arrays of the right size: the next wall assignment, even of the walls the MDP
already has, brings the transitions given at construction back. -/
theorem C98_refuted_walls (kind : GridKind) (W H : Nat) (selfT : Bool) (m : Mdp K)
    (hm : Mdp.GridReach kind W H selfT m) (x : Arr3 K) (hx : Spec.ValidTransitions x) :
    ∃ m' m'', m.setSas x = (m', .ok ()) ∧ m'.sas = x.get ∧ m'.setWalls m'.walls = (m'', .ok ()) ∧
      ∀ s a t, s < W * H → t < W * H → m''.sas s a t = m.sas s a t := by
  have g := hm.ok
  have hv := (Mdp.validTransitions_iff x).1 hx
  obtain ⟨f, ho, hf⟩ := g.orig
  have hvo := Mdp.validSas_grid (K := K) g.pos hf
  obtain ⟨m', h1, -, -, h4, -, -, -, -, -, -, h5⟩ := C97_transitions m x hx
  obtain ⟨h6, h7, -⟩ := m.setSas_frame x
  rw [h1] at h6 h7
  simp only at h6 h7
  have hw : ¬ ∃ i, i < m'.walls.d0 ∧ ¬ (m'.walls.get i = 0 ∨ m'.walls.get i = 1) := by
    rintro ⟨i, hi, hc⟩
    rw [h5] at hi hc
    exact hc (g.walls01 i (g.wallsLen ▸ hi))
  have h8 : ∃ m'', m'.setWalls m'.walls = (m'', .ok ()) := by
    unfold Mdp.setWalls
    simp only [h6, g.shape]
    rw [if_neg (by rw [h5]; simpa using g.wallsLen), if_neg hw, h7, ho, Mdp.setSas_valid _ hvo]
    exact ⟨_, rfl⟩
  obtain ⟨m'', h8⟩ := h8
  refine ⟨m', m'', h1, h4, h8, fun s a t hs ht => ?_⟩
  rw [Mdp.setWalls_ok h8]
  simp only [Mdp.maskWalls, h5, h7, ho]
  rw [g.sas s a t hs ht, hf s a t hs ht]

/-- What does hold: for every history without an assignment of transitions the sizes match, and an assigned
array of the right number of states is used by every query until the next change of the walls. -/
theorem C98_partial (kind : GridKind) (W H : Nat) (selfT : Bool) (m : Mdp K)
    (hm : Mdp.GridReach kind W H selfT m) :
    Spec.Fitting m ∧ ∀ (x : Arr3 K), Spec.ValidTransitions x → x.d0 = W * H → ∀ ops : List (MdpOp K),
      (∀ op ∈ ops, (∃ f, op = .setFeatures f) ∨ (∃ p, op = .addAgentFeature p) ∨
        (∃ i p, op = .updateAgentFeature i p) ∨ op = .removeAgentFeatures ∨
        (∃ fs s, op = .consumeFeatures fs s) ∨ op = .reset) →
      ((m.apply (.setSas x)).run ops).sas = x.get ∧ Spec.Fitting ((m.apply (.setSas x)).run ops) := by
  have g := hm.ok
  refine ⟨⟨g.featStates.trans g.nStates.symm, g.wallsLen.trans g.nStates.symm⟩, fun x hx hn ops hops => ?_⟩
  have key : ∀ (l : List (MdpOp K)) (m0 : Mdp K), (∀ op ∈ l, (∃ f, op = .setFeatures f) ∨
        (∃ p, op = .addAgentFeature p) ∨ (∃ i p, op = .updateAgentFeature i p) ∨ op = .removeAgentFeatures ∨
        (∃ fs s, op = .consumeFeatures fs s) ∨ op = .reset) →
      (m0.sas = x.get ∧ m0.features.d1 = m0.nStates ∧ m0.originalFeatures.d1 = m0.nStates ∧
        m0.walls.d0 = m0.nStates) →
      ((m0.run l).sas = x.get ∧ (m0.run l).features.d1 = (m0.run l).nStates ∧
        (m0.run l).originalFeatures.d1 = (m0.run l).nStates ∧ (m0.run l).walls.d0 = (m0.run l).nStates) := by
    have hset : ∀ (m0 : Mdp K) (f : Arr2 K), (m0.sas = x.get ∧ m0.features.d1 = m0.nStates ∧
        m0.originalFeatures.d1 = m0.nStates ∧ m0.walls.d0 = m0.nStates) →
        ((m0.setFeatures f).1.sas = x.get ∧ (m0.setFeatures f).1.features.d1 = (m0.setFeatures f).1.nStates ∧
          (m0.setFeatures f).1.originalFeatures.d1 = (m0.setFeatures f).1.nStates ∧
          (m0.setFeatures f).1.walls.d0 = (m0.setFeatures f).1.nStates) := by
      intro m0 f h
      unfold Mdp.setFeatures
      split_ifs with hf
      · exact h
      · push Not at hf
        exact ⟨h.1, hf, hf, h.2.2.2⟩
    intro l
    induction l with
    | nil => intro m0 _ h; exact h
    | cons op l ih =>
      intro m0 hl h
      refine ih (m0.apply op) (fun o ho => hl o (List.mem_cons_of_mem _ ho)) ?_
      rcases hl op (by simp) with ⟨f, rfl⟩ | ⟨p, rfl⟩ | ⟨i, p, rfl⟩ | rfl | ⟨fs, s, rfl⟩ | rfl
      · exact hset m0 f h
      · simp only [Mdp.apply, Mdp.addAgentFeature]
        split
        · exact h
        · split_ifs
          · exact h
          · exact hset { m0 with nAgents := m0.nAgents + 1 } _ h
      · simp only [Mdp.apply, Mdp.updateAgentFeature]
        split
        · exact h
        · split
          · exact h
          · exact h
      · simp only [Mdp.apply, Mdp.removeAgentFeatures]
        have h1 := hset m0 { m0.features with d0 := if m0.nAgents = 0 then 0 else m0.features.d0 - m0.nAgents } h
        cases h2 : m0.setFeatures { m0.features with
            d0 := if m0.nAgents = 0 then 0 else m0.features.d0 - m0.nAgents } with
        | mk m1 r =>
          rw [h2] at h1
          cases r <;> exact h1
      · obtain ⟨gg, hg⟩ := consumeLoop_frame s fs m0 (fun _ => 0)
        change (Mdp.consumeLoop s fs m0 (fun _ => 0)).1.sas = _ ∧ _
        change _ ∧ (Mdp.consumeLoop s fs m0 (fun _ => 0)).1.features.d1 =
          (Mdp.consumeLoop s fs m0 (fun _ => 0)).1.nStates ∧
          (Mdp.consumeLoop s fs m0 (fun _ => 0)).1.originalFeatures.d1 =
          (Mdp.consumeLoop s fs m0 (fun _ => 0)).1.nStates ∧
          (Mdp.consumeLoop s fs m0 (fun _ => 0)).1.walls.d0 = (Mdp.consumeLoop s fs m0 (fun _ => 0)).1.nStates
        rw [hg]
        exact h
      · exact hset m0 _ h
  obtain ⟨m', h1, h2, -, h4, -, -, h5, h6, -, -, h7⟩ := C97_transitions m x hx
  have h8 : m.apply (.setSas x) = m' := by change (m.setSas x).1 = m'; rw [h1]
  rw [h8]
  obtain ⟨k1, k2, k3, k4⟩ := key ops m' hops ⟨h4, by rw [h5, h2, hn]; exact g.featStates,
    by rw [h6, h2, hn]; exact g.origFeatStates, by rw [h7, h2, hn]; exact g.wallsLen⟩
  exact ⟨k1, k2, k4⟩

/-- Arrays meeting the hypotheses: two states on a 2x3 grid, and six states. -/
example : Spec.ValidTransitions (exStay 2 1) ∧ (exStay 2 1).d0 ≠ 2 * 3 ∧
    Spec.ValidTransitions (exStay 6 4) ∧ (exStay 6 4).d0 = 2 * 3 := by
  have h : ∀ n k, 0 < n → 0 < k → Spec.ValidTransitions (exStay n k) := by
    intro n k hn hk
    refine ⟨rfl, hn, hk, fun s a t _ _ _ => ?_⟩
    simp only [exStay]
    split_ifs <;> norm_num
  exact ⟨h _ _ (by decide) (by decide), by decide, h _ _ (by decide) (by decide), by decide⟩

end MaMDP
