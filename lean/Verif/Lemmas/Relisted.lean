import Verif.Spec.Relisted
import Verif.Lemmas.Replay
import Verif.Props.FeatureNumbers

/-! # Environments whose agents have other numbers -/

set_option linter.unusedSectionVars false

namespace MaMDP

variable {K δ : Type} [Field K] [LinearOrder K] [IsStrictOrderedRing K]
variable {kind : GridKind} {W H : Nat} {selfT : Bool} {σ : Nat → Nat} {m m' : Mdp K} {N nA : Nat}

/-- A renumbering of the numbers below `N`. -/
structure Renumbers (N : Nat) (σ : Nat → Nat) : Prop where
  lt : ∀ f, f < N → σ f < N
  inj : ∀ f g, f < N → g < N → σ f = σ g → f = g

theorem Renumbers.onto (h : Renumbers N σ) {g : Nat} (hg : g < N) : ∃ f, f < N ∧ σ f = g := by
  have := Finset.surjOn_of_injOn_of_card_le (s := Finset.range N) (t := Finset.range N) σ
    (fun f hf => by
      simp only [Finset.coe_range, Set.mem_Iio] at hf ⊢
      exact h.lt f hf)
    (fun f hf g hg he => by
      simp only [Finset.coe_range, Set.mem_Iio] at hf hg
      exact h.inj f g hf hg he) le_rfl
  obtain ⟨f, hf, he⟩ := this (a := g) (by simpa using hg)
  exact ⟨f, by simpa using hf, he⟩

/-- The same MDP with feature `f` under the number `σ f`. -/
def Mdp.Shuffled (N nA : Nat) (σ : Nat → Nat) (m m' : Mdp K) : Prop :=
  ∃ F O, m' = { m with features := F, originalFeatures := O } ∧ m.features.d0 = N ∧ m.nAgents = nA ∧
    F.d0 = N ∧ F.d1 = m.features.d1 ∧ O.d0 = m.originalFeatures.d0 ∧ O.d1 = m.originalFeatures.d1 ∧
    m.originalFeatures.d0 = N ∧
    (∀ f, f < N → F.get (σ f) = m.features.get f) ∧ (∀ f, f < N → O.get (σ f) = m.originalFeatures.get f)

theorem Mdp.Shuffled.update (hσ : Renumbers N σ) (h : Mdp.Shuffled N nA σ m m') (hle : nA ≤ N) {i i' : Nat} (hi : i < nA)
    (hi' : i' < nA) (hrow : σ (N - nA + i) = N - nA + i') (p : Int) :
    Mdp.Shuffled N nA σ (m.updateAgentFeature i p).1 (m'.updateAgentFeature i' p).1 ∧
    (m'.updateAgentFeature i' p).2 = (m.updateAgentFeature i p).2 := by
  obtain ⟨F, O, rfl, h1, h2, h3, h4, h5, h6, h6', h7, h8⟩ := h
  have e1 : pyIdx m.features.d0 ((m.nFeatures : Int) - m.nAgents + i) = some (N - nA + i) := by
    have := Mdp.agentRow_idx (m := m) (i := i) (by omega) (by omega)
    rw [this]; simp only [Mdp.agentRow, h1, h2]
  have e2 : pyIdx F.d0 ((F.d0 : Int) - m.nAgents + i') = some (N - nA + i') := by
    rw [h3, h2]
    have : ((N : Int) - nA + i') = ((N - nA + i' : Nat) : Int) := by omega
    rw [this, pyIdx_nat, if_pos (by omega)]
  have hr : N - nA + i < N := by omega
  unfold Mdp.updateAgentFeature
  rw [e1]
  simp only [Mdp.nFeatures]
  rw [e2, h4]
  simp only
  cases pyIdx m.features.d1 p with
  | none =>
    refine ⟨⟨_, O, rfl, h1, h2, h3, rfl, h5, h6, h6', fun f hf => funext fun s => ?_, h8⟩, rfl⟩
    simp only
    by_cases hfr : f = N - nA + i
    · rw [if_pos hfr, if_pos (by rw [hfr, hrow])]
    · rw [if_neg hfr, if_neg (fun h => hfr (hσ.inj _ _ hf hr (h.trans hrow.symm))), h7 f hf]
  | some j =>
    refine ⟨⟨_, O, rfl, h1, h2, h3, rfl, h5, h6, h6', fun f hf => funext fun s => ?_, h8⟩, rfl⟩
    simp only [upd2]
    by_cases hfr : f = N - nA + i
    · have : σ f = N - nA + i' := by rw [hfr, hrow]
      simp only [hfr, hrow, if_true]
    · have : ¬ σ f = N - nA + i' := fun h => hfr (hσ.inj _ _ hf hr (h.trans hrow.symm))
      simp only [hfr, this, if_false, false_and, h7 f hf]

theorem Mdp.Shuffled.eat (hσ : Renumbers N σ) {state : Int} : ∀ (l : List Nat) (m m' : Mdp K) (c c' : Nat → Nat),
    Mdp.Shuffled N nA σ m m' → (∀ f ∈ l, f < N) → (∀ f, f < N → c' (σ f) = c f) →
    Mdp.Shuffled N nA σ (Mdp.consumeLoop state (l.map (fun f : Nat => (f : Int))) m c).1
      (Mdp.consumeLoop state (l.map (fun f : Nat => ((σ f : Nat) : Int))) m' c').1 ∧
    ((∃ er, (Mdp.consumeLoop state (l.map (fun f : Nat => (f : Int))) m c).2 = .error er ∧
      (Mdp.consumeLoop state (l.map (fun f : Nat => ((σ f : Nat) : Int))) m' c').2 = .error er) ∨
    ∃ x x', (Mdp.consumeLoop state (l.map (fun f : Nat => (f : Int))) m c).2 = .ok x ∧
      (Mdp.consumeLoop state (l.map (fun f : Nat => ((σ f : Nat) : Int))) m' c').2 = .ok x' ∧
      ∀ f, f < N → x' (σ f) = x f) := by
  intro l
  induction l with
  | nil => intro m m' c c' h _ hc; exact ⟨h, .inr ⟨c, c', rfl, rfl, hc⟩⟩
  | cons r l ih =>
    intro m m' c c' h hl hc
    obtain ⟨F, O, rfl, h1, h2, h3, h4, h5, h6, h6', h7, h8⟩ := h
    have hr : r < N := hl r List.mem_cons_self
    have hl' : ∀ f ∈ l, f < N := fun f hf => hl f (List.mem_cons_of_mem _ hf)
    simp only [List.map_cons]
    unfold Mdp.consumeLoop
    have e1 : pyIdx m.features.d0 (r : Int) = some r := by rw [pyIdx_nat, if_pos (by omega)]
    have e2 : pyIdx F.d0 ((σ r : Nat) : Int) = some (σ r) := by
      rw [pyIdx_nat, if_pos (by rw [h3]; exact hσ.lt r hr)]
    rw [e1]
    simp only
    rw [e2, h4]
    cases pyIdx m.features.d1 state with
    | none => exact ⟨⟨F, O, rfl, h1, h2, h3, h4, h5, h6, h6', h7, h8⟩, .inl ⟨_, rfl, rfl⟩⟩
    | some s =>
      simp only [h7 r hr]
      by_cases h0 : 0 < m.features.get r s
      · rw [if_pos h0, if_pos h0]
        refine ih _ _ _ _ ⟨_, O, rfl, h1, h2, h3, rfl, h5, h6, h6', fun f hf => funext fun t => ?_, h8⟩ hl' (fun f hf => ?_)
        · simp only [upd2]
          by_cases hfr : f = r
          · subst hfr; simp only [h7 f hf]
          · have : ¬ σ f = σ r := fun h => hfr (hσ.inj _ _ hf hr h)
            simp only [hfr, this, false_and, if_false, h7 f hf]
        · simp only [upd1]
          by_cases hfr : f = r
          · subst hfr; simp only [if_true, hc f hf]
          · have : ¬ σ f = σ r := fun h => hfr (hσ.inj _ _ hf hr h)
            simp only [hfr, this, if_false, hc f hf]
      · rw [if_neg h0, if_neg h0]
        exact ih _ _ _ _ ⟨F, O, rfl, h1, h2, h3, h4, h5, h6, h6', h7, h8⟩ hl' hc

namespace Agent

/-- The agent with other numbers. -/
def dress (a : Agent K δ) (w : Arr1 K) (i fi : Nat) (cs : List Int) (cd : Nat → Nat) : Agent K δ :=
  { a with reward := w, idx := i, featIdx := fi, consumes := cs, consumed := cd }

/-- The numbers mean the same. -/
structure Suits (N nA : Nat) (σ : Nat → Nat) (a : Agent K δ) (w : Arr1 K) (i fi : Nat) (cs : List Int) (cd : Nat → Nat) :
    Prop where
  d0 : a.reward.d0 = N
  d0' : w.d0 = N
  reward : ∀ f, f < N → w.get (σ f) = a.reward.get f
  idx : a.idx < nA
  idx' : i < nA
  row : σ (N - nA + a.idx) = N - nA + i
  consumes : ∃ l : List Nat, (∀ f ∈ l, f < N) ∧ a.consumes = l.map (fun f : Nat => (f : Int)) ∧
    cs = l.map (fun f : Nat => ((σ f : Nat) : Int))
  consumed : ∀ f, f < N → cd (σ f) = a.consumed f
  feat : a.featIdx = N - nA + a.idx
  feat' : fi = N - nA + i

/-- The same agent under other numbers. -/
def Shuffled (N nA : Nat) (σ : Nat → Nat) (a a' : Agent K δ) : Prop :=
  ∃ w i fi cs cd, a' = a.dress w i fi cs cd ∧ Suits N nA σ a w i fi cs cd

variable {a : Agent K δ} {w : Arr1 K} {i fi : Nat} {cs : List Int} {cd : Nat → Nat}

theorem Suits.same (h : Suits N nA σ a w i fi cs cd) {b : Agent K δ} (h1 : b.reward = a.reward) (h2 : b.idx = a.idx)
    (h3 : b.consumes = a.consumes) (h4 : b.consumed = a.consumed)
    (h5 : b.featIdx = a.featIdx) : Suits N nA σ b w i fi cs cd := by
  obtain ⟨x1, x2, x3, x4, x5, x6, x7, x8, x9, x10⟩ := h
  exact ⟨by rw [h1]; exact x1, x2, by rw [h1]; exact x3, by rw [h2]; exact x4, x5, by rw [h2]; exact x6,
    by rw [h3]; exact x7, by rw [h4]; exact x8, by rw [h5, h2]; exact x9, x10⟩

theorem getPolicy_dress (d : Nat → δ) :
    (a.dress w i fi cs cd).getPolicy d = ((a.getPolicy d).1.dress w i fi cs cd, (a.getPolicy d).2) := by
  unfold getPolicy dress
  simp only
  cases a.alg.qValues with
  | none => rfl
  | some q =>
    simp only
    cases a.selector.piP q with
    | error e => rfl
    | ok P =>
      simp only
      cases a.selector.pi q d with
      | error e => rfl
      | ok p => rfl

theorem setPosition_dress (hσ : Renumbers N σ) (hle : nA ≤ N) (hm : Mdp.Shuffled N nA σ m m')
    (h : Suits N nA σ a w i fi cs cd) (p : Int) :
    Mdp.Shuffled N nA σ (a.setPosition m p).1 ((a.dress w i fi cs cd).setPosition m' p).1 ∧
    ((a.dress w i fi cs cd).setPosition m' p).2.1 = (a.setPosition m p).2.1.dress w i fi cs cd ∧
    ((a.dress w i fi cs cd).setPosition m' p).2.2 = (a.setPosition m p).2.2 := by
  have hn : m'.nStates = m.nStates := by obtain ⟨F, O, rfl, -⟩ := hm; rfl
  have hu := hm.update hσ hle h.idx h.idx' h.row p
  have hi : (a.dress w i fi cs cd).idx = i := rfl
  unfold setPosition
  rw [hn, hi]
  by_cases hp : (m.nStates : Int) ≤ p
  · rw [if_pos hp, if_pos hp]; exact ⟨hm, rfl, rfl⟩
  · rw [if_neg hp, if_neg hp]
    rcases h1 : m.updateAgentFeature a.idx p with ⟨x1, r1⟩
    rcases h2 : m'.updateAgentFeature i p with ⟨x2, r2⟩
    rw [h1, h2] at hu
    obtain ⟨hu1, hu2⟩ := hu
    simp only at hu1 hu2
    subst hu2
    cases r2 with
    | error e => exact ⟨hu1, rfl, rfl⟩
    | ok u => exact ⟨hu1, rfl, rfl⟩

theorem setPosition_body (a : Agent K δ) (m : Mdp K) (p : Int) :
    (a.setPosition m p).2.1.reward = a.reward ∧ (a.setPosition m p).2.1.idx = a.idx ∧
    (a.setPosition m p).2.1.consumes = a.consumes ∧ (a.setPosition m p).2.1.consumed = a.consumed ∧
    (a.setPosition m p).2.1.featIdx = a.featIdx := by
  unfold setPosition
  by_cases hp : (m.nStates : Int) ≤ p
  · rw [if_pos hp]; exact ⟨rfl, rfl, rfl, rfl, rfl⟩
  · rw [if_neg hp]
    rcases h : m.updateAgentFeature a.idx p with ⟨x, _ | _⟩ <;> exact ⟨rfl, rfl, rfl, rfl, rfl⟩

theorem step_dress (hσ : Renumbers N σ) (hle : nA ≤ N) (hm : Mdp.Shuffled N nA σ m m')
    (h : Suits N nA σ a w i fi cs cd) (d : Nat → δ) :
    Mdp.Shuffled N nA σ (a.step m d).1 ((a.dress w i fi cs cd).step m' d).1 ∧
    ((a.dress w i fi cs cd).step m' d).2.1 = (a.step m d).2.1.dress w i fi cs cd ∧
    ((a.dress w i fi cs cd).step m' d).2.2 = (a.step m d).2.2 ∧ Suits N nA σ (a.step m d).2.1 w i fi cs cd := by
  have hg : ∀ s x, m'.getNextState s x = m.getNextState s x := by obtain ⟨F, O, rfl, -⟩ := hm; intros; rfl
  have ha : (a.dress w i fi cs cd).alg = a.alg := rfl
  unfold step
  rw [ha]
  by_cases hf : a.alg.fitComplete = false
  · rw [if_pos hf, if_pos hf]; exact ⟨hm, rfl, rfl, h⟩
  rw [if_neg hf, if_neg hf, getPolicy_dress]
  have hsame := getPolicy_same a d
  rcases hgp : a.getPolicy d with ⟨b, _ | _⟩
  · rw [hgp] at hsame
    exact ⟨hm, rfl, rfl, h.same hsame.1.reward hsame.1.idx hsame.1.consumes hsame.1.consumed hsame.1.featIdx⟩
  rw [hgp] at hsame
  have hb : Suits N nA σ b w i fi cs cd := h.same hsame.1.reward hsame.1.idx hsame.1.consumes hsame.1.consumed hsame.1.featIdx
  have e1 : (b.dress w i fi cs cd).pi = b.pi := rfl
  have e2 : (b.dress w i fi cs cd).position = b.position := rfl
  simp only [e1, e2]
  cases b.pi with
  | none => exact ⟨hm, rfl, rfl, hb⟩
  | some pi =>
    simp only
    cases pyIdx pi.d0 b.position with
    | none => exact ⟨hm, rfl, rfl, hb⟩
    | some s =>
      simp only [hg]
      by_cases hs : pi.get s < 0
      · rw [if_pos hs, if_pos hs]; exact ⟨hm, rfl, rfl, hb⟩
      rw [if_neg hs, if_neg hs]
      cases m.getNextState b.position (pi.get s) with
      | error e => exact ⟨hm, rfl, rfl, hb⟩
      | ok t =>
        simp only
        have hp := setPosition_dress (fi := fi) hσ hle hm hb t
        have hbody := setPosition_body b m t
        rcases h1 : b.setPosition m t with ⟨x1, b1, r1⟩
        rcases h2 : (b.dress w i fi cs cd).setPosition m' t with ⟨x2, b2, r2⟩
        rw [h1, h2] at hp
        rw [h1] at hbody
        obtain ⟨hp1, hp2, hp3⟩ := hp
        simp only at hp1 hp2 hp3 hbody
        subst hp2 hp3
        have hb1 : Suits N nA σ b1 w i fi cs cd := hb.same hbody.1 hbody.2.1 hbody.2.2.1 hbody.2.2.2.1 hbody.2.2.2.2
        cases r2 with
        | error e => exact ⟨hp1, rfl, rfl, hb1⟩
        | ok u =>
          simp only
          have hu := hp1.update hσ hle hb1.idx hb1.idx' hb1.row b1.position
          have e3 : (b1.dress w i fi cs cd).idx = i := rfl
          have e4 : (b1.dress w i fi cs cd).position = b1.position := rfl
          rw [e3, e4]
          rcases h3 : x1.updateAgentFeature b1.idx b1.position with ⟨y1, q1⟩
          rcases h4 : x2.updateAgentFeature i b1.position with ⟨y2, q2⟩
          rw [h3, h4] at hu
          obtain ⟨hu1, hu2⟩ := hu
          simp only at hu1 hu2
          subst hu2
          cases q2 with
          | error e => exact ⟨hu1, rfl, rfl, hb1.same rfl rfl rfl rfl rfl⟩
          | ok u => exact ⟨hu1, rfl, rfl, hb1.same rfl rfl rfl rfl rfl⟩

theorem consume_dress (hσ : Renumbers N σ) (hm : Mdp.Shuffled N nA σ m m') (h : Suits N nA σ a w i fi cs cd) :
    Mdp.Shuffled N nA σ (a.consume m).1 ((a.dress w i fi cs cd).consume m').1 ∧
    Agent.Shuffled N nA σ (a.consume m).2.1 ((a.dress w i fi cs cd).consume m').2.1 ∧
    ((a.dress w i fi cs cd).consume m').2.2 = (a.consume m).2.2 := by
  obtain ⟨l, hl, h1, h2⟩ := h.consumes
  have e1 : (a.dress w i fi cs cd).consumes = cs := rfl
  have e2 : (a.dress w i fi cs cd).position = a.position := rfl
  unfold consume
  rw [e1, e2]
  by_cases he : l = []
  · subst he
    rw [if_pos (by simpa using h1), if_pos (by simpa using h2)]
    exact ⟨hm, ⟨w, i, fi, cs, cd, rfl, h⟩, rfl⟩
  · rw [if_neg (by rw [h1]; simpa using he), if_neg (by rw [h2]; simpa using he)]
    have hc := Mdp.Shuffled.eat (state := a.position) hσ l m m' (fun _ => 0) (fun _ => 0) hm hl (fun _ _ => rfl)
    rw [← h1, ← h2] at hc
    unfold Mdp.consumeFeatures
    rcases hx : Mdp.consumeLoop a.position a.consumes m (fun _ => 0) with ⟨y, r⟩
    rcases hy : Mdp.consumeLoop a.position cs m' (fun _ => 0) with ⟨y', r'⟩
    rw [hx, hy] at hc
    obtain ⟨hc1, hc2⟩ := hc
    simp only at hc1 hc2
    rcases hc2 with ⟨er, rfl, rfl⟩ | ⟨x, x', rfl, rfl, hxx⟩
    · exact ⟨hc1, ⟨w, i, fi, cs, cd, rfl, h⟩, rfl⟩
    · refine ⟨hc1, ⟨w, i, fi, cs, fun f => cd f + x' f, rfl, ?_⟩, rfl⟩
      refine ⟨h.d0, h.d0', h.reward, h.idx, h.idx', h.row, h.consumes, fun f hf => ?_, h.feat, h.feat'⟩
      simp only
      rw [h.consumed f hf, hxx f hf]

theorem stepProba_dress (hm : Mdp.Shuffled N nA σ m m') (p : Option (Arr1 K)) (d : Nat → δ) :
    (a.dress w i fi cs cd).stepProba m' p d = ((a.stepProba m p d).1.dress w i fi cs cd, (a.stepProba m p d).2) := by
  obtain ⟨F, O, rfl, -⟩ := hm
  have hst : (a.dress w i fi cs cd).probaStart { m with features := F, originalFeatures := O } p = a.probaStart m p := rfl
  have ha : (a.dress w i fi cs cd).alg = a.alg := rfl
  unfold stepProba
  rw [hst, ha]
  cases a.probaStart m p with
  | error e => rfl
  | ok q =>
    simp only
    by_cases h1 : q.d0 ≠ m.nStates
    · rw [if_pos h1, if_pos h1]
    rw [if_neg h1, if_neg h1]
    by_cases h2 : a.alg.fitComplete = false
    · rw [if_pos h2, if_pos h2]
    rw [if_neg h2, if_neg h2, getPolicy_dress]
    rcases a.getPolicy d with ⟨b, _ | _⟩
    · rfl
    have e1 : (b.dress w i fi cs cd).piP = b.piP := rfl
    simp only [e1]
    have hpl : ∀ P pos l out, probaLoop { m with features := F, originalFeatures := O } P pos l out =
        probaLoop m P pos l out := by
      intro P pos l
      induction l with
      | nil => intro out; rfl
      | cons x l ih =>
        intro out
        unfold probaLoop
        have : ∀ s a, ({ m with features := F, originalFeatures := O } : Mdp K).getNextState s a = m.getNextState s a :=
          fun _ _ => rfl
        rw [this]
        cases m.getNextState x.1 x.2 with
        | error e => rfl
        | ok t => exact ih _
    cases b.piP with
    | none => rfl
    | some P =>
      simp only
      rw [hpl]
      cases probaLoop m P (normalise q) ((npWhere m.nStates fun s => Ext.isPos (normalise q s)).flatMap fun s =>
            (List.range P.d1).map fun x => (s, x)) (fun _ => .fin 0) with
      | error e => rfl
      | ok out => rfl

theorem fit_dress (hσ : Renumbers N σ) (hm : Mdp.Shuffled N nA σ m m') (hcol : m.features.d1 = m.nStates)
    (h : Suits N nA σ a w i fi cs cd) (k : Nat) (γ tol : K) (d : Nat → δ) :
    (a.dress w i fi cs cd).fit m' (valueIterationFit m' k γ tol) d =
      ((a.fit m (valueIterationFit m k γ tol) d).1.dress w i fi cs cd,
        (a.fit m (valueIterationFit m k γ tol) d).2) := by
  have hmv : Spec.FeaturesMoved σ m m' := by
    obtain ⟨F, O, rfl, h1, h2, h3, h4, h5, h6, h6', h7, h8⟩ := hm
    refine ⟨rfl, hcol, h4.trans hcol, ?_, ?_, ?_, ?_⟩
    · intro f hf; change σ f < F.d0; rw [h3]; exact hσ.lt f (by rw [← h1]; exact hf)
    · intro f g hf hg he; exact hσ.inj f g (by rw [← h1]; exact hf) (by rw [← h1]; exact hg) he
    · intro f s hf _; exact congrFun (h7 f (by rw [← h1]; exact hf)) s
    · intro g s hg hno _
      obtain ⟨f, hf, he⟩ := hσ.onto (g := g) (by change g < F.d0 at hg; rw [h3] at hg; exact hg)
      exact absurd he (hno f (by change f < m.features.d0; rw [h1]; exact hf))
  have hN : m.nFeatures = N := by obtain ⟨F, O, rfl, h1, -⟩ := hm; exact h1
  have hN' : m'.nFeatures = N := by obtain ⟨F, O, rfl, -, -, h3, -⟩ := hm; exact h3
  have key := C137_planning hmv a w (by rw [hN]; exact h.d0) (by rw [hN']; exact h.d0')
    (by rw [hN]; exact h.reward) k γ tol d
  have hd : ∀ (b : Agent K δ) (o : FitOut K), (b.dress b.reward i fi cs cd).fit m' o d =
      ((b.fit m' o d).1.dress b.reward i fi cs cd, (b.fit m' o d).2) := by
    intro b o
    unfold fit
    have e1 : (b.dress b.reward i fi cs cd).reward = b.reward := rfl
    have e2 : (b.dress b.reward i fi cs cd).alg = b.alg := rfl
    rw [e1, e2]
    rcases algFit o m'.nFeatures m'.nStates m'.nActions (.of1 b.reward) b.alg with ⟨st, _ | _⟩
    · rfl
    · exact getPolicy_dress (a := { b with alg := st }) d
  have h1 := hd { a with reward := w } (valueIterationFit m' k γ tol)
  rw [key] at h1
  exact h1

end Agent

namespace Env

variable {e e' : Env K δ}

/-- The same environment with its agents under other numbers. -/
structure Shuffled (N nA : Nat) (σ : Nat → Nat) (e e' : Env K δ) : Prop where
  mdp : Mdp.Shuffled N nA σ e.mdp e'.mdp
  names : e'.agentNames.Perm e.agentNames
  len : e'.agents.length = e.agents.length
  steps : e'.nSteps = e.nSteps
  agents : ∀ n, (e.agent? n = none ∧ e'.agent? n = none) ∨
    ∃ a a', e.agent? n = some a ∧ e'.agent? n = some a' ∧ Agent.Shuffled N nA σ a a'

theorem Shuffled.lookup (h : Shuffled N nA σ e e') (n : String) :
    (∃ er, e.lookup n = .error er ∧ e'.lookup n = .error er) ∨
    ∃ a a', e.lookup n = .ok a ∧ e'.lookup n = .ok a' ∧ e.agent? n = some a ∧ e'.agent? n = some a' ∧
      Agent.Shuffled N nA σ a a' := by
  unfold Env.lookup
  by_cases hn : n ∈ e.agentNames
  · rw [if_neg (not_not.2 hn), if_neg (not_not.2 (h.names.mem_iff.2 hn))]
    rcases h.agents n with ⟨h1, h2⟩ | ⟨a, a', h1, h2, h3⟩
    · rw [h1, h2]; exact .inl ⟨_, rfl, rfl⟩
    · rw [h1, h2]; exact .inr ⟨a, a', rfl, rfl, rfl, rfl, h3⟩
  · rw [if_pos hn, if_pos (fun h' => hn (h.names.mem_iff.1 h'))]
    exact .inl ⟨_, rfl, rfl⟩

theorem Shuffled.put (h : Shuffled N nA σ e e') (ho : (e.agents.map (·.name)).Nodup) (ho' : (e'.agents.map (·.name)).Nodup)
    {n : String} {a a' b b' : Agent K δ} (ha : e.agent? n = some a) (ha' : e'.agent? n = some a')
    (hb : b.name = n) (hb' : b'.name = n) (hbb : Agent.Shuffled N nA σ b b') (hm : Mdp.Shuffled N nA σ m m') :
    Shuffled N nA σ (e.put m b) (e'.put m' b') := by
  have same : ∀ (e : Env K δ) (m : Mdp K) (a b : Agent K δ), (e.agents.map (·.name)).Nodup → e.agent? n = some a → b.name = n →
      (e.put m b).agent? n = some b := by
    intro e m a b ho ha hb
    obtain ⟨h1, h2⟩ := agent?_mem ha
    exact (agent?_eq (by rw [names_put]; exact ho)).2
      ⟨(mem_put (by rw [hb, ← h2]; exact List.mem_map_of_mem (f := (·.name)) h1)).2 (.inl rfl), hb⟩
  refine ⟨hm, h.names, by simpa [Env.put] using h.len, h.steps, fun n' => ?_⟩
  by_cases hn : n' = n
  · subst hn
    exact .inr ⟨b, b', same e m a b ho ha hb, same e' m' a' b' ho' ha' hb', hbb⟩
  · rw [agent?_put_other m b (by rw [hb]; exact hn), agent?_put_other m' b' (by rw [hb']; exact hn)]
    exact h.agents n'

theorem Shuffled.bump (h : Shuffled N nA σ e e') : Shuffled N nA σ { e with nSteps := e.nSteps + 1 }
    { e' with nSteps := e'.nSteps + 1 } :=
  ⟨h.mdp, h.names, h.len, congrArg (· + 1) h.steps, h.agents⟩

theorem Shuffled.setMdp (h : Shuffled N nA σ e e') (hm : Mdp.Shuffled N nA σ m m') :
    Shuffled N nA σ { e with mdp := m } { e' with mdp := m' } :=
  ⟨hm, h.names, h.len, h.steps, h.agents⟩

theorem Shuffled.fit (hσ : Renumbers N σ) (h : Shuffled N nA σ e e') (ho : Ok kind W H selfT e)
    (ho' : Ok kind W H selfT e') (n : String) (k : Nat) (γ tol : K) (d : Nat → δ) :
    Shuffled N nA σ (e.fit n (valueIterationFit e.mdp k γ tol) d).1 (e'.fit n (valueIterationFit e'.mdp k γ tol) d).1 ∧
    (e'.fit n (valueIterationFit e'.mdp k γ tol) d).2 = (e.fit n (valueIterationFit e.mdp k γ tol) d).2 := by
  have hcol : e.mdp.features.d1 = e.mdp.nStates := by rw [ho.reach.ok.featStates, ho.reach.ok.nStates]
  unfold Env.fit
  rcases h.lookup n with ⟨er, h1, h2⟩ | ⟨a, a', h1, h2, h3, h4, w, i, fi, cs, cd, rfl, hs⟩
  · rw [h1, h2]; exact ⟨h, rfl⟩
  · rw [h1, h2]
    simp only
    rw [Agent.fit_dress hσ h.mdp hcol hs]
    have hsame := Agent.fit_same a e.mdp (valueIterationFit e.mdp k γ tol) d
    have hn := (agent?_mem h3).2
    refine ⟨h.put ho.nodup ho'.nodup h3 h4 (hsame.1.name.trans hn) (hsame.1.name.trans hn)
      ⟨w, i, fi, cs, cd, rfl, hs.same hsame.1.reward hsame.1.idx hsame.1.consumes hsame.1.consumed hsame.1.featIdx⟩ h.mdp, rfl⟩

theorem Shuffled.step (hσ : Renumbers N σ) (hle : nA ≤ N) (h : Shuffled N nA σ e e') (ho : Ok kind W H selfT e)
    (ho' : Ok kind W H selfT e') (n : String) (d : Nat → δ) :
    Shuffled N nA σ (e.step n d).1 (e'.step n d).1 ∧ (e'.step n d).2 = (e.step n d).2 := by
  unfold Env.step
  rcases h.lookup n with ⟨er, h1, h2⟩ | ⟨a, a', h1, h2, h3, h4, w, i, fi, cs, cd, rfl, hs⟩
  · rw [h1, h2]; exact ⟨h, rfl⟩
  · rw [h1, h2]
    simp only
    have hn := (agent?_mem h3).2
    have hst := Agent.step_dress (fi := fi) hσ hle h.mdp hs d
    have hsn := step_name a e.mdp d
    rcases hx : a.step e.mdp d with ⟨x, b, r⟩
    rcases hy : (a.dress w i fi cs cd).step e'.mdp d with ⟨x', b', r'⟩
    rw [hx, hy] at hst
    rw [hx] at hsn
    obtain ⟨s1, s2, s3, s4⟩ := hst
    simp only at s1 s2 s3 s4 hsn
    subst s2 s3
    cases r' with
    | error er =>
      exact ⟨h.put ho.nodup ho'.nodup h3 h4 (hsn.trans hn) (hsn.trans hn) ⟨w, i, fi, cs, cd, rfl, s4⟩ s1, rfl⟩
    | ok u =>
      simp only
      have hc := Agent.consume_dress (fi := fi) hσ s1 s4
      have hcn := consume_name b x
      have hcn' := consume_name (b.dress w i fi cs cd) x'
      rcases hx2 : b.consume x with ⟨y, c, q⟩
      rcases hy2 : (b.dress w i fi cs cd).consume x' with ⟨y', c', q'⟩
      rw [hx2, hy2] at hc
      rw [hx2] at hcn
      rw [hy2] at hcn'
      obtain ⟨c1, c2, c3⟩ := hc
      simp only at c1 c2 c3 hcn hcn'
      subst c3
      have hp := h.put ho.nodup ho'.nodup h3 h4 (hcn.trans (hsn.trans hn)) (hcn'.trans (hsn.trans hn)) c2 c1
      cases q' with
      | error er => exact ⟨hp, rfl⟩
      | ok u =>
        refine ⟨hp.bump, ?_⟩
        obtain ⟨_, _, _, _, _, rfl, _⟩ := c2
        rfl

theorem Shuffled.stepProba (h : Shuffled N nA σ e e') (ho : Ok kind W H selfT e)
    (ho' : Ok kind W H selfT e') (n : String) (p : Option (Arr1 K)) (d : Nat → δ) :
    Shuffled N nA σ (e.stepProba n p d).1 (e'.stepProba n p d).1 ∧ (e'.stepProba n p d).2 = (e.stepProba n p d).2 := by
  unfold Env.stepProba
  rcases h.lookup n with ⟨er, h1, h2⟩ | ⟨a, a', h1, h2, h3, h4, w, i, fi, cs, cd, rfl, hs⟩
  · rw [h1, h2]; exact ⟨h, rfl⟩
  · rw [h1, h2]
    simp only
    rw [Agent.stepProba_dress h.mdp]
    have hsame := Agent.stepProba_same a e.mdp p d
    have hn := (agent?_mem h3).2
    have hp := h.put ho.nodup ho'.nodup (b' := (a.stepProba e.mdp p d).1.dress w i fi cs cd) h3 h4
      (hsame.1.name.trans hn) (hsame.1.name.trans hn)
      ⟨w, i, fi, cs, cd, rfl, hs.same hsame.1.reward hsame.1.idx hsame.1.consumes hsame.1.consumed hsame.1.featIdx⟩ h.mdp
    rcases hx : a.stepProba e.mdp p d with ⟨b, _ | _⟩
    · rw [hx] at hp; exact ⟨hp, rfl⟩
    · rw [hx] at hp; exact ⟨hp.bump, rfl⟩

theorem Shuffled.setAgentPosition (hσ : Renumbers N σ) (hle : nA ≤ N) (h : Shuffled N nA σ e e')
    (ho : Ok kind W H selfT e) (ho' : Ok kind W H selfT e') (n : String) (p : Int) :
    Shuffled N nA σ (e.setAgentPosition n p).1 (e'.setAgentPosition n p).1 ∧
    (e'.setAgentPosition n p).2 = (e.setAgentPosition n p).2 := by
  unfold Env.setAgentPosition
  rcases h.lookup n with ⟨er, h1, h2⟩ | ⟨a, a', h1, h2, h3, h4, w, i, fi, cs, cd, rfl, hs⟩
  · rw [h1, h2]; exact ⟨h, rfl⟩
  · rw [h1, h2]
    simp only
    have hn := (agent?_mem h3).2
    have hst := Agent.setPosition_dress (fi := fi) hσ hle h.mdp hs p
    have hsn := setPosition_name a e.mdp p
    have hbody := Agent.setPosition_body a e.mdp p
    rcases hx : a.setPosition e.mdp p with ⟨x, b, r⟩
    rcases hy : (a.dress w i fi cs cd).setPosition e'.mdp p with ⟨x', b', r'⟩
    rw [hx, hy] at hst
    rw [hx] at hsn hbody
    obtain ⟨s1, s2, s3⟩ := hst
    simp only at s1 s2 s3 hsn hbody
    subst s2 s3
    exact ⟨h.put ho.nodup ho'.nodup h3 h4 (hsn.trans hn) (hsn.trans hn)
      ⟨w, i, fi, cs, cd, rfl, hs.same hbody.1 hbody.2.1 hbody.2.2.1 hbody.2.2.2.1 hbody.2.2.2.2⟩ s1, rfl⟩

theorem Shuffled.reset (h : Shuffled N nA σ e e')
    (ho : Ok kind W H selfT e) (ho' : Ok kind W H selfT e') :
    Shuffled N nA σ e.reset.1 e'.reset.1 ∧ e'.reset.2 = e.reset.2 := by
  rw [(reset_eq ho).1, (reset_eq ho').1]
  refine ⟨⟨?_, h.names, by simpa [resetEnv] using h.len, h.steps, fun n => ?_⟩, rfl⟩
  · obtain ⟨F, O, h0, h1, h2, h3, h4, h5, h6, h6', h7, h8⟩ := h.mdp
    refine ⟨O, O, ?_, h6', h2, h5.trans h6', h6, h5, h6, h6', h8, h8⟩
    unfold resetEnv
    simp only [h0, h5]
  · have hf : ∀ e : Env K δ, e.resetEnv.agent? n = (e.agent? n).map resetAgent := by
      intro e
      unfold resetEnv agent?
      simp only [List.find?_map]
      rfl
    rw [hf, hf]
    rcases h.agents n with ⟨h1, h2⟩ | ⟨a, a', h1, h2, w, i, fi, cs, cd, rfl, hs⟩
    · rw [h1, h2]; exact .inl ⟨rfl, rfl⟩
    · rw [h1, h2]
      exact .inr ⟨_, _, rfl, rfl, w, i, fi, cs, cd, rfl, hs.same rfl rfl rfl rfl rfl⟩

end Env

theorem Mdp.Shuffled.setWalls (h : Mdp.Shuffled N nA σ m m') (w : Arr1 K) :
    Mdp.Shuffled N nA σ (m.setWalls w).1 (m'.setWalls w).1 ∧ (m'.setWalls w).2 = (m.setWalls w).2 := by
  obtain ⟨F, O, rfl, h0⟩ := h
  obtain ⟨sh, x2, x3, x4, x5, x6, x7, x8, x9, x10, x11, x12, x13, x14⟩ := m
  unfold Mdp.setWalls
  cases sh with
  | none => exact ⟨⟨F, O, rfl, h0⟩, rfl⟩
  | some s =>
    simp only
    by_cases h1 : w.d0 ≠ s.1 * s.2
    · rw [if_pos h1, if_pos h1]; exact ⟨⟨F, O, rfl, h0⟩, rfl⟩
    rw [if_neg h1, if_neg h1]
    by_cases h2 : ∃ i, i < w.d0 ∧ ¬ (w.get i = 0 ∨ w.get i = 1)
    · rw [if_pos h2, if_pos h2]; exact ⟨⟨F, O, rfl, h0⟩, rfl⟩
    rw [if_neg h2, if_neg h2]
    unfold Mdp.setSas
    simp only
    split_ifs <;> exact ⟨⟨F, O, rfl, h0⟩, rfl⟩

namespace Env

variable {e e' : Env K δ}

theorem Shuffled.setWalls (h : Shuffled N nA σ e e') (w : Arr1 K) :
    Shuffled N nA σ (e.setWalls w).1 (e'.setWalls w).1 ∧ (e'.setWalls w).2 = (e.setWalls w).2 :=
  ⟨h.setMdp (h.mdp.setWalls w).1, (h.mdp.setWalls w).2⟩

theorem Shuffled.addWallXY (h : Shuffled N nA σ e e') (x y : List Int) :
    Shuffled N nA σ (e.addWallXY x y).1 (e'.addWallXY x y).1 ∧ (e'.addWallXY x y).2 = (e.addWallXY x y).2 := by
  have key : Mdp.Shuffled N nA σ (e.mdp.addWallXY x y).1 (e'.mdp.addWallXY x y).1 ∧
      (e'.mdp.addWallXY x y).2 = (e.mdp.addWallXY x y).2 := by
    have hsh : e'.mdp.shape = e.mdp.shape := by obtain ⟨F, O, h0, -⟩ := h.mdp; rw [h0]
    have hwl : e'.mdp.walls = e.mdp.walls := by obtain ⟨F, O, h0, -⟩ := h.mdp; rw [h0]
    unfold Mdp.addWallXY
    rw [hsh, hwl]
    cases e.mdp.shape with
    | none => exact ⟨h.mdp, rfl⟩
    | some s =>
      simp only
      cases Mdp.wallCells s.1 s.2 (Mdp.wallRange x) (Mdp.wallRange y) e.mdp.walls with
      | error er => exact ⟨h.mdp, rfl⟩
      | ok w => exact h.mdp.setWalls w
  exact ⟨h.setMdp key.1, key.2⟩

theorem Shuffled.resetWalls (h : Shuffled N nA σ e e') :
    Shuffled N nA σ e.resetWalls.1 e'.resetWalls.1 ∧ e'.resetWalls.2 = e.resetWalls.2 := by
  have key : Mdp.Shuffled N nA σ e.mdp.resetWalls.1 e'.mdp.resetWalls.1 ∧
      e'.mdp.resetWalls.2 = e.mdp.resetWalls.2 := by
    have hwl : e'.mdp.walls = e.mdp.walls := by obtain ⟨F, O, h0, -⟩ := h.mdp; rw [h0]
    unfold Mdp.resetWalls
    rw [hwl]
    refine Mdp.Shuffled.setWalls ?_ _
    obtain ⟨F, O, h0, h1⟩ := h.mdp
    exact ⟨F, O, by rw [h0], h1⟩
  exact ⟨h.setMdp key.1, key.2⟩

theorem Shuffled.caught (hσ : Renumbers N σ) (hle : nA ≤ N) (h : Shuffled N nA σ e e')
    (ho : (e.agents.map (·.name)).Nodup) (ho' : (e'.agents.map (·.name)).Nodup)
    {a a' : Agent K δ} (ha : Agent.Shuffled N nA σ a a') : e'.caught a' = e.caught a := by
  obtain ⟨w, i, fi, cs, cd, rfl, hs⟩ := ha
  obtain ⟨l, hl, h1, h2⟩ := hs.consumes
  rw [Bool.eq_iff_iff]
  unfold Env.caught
  have e1 : (a.dress w i fi cs cd).consumes = cs := rfl
  have e2 : (a.dress w i fi cs cd).position = a.position := rfl
  rw [e1, e2, h1, h2]
  simp only [List.any_eq_true, List.mem_map, Bool.and_eq_true, decide_eq_true_eq]
  constructor
  · rintro ⟨_, ⟨f, hf, rfl⟩, b', hb', hb1, hb2⟩
    have hq := (agent?_eq ho').2 ⟨hb', rfl⟩
    rcases h.agents b'.name with ⟨-, h4⟩ | ⟨b, b1, h3, h4, w2, i2, fi2, cs2, cd2, rfl, hs2⟩
    · rw [h4] at hq; cases hq
    · rw [h4] at hq
      cases hq
      refine ⟨_, ⟨f, hf, rfl⟩, b, (agent?_mem h3).1, ?_, hb2⟩
      have hfi : (b.dress w2 i2 fi2 cs2 cd2).featIdx = fi2 := rfl
      rw [hfi, hs2.feat', ← hs2.row, Int.natCast_inj] at hb1
      have := hσ.inj _ _ (by have := hs2.idx; omega) (hl f hf) hb1
      rw [hs2.feat, this]
  · rintro ⟨_, ⟨f, hf, rfl⟩, b, hb, hb1, hb2⟩
    have hq := (agent?_eq ho).2 ⟨hb, rfl⟩
    rcases h.agents b.name with ⟨h3, -⟩ | ⟨b1, b', h3, h4, w2, i2, fi2, cs2, cd2, rfl, hs2⟩
    · rw [h3] at hq; cases hq
    · rw [h3] at hq
      cases hq
      refine ⟨_, ⟨f, hf, rfl⟩, _, (agent?_mem h4).1, ?_, hb2⟩
      rw [Int.natCast_inj] at hb1
      have hfi : (b.dress w2 i2 fi2 cs2 cd2).featIdx = fi2 := rfl
      rw [hfi, hs2.feat', ← hs2.row, ← hb1, hs2.feat]

theorem Shuffled.stepLoop (hσ : Renumbers N σ) (hle : nA ≤ N) (n : String) (P P' Q Q' : List Nat) (t : Nat) (stop : Bool)
    (orc orc' : Nat → StepOracle K δ) (horc : ∀ i, (orc' i).draws = (orc i).draws) :
    ∀ (k i : Nat) (e e' : Env K δ) (acc : List Int), Shuffled N nA σ e e' → Ok kind W H selfT e → Ok kind W H selfT e' →
    Shuffled N nA σ (stepLoop n P Q t false stop orc k i e acc).1 (stepLoop n P' Q' t false stop orc' k i e' acc).1 ∧
    (stepLoop n P' Q' t false stop orc' k i e' acc).2 = (stepLoop n P Q t false stop orc k i e acc).2 := by
  intro k
  induction k with
  | zero => intro i e e' acc h _ _; exact ⟨h, rfl⟩
  | succ k ih =>
    intro i e e' acc h ho ho'
    unfold Env.stepLoop refitFor
    simp only [Bool.false_eq_true, if_false]
    rw [horc i]
    have hst := h.step hσ hle ho ho' n (orc i).draws
    have o1 := ho.step n (orc i).draws
    have o2 := ho'.step n (orc i).draws
    rcases hx : e.step n (orc i).draws with ⟨x, r⟩
    rcases hy : e'.step n (orc i).draws with ⟨x', r'⟩
    rw [hx, hy] at hst
    rw [hx] at o1
    rw [hy] at o2
    obtain ⟨s1, s2⟩ := hst
    simp only at s1 s2 o1 o2
    subst s2
    cases r' with
    | error er => exact ⟨s1, rfl⟩
    | ok u =>
      simp only
      rcases s1.lookup n with ⟨er, h1, h2⟩ | ⟨a, a', h1, h2, h3, h4, ha⟩
      · rw [h1, h2]; exact ⟨s1, rfl⟩
      · rw [h1, h2]
        simp only
        have hpos : a'.position = a.position := by obtain ⟨_, _, _, _, _, rfl, _⟩ := ha; rfl
        rw [s1.caught hσ hle o1.nodup o2.nodup ha, hpos]
        by_cases hc : (x.caught a && stop) = true
        · rw [if_pos hc, if_pos hc]; exact ⟨s1, rfl⟩
        · rw [if_neg hc, if_neg hc]; exact ih _ _ _ _ s1 o1 o2

theorem Shuffled.stepMulti (hσ : Renumbers N σ) (hle : nA ≤ N) (h : Shuffled N nA σ e e') (ho : Ok kind W H selfT e)
    (ho' : Ok kind W H selfT e') (n : String) (s : StepsArg) (p : Option (List Nat)) (t : Nat) (stop : Bool)
    (orc orc' : Nat → StepOracle K δ) (horc : ∀ i, (orc' i).draws = (orc i).draws) :
    Shuffled N nA σ (e.stepMulti n s p t false stop orc).1 (e'.stepMulti n s p t false stop orc').1 ∧
    (e'.stepMulti n s p t false stop orc').2 = (e.stepMulti n s p t false stop orc).2 := by
  unfold Env.stepMulti
  rcases h.lookup n with ⟨er, h1, h2⟩ | ⟨a, a', h1, h2, h3, h4, ha⟩
  · rw [h1, h2]; exact ⟨h, rfl⟩
  rw [h1, h2]
  simp only
  have hmv : a'.nMoves = a.nMoves := by obtain ⟨_, _, _, _, _, rfl, _⟩ := ha; rfl
  let g : String → Nat := fun x => ((e.agent? x).map (·.nMoves)).getD 0
  have hall : ∀ x : Env K δ, (∀ y, ((x.agent? y).map (·.nMoves)).getD 0 = g y) → Ok kind W H selfT x →
      (∃ b, x.agent? n = some b) →
      x.allSteps n = .ok ((n :: x.agentNames.filter fun y => y ≠ n).map g) := by
    intro x hx hox hb
    unfold allSteps
    have hgood : ∀ y ∈ n :: x.agentNames.filter (fun y => y ≠ n), ∃ b, x.agent? y = some b := by
      intro y hy
      rcases List.mem_cons.1 hy with rfl | hy
      · exact hb
      · have := (hox.names y).1 (List.mem_filter.1 hy).1
        obtain ⟨b, hb, hbn⟩ := List.mem_map.1 this
        exact ⟨b, (agent?_eq hox.nodup).2 ⟨hb, hbn⟩⟩
    generalize (n :: x.agentNames.filter fun y => y ≠ n) = L at hgood
    induction L with
    | nil => rfl
    | cons y L ih =>
      obtain ⟨b, hb⟩ := hgood y List.mem_cons_self
      have hy := hx y
      rw [hb] at hy
      simp only [Option.map_some, Option.getD_some] at hy
      rw [List.mapM_cons, ih (fun z hz => hgood z (List.mem_cons_of_mem _ hz)), hb]
      simp only [List.map_cons, ← hy]
      rfl
  have g' : ∀ y, ((e'.agent? y).map (·.nMoves)).getD 0 = g y := by
    intro y
    rcases h.agents y with ⟨h5, h6⟩ | ⟨b, b', h5, h6, hb⟩
    · simp only [g, h5, h6]
    · have : b'.nMoves = b.nMoves := by obtain ⟨_, _, _, _, _, rfl, _⟩ := hb; rfl
      simp only [g, h5, h6, Option.map_some, Option.getD_some, this]
  rw [hall e (fun _ => rfl) ho ⟨a, h3⟩, hall e' g' ho' ⟨a', h4⟩, hmv]
  simp only
  have hperm : ((n :: e'.agentNames.filter fun y => y ≠ n).map g).Perm ((n :: e.agentNames.filter fun y => y ≠ n).map g) :=
    ((h.names.filter _).cons n).map g
  generalize (n :: e'.agentNames.filter fun y => y ≠ n).map g = L' at hperm
  generalize (n :: e.agentNames.filter fun y => y ≠ n).map g = L at hperm
  have hpp : (p.getD L').Perm (p.getD L) := by cases p with
    | none => exact hperm
    | some l => exact List.Perm.refl _
  have hlen := hpp.length_eq
  rw [hlen, h.len]
  by_cases hl : (p.getD L).length ≠ e.agents.length
  · rw [if_pos hl, if_pos hl]; exact ⟨h, rfl⟩
  rw [if_neg hl, if_neg hl]
  cases s.count a.nMoves with
  | error er => exact ⟨h, rfl⟩
  | ok k =>
    simp only
    have hpos : (¬ ∀ x ∈ p.getD L', 0 < x) ↔ ¬ ∀ x ∈ p.getD L, 0 < x :=
      not_congr ⟨fun h x hx => h x (hpp.mem_iff.2 hx), fun h x hx => h x (hpp.mem_iff.1 hx)⟩
    by_cases hl2 : ¬ ∀ x ∈ p.getD L, 0 < x
    · rw [if_pos hl2, if_pos (hpos.2 hl2)]; exact ⟨h, rfl⟩
    rw [if_neg hl2, if_neg (fun h => hl2 (hpos.1 h))]
    exact Shuffled.stepLoop hσ hle n _ _ _ _ t stop orc orc' horc k 0 e e' [] h ho ho'

theorem Shuffled.call (hσ : Renumbers N σ) (hle : nA ≤ N) (h : Shuffled N nA σ e e') (ho : Ok kind W H selfT e)
    (ho' : Ok kind W H selfT e') (op : Spec.PlayOp K δ) :
    Shuffled N nA σ (e.apply (op.call e)) (e'.apply (op.call e')) ∧
    Spec.answer e' (op.call e') = Spec.answer e (op.call e) := by
  cases op with
  | plan n k γ tol d =>
    have := h.fit hσ ho ho' n k γ tol d
    exact ⟨this.1, congrArg Spec.EnvAnswer.done this.2⟩
  | step n d =>
    have := h.step hσ hle ho ho' n d
    exact ⟨this.1, congrArg Spec.EnvAnswer.moved this.2⟩
  | ask n p d =>
    have := h.stepProba ho ho' n p d
    exact ⟨this.1, congrArg Spec.EnvAnswer.spread this.2⟩
  | put n p =>
    have := h.setAgentPosition hσ hle ho ho' n p
    exact ⟨this.1, congrArg Spec.EnvAnswer.done this.2⟩
  | walk n s p stop d =>
    have := h.stepMulti hσ hle ho ho' n s p 1 stop (fun i => ⟨fun _ => valueIterationFit e.mdp 0 0 0, d i, d i⟩)
      (fun i => ⟨fun _ => valueIterationFit e'.mdp 0 0 0, d i, d i⟩) (fun _ => rfl)
    exact ⟨this.1, congrArg Spec.EnvAnswer.walked this.2⟩
  | again =>
    have := h.reset ho ho'
    exact ⟨this.1, congrArg Spec.EnvAnswer.done this.2⟩
  | walls w =>
    have := h.setWalls w
    exact ⟨this.1, congrArg Spec.EnvAnswer.done this.2⟩
  | wallsAt x y =>
    have := h.addWallXY x y
    exact ⟨this.1, congrArg Spec.EnvAnswer.done this.2⟩
  | noWalls =>
    have := h.resetWalls
    exact ⟨this.1, congrArg Spec.EnvAnswer.done this.2⟩

theorem Shuffled.play (hσ : Renumbers N σ) (hle : nA ≤ N) : ∀ (l : List (Spec.PlayOp K δ)) (e e' : Env K δ),
    Shuffled N nA σ e e' → Ok kind W H selfT e → Ok kind W H selfT e' →
    Shuffled N nA σ (Spec.play e l) (Spec.play e' l) ∧ Ok kind W H selfT (Spec.play e l) ∧
    Ok kind W H selfT (Spec.play e' l) := by
  intro l
  induction l with
  | nil => intro e e' h ho ho'; exact ⟨h, ho, ho'⟩
  | cons op l ih =>
    intro e e' h ho ho'
    exact ih _ _ (h.call hσ hle ho ho' op).1 (ho.run [op.call e]) (ho'.run [op.call e'])

theorem attach_rest {m m1 : Mdp K} {n : Nat} {sp : AgentSpec K δ} {p : Int} {r : Arr1 K} {a : Agent K δ}
    (h : attach m n sp p r = (m1, .ok a)) :
    ∃ F O ns k, m1 = { m with features := F, originalFeatures := O, featureNames := ns, nAgents := k } := by
  unfold attach at h
  have hadd : ∀ m2, m.addAgentFeature p = (m2, .ok ()) →
      ∃ F O ns k, m2 = { m with features := F, originalFeatures := O, featureNames := ns, nAgents := k } := by
    intro m2 h2
    unfold Mdp.addAgentFeature Mdp.setFeatures at h2
    simp only at h2
    split at h2
    · cases h2
    · split_ifs at h2
      all_goals cases h2
      all_goals exact ⟨_, _, _, _, rfl⟩
  rcases ha : m.addAgentFeature p with ⟨m2, _ | _⟩
  · rw [ha] at h; simp at h
  · obtain ⟨F, O, ns, k, rfl⟩ := hadd m2 ha
    rw [ha] at h
    simp only at h
    unfold Agent.setPosition at h
    by_cases hp : (m.nStates : Int) ≤ p
    · simp [hp] at h
    · simp only [if_neg hp] at h
      unfold Mdp.updateAgentFeature at h
      split at h
      · rename_i heq
        simp at h
      · rename_i heq
        simp only [Prod.mk.injEq] at h
        split at heq
        · cases heq
        · rename_i heq2
          split at heq2
          · cases heq2
          · simp only at heq2
            split at heq2
            · cases heq2
            · cases heq2; cases heq
              rw [← h.1]; exact ⟨_, _, _, _, rfl⟩

theorem attachLoop_rest {nF nA : Nat} : ∀ (sps : List (AgentSpec K δ)) (n : Nat) (m m1 : Mdp K) (as as' : List (Agent K δ)),
    attachLoop nF nA n sps m as = (m1, .ok as') →
    ∃ F O ns k, m1 = { m with features := F, originalFeatures := O, featureNames := ns, nAgents := k } := by
  intro sps
  induction sps with
  | nil =>
    intro n m m1 as as' h
    unfold attachLoop at h
    cases h
    exact ⟨_, _, _, _, rfl⟩
  | cons sp sps ih =>
    intro n m m1 as as' h
    unfold attachLoop at h
    rcases hc : checkSpec nF nA sp with er | ⟨p, r⟩
    · rw [hc] at h; simp at h
    · rw [hc] at h
      simp only at h
      rcases ha : attach m n sp p r with ⟨m2, _ | a⟩
      · rw [ha] at h; simp at h
      · rw [ha] at h
        simp only at h
        obtain ⟨F, O, ns, k, rfl⟩ := attach_rest ha
        obtain ⟨F', O', ns', k', rfl⟩ := ih _ _ _ _ _ h
        exact ⟨_, _, _, _, rfl⟩

theorem init_rest {m m' : Mdp K} {specs : List (AgentSpec K δ)} (h : init m specs = (m', .ok e)) :
    ∃ F O ns k, e.mdp = { m with features := F, originalFeatures := O, featureNames := ns, nAgents := k } := by
  have hrem : ∀ m1, (if 0 < m.nAgents then m.removeAgentFeatures else (m, .ok ())) = (m1, .ok ()) →
      ∃ F O ns k, m1 = { m with features := F, originalFeatures := O, featureNames := ns, nAgents := k } := by
    intro m1 h1
    by_cases h0 : 0 < m.nAgents
    · rw [if_pos h0] at h1
      unfold Mdp.removeAgentFeatures Mdp.setFeatures at h1
      simp only at h1
      split_ifs at h1 <;> cases h1 <;> exact ⟨_, _, _, _, rfl⟩
    · rw [if_neg h0] at h1
      cases h1
      exact ⟨_, _, _, _, rfl⟩
  unfold init at h
  simp only at h
  split at h
  · simp at h
  · rename_i m1 hm1
    obtain ⟨F, O, ns, k, rfl⟩ := hrem m1 hm1
    rcases hl : attachLoop (Mdp.nFeatures { m with features := F, originalFeatures := O, featureNames := ns, nAgents := k })
      specs.length 0 specs { m with features := F, originalFeatures := O, featureNames := ns, nAgents := k } [] with ⟨m2, _ | as⟩
    · rw [hl] at h; simp at h
    · rw [hl] at h
      simp only [Prod.mk.injEq, Except.ok.injEq] at h
      rw [← h.2]
      obtain ⟨F', O', ns', k', rfl⟩ := attachLoop_rest specs 0 _ m2 [] as hl
      exact ⟨_, _, _, _, rfl⟩

end Env

section Start

variable {τ : Nat → Nat} {specs specs' : List (AgentSpec K δ)} {nOwn : Nat}

theorem Relisted.renumbers (h : Spec.Relisted nOwn τ specs specs') :
    Renumbers (nOwn + specs.length) (Spec.listedAs nOwn τ) := by
  constructor
  · intro f hf
    unfold Spec.listedAs
    split_ifs with h1
    · omega
    · have := h.number (f - nOwn) (by omega)
      omega
  · intro f g hf hg he
    unfold Spec.listedAs at he
    split_ifs at he with h1 h2 h2
    · exact he
    · omega
    · omega
    · have := h.inj (f - nOwn) (g - nOwn) (by omega) (by omega) (by omega)
      omega

theorem Relisted.onto (h : Spec.Relisted nOwn τ specs specs') {j : Nat} (hj : j < specs.length) :
    ∃ i, i < specs.length ∧ τ i = j := by
  obtain ⟨f, hf, he⟩ := (Relisted.renumbers h).onto (g := nOwn + j) (by omega)
  unfold Spec.listedAs at he
  split_ifs at he with h1
  · omega
  · exact ⟨f - nOwn, by omega, by omega⟩

theorem Relisted.back (h : Spec.Relisted nOwn τ specs specs') {j : Nat} {sp' : AgentSpec K δ} (hj : specs'[j]? = some sp') :
    ∃ i sp, specs[i]? = some sp ∧ τ i = j := by
  obtain ⟨hlt, -⟩ := List.getElem?_eq_some_iff.1 hj
  obtain ⟨i, hi, rfl⟩ := Relisted.onto h (j := j) (by rw [← h.length]; exact hlt)
  exact ⟨i, specs[i], List.getElem?_eq_getElem hi, rfl⟩

theorem Relisted.nodup (h : Spec.Relisted nOwn τ specs specs') (hn : (specs.map (·.name)).Nodup) :
    (specs'.map (·.name)).Nodup := by
  rw [List.nodup_iff_getElem?_ne_getElem?]
  intro j k hjk hk he
  rw [List.length_map] at hk
  simp only [List.getElem?_map] at he
  rw [List.getElem?_eq_getElem hk, List.getElem?_eq_getElem (hjk.trans hk)] at he
  obtain ⟨i1, s1, a1, b1⟩ := Relisted.back h (List.getElem?_eq_getElem hk)
  obtain ⟨i2, s2, a2, b2⟩ := Relisted.back h (List.getElem?_eq_getElem (hjk.trans hk))
  obtain ⟨s1', -, -, -, c1, d1, -⟩ := h.same i1 s1 a1
  obtain ⟨s2', -, -, -, c2, d2, -⟩ := h.same i2 s2 a2
  rw [b1, List.getElem?_eq_getElem hk] at c1
  rw [b2, List.getElem?_eq_getElem (hjk.trans hk)] at c2
  cases c1
  cases c2
  simp only [Option.map_some, Option.some.injEq] at he
  rw [d1, d2] at he
  have hi1 := (List.getElem?_eq_some_iff.1 a1).1
  have : i2 = i1 := by
    refine (List.getElem?_inj (l := specs.map (·.name)) (by simpa using (List.getElem?_eq_some_iff.1 a2).1) hn).1 ?_
    simp only [List.getElem?_map, a1, a2, Option.map_some, he]
  subst this
  omega

theorem Relisted.perm (h : Spec.Relisted nOwn τ specs specs') (hn : (specs.map (·.name)).Nodup) :
    (specs'.map (·.name)).Perm (specs.map (·.name)) := by
  refine (List.perm_ext_iff_of_nodup (Relisted.nodup h hn) hn).2 fun n => ?_
  simp only [List.mem_map]
  constructor
  · rintro ⟨sp', hs, rfl⟩
    obtain ⟨j, hj⟩ := List.mem_iff_getElem?.1 hs
    obtain ⟨i, sp, hi, rfl⟩ := Relisted.back h hj
    obtain ⟨x, -, -, -, h1, h2, -⟩ := h.same i sp hi
    rw [hj] at h1; cases h1
    exact ⟨sp, List.mem_of_getElem? hi, h2.symm⟩
  · rintro ⟨sp, hs, rfl⟩
    obtain ⟨i, hi⟩ := List.mem_iff_getElem?.1 hs
    obtain ⟨x, -, -, -, h1, h2, -⟩ := h.same i sp hi
    exact ⟨x, List.mem_of_getElem? h1, h2⟩

theorem Env.init_relisted {m m' : Mdp K} {e : Env K δ} (hm : Mdp.GridReach kind W H selfT m)
    (hown : m.nNonAgent = m.features.d0 - m.nAgents) (hinit : Env.init m specs = (m', .ok e)) (hne : specs ≠ [])
    (hn : (specs.map (·.name)).Nodup) (h : Spec.Relisted (m.features.d0 - m.nAgents) τ specs specs') :
    ∃ m'' e', Env.init m specs' = (m'', .ok e') ∧ Env.Ok kind W H selfT e ∧ Env.Ok kind W H selfT e' ∧
      Env.Shuffled (m.features.d0 - m.nAgents + specs.length) specs.length (Spec.listedAs (m.features.d0 - m.nAgents) τ) e e' := by
  obtain ⟨-, x2, x3, x4, x5, x6, x7, x8, x9, -, -, -, x13, x14, x15, x16⟩ := Env.init_facts hm hinit
  have hv : ∀ sp ∈ specs', Spec.ValidAgent m.nStates (m.features.d0 - m.nAgents) specs'.length sp := by
    intro sp' hs
    obtain ⟨j, hj⟩ := List.mem_iff_getElem?.1 hs
    obtain ⟨i, sp, hi, rfl⟩ := Relisted.back h hj
    obtain ⟨x, r, r', l, h1, -, -, -, -, h6, h7, h8, h9, h10, h11, h12⟩ := h.same i sp hi
    rw [hj] at h1; cases h1
    obtain ⟨-, hp, -⟩ := x3 sp (List.mem_of_getElem? hi)
    rw [h.length]
    refine ⟨⟨r', h8⟩, by rw [h6]; exact hp, fun f hf => ?_⟩
    rw [h12] at hf
    obtain ⟨g, hg, rfl⟩ := List.mem_map.1 hf
    exact_mod_cast (Relisted.renumbers h).lt g (h10 g hg)
  obtain ⟨e', he'⟩ := (Env.init_valid hm specs').2 hv
  rcases hi' : Env.init m specs' with ⟨m'', z⟩
  rw [hi'] at he'
  simp only at he'
  subst he'
  have hne' : specs' ≠ [] := by
    intro h0
    have := h.length
    rw [h0] at this
    exact hne (List.eq_nil_of_length_eq_zero this.symm)
  obtain ⟨-, y2, y3, y4, y5, y6, y7, y8, y9, -, -, -, y13, y14, y15, y16⟩ := Env.init_facts hm hi'
  rw [h.length] at y7 y8 y15
  obtain ⟨l1, x15⟩ := x15 hn
  obtain ⟨l2, y15⟩ := y15 (Relisted.nodup h hn)
  refine ⟨m'', e', rfl, x2, y2, ?_, ?_, ?_, ?_, ?_⟩
  · have hrow : ∀ f, f < m.features.d0 - m.nAgents + specs.length →
        e'.mdp.features.get (Spec.listedAs (m.features.d0 - m.nAgents) τ f) = e.mdp.features.get f := by
      intro f hf
      funext s
      unfold Spec.listedAs
      split_ifs with h1
      · rw [x13 f s h1, y13 f s h1]
      · obtain ⟨i, rfl⟩ : ∃ i, f = m.features.d0 - m.nAgents + i := ⟨f - (m.features.d0 - m.nAgents), by omega⟩
        have hi : i < specs.length := by omega
        obtain ⟨x, r, r', l, h1, -, -, -, -, h6, -⟩ := h.same i specs[i] (List.getElem?_eq_getElem hi)
        obtain ⟨p, hp, hx⟩ := x14 i specs[i] (List.getElem?_eq_getElem hi)
        obtain ⟨p', hp', hy⟩ := y14 (τ i) x h1
        rw [h6, hp] at hp'
        cases hp'
        rw [hx, Nat.add_sub_cancel_left, hy]
    obtain ⟨F, O, ns, k, hF⟩ := Env.init_rest hinit
    obtain ⟨F', O', ns', k', hF'⟩ := Env.init_rest hi'
    have n1 := Env.init_names hinit hne
    have n2 := Env.init_names hi' hne'
    have d1 : e.mdp.features.d1 = e.mdp.nStates := by rw [x2.reach.ok.featStates, x2.reach.ok.nStates]
    have d2 : e'.mdp.features.d1 = e'.mdp.nStates := by rw [y2.reach.ok.featStates, y2.reach.ok.nStates]
    have o1 := x6 hne
    have o2 := y6 hne'
    refine ⟨e'.mdp.features, e'.mdp.features, ?_, x7, x8, y7, ?_, ?_, ?_, by rw [← o1]; exact x7, hrow,
      by rw [← o1]; exact hrow⟩
    · rw [y7] at n2
      rw [x7] at n1
      generalize e'.mdp = M' at *
      generalize e.mdp = M at *
      subst hF hF'
      simp only at n1 n2 x8 y8 o1 o2 ⊢
      rw [n1, n2, x8, y8, ← o2]
    · rw [d1, d2, x9, y9]
    · rw [← o1, x7]; exact y7
    · rw [← o1, d1, d2, x9, y9]
  · rw [x4, y4]; exact Relisted.perm h hn
  · rw [l1, l2]
  · rw [x5, y5]
  · intro n
    rcases hq : e.agent? n with _ | a
    · refine .inl ⟨rfl, ?_⟩
      rcases hq' : e'.agent? n with _ | a'
      · rfl
      · exfalso
        obtain ⟨ha, hna⟩ := Env.agent?_mem hq'
        have h1 : n ∈ e'.agentNames := (y2.names n).2 (List.mem_map.2 ⟨a', ha, hna⟩)
        rw [y4, (Relisted.perm h hn).mem_iff, ← x4, x2.names] at h1
        obtain ⟨b, hb, hbn⟩ := List.mem_map.1 h1
        rw [(Env.agent?_eq x2.nodup).2 ⟨hb, hbn⟩] at hq
        cases hq
    · obtain ⟨ha, hna⟩ := Env.agent?_mem hq
      obtain ⟨i, hi⟩ := List.mem_iff_getElem?.1 ha
      obtain ⟨sp, p, r, q1, q2, q3, q4⟩ := x15 i a hi
      have hlt : i < specs.length := (List.getElem?_eq_some_iff.1 q1).1
      obtain ⟨sp', r1, r1', l, h1, h2, h3, h4, h5, h6, h7, h8, h9, h10, h11, h12⟩ := h.same i sp q1
      have hlt' : τ i < e'.agents.length := by rw [l2]; exact h.number i hlt
      obtain ⟨sp2, p2, r2, z1, z2, z3, z4⟩ := y15 (τ i) _ (List.getElem?_eq_getElem hlt')
      rw [h1] at z1; cases z1
      rw [h6, q2] at z2; cases z2
      rw [h8] at z3
      rw [q3] at h7
      cases z3; cases h7
      refine .inr ⟨a, e'.agents[τ i], rfl, (Env.agent?_eq y2.nodup).2 ⟨List.getElem_mem hlt', ?_⟩,
        ⟨m.features.d0 - m.nAgents + specs.length, fun x => r1' [x]⟩, τ i, τ i + m.nNonAgent, sp'.consumes, fun _ => 0, ?_, ?_⟩
      · rw [z4, ← hna, q4]; exact h2
      · rw [z4, q4]
        unfold Env.newAgent Agent.dress
        simp only [h2, h3, h4, h5]
      · subst q4
        have hx : (Env.newAgent i (i + m.nNonAgent) sp p
            ⟨m.features.d0 - m.nAgents + specs.length, fun x => r [x]⟩ : Agent K δ).idx = i := rfl
        refine ⟨rfl, rfl, h9, hlt, h.number i hlt, ?_, ⟨l, h10, h11, h12⟩, fun _ _ => rfl, ?_, ?_⟩
        · rw [hx, Nat.add_sub_cancel]
          unfold Spec.listedAs
          rw [if_neg (by omega), Nat.add_sub_cancel_left]
        · change i + m.nNonAgent = _ + i
          rw [hown]; omega
        · rw [hown]; omega

end Start

end MaMDP
