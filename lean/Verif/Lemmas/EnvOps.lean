import Verif.Lemmas.Environment

/-! What each environment call does, case by case, and the invariant over histories. -/

set_option linter.unusedSectionVars false

namespace MaMDP.Env

variable {K : Type} [Field K] [LinearOrder K] [IsStrictOrderedRing K] {δ : Type}
variable {kind : GridKind} {W H : Nat} {selfT : Bool} {e : Env K δ}

theorem fit_cases (h : Ok kind W H selfT e) (n : String) (o : FitOut K) (d : Nat → δ) :
    (n ∉ e.agentNames ∧ e.fit n o d = (e, .error .valueError)) ∨
    (∃ a, a ∈ e.agents ∧ a.name = n ∧
      e.fit n o d = (e.put e.mdp (a.fit e.mdp o d).1, (a.fit e.mdp o d).2)) := by
  unfold fit
  cases hl : e.lookup n with
  | error err =>
    obtain ⟨h1, rfl⟩ := lookup_error h hl
    exact .inl ⟨h1, rfl⟩
  | ok a =>
    obtain ⟨h1, h2⟩ := (lookup_ok h).1 hl
    exact .inr ⟨a, h1, h2, rfl⟩

theorem setAlgorithm_same (a : Agent K δ) (st : AlgState K) : Agent.SameBody a { a with alg := st } :=
  ⟨rfl, rfl, rfl, rfl, rfl, rfl, rfl, rfl, rfl, rfl⟩

theorem setAlgorithm_cases (h : Ok kind W H selfT e) (n : String) (st : AlgState K) :
    (n ∉ e.agentNames ∧ e.setAlgorithm n st = (e, .error .keyError)) ∨
    (∃ a, a ∈ e.agents ∧ a.name = n ∧ e.setAlgorithm n st = (e.put e.mdp { a with alg := st }, .ok ())) := by
  unfold setAlgorithm
  cases hl : e.agent? n with
  | none =>
    refine .inl ⟨fun hn => ?_, rfl⟩
    obtain ⟨a, ha, hna⟩ := List.mem_map.1 ((h.names n).1 hn)
    rw [(agent?_eq h.nodup).2 ⟨ha, hna⟩] at hl
    cases hl
  | some a =>
    obtain ⟨h1, h2⟩ := (agent?_eq h.nodup).1 hl
    exact .inr ⟨a, h1, h2, rfl⟩

theorem stepProba_cases (h : Ok kind W H selfT e) (n : String) (p : Option (Arr1 K)) (d : Nat → δ) :
    (n ∉ e.agentNames ∧ e.stepProba n p d = (e, .error .valueError)) ∨
    (∃ a, a ∈ e.agents ∧ a.name = n ∧
      ((∃ err, (a.stepProba e.mdp p d).2 = .error err ∧
        e.stepProba n p d = (e.put e.mdp (a.stepProba e.mdp p d).1, .error err)) ∨
      (∃ x, (a.stepProba e.mdp p d).2 = .ok x ∧ e.stepProba n p d =
        ({ e.put e.mdp (a.stepProba e.mdp p d).1 with nSteps := e.nSteps + 1 }, .ok x)))) := by
  unfold stepProba
  cases hl : e.lookup n with
  | error err =>
    obtain ⟨h1, rfl⟩ := lookup_error h hl
    exact .inl ⟨h1, rfl⟩
  | ok a =>
    obtain ⟨h1, h2⟩ := (lookup_ok h).1 hl
    refine .inr ⟨a, h1, h2, ?_⟩
    simp only
    cases hs : a.stepProba e.mdp p d with
    | mk a' r =>
      cases r with
      | error err => exact .inl ⟨err, rfl, rfl⟩
      | ok x => exact .inr ⟨x, rfl, rfl⟩

/-- The agent recomputed its policy, chose the action and moved to `t`; `a1` is its new state and `s`
its old one. -/
structure Moved (e : Env K δ) (a : Agent K δ) (d : Nat → δ) (a1 : Agent K δ) (j t : Nat) : Prop where
  mem : a ∈ e.agents
  seat : pyIdx e.mdp.nStates a.position = some j
  lt : t < e.mdp.nStates
  ex : ∃ q P p s, a.alg.fitComplete = true ∧ a.alg.qValues = some q ∧ a.selector.piP q = .ok P ∧
    a.selector.pi q d = .ok p ∧ pyIdx p.d0 a.position = some s ∧ 0 ≤ p.get s ∧
    e.mdp.getNextState a.position (p.get s) = .ok t ∧
    a1 = { a with piP := some P, pi := some p, position := t, history := a.history ++ [(t : Int)] }

theorem Moved.name {e : Env K δ} {a a1 : Agent K δ} {d : Nat → δ} {j t : Nat} (h : Moved e a d a1 j t) :
    a1.name = a.name ∧ a1.idx = a.idx ∧ a1.start = a.start ∧ a1.position = t ∧
      a1.consumes = a.consumes ∧ a1.consumed = a.consumed ∧ a1.history = a.history ++ [(t : Int)] ∧
      a1.alg = a.alg ∧ a1.selector = a.selector ∧ a1.featIdx = a.featIdx ∧ a1.nMoves = a.nMoves ∧
      a1.reward = a.reward := by
  obtain ⟨q, P, p, s, -, -, -, -, -, -, -, rfl⟩ := h.ex
  exact ⟨rfl, rfl, rfl, rfl, rfl, rfl, rfl, rfl, rfl, rfl, rfl, rfl⟩

/-- Row `r` is one of those agent `a` consumes. -/
def Eats (e : Env K δ) (a : Agent K δ) (r : Nat) : Prop :=
  ∃ f ∈ a.consumes, pyIdx e.mdp.features.d0 f = some r

instance (e : Env K δ) (a : Agent K δ) (r : Nat) : Decidable (Eats e a r) := by
  unfold Eats; infer_instance

theorem step_cases (h : Ok kind W H selfT e) (n : String) (d : Nat → δ) :
    (n ∉ e.agentNames ∧ e.step n d = (e, .error .valueError)) ∨
    (∃ a a' err, a ∈ e.agents ∧ a.name = n ∧ Agent.SameBody a a' ∧ a'.history = a.history ∧
      a'.alg = a.alg ∧ (a.alg.fitComplete = false → a' = a ∧ err = .attributeError) ∧
      e.step n d = (e.put e.mdp a', .error err)) ∨
    (∃ a a1 j t, ∃ (g : Nat → Nat → K) (c : Nat → Nat), a.name = n ∧ Moved e a d a1 j t ∧
      (∀ f ∈ a.consumes, ∃ r, pyIdx e.mdp.features.d0 f = some r) ∧
      (∀ r s, g r s = if s = t ∧ Eats e a r ∧
        0 < (e.mdp.setRow (e.mdp.agentRow a.idx) t).features.get r s then 0
        else (e.mdp.setRow (e.mdp.agentRow a.idx) t).features.get r s) ∧
      (∀ r, c r = if Eats e a r ∧
        0 < (e.mdp.setRow (e.mdp.agentRow a.idx) t).features.get r t then 1 else 0) ∧
      e.step n d = ({ e.put (e.mdp.withFeat g) { a1 with consumed := fun f => a.consumed f + c f } with
        nSteps := e.nSteps + 1 }, .ok (t : Int)) ∧
      Ok kind W H selfT (e.step n d).1) ∨
    (∃ a a1 j t, ∃ g : Nat → Nat → K, a.name = n ∧ Moved e a d a1 j t ∧
      (¬ ∀ f ∈ a.consumes, ∃ r, pyIdx e.mdp.features.d0 f = some r) ∧
      (∀ r s, g r s = (e.mdp.setRow (e.mdp.agentRow a.idx) t).features.get r s ∨
        (g r s = 0 ∧ s = t ∧ 0 < (e.mdp.setRow (e.mdp.agentRow a.idx) t).features.get r s ∧ Eats e a r)) ∧
      e.step n d = (e.put (e.mdp.withFeat g) a1, .error .indexError) ∧
      Ok kind W H selfT (e.step n d).1) := by
  have hstep : e.step n d = e.step n d := rfl
  conv at hstep => rhs; unfold step
  cases hl : e.lookup n with
  | error err =>
    obtain ⟨h1, rfl⟩ := lookup_error h hl
    rw [hl] at hstep
    exact .inl ⟨h1, hstep⟩
  | ok a =>
    rw [hl] at hstep
    obtain ⟨h1, rfl⟩ := (lookup_ok h).1 hl
    right
    obtain ⟨j, hseat, hrow⟩ := h.agentSeated h1
    simp only at hstep
    rcases Agent.step_cases hseat h.nStates_pos d with ⟨a', err, e1, e2, e3, e4⟩ |
      ⟨q, P, p, s, t, f1, f2, f3, f4, f5, f6, f7, ht, e1⟩
    · left
      rw [e1] at hstep
      refine ⟨a, a', err, h1, rfl, e2, e3, e4, ?_, hstep⟩
      intro hf
      unfold Agent.step at e1
      rw [if_pos hf] at e1
      cases e1
      exact ⟨rfl, rfl⟩
    · right
      set a1 : Agent K δ :=
        { a with piP := some P, pi := some p, position := t, history := a.history ++ [(t : Int)] } with ha1
      have hm : Moved e a d a1 j t :=
        ⟨h1, hseat.pos, ht, q, P, p, s, f1, f2, f3, f4, f5, f6, f7, rfl⟩
      rw [e1] at hstep
      simp only at hstep
      have ht' : pyIdx e.mdp.nStates (t : Int) = some t := by simp [ht]
      have hok1 : Ok kind W H selfT (e.put (e.mdp.setRow (e.mdp.agentRow a.idx) t) a1) :=
        h.move h1 (a' := a1) rfl rfl rfl ht' rfl e.nSteps
      have hs1 : a1.Seated (e.mdp.setRow (e.mdp.agentRow a.idx) t) t :=
        ⟨hseat.le, hseat.idx, hseat.d1, ht'⟩
      have hmem1 : a1 ∈ (e.put (e.mdp.setRow (e.mdp.agentRow a.idx) t) a1).agents :=
        (mem_put (show a1.name ∈ _ from List.mem_map_of_mem (f := (·.name)) h1)).2 (.inl rfl)
      have hreach : Mdp.GridReach kind W H selfT
          ((e.mdp.setRow (e.mdp.agentRow a.idx) t).consumeFeatures a1.consumes a1.position).1 :=
        Mdp.GridReach.step (.consumeFeatures a1.consumes a1.position) hok1.reach (by simp)
      have hreach2 : Mdp.GridReach kind W H selfT
          (a1.consume (e.mdp.setRow (e.mdp.agentRow a.idx) t)).1 := by
        unfold Agent.consume
        split_ifs
        · exact hok1.reach
        · split
          · rename_i heq; rw [heq] at hreach; exact hreach
          · rename_i heq; rw [heq] at hreach; exact hreach
      by_cases hc : ∀ f ∈ a.consumes, ∃ r, pyIdx e.mdp.features.d0 f = some r
      · left
        obtain ⟨g, c, g1, g2, g3⟩ := Agent.consume_ok hs1 hc
        rw [g1] at hstep hreach2
        refine ⟨a, a1, j, t, g, c, rfl, hm, hc, g2, g3, hstep, ?_⟩
        rw [hstep]
        have := hok1.zero hmem1 (a' := { a1 with consumed := fun f => a.consumed f + c f })
          rfl rfl rfl rfl g hreach2 (fun r s => by
            rw [g2 r s]
            split_ifs
            · exact .inr rfl
            · exact .inl rfl) (e.nSteps + 1)
        rw [put_put _ _ _ _ (by rfl)] at this
        exact this
      · right
        obtain ⟨g, g1, g2⟩ := Agent.consume_fail hs1 hc
        rw [g1] at hstep hreach2
        refine ⟨a, a1, j, t, g, rfl, hm, hc, g2, hstep, ?_⟩
        rw [hstep]
        have := hok1.zero hmem1 (a' := a1)
          rfl rfl rfl rfl g hreach2 (fun r s => by
            rcases g2 r s with h | h
            · exact .inl h
            · exact .inr h.1) e.nSteps
        rw [put_put _ _ _ _ (by rfl)] at this
        exact this

theorem setAgentPosition_cases (h : Ok kind W H selfT e) (n : String) (p : Int) :
    (n ∉ e.agentNames ∧ e.setAgentPosition n p = (e, .error .valueError)) ∨
    (∃ a, a ∈ e.agents ∧ a.name = n ∧
      ((∃ j, pyIdx e.mdp.nStates p = some j ∧ e.setAgentPosition n p =
        (e.put (e.mdp.setRow (e.mdp.agentRow a.idx) j) { a with position := p }, .ok ())) ∨
      ((e.mdp.nStates : Int) ≤ p ∧ e.setAgentPosition n p = (e, .error .indexError)) ∨
      (p < -(e.mdp.nStates : Int) ∧ e.setAgentPosition n p = (e.put (e.mdp.withFeat
        (fun f s => if f = e.mdp.agentRow a.idx then 0 else e.mdp.features.get f s)) a,
        .error .indexError) ∧
        Mdp.GridReach kind W H selfT (e.mdp.withFeat
          (fun f s => if f = e.mdp.agentRow a.idx then 0 else e.mdp.features.get f s))))) := by
  unfold setAgentPosition
  cases hl : e.lookup n with
  | error err =>
    obtain ⟨h1, rfl⟩ := lookup_error h hl
    exact .inl ⟨h1, rfl⟩
  | ok a =>
    obtain ⟨h1, h2⟩ := (lookup_ok h).1 hl
    refine .inr ⟨a, h1, h2, ?_⟩
    obtain ⟨j, hseat, -⟩ := h.agentSeated h1
    simp only
    cases hp : pyIdx e.mdp.nStates p with
    | some j =>
      left
      exact ⟨j, rfl, by rw [Agent.setPosition_ok hseat.le hseat.idx hseat.d1 hp]⟩
    | none =>
      right
      rw [Agent.setPosition_fail hseat.le hseat.idx hseat.d1 hp]
      by_cases hle : (e.mdp.nStates : Int) ≤ p
      · left
        refine ⟨hle, ?_⟩
        rw [if_pos hle]
        simp only
        rw [put_self h.nodup h1]
      · right
        have hlt : p < -(e.mdp.nStates : Int) := by
          rcases pyIdx_eq_none.1 hp with h | h
          · exact absurd h hle
          · exact h
        refine ⟨hlt, by rw [if_neg hle], ?_⟩
        have := Mdp.GridReach.step (.updateAgentFeature a.idx p) h.reach (by simp)
        simp only [Mdp.apply, Mdp.update_fail h.le (h.idx a h1) (by rw [hseat.d1]; exact hp)] at this
        exact this

/-- What `reset` does to an agent. -/
def resetAgent (a : Agent K δ) : Agent K δ :=
  { a with position := a.start, pi := none, piP := none, history := [a.start] }

theorem resetLoop_eq : ∀ (as : List (Agent K δ)) (m : Mdp K), m.nAgents ≤ m.features.d0 →
    m.features.d1 = m.nStates →
    (∀ a ∈ as, a.idx < m.nAgents ∧ ∃ j, pyIdx m.nStates a.start = some j) →
    Mdp.GridReach kind W H selfT m →
    ∃ g, resetLoop as m = (m.withFeat g, as.map resetAgent, .ok ()) ∧
      Mdp.GridReach kind W H selfT (m.withFeat g) := by
  intro as
  induction as with
  | nil => intro m _ _ _ hr; exact ⟨m.features.get, rfl, hr⟩
  | cons a as ih =>
    intro m h1 h2 h3 hr
    obtain ⟨h4, j, h5⟩ := h3 a List.mem_cons_self
    unfold resetLoop Agent.reset
    rw [Agent.setPosition_ok h1 h4 h2 h5]
    simp only
    obtain ⟨g, h6, h7⟩ := ih (m.setRow (m.agentRow a.idx) j) h1 h2
      (fun b hb => h3 b (List.mem_cons_of_mem _ hb))
      (by have := Mdp.GridReach.step (.updateAgentFeature a.idx a.start) hr (by simp)
          simp only [Mdp.apply, Mdp.update_ok h1 h4 (by rw [h2]; exact h5)] at this
          exact this)
    rw [h6]
    exact ⟨g, rfl, h7⟩

/-- `reset` always succeeds; this is the environment it leaves behind. -/
def resetEnv (e : Env K δ) : Env K δ :=
  { e with
    mdp := { e.mdp with
      features := e.mdp.originalFeatures
      featureNames := Mdp.defaultNames e.mdp.originalFeatures.d0 }
    agents := e.agents.map resetAgent }

theorem reset_eq (h : Ok kind W H selfT e) : e.reset = (e.resetEnv, .ok ()) ∧ Ok kind W H selfT e.resetEnv := by
  have hd : e.mdp.features.d1 = e.mdp.nStates := by rw [h.reach.ok.featStates, h.reach.ok.nStates]
  obtain ⟨g, h1, h2⟩ := resetLoop_eq (kind := kind) (W := W) (H := H) (selfT := selfT) e.agents e.mdp h.le hd
    (fun a ha => ⟨h.idx a ha, (h.start a ha).imp fun j hj => hj.1⟩) h.reach
  have hod : e.mdp.originalFeatures.d1 = e.mdp.nStates := by
    rw [h.reach.ok.origFeatStates, h.reach.ok.nStates]
  have hreset : (e.mdp.withFeat g).reset = ({ e.mdp with
      features := e.mdp.originalFeatures
      featureNames := Mdp.defaultNames e.mdp.originalFeatures.d0 }, .ok ()) := by
    unfold Mdp.reset Mdp.setFeatures
    have : ¬ (e.mdp.withFeat g).originalFeatures.d1 ≠ (e.mdp.withFeat g).nStates := by
      simpa [Mdp.withFeat] using hod
    rw [if_neg this]
    rfl
  constructor
  · unfold reset
    rw [h1]
    simp only
    rw [hreset]
    rfl
  · have hr : Mdp.GridReach kind W H selfT e.resetEnv.mdp := by
      have := Mdp.GridReach.step .reset h2 (by simp)
      simp only [Mdp.apply, hreset] at this
      exact this
    have hn : (e.agents.map resetAgent).map (·.name) = e.agents.map (·.name) := by
      rw [List.map_map]; rfl
    have hi : (e.agents.map resetAgent).map (·.idx) = e.agents.map (·.idx) := by
      rw [List.map_map]; rfl
    have hrow : ∀ i, e.resetEnv.mdp.agentRow i = e.mdp.agentRow i := by
      intro i
      unfold Mdp.agentRow
      have : e.resetEnv.mdp.features.d0 = e.mdp.features.d0 := h.reach.ok.origFeat
      rw [this]; rfl
    refine ⟨hr, ?_, ?_, ?_, ?_, ?_, ?_, ?_⟩
    · exact hn ▸ h.nodup
    · intro n
      have := h.names n
      rw [← hn] at this; exact this
    · exact hi ▸ h.idxs
    · have := h.le
      rw [← h.reach.ok.origFeat] at this
      exact this
    · intro a ha
      obtain ⟨b, hb, rfl⟩ := List.mem_map.1 ha
      exact h.idx b hb
    · intro a ha
      obtain ⟨b, hb, rfl⟩ := List.mem_map.1 ha
      obtain ⟨j, h3, h4⟩ := h.start b hb
      refine ⟨j, h3, ?_⟩
      have h4' : ∀ s, e.resetEnv.mdp.features.get (e.resetEnv.mdp.agentRow b.idx) s =
          if s = j then 1 else 0 := by intro s; rw [hrow]; exact h4 s
      constructor
      · intro s _ hne; exact (h4' s).trans (if_neg hne)
      · right; exact (h4' j).trans (if_pos rfl)
    · intro a ha
      obtain ⟨b, hb, rfl⟩ := List.mem_map.1 ha
      obtain ⟨j, h3, h4⟩ := h.start b hb
      refine ⟨j, h3, fun s => ?_⟩
      rw [hrow]; exact h4 s

/-- Changing walls only. -/
theorem Ok.walls (h : Ok kind W H selfT e) {m : Mdp K} (hr : Mdp.GridReach kind W H selfT m)
    (h1 : m.features = e.mdp.features) (h2 : m.originalFeatures = e.mdp.originalFeatures)
    (h3 : m.nAgents = e.mdp.nAgents) (h4 : m.nStates = e.mdp.nStates) :
    Ok kind W H selfT { e with mdp := m } := by
  have hrow : ∀ i, m.agentRow i = e.mdp.agentRow i := by
    intro i; unfold Mdp.agentRow; rw [h1, h3]
  refine ⟨hr, h.nodup, h.names, h.idxs, ?_, ?_, ?_, ?_⟩
  · simp only [h1, h3]; exact h.le
  · intro a ha; simp only [h3]; exact h.idx a ha
  · intro a ha; simp only [h1, h4, hrow]; exact h.pos a ha
  · intro a ha; simp only [h2, h4, hrow]; exact h.start a ha

theorem Ok.fit (h : Ok kind W H selfT e) (n : String) (o : FitOut K) (d : Nat → δ) :
    Ok kind W H selfT (e.fit n o d).1 := by
  rcases fit_cases h n o d with ⟨-, h1⟩ | ⟨a, h1, -, h2⟩
  · rw [h1]; exact h
  · rw [h2]; exact h.same h1 (Agent.fit_same a e.mdp o d).1

theorem Ok.setAlgorithm (h : Ok kind W H selfT e) (n : String) (st : AlgState K) :
    Ok kind W H selfT (e.setAlgorithm n st).1 := by
  rcases setAlgorithm_cases h n st with ⟨-, h1⟩ | ⟨a, h1, -, h2⟩
  · rw [h1]; exact h
  · rw [h2]; exact h.same h1 (setAlgorithm_same a st)

theorem Ok.step (h : Ok kind W H selfT e) (n : String) (d : Nat → δ) :
    Ok kind W H selfT (e.step n d).1 := by
  rcases step_cases h n d with ⟨-, h1⟩ | ⟨a, a', err, h1, -, h2, -, -, -, h3⟩ |
    ⟨a, a1, j, t, g, c, -, -, -, -, -, -, h1⟩ | ⟨a, a1, j, t, g, -, -, -, -, -, h1⟩
  · rw [h1]; exact h
  · rw [h3]; exact h.same h1 h2
  · exact h1
  · exact h1

theorem Ok.stepProba (h : Ok kind W H selfT e) (n : String) (p : Option (Arr1 K)) (d : Nat → δ) :
    Ok kind W H selfT (e.stepProba n p d).1 := by
  rcases stepProba_cases h n p d with ⟨-, h1⟩ | ⟨a, h1, -, ⟨err, -, h2⟩ | ⟨x, -, h2⟩⟩
  · rw [h1]; exact h
  · rw [h2]; exact h.same h1 (Agent.stepProba_same a e.mdp p d).1
  · rw [h2]; exact (h.same h1 (Agent.stepProba_same a e.mdp p d).1).setNSteps _

theorem Ok.setAgentPosition (h : Ok kind W H selfT e) (n : String) (p : Int) :
    Ok kind W H selfT (e.setAgentPosition n p).1 := by
  rcases setAgentPosition_cases h n p with ⟨-, h1⟩ | ⟨a, h1, -, ⟨j, h2, h3⟩ | ⟨-, h3⟩ | ⟨-, h3, h4⟩⟩
  · rw [h1]; exact h
  · rw [h3]; exact h.move h1 (a' := { a with position := p }) rfl rfl rfl h2 rfl e.nSteps
  · rw [h3]; exact h
  · rw [h3]
    exact h.zero h1 (a' := a) rfl rfl rfl rfl _ h4 (fun r s => by
      split_ifs
      · exact .inr rfl
      · exact .inl rfl) e.nSteps

theorem Ok.setWalls (h : Ok kind W H selfT e) (w : Arr1 K) : Ok kind W H selfT (e.setWalls w).1 := by
  have := Mdp.setWalls_feat h.reach.ok w
  exact h.walls (Mdp.GridReach.step (.setWalls w) h.reach (by simp)) this.1 this.2.1 this.2.2.1
    this.2.2.2.2.1

theorem Ok.addWallXY (h : Ok kind W H selfT e) (x y : List Int) :
    Ok kind W H selfT (e.addWallXY x y).1 := by
  have := Mdp.addWallXY_feat h.reach.ok x y
  exact h.walls (Mdp.GridReach.step (.addWallXY x y) h.reach (by simp)) this.1 this.2.1 this.2.2.1
    this.2.2.2.2.1

theorem Ok.resetWalls (h : Ok kind W H selfT e) : Ok kind W H selfT e.resetWalls.1 := by
  have := Mdp.resetWalls_feat h.reach.ok
  exact h.walls (Mdp.GridReach.step .resetWalls h.reach (by simp)) this.1 this.2.1 this.2.2.1
    this.2.2.2.2.1

/-- `step_multi` only ever fits and steps. -/
theorem stepLoop_induct (P : Env K δ → Prop) {n : String}
    (hfit : ∀ e o d, P e → P (Env.fit e n o d).1) (hstep : ∀ e d, P e → P (Env.step e n d).1)
    (nas plan : List Nat) (nT : Nat) (refit stop : Bool) (orc : Nat → StepOracle K δ) :
    ∀ (k i : Nat) (e : Env K δ) (acc : List Int), P e →
      P (stepLoop n nas plan nT refit stop orc k i e acc).1 := by
  intro k
  induction k with
  | zero => intro i e acc h; exact h
  | succ k ih =>
    intro i e acc h
    unfold stepLoop
    have hr : P (e.refitFor n nas plan nT refit (orc i) i).1 := by
      unfold refitFor
      split_ifs
      · split
        · exact h
        · exact hfit _ _ _ h
      · exact h
    split
    · rename_i heq; rw [heq] at hr; exact hr
    · rename_i heq; rw [heq] at hr
      rename_i e1
      have hs := hstep e1 (orc i).draws hr
      split
      · rename_i heq; rw [heq] at hs; exact hs
      · rename_i heq; rw [heq] at hs
        split
        · exact hs
        · split_ifs
          · exact hs
          · exact ih _ _ _ hs

theorem stepMulti_induct (P : Env K δ → Prop) {n : String}
    (hfit : ∀ e o d, P e → P (Env.fit e n o d).1) (hstep : ∀ e d, P e → P (Env.step e n d).1)
    (e : Env K δ) (s : StepsArg) (mp : Option (List Nat)) (nT : Nat) (refit stop : Bool)
    (orc : Nat → StepOracle K δ) (h : P e) : P (e.stepMulti n s mp nT refit stop orc).1 := by
  unfold stepMulti
  split
  · exact h
  · split
    · exact h
    · simp only
      split_ifs with h1
      · exact h
      · split
        · exact h
        · exact stepLoop_induct P hfit hstep _ _ _ _ _ _ _ _ _ _ h
      · split <;> exact h

/-- A predicate kept by every basic call is kept by every history. -/
theorem run_induct (P : Env K δ → Prop)
    (hfit : ∀ e n o d, P e → P (Env.fit e n o d).1) (hstep : ∀ e n d, P e → P (Env.step e n d).1)
    (hproba : ∀ e n p d, P e → P (Env.stepProba e n p d).1) (hreset : ∀ e, P e → P (Env.reset e).1)
    (hset : ∀ e n p, P e → P (Env.setAgentPosition e n p).1) (hw : ∀ e w, P e → P (Env.setWalls e w).1)
    (ha : ∀ e x y, P e → P (Env.addWallXY e x y).1) (hrw : ∀ e, P e → P (Env.resetWalls e).1)
    (halg : ∀ e n st, P e → P (Env.setAlgorithm e n st).1)
    (ops : List (EnvOp K δ)) : ∀ e, P e → P (e.run ops) := by
  induction ops with
  | nil => intro e h; exact h
  | cons op ops ih =>
    intro e h
    refine ih (e.apply op) ?_
    cases op with
    | fit n o d => exact hfit _ _ _ _ h
    | step n d => exact hstep _ _ _ h
    | stepProba n p d => exact hproba _ _ _ _ h
    | stepMulti n s p t r c o => exact stepMulti_induct P (fun e => hfit e n) (fun e => hstep e n) _ _ _ _ _ _ _ h
    | stepMultiInteractive n m =>
      simp only [apply, stepMultiInteractive]
      split
      · exact h
      · exact h
      · split_ifs
        · exact h
        · split <;> exact h
    | reset => exact hreset _ h
    | setAgentPosition n p => exact hset _ _ _ h
    | setWalls w => exact hw _ _ h
    | addWallXY x y => exact ha _ _ _ h
    | resetWalls => exact hrw _ h
    | setAlgorithm n st => exact halg _ _ _ h

/-- The invariant holds after every history. -/
theorem Ok.run (ops : List (EnvOp K δ)) (e : Env K δ) (h : Ok kind W H selfT e) :
    Ok kind W H selfT (e.run ops) :=
  run_induct (Ok kind W H selfT) (fun _ n o d h => h.fit n o d) (fun _ n d h => h.step n d)
    (fun _ n p d h => h.stepProba n p d)
    (fun _ h => by rw [(reset_eq h).1]; exact (reset_eq h).2) (fun _ n p h => h.setAgentPosition n p)
    (fun _ w h => h.setWalls w) (fun _ x y h => h.addWallXY x y) (fun _ h => h.resetWalls)
    (fun _ n st h => h.setAlgorithm n st) ops e h

end MaMDP.Env
