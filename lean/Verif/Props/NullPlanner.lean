import Verif.Lemmas.EnvMove

/-! # C107: do agents only make possible moves, whatever they were fitted with?

Not with `Null`, which gives every action the value 1, impossible ones included: the greedy selector may then
pick an impossible action, and such a move ends in state 0, wherever the agent was and even if state 0 is a
wall. -/

set_option linter.unusedSectionVars false

namespace MaMDP

variable {K : Type} [Field K] [LinearOrder K] [IsStrictOrderedRing K]
variable {kind : GridKind} {W H : Nat} {selfT : Bool} {m m' : Mdp K} {specs : List (AgentSpec K Nat)}
  {e0 : Env K Nat}

theorem reward_length (hm : Mdp.GridReach kind W H selfT m) (hinit : Env.init m specs = (m', .ok e0))
    (ops : List (EnvOp K Nat)) (e : Env K Nat) (he : e = e0.run ops) (a : Agent K Nat) (ha : a ∈ e.agents) :
    Env.Ok kind W H selfT e ∧ a.reward.d0 = e.mdp.nFeatures := by
  obtain ⟨hok, hlater⟩ := Env.started hm hinit ops
  rw [← he] at hok hlater
  obtain ⟨-, hok0, -, -, -, -, hd0, -, -, -, -, -, -, -, -, hag⟩ := Env.init_facts hm hinit
  obtain ⟨a0, ha0, -, -, -, -, -, -, hrew, -, -⟩ := hlater.back hok0 hok ha
  refine ⟨hok, ?_⟩
  change _ = e.mdp.features.d0
  obtain ⟨i, sp, p, r, -, -, -, rfl⟩ := hag a0 ha0
  rw [hrew, hlater.d0, hd0]; rfl

theorem next_state_at {m : Mdp K} {p : Int} {s : Nat} (h : pyIdx m.nStates p = some s) (x : Int) :
    m.getNextState p x = m.getNextState (s : Int) x := by
  unfold Mdp.getNextState
  rw [h]
  simp only [pyIdx_nat, if_pos (pyIdx_lt h)]

/-- **C107**, what a greedy agent fitted with `Null` does, in an environment after any history: `fit` succeeds,
and every action `x` is taken by some step: to its successor if it is possible, otherwise to state 0. -/
theorem C107_null (hm : Mdp.GridReach kind W H selfT m) (hinit : Env.init m specs = (m', .ok e0))
    (ops : List (EnvOp K Nat)) (e : Env K Nat) (he : e = e0.run ops) (a : Agent K Nat) (ha : a ∈ e.agents)
    (hsel : a.selector = maxSelector) (s : Nat) (hs : s = Spec.stateOf (W * H) a.position)
    (d : Nat → Nat) : ∃ e1, e.fit a.name (nullFit e.mdp.nStates e.mdp.nActions) d = (e1, .ok ()) ∧
      ∀ x, x < e.mdp.nActions → ∃ (draws : Nat → Nat) (t : Nat), t < W * H ∧
        (Spec.Possible e.mdp.trans s x → 0 < e.mdp.sas s x t) ∧ (¬ Spec.Possible e.mdp.trans s x → t = 0) ∧
        (∃ a' ∈ (e1.step a.name draws).1.agents, a'.name = a.name ∧ a'.position = t ∧
          a'.history = a.history ++ [(t : Int)]) ∧
        (a.consumes = [] → (e1.step a.name draws).2 = .ok (t : Int)) := by
  obtain ⟨hok, hrd⟩ := reward_length hm hinit ops e he a ha
  obtain ⟨h1, hok1, hm1, a1, ha1, hn1, hf1, hq1, hp1, hh1, hs1, hc1⟩ := Env.fit_null hok ha hrd hsel d
  rcases hfit : e.fit a.name (nullFit e.mdp.nStates e.mdp.nActions) d with ⟨e1, r⟩
  rw [hfit] at h1 hok1 hm1 ha1
  simp only at h1 hok1 hm1 ha1
  subst h1
  refine ⟨e1, rfl, fun x hx => ?_⟩
  obtain ⟨j, hj, -⟩ := hok.pos a ha
  have hsj := Env.stateOf_eq hj
  rw [hok.reach.ok.nStates, ← hs] at hsj
  subst hsj
  have hjn : j < e.mdp.nStates := pyIdx_lt hj
  have hne : ∃ s, s < (onesFor e.mdp).d0 ∧ ¬ Spec.NoEstimate (onesFor e.mdp) s :=
    ⟨j, hjn, fun hn => by have := hn x hx; simp [onesFor] at this⟩
  have hest : Spec.HasEstimate (onesFor e.mdp) j :=
    ⟨⟨x, hx, by simp [onesFor]⟩, fun ⟨⟨c, hc, hc'⟩, _⟩ => by simp [onesFor] at hc'⟩
  obtain ⟨draws, p, hp, hpx⟩ := C24_every_best_action (onesFor e.mdp) hne (fun _ => x)
    (fun s _ _ => isBest_ones e.mdp s x hx)
  obtain ⟨P, hP, -⟩ := (C23_max_pi_p _).2 hne
  obtain ⟨p', hp', hp0, -⟩ := C24_max_pi _ draws hne
  rw [hp] at hp'; cases hp'
  obtain ⟨t, ht, htn, h3, h4⟩ := C16_partial kind W H selfT e.mdp hok.reach j x hjn hx
  have hnext : e1.mdp.getNextState a1.position (p.get j) = .ok t := by
    rw [hm1, hp1, next_state_at hj, hpx j hjn hest, ht]
  have hmv := Env.step_moves hok1 ha1 hf1 hq1 (d := draws) (p := p) (P := P) (by rw [hs1]; exact hP)
    (by rw [hs1]; exact hp) (j := j) (by rw [hp0, hp1]; exact hj) (by rw [hpx j hjn hest]; omega) hnext
  rw [hn1, hh1, hc1] at hmv
  obtain ⟨⟨a', ha', e1', e2', e3', -⟩, hres⟩ := hmv
  exact ⟨draws, t, by rw [← hok.reach.ok.nStates]; exact htn, fun h => h3 h, fun h => h4 h,
    ⟨a', ha', e1', e2', e3'⟩, hres⟩

/-- Nothing else can happen: whatever the generator does, a step succeeds up to the bookkeeping of consumed
features and ends in a successor, or in state 0 when some action is impossible. -/
theorem C107_only (hm : Mdp.GridReach kind W H selfT m) (hinit : Env.init m specs = (m', .ok e0))
    (ops : List (EnvOp K Nat)) (e : Env K Nat) (he : e = e0.run ops) (a : Agent K Nat) (ha : a ∈ e.agents)
    (hsel : a.selector = maxSelector) (s : Nat) (hs : s = Spec.stateOf (W * H) a.position)
    (d draws : Nat → Nat) (e1 : Env K Nat)
    (hfit : e.fit a.name (nullFit e.mdp.nStates e.mdp.nActions) d = (e1, .ok ())) :
    ∃ a' ∈ (e1.step a.name draws).1.agents, a'.name = a.name ∧
      ∃ t : Nat, a'.position = t ∧ a'.history = a.history ++ [(t : Int)] ∧
        (Spec.Successor e.mdp.trans s t ∨
          (t = 0 ∧ ∃ x, x < e.mdp.nActions ∧ ¬ Spec.Possible e.mdp.trans s x)) := by
  obtain ⟨hok, hrd⟩ := reward_length hm hinit ops e he a ha
  obtain ⟨-, hok1, hm1, a1, ha1, hn1, hf1, hq1, hp1, hh1, hs1, hc1⟩ := Env.fit_null hok ha hrd hsel d
  rw [hfit] at hok1 hm1 ha1
  simp only at hok1 hm1 ha1
  obtain ⟨j, hj, -⟩ := hok.pos a ha
  have hsj := Env.stateOf_eq hj
  rw [hok.reach.ok.nStates, ← hs] at hsj
  subst hsj
  have hjn : j < e.mdp.nStates := pyIdx_lt hj
  have hA : 0 < e.mdp.nActions := (C27_grid kind W H selfT e.mdp hok.reach).2.2.1
  have hne : ∃ s, s < (onesFor e.mdp).d0 ∧ ¬ Spec.NoEstimate (onesFor e.mdp) s :=
    ⟨j, hjn, fun hn => by have := hn 0 hA; simp [onesFor] at this⟩
  have hest : Spec.HasEstimate (onesFor e.mdp) j :=
    ⟨⟨0, hA, by simp [onesFor]⟩, fun ⟨⟨c, hc, hc'⟩, _⟩ => by simp [onesFor] at hc'⟩
  obtain ⟨P, hP, -⟩ := (C23_max_pi_p _).2 hne
  obtain ⟨p, hp, hp0, hpall⟩ := C24_max_pi _ draws hne
  obtain ⟨x, hpx, hbest, -⟩ := (hpall j hjn).2 hest
  have hx : x < e.mdp.nActions := hbest.1
  obtain ⟨t, ht, htn, h3, h4⟩ := C16_partial kind W H selfT e.mdp hok.reach j x hjn hx
  have hnext : e1.mdp.getNextState a1.position (p.get j) = .ok t := by
    rw [hm1, hp1, next_state_at hj, hpx, ht]
  have hmv := Env.step_moves hok1 ha1 hf1 hq1 (d := draws) (p := p) (P := P) (by rw [hs1]; exact hP)
    (by rw [hs1]; exact hp) (j := j) (by rw [hp0, hp1]; exact hj) (by rw [hpx]; omega) hnext
  rw [hn1, hh1] at hmv
  obtain ⟨⟨a', ha', e1', e2', e3', -⟩, -⟩ := hmv
  refine ⟨a', ha', e1', t, e2', e3', ?_⟩
  by_cases hpos : Spec.Possible e.mdp.trans j x
  · exact .inl ⟨htn, x, hx, h3 hpos⟩
  · exact .inr ⟨h4 hpos, x, hx, hpos⟩

/-- In a state where no action is possible (a wall, say) the agent goes to state 0 and nowhere else. -/
theorem C107_stuck (hm : Mdp.GridReach kind W H selfT m) (hinit : Env.init m specs = (m', .ok e0))
    (ops : List (EnvOp K Nat)) (e : Env K Nat) (he : e = e0.run ops) (a : Agent K Nat) (ha : a ∈ e.agents)
    (hsel : a.selector = maxSelector) (hdead : ¬ Spec.Live e.mdp.trans (Spec.stateOf (W * H) a.position))
    (d draws : Nat → Nat) (e1 : Env K Nat)
    (hfit : e.fit a.name (nullFit e.mdp.nStates e.mdp.nActions) d = (e1, .ok ())) :
    ∃ a' ∈ (e1.step a.name draws).1.agents, a'.name = a.name ∧ a'.position = 0 := by
  obtain ⟨a', ha', h1, t, h2, -, h3⟩ := C107_only hm hinit ops e he a ha hsel _ rfl d draws e1 hfit
  refine ⟨a', ha', h1, ?_⟩
  rcases h3 with ⟨ht, x, hx, hp⟩ | ⟨rfl, -⟩
  · exact absurd ⟨x, hx, t, ht, hp⟩ hdead
  · exact h2

/-- An agent walled in, as the hypotheses ask. -/
example : ∃ (m m' : Mdp Rat) (e : Env Rat Nat) (a : Agent Rat Nat), Mdp.GridReach .square 1 3 false m ∧
    Env.init m exSpecs = (m', .ok e) ∧ a ∈ (e.run [.setWalls ⟨3, fun _ => 1⟩]).agents ∧ a.name = "fox" ∧
    ¬ Spec.Live (e.run [.setWalls ⟨3, fun _ => 1⟩]).mdp.trans (Spec.stateOf (1 * 3) a.position) := by
  obtain ⟨m, m', e, h1, h2, h3⟩ := exStart (fun e =>
    ((e.run [.setWalls ⟨3, fun _ => 1⟩]).agents.any fun a => decide (a.name = "fox" ∧ a.position = 0)) &&
    decide ((e.run [.setWalls ⟨3, fun _ => 1⟩]).mdp.nStates = 3 ∧ (e.run [.setWalls ⟨3, fun _ => 1⟩]).mdp.nActions = 4) &&
    decide (∀ x : Fin 4, ∀ t : Fin 3, ¬ 0 < (e.run [.setWalls ⟨3, fun _ => 1⟩]).mdp.sas 0 x t)) (by decide +kernel)
  simp only [Bool.and_eq_true, List.any_eq_true, decide_eq_true_eq] at h3
  obtain ⟨⟨⟨a, ha, hn, hp⟩, hS, hA⟩, hl⟩ := h3
  refine ⟨m, m', e, a, h1, h2, ha, hn, ?_⟩
  rw [hp]
  rintro ⟨x, hx, t, ht, h⟩
  exact hl ⟨x, by rw [← hA]; exact hx⟩ ⟨t, by rw [← hS]; exact ht⟩ h

/-- A successful fit does not depend on what was stored before. -/
theorem fit_fresh {a : Agent K Nat} {m : Mdp K} {o : FitOut K} {d : Nat → Nat} (h : (a.fit m o d).2 = .ok ()) :
    ({ a with alg := .fresh } : Agent K Nat).fit m o d = a.fit m o d := by
  unfold Agent.fit at h ⊢
  unfold algFit at h ⊢
  simp only at h ⊢
  split at h
  · rename_i st err heq
    cases h
  · rename_i st heq
    cases hc : checkReward m.nFeatures (PyArr.of1 a.reward) with
    | error e => rw [hc] at heq; cases heq
    | ok w =>
      rw [hc] at heq
      simp only at heq ⊢
      cases ho : o w with
      | error e => rw [ho] at heq; cases heq
      | ok r =>
        obtain ⟨v, q⟩ := r
        rw [ho] at heq
        simp only at heq ⊢
        cases hk : checkOutput m.nStates m.nActions v q with
        | error e => rw [hk] at heq; cases heq
        | ok r => rw [hk] at heq; cases heq; rfl

/-- What does hold: an agent fitted by value iteration moves to successors only. -/
theorem C107_partial (hm : Mdp.GridReach kind W H selfT m) (hinit : Env.init m specs = (m', .ok e0))
    (ops : List (EnvOp K Nat)) (e : Env K Nat) (he : e = e0.run ops) (a : Agent K Nat) (ha : a ∈ e.agents)
    (hsel : a.selector = maxSelector) (s : Nat) (hs : s = Spec.stateOf (W * H) a.position)
    (hlive : Spec.Live e.mdp.trans s) (maxIter : Nat) (γ tol : K) (d draws : Nat → Nat) (e1 : Env K Nat)
    (hfit : e.fit a.name (valueIterationFit e.mdp maxIter γ tol) d = (e1, .ok ()))
    (e2 : Env K Nat) (p : Int) (hstep : e1.step a.name draws = (e2, .ok p)) :
    ∃ t : Nat, p = t ∧ Spec.Successor e.mdp.trans s t := by
  have hok : Env.Ok kind W H selfT e := by rw [he]; exact (Env.started hm hinit ops).1
  obtain ⟨j, hj, -⟩ := hok.pos a ha
  have hsj := Env.stateOf_eq hj
  rw [hok.reach.ok.nStates, ← hs] at hsj
  subst hsj
  have hmo := C54_value_iteration hok.reach maxIter γ tol
  have he1 : e1 = e0.run (ops ++ [.fit a.name (valueIterationFit e.mdp maxIter γ tol) d]) := by
    simp only [Env.run, List.foldl_append, List.foldl_cons, List.foldl_nil, Env.apply]
    simp only [Env.run] at he
    rw [← he, hfit]
  rcases Env.fit_cases hok a.name (valueIterationFit e.mdp maxIter γ tol) d with ⟨-, h1⟩ | ⟨b, hb, hbn, h3⟩
  · rw [hfit] at h1; cases h1
  · have := Env.eq_of_name hok.nodup hb ha hbn
    subst this
    rw [hfit] at h3
    have hsame := Agent.fit_same b e.mdp (valueIterationFit e.mdp maxIter γ tol) d
    have e4 : e1 = e.put e.mdp (b.fit e.mdp (valueIterationFit e.mdp maxIter γ tol) d).1 := congrArg Prod.fst h3
    set b1 := (b.fit e.mdp (valueIterationFit e.mdp maxIter γ tol) d).1 with hb1
    have e3 : b.fit e.mdp (valueIterationFit e.mdp maxIter γ tol) d = (b1, .ok ()) :=
      Prod.ext rfl (congrArg Prod.snd h3).symm
    have hb1m : b1 ∈ e1.agents := by
      rw [e4]
      exact (Env.mem_put (by rw [hsame.1.name]; exact List.mem_map_of_mem (f := (·.name)) hb)).2 (.inl rfl)
    have hm1 : e1.mdp = e.mdp := by rw [e4]; rfl
    obtain ⟨q, hq⟩ : ∃ q, b1.alg.qValues = some q := by
      cases hq : b1.alg.qValues with
      | some q => exact ⟨q, rfl⟩
      | none =>
        exfalso
        unfold Env.step at hstep
        have hok1 : Env.Ok kind W H selfT e1 := by rw [he1]; exact (Env.started hm hinit _).1
        rw [(Env.lookup_ok hok1).2 ⟨hb1m, hsame.1.name⟩] at hstep
        simp only [Agent.step, Agent.getPolicy, hq] at hstep
        split_ifs at hstep <;> cases hstep
    have hpos1 : j = Spec.stateOf (W * H) b1.position := by rw [hsame.1.position]; exact hs
    have hq' : ((({ b with alg := .fresh } : Agent K Nat).fit e.mdp (valueIterationFit e.mdp maxIter γ tol) d).1).alg.qValues
        = some q := by rw [fit_fresh (by rw [e3]), e3]; exact hq
    obtain ⟨t, ht, hsucc, -⟩ := C39_max hm hinit _ e1 he1 b1 hb1m (hsame.1.selector.trans hsel) q hq j hpos1
      (by rw [hm1]; exact Env.fit_masked hmo (by simp [AlgState.fresh]) q hq' j (pyIdx_lt hj)) (by rw [hm1]; exact hlive) draws e2 p
      (by rw [hsame.1.name]; exact hstep)
    rw [hm1] at hsucc
    exact ⟨t, ht, hsucc⟩

/-- A fit by value iteration and a step that meet the hypotheses. -/
example : ∃ (m m' : Mdp Rat) (e : Env Rat Nat) (a : Agent Rat Nat), Mdp.GridReach .square 1 3 false m ∧
    Env.init m exSpecs = (m', .ok e) ∧ a ∈ e.agents ∧ a.name = "fox" ∧ a.position = 0 ∧
    Spec.Live e.mdp.trans 0 ∧ (e.fit "fox" (valueIterationFit e.mdp 4 (1 / 2) (1 / 8)) fun _ => 0).2 = .ok () ∧
    ((e.fit "fox" (valueIterationFit e.mdp 4 (1 / 2) (1 / 8)) fun _ => 0).1.step "fox" fun _ => 0).2 = .ok 1 := by
  obtain ⟨m, m', e, h1, h2, h3⟩ := exStart (fun e => (e.agents.any fun a => decide (a.name = "fox" ∧ a.position = 0)) &&
    (decide (e.mdp.nStates = 3 ∧ e.mdp.nActions = 4) && decide (0 < e.mdp.sas 0 0 1)) &&
    (match (e.fit "fox" (valueIterationFit e.mdp 4 (1 / 2) (1 / 8)) fun _ => 0).2 with
      | .ok _ => true | .error _ => false) &&
    (match ((e.fit "fox" (valueIterationFit e.mdp 4 (1 / 2) (1 / 8)) fun _ => 0).1.step "fox" fun _ => 0).2 with
      | .ok p => decide (p = 1) | .error _ => false)) (by decide +kernel)
  simp only [Bool.and_eq_true, List.any_eq_true, decide_eq_true_eq] at h3
  obtain ⟨⟨⟨⟨a, ha, hn, hp⟩, ⟨hS, hA⟩, hl⟩, hf⟩, hst⟩ := h3
  refine ⟨m, m', e, a, h1, h2, ha, hn, hp, ⟨0, by change 0 < e.mdp.nActions; omega, 1,
    by change 1 < e.mdp.nStates; omega, hl⟩, ?_, ?_⟩
  · revert hf
    cases (e.fit "fox" (valueIterationFit e.mdp 4 (1 / 2) (1 / 8)) fun _ => 0).2 <;> simp
  · revert hst
    cases ((e.fit "fox" (valueIterationFit e.mdp 4 (1 / 2) (1 / 8)) fun _ => 0).1.step "fox" fun _ => 0).2 <;> simp

/-- One agent in the last cell of a 2 by 3 grid. -/
def exDrifter : List (AgentSpec Rat Nat) :=
  [⟨"ant", 1, maxSelector, .fresh, some 5, .of1 ⟨3, fun _ => 1⟩, []⟩]

/-- **C107 is false of the code**: on a 2 by 3 grid whose cell 0 is a wall, an agent in cell 5 fitted with
`Null` can step into the wall, although no action leads from cell 5 to cell 0. -/
theorem C107_refuted : ∃ (m m' : Mdp Rat) (e e1 : Env Rat Nat) (draws : Nat → Nat),
    Mdp.GridReach .square 2 3 false m ∧ Env.init m exDrifter = (m', .ok e) ∧
    e.mdp.walls.get 0 = 1 ∧ ¬ Spec.Successor e.mdp.trans 5 0 ∧ Spec.Live e.mdp.trans 5 ∧
    (∃ a ∈ e.agents, a.name = "ant" ∧ a.position = 5) ∧
    e.fit "ant" (nullFit e.mdp.nStates e.mdp.nActions) (fun _ => 0) = (e1, .ok ()) ∧
    (e1.step "ant" draws).2 = .ok 0 ∧
    ∃ a ∈ (e1.step "ant" draws).1.agents, a.name = "ant" ∧ a.position = 0 ∧ a.history = [5, 0] := by
  obtain ⟨m, hi, -, hF, -, hN, -, -, hW⟩ := Mdp.initGrid_ok (K := Rat) (kind := .square) (W := 2) (H := 3)
    (selfT := false) (f := ⟨2, 6, fun f s => if s = f + 1 then 1 else 0⟩)
    (w := some ⟨6, fun s => if s = 0 then 1 else 0⟩) (by decide) rfl
    (by intro v hv; cases hv; exact ⟨rfl, fun i _ => by by_cases h : i = 0 <;> simp [h]⟩)
  have hm : Mdp.GridReach .square 2 3 false m := .init hi
  have hd : m.features.d0 - m.nAgents = 2 := by rw [hF, hN]; rfl
  obtain ⟨e, he⟩ := (C38_validated hm exDrifter).2 (by
    intro sp hsp
    rw [exDrifter, List.mem_singleton] at hsp
    subst hsp
    rw [hd]
    exact ⟨⟨_, rfl⟩, ⟨5, rfl, by decide, by decide⟩, by simp⟩)
  have hinit : Env.init m exDrifter = ((Env.init m exDrifter).1, .ok e) := Prod.ext rfl he
  have hnames : (exDrifter.map (·.name)).Nodup := by simp [exDrifter]
  obtain ⟨hl, -, hag⟩ := C38_agents hm hinit hnames
  obtain ⟨-, -, -, -, -, -, -, -, -, -, -, hwl, -⟩ := Env.init_facts hm hinit
  have hl1 : e.agents.length = 1 := hl
  have hlt : 0 < e.agents.length := by omega
  obtain ⟨hname, -, hpos, -, hhist, hcons, -, -, -, -, hsel, -⟩ :=
    hag 0 e.agents[0] ⟨"ant", 1, maxSelector, .fresh, some 5, .of1 ⟨3, fun _ => 1⟩, []⟩
      (List.getElem?_eq_getElem hlt) rfl
  have hmem : e.agents[0] ∈ e.agents := List.getElem_mem hlt
  have hp0 : e.agents[0].position = 5 := (Option.some.inj hpos).symm
  have g : Mdp.GridOk .square 2 3 false e.mdp := (Env.started hm hinit []).1.reach.ok
  have hw : e.mdp.walls = ⟨6, fun s => if s = 0 then 1 else 0⟩ := by rw [hwl, hW]
  have hA : e.mdp.nActions = 4 := g.nActions
  have hS : e.mdp.nStates = 6 := g.nStates
  have hsas : ∀ x t, t < 6 → e.mdp.sas 5 x t =
      if t = 0 then 0 else if GridKind.square.Move 3 false 5 x t then (1 : Rat) else 0 := by
    intro x t ht
    rw [g.sas 5 x t (by decide) ht, hw]
    by_cases h : t = 0 <;> simp [h]
  have himp : ¬ Spec.Possible e.mdp.trans 5 0 := by
    rintro ⟨t, ht, hp⟩
    have ht : t < 6 := by rw [← hS]; exact ht
    have hp : 0 < e.mdp.sas 5 0 t := hp
    rw [hsas 0 t ht] at hp
    revert hp
    interval_cases t <;> decide +kernel
  have hlive : Spec.Live e.mdp.trans 5 := by
    refine ⟨2, by change 2 < e.mdp.nActions; rw [hA]; decide, 4, by change 4 < e.mdp.nStates; rw [hS]; decide, ?_⟩
    change 0 < e.mdp.sas 5 2 4
    rw [hsas 2 4 (by decide)]
    decide +kernel
  obtain ⟨e1, hfit, hall⟩ := C107_null hm hinit [] e rfl e.agents[0] hmem hsel 5 (by rw [hp0]; rfl) (fun _ => 0)
  obtain ⟨draws, t, -, -, ht0, ⟨a', ha', hn', hp', hh'⟩, hres⟩ := hall 0 (by rw [hA]; decide)
  obtain rfl := ht0 himp
  rw [hname] at hfit ha' hn' hres
  refine ⟨m, _, e, e1, draws, hm, hinit, by rw [hw]; rfl, ?_, hlive, ⟨_, hmem, hname, hp0⟩, hfit, hres hcons,
    a', ha', hn', hp', by rw [hh', hhist, hp0]; rfl⟩
  rintro ⟨-, x, -, hp⟩
  have hp : 0 < e.mdp.sas 5 x 0 := hp
  rw [hsas x 0 (by decide)] at hp
  simp at hp

end MaMDP
