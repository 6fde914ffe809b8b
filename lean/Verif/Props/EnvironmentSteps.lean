import Verif.Lemmas.EnvSteps
import Verif.Props.Environment
import Verif.Props.DynamicProgramming
import Verif.Props.Algorithm
import Mathlib.Algebra.BigOperators.Field
import Mathlib.Tactic.FieldSimp
import Mathlib.Tactic.Linarith

/-! # Stepping, catching and one-step distributions: C39, C49-C54

`m` is a grid MDP in any state its own interface can bring it to, `specs` the dictionary of agents,
`e0` the environment `Environment(m, specs)`, `ops` any list of calls on it, failing ones included. -/

set_option linter.unusedSectionVars false

namespace MaMDP

variable {K : Type} [Field K] [LinearOrder K] [IsStrictOrderedRing K] {δ : Type}
variable {kind : GridKind} {W H : Nat} {selfT : Bool} {m m' : Mdp K} {specs : List (AgentSpec K δ)}
  {e0 : Env K δ}

/-! ## C39 a step follows one valid transition -/

/-- For any selector that never prefers an action without usable estimate. -/
theorem C39_any_selector (hm : Mdp.GridReach kind W H selfT m) (hinit : Env.init m specs = (m', .ok e0))
    (ops : List (EnvOp K δ)) (e : Env K δ) (he : e = e0.run ops) (a : Agent K δ) (ha : a ∈ e.agents)
    (D : δ → Prop) (hsel : Spec.Safe a.selector D) (q : Arr2 (Ext K)) (hq : a.alg.qValues = some q)
    (s : Nat) (hs : s = Spec.stateOf (W * H) a.position)
    (hmask : Spec.MaskedAt e.mdp.trans q s) (hlive : Spec.Live e.mdp.trans s)
    (d : Nat → δ) (hd : ∀ s, D (d s)) (e' : Env K δ) (p : Int) (hstep : e.step a.name d = (e', .ok p)) :
    ∃ t : Nat, p = t ∧ Spec.Successor e.mdp.trans s t ∧
      ∃ a' ∈ e'.agents, a'.name = a.name ∧ a'.position = t := by
  have hok : Env.Ok kind W H selfT e := by rw [he]; exact (Env.started hm hinit ops).1
  rcases Env.step_cases hok a.name d with ⟨-, h1⟩ | ⟨a2, a', err, h1, h2, h3, h4, h5, -, h6⟩ |
    ⟨a2, a1, j, t, g, c, h2, hmv, -, -, -, h6, -⟩ | ⟨a2, a1, j, t, g, h2, hmv, -, -, h6, -⟩
  · rw [hstep] at h1; cases h1
  · rw [hstep] at h6; cases h6
  · have haa := Env.eq_of_name hok.nodup hmv.mem ha h2
    subst haa
    have hp : p = t := by
      rw [hstep] at h6
      have := (Prod.mk.inj h6).2
      cases this
      rfl
    have hj := Env.stateOf_eq hmv.seat
    rw [hok.reach.ok.nStates, ← hs] at hj
    subst hj
    refine ⟨t, hp, hmv.successor hok hsel hd hq hmask hlive, ?_⟩
    obtain ⟨-, b, hb, hbn, hbp, -⟩ := Env.step_ok_lookup hok hstep
    exact ⟨b, hb, hbn, by rw [hbp, hp]⟩
  · rw [hstep] at h6; cases h6

/-- The greedy selector, for every outcome of the generator. -/
theorem C39_max {specs : List (AgentSpec K Nat)} {e0 : Env K Nat} (hm : Mdp.GridReach kind W H selfT m)
    (hinit : Env.init m specs = (m', .ok e0))
    (ops : List (EnvOp K Nat)) (e : Env K Nat) (he : e = e0.run ops) (a : Agent K Nat) (ha : a ∈ e.agents)
    (hsel : a.selector = maxSelector) (q : Arr2 (Ext K)) (hq : a.alg.qValues = some q)
    (s : Nat) (hs : s = Spec.stateOf (W * H) a.position)
    (hmask : Spec.MaskedAt e.mdp.trans q s) (hlive : Spec.Live e.mdp.trans s)
    (d : Nat → Nat) (e' : Env K Nat) (p : Int) (hstep : e.step a.name d = (e', .ok p)) :
    ∃ t : Nat, p = t ∧ Spec.Successor e.mdp.trans s t ∧
      ∃ a' ∈ e'.agents, a'.name = a.name ∧ a'.position = t :=
  C39_any_selector hm hinit ops e he a ha (fun _ => True) (by rw [hsel]; exact safe_max) q hq s hs hmask hlive d
    (fun _ => trivial) e' p hstep

/-- The softmax selector, for every outcome of the generator (uniform draws in `[0, 1)`). -/
theorem C39_softmax {m m' : Mdp ℝ} {specs : List (AgentSpec ℝ ℝ)} {e0 : Env ℝ ℝ}
    (hm : Mdp.GridReach kind W H selfT m) (hinit : Env.init m specs = (m', .ok e0))
    (ops : List (EnvOp ℝ ℝ)) (e : Env ℝ ℝ) (he : e = e0.run ops) (a : Agent ℝ ℝ) (ha : a ∈ e.agents)
    (T : ℝ) (hT : 0 < T) (hsel : a.selector = softmaxSelector T) (q : Arr2 (Ext ℝ))
    (hq : a.alg.qValues = some q) (s : Nat) (hs : s = Spec.stateOf (W * H) a.position)
    (hmask : Spec.MaskedAt e.mdp.trans q s) (hlive : Spec.Live e.mdp.trans s)
    (d : Nat → ℝ) (hd : ∀ s, 0 ≤ d s ∧ d s < 1) (e' : Env ℝ ℝ) (p : Int)
    (hstep : e.step a.name d = (e', .ok p)) :
    ∃ t : Nat, p = t ∧ Spec.Successor e.mdp.trans s t ∧
      ∃ a' ∈ e'.agents, a'.name = a.name ∧ a'.position = t :=
  C39_any_selector hm hinit ops e he a ha (fun u => 0 ≤ u ∧ u < 1) (by rw [hsel]; exact safe_softmax T hT) q hq s
    hs hmask hlive d hd e' p hstep

instance (x : Ext Rat) : Decidable (Spec.Unusable x) := by unfold Spec.Unusable; cases x <;> infer_instance
instance (M : Trans Rat) (s a : Nat) : Decidable (Spec.Possible M s a) := by
  unfold Spec.Possible; infer_instance
instance (M : Trans Rat) (q : Arr2 (Ext Rat)) (s : Nat) : Decidable (Spec.MaskedAt M q s) := by
  unfold Spec.MaskedAt; infer_instance
instance (M : Trans Rat) (s : Nat) : Decidable (Spec.Live M s) := by unfold Spec.Live; infer_instance

/-- The fitted fox at the bottom of the corridor meets the hypotheses, and steps up. -/
example : ∃ m m' e, Mdp.GridReach .square 1 3 false m ∧ Env.init m exSpecs = (m', .ok e) ∧
    ∃ a ∈ (e.run [.fit "fox" exFit fun _ => 0]).agents, a.name = "fox" ∧ a.position = 0 ∧
      (∃ q, a.alg.qValues = some q ∧ Spec.MaskedAt (e.run [.fit "fox" exFit fun _ => 0]).mdp.trans q 0) ∧
      Spec.Live (e.run [.fit "fox" exFit fun _ => 0]).mdp.trans 0 ∧
      ((e.run [.fit "fox" exFit fun _ => 0]).step "fox" fun _ => 0).2 = .ok 1 := by
  obtain ⟨m, m', e, h1, h2, h3⟩ := exStart
    (fun e => (e.run [.fit "fox" exFit fun _ => 0]).agents.any (fun a => decide (a.name = "fox" ∧ a.position = 0) &&
      (match a.alg.qValues with
        | none => false
        | some q => decide (Spec.MaskedAt (e.run [.fit "fox" exFit fun _ => 0]).mdp.trans q 0))) &&
      decide (Spec.Live (e.run [.fit "fox" exFit fun _ => 0]).mdp.trans 0 ∧
      ((e.run [.fit "fox" exFit fun _ => 0]).step "fox" fun _ => 0).2 = .ok 1)) (by decide +kernel)
  rw [Bool.and_eq_true, List.any_eq_true] at h3
  obtain ⟨⟨a, ha, h3⟩, h4⟩ := h3
  rw [Bool.and_eq_true] at h3
  have h5 := of_decide_eq_true h3.1
  have h6 := of_decide_eq_true h4
  refine ⟨m, m', e, h1, h2, a, ha, h5.1, h5.2, ?_, h6.1, h6.2⟩
  have h7 := h3.2
  cases hq : a.alg.qValues with
  | none => rw [hq] at h7; cases h7
  | some q => rw [hq] at h7; exact ⟨q, rfl, of_decide_eq_true h7⟩

/-! ## C54 agents never enter walls -/

theorem trans_init (hm : Mdp.GridReach kind W H selfT m) (hinit : Env.init m specs = (m', .ok e0)) :
    e0.mdp.trans = m.trans := by
  obtain ⟨-, hok, -, -, -, -, -, -, h1, -, h2, -⟩ := Env.init_facts hm hinit
  unfold Mdp.trans
  rw [h1, h2, hok.reach.ok.nActions, hm.ok.nActions]

/-- One step, after any history: the agent stood on a free state, and arrives on a free state that again
has a valid action. -/
theorem C54_step (hm : Mdp.GridReach kind W H selfT m) (hinit : Env.init m specs = (m', .ok e0))
    (ops : List (EnvOp K δ)) (e : Env K δ) (he : e = e0.run ops) (a : Agent K δ) (ha : a ∈ e.agents)
    (D : δ → Prop) (hsel : Spec.Safe a.selector D) (q : Arr2 (Ext K)) (hq : a.alg.qValues = some q)
    (s : Nat) (hs : s = Spec.stateOf (W * H) a.position)
    (hmask : Spec.MaskedAt e.mdp.trans q s) (hlive : Spec.Live e.mdp.trans s)
    (d : Nat → δ) (hd : ∀ s, D (d s)) (e' : Env K δ) (p : Int) (hstep : e.step a.name d = (e', .ok p)) :
    ∃ t : Nat, p = t ∧ e.mdp.walls.get s = 0 ∧ e.mdp.walls.get t = 0 ∧ Spec.Live e.mdp.trans t := by
  obtain ⟨t, h1, h2, -⟩ := C39_any_selector hm hinit ops e he a ha D hsel q hq s hs hmask hlive d hd e' p hstep
  have hok : Env.Ok kind W H selfT e := by rw [he]; exact (Env.started hm hinit ops).1
  obtain ⟨j, hj, -⟩ := hok.pos a ha
  have hsj := Env.stateOf_eq hj
  rw [hok.reach.ok.nStates, ← hs] at hsj
  subst hsj
  obtain ⟨h3, h4, h5⟩ := Env.successor_facts hok (pyIdx_lt hj) h2
  exact ⟨t, h1, h3, h4, h5⟩

/-- Whole histories: fits, steps, multi-steps, failing calls and resets in any order. -/
theorem C54_history (hm : Mdp.GridReach kind W H selfT m) (hinit : Env.init m specs = (m', .ok e0))
    (D : δ → Prop) (a0 : Agent K δ) (h0 : a0 ∈ e0.agents) (hsel : Spec.Safe a0.selector D)
    (hlive : Spec.Live m.trans (Spec.stateOf (W * H) a0.position))
    (hq : ∀ q, a0.alg.qValues = some q → ∀ s, s < W * H → Spec.MaskedAt m.trans q s)
    (ops : List (EnvOp K δ)) (hops : ∀ op ∈ ops, Spec.Roams m.trans D a0.name op)
    (a : Agent K δ) (ha : a ∈ (e0.run ops).agents) (hn : a.name = a0.name) :
    (e0.run ops).mdp.walls = m.walls ∧ m.walls.get (Spec.stateOf (W * H) a.position) = 0 ∧
      ∀ p ∈ a.history, m.walls.get (Spec.stateOf (W * H) p) = 0 := by
  have htr := trans_init hm hinit
  obtain ⟨-, hok, -, -, -, -, -, -, h1, -, h2, hwl, -, -, -, hag⟩ := Env.init_facts hm hinit
  have hN := hm.ok.nStates
  have hN0 := hok.reach.ok.nStates
  have hst : a0.start = a0.position ∧ a0.history = [a0.position] := by
    obtain ⟨i, sp, p, r, -, -, -, rfl⟩ := hag a0 h0
    exact ⟨rfl, rfl⟩
  have hr : Env.Roaming kind W H selfT e0.mdp D a0.name e0 := by
    refine ⟨hok, ⟨rfl, rfl, rfl, rfl⟩, fun b hb hbn => ?_⟩
    have := Env.eq_of_name hok.nodup hb h0 hbn
    subst this
    have hpos : ∀ j, pyIdx e0.mdp.nStates b.position = some j → Spec.Live e0.mdp.trans j := by
      intro j hj
      rw [Env.stateOf_eq hj, htr, hN0]
      exact hlive
    refine ⟨hsel, hpos, by rw [hst.1]; exact hpos, ?_, ?_⟩
    · rw [htr, hN0]; exact hq
    · rw [hst.2]
      intro p hp
      rw [List.mem_singleton] at hp
      obtain ⟨j, hj, -⟩ := hok.pos b hb
      exact ⟨j, by rw [hp]; exact hj, Env.live_walls hok (pyIdx_lt hj) (hpos j hj)⟩
  have hr' := Env.Roaming.run ops e0 hr (by rw [htr]; exact hops)
  obtain ⟨hok', hsame, hfree⟩ := hr'
  have hf := hfree a ha hn
  have hw : (e0.run ops).mdp.walls = m.walls := hsame.2.2.2.trans hwl
  refine ⟨hw, ?_, ?_⟩
  · obtain ⟨j, hj, -⟩ := hok'.pos a ha
    have := Env.live_walls hok' (pyIdx_lt hj) (hf.pos j hj)
    rw [Env.stateOf_eq hj, hok'.reach.ok.nStates, hw] at this
    exact this
  · intro p hp
    obtain ⟨j, hj, h4⟩ := hf.hist p hp
    rw [Env.stateOf_eq hj, hok'.reach.ok.nStates, hw] at h4
    exact h4

/-- Value iteration supplies the action values asked for, whatever the rewards, features and parameters. -/
theorem C54_value_iteration (hm : Mdp.GridReach kind W H selfT m) (maxIter : Nat) (γ tol : K) :
    Spec.MaskedOut m.trans (valueIterationFit m maxIter γ tol) := by
  intro w v g h s hs
  have hM := (C27_grid kind W H selfT m hm).1
  unfold valueIterationFit at h
  cases hsol : solveHard m.trans (stateReward w.d0 w.get m.features.get) maxIter γ tol with
  | error e => rw [hsol] at h; cases h
  | ok r =>
    obtain ⟨v', q⟩ := r
    rw [hsol] at h
    simp only [PyArr.of1, PyArr.of2, Except.ok.injEq, Prod.mk.injEq, PyArr.nd.injEq] at h
    obtain ⟨-, -, rfl⟩ := h
    refine ⟨rfl, rfl, fun x hx => ?_⟩
    obtain ⟨h1, h2⟩ := C29_mask m.trans hM _ maxIter γ tol v' q hsol s x hs hx
    have h3 : Spec.Unusable (q s x) ↔ q s x = .ninf := by
      by_cases hq : q s x = .ninf
      · simp [hq, Spec.Unusable]
      · obtain ⟨y, hy⟩ := h2 hq
        simp [hy, Spec.Unusable]
    show Spec.Unusable (q s x) ↔ _
    rw [h3, h1]
    unfold Spec.Possible
    push Not
    exact ⟨fun h t ht => (h t ht).le, fun h t ht => le_antisymm (h t ht) (hM.nonneg s x t hs hx ht)⟩

/-- The fox of the example qualifies, with value iteration as its algorithm. -/
example : ∃ m m' e, Mdp.GridReach .square 1 3 false m ∧ Env.init m exSpecs = (m', .ok e) ∧
    ∃ a ∈ e.agents, Spec.Safe a.selector (fun _ => True) ∧ Spec.Live m.trans (Spec.stateOf (1 * 3) a.position) ∧
      a.alg.qValues = none ∧ ∀ op ∈ [EnvOp.fit a.name (valueIterationFit m 100 (1/2) (1/1000)) fun _ => 0,
        .step a.name fun _ => 7, .step a.name fun _ => 7, .reset, .step a.name fun _ => 3],
        Spec.Roams m.trans (fun _ => True) a.name op := by
  obtain ⟨m, m', e, h1, h2, h3⟩ := exStart (fun e => e.agents.any fun a => decide (a.name = "fox" ∧ a.position = 0 ∧
    Spec.Live e.mdp.trans (Spec.stateOf (1 * 3) a.position) ∧ a.alg.qValues.isNone)) (by decide +kernel)
  obtain ⟨a, ha, h3⟩ := List.any_eq_true.1 h3
  obtain ⟨h4, h5, h6, h7⟩ := of_decide_eq_true h3
  obtain ⟨i, sp, p, r, hsp, -, -, haa⟩ := (Env.init_facts h1 h2).2.2.2.2.2.2.2.2.2.2.2.2.2.2.2 a ha
  have hsel : a.selector = maxSelector := by
    have : sp ∈ exSpecs := List.mem_of_getElem? hsp
    have h8 : a.selector = sp.selector := by rw [haa]; rfl
    rw [h8]
    rcases List.mem_cons.1 this with rfl | h9
    · rfl
    · rcases List.mem_cons.1 h9 with rfl | h9
      · rfl
      · cases h9
  refine ⟨m, m', e, h1, h2, a, ha, by rw [hsel]; exact safe_max, by rw [← trans_init h1 h2]; exact h6,
    Option.isNone_iff_eq_none.1 h7, ?_⟩
  simp only [List.mem_cons, List.not_mem_nil, or_false]
  rintro op (rfl | rfl | rfl | rfl | rfl)
  · exact fun _ => C54_value_iteration h1 _ _ _
  all_goals simp [Spec.Roams]

/-! ## C49 `step_multi` without refitting -/

theorem stepMulti_valid {e : Env K δ} (hok : Env.Ok kind W H selfT e) (hnd : e.agentNames.Nodup)
    (a : Agent K δ) (ha : a ∈ e.agents) (nSteps : Env.StepsArg) (k : Nat)
    (hk : (nSteps = .default ∧ k = a.nMoves) ∨ nSteps = .int k ∨ ∃ l, nSteps = .list (k :: l))
    (plan : Option (List Nat))
    (hplan : (plan = none ∧ ∀ b ∈ e.agents, 0 < b.nMoves) ∨
      ∃ l, plan = some l ∧ l.length = e.agents.length ∧ ∀ x ∈ l, 0 < x)
    (nTurns : Nat) (refit stop : Bool) (orc : Nat → Env.StepOracle K δ) :
    ∃ nas pl, List.Forall₂ (fun m x => ∃ b ∈ e.agents, b.name = m ∧ b.nMoves = x)
        (a.name :: e.agentNames.filter fun m => m ≠ a.name) nas ∧ pl = plan.getD nas ∧
      pl.length = e.agents.length ∧ (∀ x ∈ pl, 0 < x) ∧
      e.stepMulti a.name nSteps plan nTurns refit stop orc =
        Env.stepLoop a.name nas pl nTurns refit stop orc k 0 e [] := by
  have hmem : a.name ∈ e.agentNames := (hok.names a.name).2 (List.mem_map_of_mem ha)
  obtain ⟨nas, h1, h2⟩ := Env.allSteps_ok hok hmem
  have hlen : nas.length = e.agents.length := by
    rw [← h2.length_eq]; exact Env.order_length hok hnd hmem
  have hl : e.lookup a.name = .ok a := by
    unfold Env.lookup
    rw [if_neg (by simpa using hmem), (Env.agent?_eq hok.nodup).2 ⟨ha, rfl⟩]
  have hc : nSteps.count a.nMoves = .ok k := by
    rcases hk with ⟨rfl, rfl⟩ | rfl | ⟨l, rfl⟩ <;> rfl
  have hp : (plan.getD nas).length = e.agents.length ∧ ∀ x ∈ plan.getD nas, 0 < x := by
    rcases hplan with ⟨rfl, h3⟩ | ⟨l, rfl, h3, h4⟩
    · refine ⟨hlen, fun x hx => ?_⟩
      obtain ⟨i, hi⟩ := List.mem_iff_getElem?.1 hx
      have hi' : i < nas.length := (List.getElem?_eq_some_iff.1 hi).1
      have hi2 : i < (a.name :: e.agentNames.filter fun m => m ≠ a.name).length := by
        rw [h2.length_eq]; exact hi'
      obtain ⟨b, hb, -, hbx⟩ := h2.get hi2 hi'
      have : nas.get ⟨i, hi'⟩ = x := by
        rw [List.get_eq_getElem]; exact (List.getElem?_eq_some_iff.1 hi).2
      rw [← this, ← hbx]
      exact h3 b hb
    · exact ⟨h3, h4⟩
  refine ⟨nas, _, h2, rfl, hp.1, hp.2, ?_⟩
  unfold Env.stepMulti
  rw [hl]
  simp only [h1, hc]
  rw [if_neg (not_not_intro hp.1), if_neg (not_not_intro hp.2)]

/-- `step_multi` without refit does and returns exactly what the separate steps do. -/
theorem C49_no_refit (hm : Mdp.GridReach kind W H selfT m) (hinit : Env.init m specs = (m', .ok e0))
    (hnd : (specs.map (·.name)).Nodup) (ops : List (EnvOp K δ)) (e : Env K δ) (he : e = e0.run ops)
    (a : Agent K δ) (ha : a ∈ e.agents) (nSteps : Env.StepsArg) (k : Nat)
    (hk : (nSteps = .default ∧ k = a.nMoves) ∨ nSteps = .int k ∨ ∃ l, nSteps = .list (k :: l))
    (plan : Option (List Nat))
    (hplan : (plan = none ∧ ∀ b ∈ e.agents, 0 < b.nMoves) ∨
      ∃ l, plan = some l ∧ l.length = e.agents.length ∧ ∀ x ∈ l, 0 < x)
    (nTurns : Nat) (stop : Bool) (orc : Nat → Env.StepOracle K δ) :
    Spec.Rounds a.name (fun _ e => (e, .ok ())) (fun i => (orc i).draws) e stop k
      (e.stepMulti a.name nSteps plan nTurns false stop orc) := by
  obtain ⟨hok, hl⟩ := Env.started hm hinit ops
  rw [← he] at hok hl
  have hnd' : e.agentNames.Nodup := by
    rw [hl.names, (Env.init_facts hm hinit).2.2.2.1]; exact hnd
  obtain ⟨nas, pl, -, -, -, -, h⟩ := stepMulti_valid hok hnd' a ha nSteps k hk plan hplan nTurns false stop orc
  rw [h]
  have := Env.rounds_loop (e := e) a.name nas pl nTurns false stop orc (fun _ e => (e, .ok ()))
    (fun i => (orc i).draws) rfl rfl k 0 [] hok rfl (by simp)
  rw [Nat.zero_add] at this
  exact this

/-- The environments in between are those the separate calls of `step` leave behind. -/
theorem C49_before (n : String) (draws : Nat → Nat → δ) (e : Env K δ) (i : Nat) :
    Spec.before n (fun _ e => (e, .ok ())) draws e i = e.run ((List.range i).map fun j => .step n (draws j)) := by
  induction i with
  | zero => rfl
  | succ i ih =>
    rw [List.range_succ, List.map_append, Env.run_append, ← ih]
    rfl

/-- Bad arguments are refused and change nothing. -/
theorem C49_errors (hm : Mdp.GridReach kind W H selfT m) (hinit : Env.init m specs = (m', .ok e0))
    (ops : List (EnvOp K δ)) (e : Env K δ) (he : e = e0.run ops)
    (n : String) (nSteps : Env.StepsArg) (nTurns : Nat) (refit stop : Bool)
    (orc : Nat → Env.StepOracle K δ) :
    ((∀ a ∈ e.agents, a.name ≠ n) → ∀ plan,
      e.stepMulti n nSteps plan nTurns refit stop orc = (e, .error .valueError)) ∧
    ((∃ a ∈ e.agents, a.name = n) → ∀ l, l.length ≠ e.agents.length →
      e.stepMulti n nSteps (some l) nTurns refit stop orc = (e, .error .valueError)) ∧
    ((∃ a ∈ e.agents, a.name = n) → nSteps ≠ .list [] → ∀ l, l.length = e.agents.length → 0 ∈ l →
      e.stepMulti n nSteps (some l) nTurns refit stop orc = (e, .error .valueError)) ∧
    ((∃ a ∈ e.agents, a.name = n) → ∀ l, l.length = e.agents.length →
      e.stepMulti n (.list []) (some l) nTurns refit stop orc = (e, .error .indexError)) := by
  obtain ⟨hok, hl⟩ := Env.started hm hinit ops
  rw [← he] at hok hl
  have hlook : ∀ a ∈ e.agents, a.name = n → e.lookup n = .ok a := by
    intro a ha han
    have hmem : n ∈ e.agentNames := (hok.names n).2 (List.mem_map.2 ⟨a, ha, han⟩)
    unfold Env.lookup
    rw [if_neg (by simpa using hmem), (Env.agent?_eq hok.nodup).2 ⟨ha, han⟩]
  have hsteps : (∃ a ∈ e.agents, a.name = n) → ∃ nas, e.allSteps n = .ok nas := by
    rintro ⟨a, ha, han⟩
    obtain ⟨nas, h1, -⟩ := Env.allSteps_ok hok ((hok.names n).2 (List.mem_map.2 ⟨a, ha, han⟩))
    exact ⟨nas, h1⟩
  refine ⟨?_, ?_, ?_, ?_⟩
  · intro h plan
    unfold Env.stepMulti Env.lookup
    rw [if_pos]
    intro hc
    obtain ⟨a, ha, han⟩ := List.mem_map.1 ((hok.names n).1 hc)
    exact h a ha han
  · intro h l hll
    obtain ⟨nas, h1⟩ := hsteps h
    obtain ⟨a, ha, han⟩ := h
    unfold Env.stepMulti
    rw [hlook a ha han]
    simp only [h1, Option.getD_some]
    rw [if_pos hll]
  · intro h hne l hll h0
    obtain ⟨nas, h1⟩ := hsteps h
    obtain ⟨a, ha, han⟩ := h
    obtain ⟨k, hk⟩ : ∃ k, nSteps.count a.nMoves = .ok k := by
      rcases nSteps with _ | k | (_ | ⟨k, l⟩)
      · exact ⟨_, rfl⟩
      · exact ⟨_, rfl⟩
      · exact absurd rfl hne
      · exact ⟨_, rfl⟩
    unfold Env.stepMulti
    rw [hlook a ha han]
    simp only [h1, Option.getD_some, hk]
    rw [if_neg (by simpa using hll), if_pos]
    intro hc
    exact absurd (hc 0 h0) (lt_irrefl 0)
  · intro h l hll
    obtain ⟨nas, h1⟩ := hsteps h
    obtain ⟨a, ha, han⟩ := h
    unfold Env.stepMulti
    rw [hlook a ha han]
    simp only [h1, Option.getD_some, Env.StepsArg.count]
    rw [if_neg (by simpa using hll)]

/-- The fox makes its two moves; it stops (`none`) after the second, where it catches the hen. -/
example : ∃ m m' e, Mdp.GridReach .square 1 3 false m ∧ Env.init m exSpecs = (m', .ok e) ∧
    ((e.run [.fit "fox" exFit fun _ => 0]).stepMulti "fox" .default none 5 false false
      fun _ => ⟨fun _ => exFit, fun _ => 0, fun _ => 0⟩).2 = .ok (some [1, 2]) ∧
    ((e.run [.fit "fox" exFit fun _ => 0]).stepMulti "fox" (.int 7) none 5 false true
      fun _ => ⟨fun _ => exFit, fun _ => 0, fun _ => 0⟩).2 = .ok none ∧
    ((e.run [.fit "fox" exFit fun _ => 0]).stepMulti "fox" (.int 7) none 5 false true
      fun _ => ⟨fun _ => exFit, fun _ => 0, fun _ => 0⟩).1.nSteps = 2 := by
  obtain ⟨m, m', e, h1, h2, h3⟩ := exStart (fun e => decide (((e.run [.fit "fox" exFit fun _ => 0]).stepMulti "fox" .default none 5 false false
      fun _ => ⟨fun _ => exFit, fun _ => 0, fun _ => 0⟩).2 = .ok (some [1, 2]) ∧
    ((e.run [.fit "fox" exFit fun _ => 0]).stepMulti "fox" (.int 7) none 5 false true
      fun _ => ⟨fun _ => exFit, fun _ => 0, fun _ => 0⟩).2 = .ok none ∧
    ((e.run [.fit "fox" exFit fun _ => 0]).stepMulti "fox" (.int 7) none 5 false true
      fun _ => ⟨fun _ => exFit, fun _ => 0, fun _ => 0⟩).1.nSteps = 2)) (by decide +kernel)
  exact ⟨m, m', e, h1, h2, of_decide_eq_true h3⟩

/-! ## C50 catching -/

instance (e : Env Rat Nat) (a : Agent Rat Nat) : Decidable (Spec.Catches e a) := by
  unfold Spec.Catches; infer_instance

/-- A corridor whose feature array was replaced by one with two rows before the environment was built. -/
def exMdp2 : Py (Mdp Rat) := match exMdp with
  | .ok m => .ok (m.apply (.setFeatures ⟨2, 3, fun _ _ => 0⟩))
  | .error e => .error e

/-- Fox and hen on the same state; the fox consumes the hen's row, which is row 3. -/
def exSpecs2 : List (AgentSpec Rat Nat) :=
  [⟨"fox", 2, maxSelector, .fresh, some 0, .of1 ⟨4, fun _ => 1⟩, [3]⟩,
   ⟨"hen", 1, maxSelector, .fresh, some 0, .of1 ⟨4, fun _ => 1⟩, []⟩]

/-- Fox at 0, hen at -3, which is the same state of the corridor. -/
def exSpecs3 : List (AgentSpec Rat Nat) :=
  [⟨"fox", 2, maxSelector, .fresh, some 0, .of1 ⟨3, fun _ => 1⟩, [2]⟩,
   ⟨"hen", 1, maxSelector, .fresh, some (-3), .of1 ⟨3, fun _ => 1⟩, []⟩]

theorem exStart' (mdp : Py (Mdp Rat)) (sp : List (AgentSpec Rat Nat)) (p : Env Rat Nat → Bool)
    (h : (match mdp with
      | .ok m => match (Env.init m sp).2 with
        | .ok e => p e
        | .error _ => false
      | .error _ => false) = true) (hr : ∀ m, mdp = .ok m → Mdp.GridReach .square 1 3 false m) :
    ∃ m m' e, Mdp.GridReach .square 1 3 false m ∧ Env.init m sp = (m', .ok e) ∧ p e = true := by
  cases mdp with
  | error e => cases h
  | ok m =>
    simp only at h
    rcases hi : Env.init m sp with ⟨m', x | x⟩
    · rw [hi] at h; cases h
    · rw [hi] at h; exact ⟨m, m', x, hr m rfl, hi, h⟩

/-- **C50 is false**: after reassigning `mdp.features` the test looks at the wrong feature row. -/
theorem C50_refuted_rows : ∃ (m m' : Mdp Rat) (e : Env Rat Nat), Mdp.GridReach .square 1 3 false m ∧
    Env.init m exSpecs2 = (m', .ok e) ∧ ∃ a ∈ e.agents, Spec.Catches e a ∧ e.caught a = false := by
  obtain ⟨m, m', e, h1, h2, h3⟩ := exStart' exMdp2 exSpecs2
    (fun e => e.agents.any fun a => decide (Spec.Catches e a ∧ e.caught a = false)) (by decide +kernel) (by
      intro m hm
      unfold exMdp2 at hm
      cases h : exMdp with
      | error e => rw [h] at hm; cases hm
      | ok m0 =>
        rw [h] at hm
        cases hm
        exact .step _ (.init h) (by intro x hx; cases hx))
  obtain ⟨a, ha, h3⟩ := List.any_eq_true.1 h3
  exact ⟨m, m', e, h1, h2, a, ha, of_decide_eq_true h3⟩

/-- **C50 is false**: two names for the same state are taken for different positions. -/
theorem C50_refuted_position : ∃ (m m' : Mdp Rat) (e : Env Rat Nat), Mdp.GridReach .square 1 3 false m ∧
    Env.init m exSpecs3 = (m', .ok e) ∧ ∃ a ∈ e.agents, Spec.Catches e a ∧ e.caught a = false := by
  obtain ⟨m, m', e, h1, h2, h3⟩ := exStart' exMdp exSpecs3
    (fun e => e.agents.any fun a => decide (Spec.Catches e a ∧ e.caught a = false)) (by decide +kernel)
    (fun m hm => .init hm)
  obtain ⟨a, ha, h3⟩ := List.any_eq_true.1 h3
  exact ⟨m, m', e, h1, h2, a, ha, of_decide_eq_true h3⟩

/-- When the feature array has the number of rows it was created with and no negative numbers are used,
the test is exact, after any history. -/
theorem C50_partial (hm : Mdp.GridReach kind W H selfT m) (hinit : Env.init m specs = (m', .ok e0))
    (hrows : m.nNonAgent = m.features.d0 - m.nAgents)
    (ops : List (EnvOp K δ)) (e : Env K δ) (he : e = e0.run ops) (a : Agent K δ) (ha : a ∈ e.agents)
    (hc : ∀ f ∈ a.consumes, 0 ≤ f) (hp : ∀ b ∈ e.agents, 0 ≤ b.position) :
    e.caught a = true ↔ Spec.Catches e a := by
  obtain ⟨-, hok0, -, -, -, -, hd0, hna, -, -, -, -, -, -, -, hag⟩ := Env.init_facts hm hinit
  obtain ⟨hok, hl⟩ := Env.started hm hinit ops
  rw [← he] at hok hl
  have hfi : ∀ b ∈ e.agents, b.featIdx = e.mdp.features.d0 - e.mdp.nAgents + b.idx := by
    intro b hb
    obtain ⟨b0, hb0, -, h1, -, -, h2, -⟩ := hl.back hok0 hok hb
    obtain ⟨i, sp, p, r, -, -, -, rfl⟩ := hag b0 hb0
    have h1 : b.idx = i := h1
    have h2 : b.featIdx = i + m.nNonAgent := h2
    rw [h1, h2, hrows, hl.d0, hl.nAgents, hd0, hna]
    omega
  have key : ∀ b ∈ e.agents, ∀ f ∈ a.consumes, ((b.featIdx : Int) = f ↔
      Spec.stateOf e.mdp.features.d0 f = e.mdp.features.d0 - e.mdp.nAgents + b.idx) := by
    intro b hb f hf
    rw [← hfi b hb]
    unfold Spec.stateOf
    rw [if_pos (hc f hf)]
    have := hc f hf
    omega
  have key2 : ∀ b ∈ e.agents, (a.position = b.position ↔
      Spec.stateOf e.mdp.nStates a.position = Spec.stateOf e.mdp.nStates b.position) := by
    intro b hb
    have h1 := hp a ha
    have h2 := hp b hb
    unfold Spec.stateOf
    rw [if_pos h1, if_pos h2]
    omega
  unfold Env.caught Spec.Catches
  simp only [List.any_eq_true, Bool.and_eq_true, decide_eq_true_eq]
  constructor
  · rintro ⟨f, hf, b, hb, h1, h2⟩
    exact ⟨b, hb, ⟨f, hf, (key b hb f hf).1 h1⟩, (key2 b hb).1 h2⟩
  · rintro ⟨b, hb, ⟨f, hf, h1⟩, h2⟩
    exact ⟨f, hf, b, hb, (key b hb f hf).2 h1, (key2 b hb).2 h2⟩

/-- The fox catches the hen after two steps, not before. -/
example : ∃ m m' e, Mdp.GridReach .square 1 3 false m ∧ Env.init m exSpecs = (m', .ok e) ∧
    m.nNonAgent = m.features.d0 - m.nAgents ∧
    (∃ a ∈ (e.run exOps).agents, a.name = "fox" ∧ (∀ f ∈ a.consumes, 0 ≤ f) ∧ Spec.Catches (e.run exOps) a) ∧
    (∃ a ∈ e.agents, a.name = "fox" ∧ (∀ f ∈ a.consumes, 0 ≤ f) ∧ ¬ Spec.Catches e a) := by
  obtain ⟨m, m', e, h1, h2, h3⟩ := exStart (fun e => (decide (e.mdp.nNonAgent = 1 ∧ e.mdp.features.d0 = 3)) &&
    ((e.run exOps).agents.any fun a => decide (a.name = "fox" ∧ (∀ f ∈ a.consumes, 0 ≤ f) ∧ Spec.Catches (e.run exOps) a))
    && e.agents.any fun a => decide (a.name = "fox" ∧ (∀ f ∈ a.consumes, 0 ≤ f) ∧ ¬ Spec.Catches e a))
    (by decide +kernel)
  rw [Bool.and_eq_true, Bool.and_eq_true, List.any_eq_true, List.any_eq_true] at h3
  obtain ⟨⟨h3, a, ha, h4⟩, b, hb, h5⟩ := h3
  have h3 := of_decide_eq_true h3
  have hf := Env.init_facts h1 h2
  refine ⟨m, m', e, h1, h2, ?_, ⟨a, ha, of_decide_eq_true h4⟩, b, hb, of_decide_eq_true h5⟩
  have h6 := hf.2.2.2.2.2.2.1
  have h7 := hf.2.2.2.2.2.2.2.2.2.1
  rw [h3.1] at h7
  rw [h3.2] at h6
  have : exSpecs.length = 2 := rfl
  omega

/-! ## C51 `step_multi` with refitting -/

theorem stepPlan_tail {nT : Nat} (hT : 0 < nT) (i : Nat) (nas : List Nat) (hpos : ∀ x ∈ nas, 0 < x) :
    ∀ (pl : List Nat) (j : Nat), 0 < j → (nas.drop j).length = pl.length →
      Env.stepPlan i nT nas j pl = .ok (List.zipWith (fun n k => (List.range nT).map fun t =>
        Spec.movesInTurn 0 k n t) (nas.drop j) pl) := by
  intro pl
  induction pl with
  | nil => intro j _ _; simp [Env.stepPlan]
  | cons k pl ih =>
    intro j hj hlen
    have hjl : j < nas.length := by
      rw [List.length_drop, List.length_cons] at hlen; omega
    have hx : 0 < nas[j] := hpos _ (List.getElem_mem hjl)
    obtain ⟨p, h1, h2, h3, -⟩ := C37_moves_plan 0 nT nas[j] k hx hT
    have hp : p = (List.range nT).map fun t => Spec.movesInTurn 0 k nas[j] t := by
      apply List.ext_getElem?
      intro t
      by_cases ht : t < nT
      · rw [h3 t ht, List.getElem?_map, List.getElem?_range ht]; rfl
      · rw [List.getElem?_eq_none (by omega), List.getElem?_eq_none (by simp; omega)]
    unfold Env.stepPlan
    rw [List.getElem?_eq_getElem hjl]
    simp only [if_neg (show ¬ j = 0 by omega), h1]
    rw [ih (j + 1) (by omega) (by
      rw [List.length_drop, List.length_cons] at hlen
      rw [List.length_drop]; omega)]
    simp only
    rw [List.drop_eq_getElem_cons hjl, List.zipWith_cons_cons, hp]

theorem stepPlan_ok {nT : Nat} (hT : 0 < nT) (i n : Nat) (ns : List Nat) (hpos : ∀ x ∈ ns, 0 < x) (hi : i < n)
    (k : Nat) (ks : List Nat) (hlen : ns.length = ks.length) :
    Env.stepPlan i nT (n :: ns) 0 (k :: ks) = .ok (Spec.planAt i nT (n :: ns) (k :: ks)) := by
  obtain ⟨p, h1, h2, h3, -⟩ := C37_moves_plan i nT n k hi hT
  have hp : p = (List.range nT).map fun t => Spec.movesInTurn i k n t := by
    apply List.ext_getElem?
    intro t
    by_cases ht : t < nT
    · rw [h3 t ht, List.getElem?_map, List.getElem?_range ht]; rfl
    · rw [List.getElem?_eq_none (by omega), List.getElem?_eq_none (by simp; omega)]
  have h4 := stepPlan_tail hT i (n :: ns) (by
    intro x hx
    rcases List.mem_cons.1 hx with rfl | hx
    · omega
    · exact hpos x hx) ks 1 (by omega) (by simpa using hlen)
  unfold Env.stepPlan
  simp only [List.getElem?_cons_zero, if_true, h1, h4, hp, Nat.zero_add]
  rfl

/-- With at most as many steps as the agent has moves per turn, refitting before each step: each round is
a fit with the plan for the remaining moves, then a step. -/
theorem C51_partial (hm : Mdp.GridReach kind W H selfT m) (hinit : Env.init m specs = (m', .ok e0))
    (hnd : (specs.map (·.name)).Nodup) (ops : List (EnvOp K δ)) (e : Env K δ) (he : e = e0.run ops)
    (a : Agent K δ) (ha : a ∈ e.agents) (nSteps : Env.StepsArg) (k : Nat)
    (hk : (nSteps = .default ∧ k = a.nMoves) ∨ nSteps = .int k ∨ ∃ l, nSteps = .list (k :: l))
    (hle : k ≤ a.nMoves) (hmoves : ∀ b ∈ e.agents, 0 < b.nMoves) (plan : Option (List Nat))
    (hplan : ∀ l, plan = some l → l.length = e.agents.length ∧ ∀ x ∈ l, 0 < x)
    (nTurns : Nat) (hT : 0 < nTurns) (stop : Bool) (orc : Nat → Env.StepOracle K δ) :
    ∃ moves, List.Forall₂ (fun n x => ∃ b ∈ e.agents, b.name = n ∧ b.nMoves = x)
        (a.name :: (specs.map (·.name)).filter fun n => n ≠ a.name) moves ∧
      Spec.Rounds a.name
        (fun i e => e.fit a.name ((orc i).out (Spec.planAt i nTurns moves (plan.getD moves))) (orc i).fitDraws)
        (fun i => (orc i).draws) e stop k (e.stepMulti a.name nSteps plan nTurns true stop orc) := by
  obtain ⟨hok, hl⟩ := Env.started hm hinit ops
  rw [← he] at hok hl
  have hnames : e.agentNames = specs.map (·.name) := by
    rw [hl.names, (Env.init_facts hm hinit).2.2.2.1]
  have hnd' : e.agentNames.Nodup := by rw [hnames]; exact hnd
  obtain ⟨nas, pl, h1, h2, h3, h4, h⟩ := stepMulti_valid hok hnd' a ha nSteps k hk plan (by
    cases plan with
    | none => exact .inl ⟨rfl, hmoves⟩
    | some l => exact .inr ⟨l, rfl, hplan l rfl⟩) nTurns true stop orc
  refine ⟨nas, by rw [← hnames]; exact h1, ?_⟩
  rw [h]
  have hr := Env.rounds_loop (e := e) a.name nas pl nTurns true stop orc _
    (fun i => (orc i).draws) rfl rfl k 0 [] hok rfl (by simp)
  rw [Nat.zero_add] at hr
  refine Env.rounds_congr (fun i hi => ?_) hr
  funext e'
  unfold Env.refitFor
  rw [if_pos rfl]
  have hlen : nas.length = e.agents.length := by
    rw [← h1.length_eq]
    exact Env.order_length hok hnd' ((hok.names a.name).2 (List.mem_map_of_mem ha))
  cases h1 with
  | cons hx hxs =>
    rename_i x xs
    obtain ⟨b, hb, hbn, hbx⟩ := hx
    have hab := Env.eq_of_name hok.nodup hb ha hbn
    subst hab
    have hpos : ∀ y ∈ xs, 0 < y := by
      intro y hy
      obtain ⟨j, hj⟩ := List.mem_iff_getElem?.1 hy
      have hj' : j < xs.length := (List.getElem?_eq_some_iff.1 hj).1
      obtain ⟨c, hc, -, hcx⟩ := hxs.get (by rw [hxs.length_eq]; exact hj') hj'
      have : xs.get ⟨j, hj'⟩ = y := by
        rw [List.get_eq_getElem]; exact (List.getElem?_eq_some_iff.1 hj).2
      rw [← this, ← hcx]
      exact hmoves c hc
    cases pl with
    | nil =>
      rw [List.length_nil, ← hlen, List.length_cons] at h3
      omega
    | cons p ps =>
      rw [stepPlan_ok hT i x xs hpos (by omega) p ps (by simp only [List.length_cons] at h3 hlen; omega), ← h2]

/-- **C51 is false**: with more steps than the agent has moves per turn, the call never returns the list of
positions; unless it is stopped by a catch it raises. -/
theorem C51_refuted (hm : Mdp.GridReach kind W H selfT m) (hinit : Env.init m specs = (m', .ok e0))
    (hnd : (specs.map (·.name)).Nodup) (ops : List (EnvOp K δ)) (e : Env K δ) (he : e = e0.run ops)
    (a : Agent K δ) (ha : a ∈ e.agents) (k : Nat) (hgt : a.nMoves < k)
    (hmoves : ∀ b ∈ e.agents, 0 < b.nMoves)
    (nTurns : Nat) (stop : Bool) (orc : Nat → Env.StepOracle K δ) :
    (∀ l, (e.stepMulti a.name (.int k) none nTurns true stop orc).2 ≠ .ok (some l)) ∧
    (stop = false → ∃ err, (e.stepMulti a.name (.int k) none nTurns true stop orc).2 = .error err) := by
  obtain ⟨hok, hl⟩ := Env.started hm hinit ops
  rw [← he] at hok hl
  have hnames : e.agentNames = specs.map (·.name) := by
    rw [hl.names, (Env.init_facts hm hinit).2.2.2.1]
  have hnd' : e.agentNames.Nodup := by rw [hnames]; exact hnd
  obtain ⟨nas, pl, h1, h2, h3, h4, h⟩ := stepMulti_valid hok hnd' a ha (.int k) k (.inr (.inl rfl)) none
    (.inl ⟨rfl, hmoves⟩) nTurns true stop orc
  rw [h]
  have hr := Env.rounds_loop (e := e) a.name nas pl nTurns true stop orc _
    (fun i => (orc i).draws) rfl rfl k 0 [] hok rfl (by simp)
  rw [Nat.zero_add, show Spec.before a.name _ _ e 0 = e from rfl] at hr
  have hbad : ∀ e' : Env K δ, ∃ err, Env.refitFor e' a.name nas pl nTurns true (orc a.nMoves) a.nMoves =
      (e', .error err) := by
    intro e'
    unfold Env.refitFor
    rw [if_pos rfl]
    cases h1 with
    | cons hx hxs =>
      rename_i x xs
      obtain ⟨b, hb, hbn, hbx⟩ := hx
      have hab := Env.eq_of_name hok.nodup hb ha hbn
      subst hab
      simp only [Option.getD_none] at h2
      rw [h2]
      unfold Env.stepPlan
      simp only [List.getElem?_cons_zero, if_true, hbx]
      rw [(C37_errors x nTurns x x).1 le_rfl]
      exact ⟨_, rfl⟩
  have hnot : ∀ (e' : Env K δ) p, (Spec.turn a.name (fun i e => Env.refitFor e a.name nas pl nTurns true (orc i) i)
      (fun i => (orc i).draws) a.nMoves e').2 ≠ .ok p := by
    intro e' p hc
    obtain ⟨err, hb⟩ := hbad e'
    unfold Spec.turn at hc
    simp only [hb] at hc
    cases hc
  rcases hr with ⟨ps, hps, hall, -⟩ | ⟨j, err, -, -, -, hres⟩ | ⟨j, p, -, -, -, hstop, -, hres⟩
  · exfalso
    have hlt : a.nMoves < ps.length := by omega
    exact hnot _ _ (hall a.nMoves ps[a.nMoves] (List.getElem?_eq_getElem hlt)).1
  · rw [hres]
    exact ⟨fun l hc => (by cases hc), fun _ => ⟨err, rfl⟩⟩
  · rw [hres]
    exact ⟨fun l hc => (by cases hc), fun hc => by rw [hc] at hstop; cases hstop⟩

/-- The fox may refit and make its two moves; the hen, with one move per turn, cannot make two. -/
example : ∃ m m' e, Mdp.GridReach .square 1 3 false m ∧ Env.init m exSpecs = (m', .ok e) ∧
    (∀ b ∈ e.agents, 0 < b.nMoves) ∧
    (e.stepMulti "fox" .default none 3 true false
      fun _ => ⟨fun _ => exFit, fun _ => 0, fun _ => 0⟩).2 = .ok (some [1, 2]) ∧
    (e.stepMulti "hen" (.int 2) none 3 true false
      fun _ => ⟨fun _ => exFit, fun _ => 0, fun _ => 0⟩).2 = .error .valueError ∧
    (e.stepMulti "hen" (.int 2) none 3 true false
      fun _ => ⟨fun _ => exFit, fun _ => 0, fun _ => 0⟩).1.nSteps = 1 := by
  obtain ⟨m, m', e, h1, h2, h3⟩ := exStart (fun e => decide ((∀ b ∈ e.agents, 0 < b.nMoves) ∧
    (e.stepMulti "fox" .default none 3 true false
      fun _ => ⟨fun _ => exFit, fun _ => 0, fun _ => 0⟩).2 = .ok (some [1, 2]) ∧
    (e.stepMulti "hen" (.int 2) none 3 true false
      fun _ => ⟨fun _ => exFit, fun _ => 0, fun _ => 0⟩).2 = .error .valueError ∧
    (e.stepMulti "hen" (.int 2) none 3 true false
      fun _ => ⟨fun _ => exFit, fun _ => 0, fun _ => 0⟩).1.nSteps = 1)) (by decide +kernel)
  exact ⟨m, m', e, h1, h2, of_decide_eq_true h3⟩

/-! ## C52 `step_multi_interactive` -/

/-- **C52 is false**: whatever the environment and arguments, nothing ever moves; asking for at least one
turn of at least one known agent raises `TypeError`, leaving `n_moves` to its default raises too. -/
theorem C52_refuted (e : Env K δ) (names : Option (List String)) (nMoves : Option (List (List Nat))) :
    (e.stepMultiInteractive names nMoves).1 = e ∧
    (nMoves = none → (e.stepMultiInteractive names nMoves).2 = .error .unboundLocalError) ∧
    (∀ k l n ns, nMoves = some ((k :: l) :: n) → names.getD e.agentNames = ns → ns ≠ [] →
      (∀ x ∈ ns, x ∈ e.agentNames) → (e.stepMultiInteractive names nMoves).2 = .error .typeError) := by
  refine ⟨?_, ?_, ?_⟩
  · unfold Env.stepMultiInteractive
    split
    · rfl
    · rfl
    · simp only
      split_ifs
      · rfl
      · split <;> rfl
  · rintro rfl; rfl
  · rintro k l n ns rfl h1 h2 h3
    unfold Env.stepMultiInteractive
    simp only [h1]
    rw [if_neg (by push Not; exact h3)]
    cases ns with
    | nil => exact absurd rfl h2
    | cons x xs => rfl

/-- What remains: unknown agents are refused, and zero turns or zero agents return without effect. -/
theorem C52_partial (e : Env K δ) (names : Option (List String)) (l : List Nat) (n : List (List Nat))
    (ns : List String) (hns : names.getD e.agentNames = ns) :
    ((∃ x ∈ ns, x ∉ e.agentNames) → e.stepMultiInteractive names (some (l :: n)) = (e, .error .valueError)) ∧
    ((∀ x ∈ ns, x ∈ e.agentNames) → l = [] ∨ ns = [] →
      e.stepMultiInteractive names (some (l :: n)) = (e, .ok ())) := by
  unfold Env.stepMultiInteractive
  simp only [hns]
  constructor
  · intro h; rw [if_pos h]
  · rintro h (rfl | rfl)
    · rw [if_neg (by push Not; exact h)]
    · rw [if_neg (by simp)]
      cases l <;> rfl

/-- Fox and hen, one turn: `TypeError`. -/
example : ∃ m m' e, Mdp.GridReach .square 1 3 false m ∧ Env.init m exSpecs = (m', .ok e) ∧
    (e.stepMultiInteractive none (some [[2], [1]])).2 = .error .typeError := by
  obtain ⟨m, m', e, h1, h2, h3⟩ := exStart
    (fun e => decide ((e.stepMultiInteractive none (some [[2], [1]])).2 = .error .typeError)) (by decide +kernel)
  exact ⟨m, m', e, h1, h2, of_decide_eq_true h3⟩

/-! ## C53 `step_proba` -/

/-- Action values preferring to walk down the corridor. -/
def exFitDown : FitOut Rat := fun _ => .ok (.of1 ⟨3, fun _ => .fin 0⟩,
  .of2 ⟨3, 4, fun s a => if a = 0 ∧ s < 2 then .fin 0 else if a = 2 ∧ 0 < s then .fin 1 else .ninf⟩)

/-- **C53 is false**: the fox in the middle of the corridor is certain to step down to state 0, but the
distribution returned is zero everywhere: the impossible action 3 is taken to lead to state 0 too, and its
probability 0 replaces the entry. -/
theorem C53_refuted : ∃ m m' e, Mdp.GridReach .square 1 3 false m ∧ Env.init m exSpecs = (m', .ok e) ∧
    ((e.run [.setAgentPosition "fox" 1, .fit "fox" exFitDown fun _ => 0]).step "fox" fun _ => 0).2 = .ok 0 ∧
    ∃ out, ((e.run [.setAgentPosition "fox" 1, .fit "fox" exFitDown fun _ => 0]).stepProba "fox" none
      fun _ => 0).2 = .ok out ∧ ∀ t, t < 3 → out.get t = .fin 0 := by
  obtain ⟨m, m', e, h1, h2, h3⟩ := exStart (fun e =>
    decide (((e.run [.setAgentPosition "fox" 1, .fit "fox" exFitDown fun _ => 0]).step "fox" fun _ => 0).2 = .ok 0) &&
    match ((e.run [.setAgentPosition "fox" 1, .fit "fox" exFitDown fun _ => 0]).stepProba "fox" none
      fun _ => 0).2 with
    | .ok out => (List.range 3).all fun t => decide (out.get t = .fin 0)
    | .error _ => false) (by decide +kernel)
  rw [Bool.and_eq_true] at h3
  refine ⟨m, m', e, h1, h2, of_decide_eq_true h3.1, ?_⟩
  have h4 := h3.2
  split at h4
  · rename_i out ho
    exact ⟨out, ho, fun t ht => of_decide_eq_true (List.all_eq_true.1 h4 t (List.mem_range.2 ht))⟩
  · cases h4

/-- A 3 by 5 grid. -/
def exMdp3 : Py (Mdp Rat) := Mdp.initGrid .square 3 5 false ⟨1, 15, fun _ _ => 0⟩ none

/-- One agent in it. -/
def exSpecs4 : List (AgentSpec Rat Nat) :=
  [⟨"fox", 1, maxSelector, .fresh, some 6, .of1 ⟨2, fun _ => 1⟩, []⟩]

/-- All actions equally good. -/
def exFitFlat : FitOut Rat := fun _ => .ok (.of1 ⟨15, fun _ => .fin 0⟩, .of2 ⟨15, 4, fun _ _ => .fin 0⟩)

/-- Half in state 6, half in state 8. -/
def exHalf : Arr1 Rat := ⟨15, fun s => if s = 6 ∨ s = 8 then 1 else 0⟩

/-- **C53 is false** even where every action is possible: from 6 or 8 (half each) a uniform step ends in 7
with probability 1/4; 1/8 is returned, the contribution of 8 having replaced that of 6. -/
theorem C53_refuted_sum : ∃ m m' e, Mdp.GridReach .square 3 5 false m ∧ Env.init m exSpecs4 = (m', .ok e) ∧
    Spec.oneStep m.trans exHalf.get (fun _ _ => 1 / 4) 7 = 1 / 4 ∧
    ∃ out, ((e.run [.fit "fox" exFitFlat fun _ => 0]).stepProba "fox" (some exHalf) fun _ => 0).2 = .ok out ∧
      out.get 7 = .fin (1 / 8) := by
  have hc : (match exMdp3 with
      | .ok m => match (Env.init m exSpecs4).2 with
        | .ok e => decide (Spec.oneStep m.trans exHalf.get (fun _ _ => 1 / 4) 7 = 1 / 4) &&
          match ((e.run [.fit "fox" exFitFlat fun _ => 0]).stepProba "fox" (some exHalf) fun _ => 0).2 with
          | .ok out => decide (out.get 7 = .fin (1 / 8))
          | .error _ => false
        | .error _ => false
      | .error _ => false) = true := by decide +kernel
  cases hm : exMdp3 with
  | error e => rw [hm] at hc; cases hc
  | ok m =>
    rw [hm] at hc
    simp only at hc
    rcases hi : Env.init m exSpecs4 with ⟨m', x | x⟩
    · rw [hi] at hc; cases hc
    · rw [hi] at hc
      simp only [Bool.and_eq_true] at hc
      refine ⟨m, m', x, .init hm, hi, of_decide_eq_true hc.1, ?_⟩
      have h4 := hc.2
      split at h4
      · rename_i out ho
        exact ⟨out, ho, of_decide_eq_true h4⟩
      · cases h4

/-- What does hold, after any history: if impossible actions have probability 0, no state is reached in two
ways, and state 0 is not reached at all unless every action is possible, then the call returns the one-step
distribution; it sums to 1 if the action probabilities do. -/
theorem C53_partial (hm : Mdp.GridReach kind W H selfT m) (hinit : Env.init m specs = (m', .ok e0))
    (ops : List (EnvOp K δ)) (e : Env K δ) (he : e = e0.run ops) (a : Agent K δ) (ha : a ∈ e.agents)
    (q : Arr2 (Ext K)) (P : Arr2 (Ext K)) (hq : a.alg.qValues = some q) (hP : a.selector.piP q = .ok P)
    (hd1 : P.d1 = e.mdp.nActions) (position : Option (Arr1 K)) (μ : Nat → K)
    (hμ : μ = Spec.startDist (W * H) a.position position) (hμ0 : ∀ s, s < W * H → 0 ≤ μ s)
    (hμ1 : 0 < ∑ s ∈ Finset.range (W * H), μ s) (π : Nat → Nat → K) (S : Nat → Nat → Prop)
    (hS : ∀ s x, S s x ↔ s < W * H ∧ 0 < μ s ∧ x < e.mdp.nActions)
    (hπ : ∀ s x, S s x → P.get s x = .fin (π s x))
    (himp : ∀ s x, S s x → ¬ Spec.Possible e.mdp.trans s x → π s x = 0)
    (hinj : ∀ s x s' x' t, S s x → S s' x' → t < W * H → 0 < e.mdp.sas s x t → 0 < e.mdp.sas s' x' t →
      s = s' ∧ x = x')
    (hzero : (∃ s x, S s x ∧ ¬ Spec.Possible e.mdp.trans s x) → ∀ s x, S s x → ¬ 0 < e.mdp.sas s x 0)
    (d : Nat → δ) (e' : Env K δ) (out : Arr1 (Ext K)) (h : e.stepProba a.name position d = (e', .ok out)) :
    out.d0 = W * H ∧ (∀ t, t < W * H → out.get t = .fin (Spec.oneStep e.mdp.trans μ π t)) ∧
    ((∀ s, s < W * H → 0 < μ s → ∑ x ∈ Finset.range e.mdp.nActions, π s x = 1) →
      ∑ t ∈ Finset.range (W * H), Spec.oneStep e.mdp.trans μ π t = 1) := by
  have hok : Env.Ok kind W H selfT e := by rw [he]; exact (Env.started hm hinit ops).1
  have hr := hok.reach
  have g := hr.ok
  have hN := g.nStates
  obtain ⟨hM, hdet, -, -⟩ := C27_grid kind W H selfT e.mdp hr
  have hnS : e.mdp.trans.nS = W * H := hN
  have hnA : e.mdp.trans.nA = e.mdp.nActions := rfl
  have hsas : ∀ s x t, e.mdp.trans.p s x t = e.mdp.sas s x t := fun _ _ _ => rfl
  have h01 : ∀ s x t, s < W * H → x < e.mdp.nActions → t < W * H → 0 < e.mdp.sas s x t → e.mdp.sas s x t = 1 := by
    intro s x t hs hx ht hp
    rcases hdet s x t (by rw [hnS]; exact hs) hx (by rw [hnS]; exact ht) with h1 | h1
    · rw [hsas] at h1; rw [h1] at hp; exact absurd hp (lt_irrefl 0)
    · exact h1
  have hnn : ∀ s x t, s < W * H → x < e.mdp.nActions → t < W * H → ¬ 0 < e.mdp.sas s x t → e.mdp.sas s x t = 0 := by
    intro s x t hs hx ht hp
    have := hM.nonneg s x t (by rw [hnS]; exact hs) hx (by rw [hnS]; exact ht)
    rw [hsas] at this
    exact le_antisymm (not_lt.1 hp) this
  have hμz : ∀ s, s < W * H → ¬ 0 < μ s → μ s = 0 := fun s hs h => le_antisymm (not_lt.1 h) (hμ0 s hs)
  -- the call
  have hout : (a.stepProba e.mdp position d).2 = .ok out := by
    rcases Env.stepProba_cases hok a.name position d with ⟨-, h1⟩ | ⟨b, hb, hbn, ⟨err, -, h3⟩ | ⟨x, h2, h3⟩⟩
    · rw [h] at h1; cases h1
    · rw [h] at h3; cases h3
    · have := Env.eq_of_name hok.nodup hb ha hbn
      subst this
      rw [h] at h3
      have h4 := (Prod.mk.inj h3).2
      cases h4
      exact h2
  obtain ⟨p0, q', P', o, k1, k2, k3, k4, rfl, k5⟩ := Env.agent_stepProba_ok hout
  rw [hq] at k3
  cases k3
  rw [hP] at k4
  cases k4
  have hp0 : ∀ s, p0.get s = μ s := by
    intro s
    unfold Agent.probaStart at k1
    cases position with
    | some p => simp only [Except.ok.injEq] at k1; rw [hμ, ← k1]; rfl
    | none =>
      simp only at k1
      split at k1
      · cases k1
      · rename_i j hj
        simp only [Except.ok.injEq] at k1
        have := Env.stateOf_eq hj
        rw [hN] at this
        rw [hμ, ← k1, this]
        rfl
  generalize hZ : ∑ s ∈ Finset.range (W * H), μ s = Z at hμ1
  have hsum : npSum p0.d0 p0.get = Z := by
    unfold npSum
    rw [k2, hN, ← hZ]
    exact Finset.sum_congr rfl fun s _ => hp0 s
  have hnorm : ∀ s, Agent.normalise p0 s = .fin (μ s / Z) := by
    intro s
    unfold Agent.normalise
    rw [hsum, if_pos hμ1.ne', hp0]
  have hpairs : ∀ x, x ∈ ((npWhere e.mdp.nStates fun s => Ext.isPos (Agent.normalise p0 s)).flatMap
      fun s => (List.range P.d1).map fun y => (s, y)) ↔ S x.1 x.2 := by
    intro x
    rw [Env.mem_pairs, hS, hN, hd1, hnorm]
    simp only [Ext.isPos, decide_eq_true_eq, div_pos_iff_of_pos_right hμ1]
  have hone : ∀ t, Spec.oneStep e.mdp.trans μ π t = ∑ s ∈ Finset.range (W * H),
      ∑ x ∈ Finset.range e.mdp.nActions, μ s / Z * π s x * e.mdp.sas s x t := by
    intro t
    unfold Spec.oneStep
    rw [hnS, hZ]
    rfl
  have hterm : ∀ s x t, s < W * H → x < e.mdp.nActions → t < W * H → ¬ (S s x ∧ 0 < e.mdp.sas s x t) →
      μ s / Z * π s x * e.mdp.sas s x t = 0 := by
    intro s x t hs hx ht hno
    by_cases h1 : 0 < μ s
    · have h2 : ¬ 0 < e.mdp.sas s x t := fun hc => hno ⟨(hS s x).2 ⟨hs, h1, hx⟩, hc⟩
      rw [hnn s x t hs hx ht h2, mul_zero]
    · rw [hμz s hs h1, zero_div, zero_mul, zero_mul]
  choose f hf using fun x : Nat × Nat => show ∃ t, S x.1 x.2 → e.mdp.getNextState x.1 x.2 = .ok t ∧ t < W * H ∧
      (Spec.Possible e.mdp.trans x.1 x.2 → 0 < e.mdp.sas x.1 x.2 t) ∧
      (¬ Spec.Possible e.mdp.trans x.1 x.2 → t = 0) by
    by_cases hx : S x.1 x.2
    · obtain ⟨h1, -, h3⟩ := (hS _ _).1 hx
      obtain ⟨t, h4, h5, h6, h7⟩ := C16_partial kind W H selfT e.mdp hr x.1 x.2 (by rw [hN]; exact h1) h3
      exact ⟨t, fun _ => ⟨h4, by rw [← hN]; exact h5, h6, h7⟩⟩
    · exact ⟨0, fun hc => absurd hc hx⟩
  have hwrite : ∀ x, S x.1 x.2 → Ext.mul (P.get x.1 x.2) (Agent.normalise p0 x.1) =
      .fin (Spec.oneStep e.mdp.trans μ π (f x)) := by
    rintro ⟨s, x⟩ hx
    obtain ⟨h1, h2, h3, h4⟩ := hf (s, x) hx
    obtain ⟨hs, hμs, hxA⟩ := (hS s x).1 hx
    simp only at h1 h2 h3 h4 hx ⊢
    rw [hπ s x hx, hnorm, hone]
    simp only [Ext.mul, Ext.fin.injEq]
    by_cases hp : Spec.Possible e.mdp.trans s x
    · have h5 := h3 hp
      rw [Finset.sum_eq_single s, Finset.sum_eq_single x]
      · rw [h01 s x _ hs hxA h2 h5, mul_one, mul_comm]
      · intro y hy hne
        refine hterm s y _ hs (Finset.mem_range.1 hy) h2 fun hc => hne ?_
        exact (hinj s y s x _ hc.1 hx h2 hc.2 h5).2
      · intro hc; exact absurd (Finset.mem_range.2 hxA) hc
      · intro u hu hne
        refine Finset.sum_eq_zero fun y hy => ?_
        refine hterm u y _ (Finset.mem_range.1 hu) (Finset.mem_range.1 hy) h2 fun hc => hne ?_
        exact (hinj u y s x _ hc.1 hx h2 hc.2 h5).1
      · intro hc; exact absurd (Finset.mem_range.2 hs) hc
    · rw [himp s x hx hp, zero_mul, h4 hp, Finset.sum_eq_zero]
      intro u hu
      refine Finset.sum_eq_zero fun y hy => ?_
      refine hterm u y 0 (Finset.mem_range.1 hu) (Finset.mem_range.1 hy) g.pos fun hc => ?_
      exact hzero ⟨s, x, hx, hp⟩ u y hc.1 hc.2
  obtain ⟨o', l1, l2, l3⟩ := Env.probaLoop_ok e.mdp P (Agent.normalise p0) f
    (fun t => .fin (Spec.oneStep e.mdp.trans μ π t)) _ (fun _ => .fin 0)
    (fun x hx => (hf x ((hpairs x).1 hx)).1) (fun x hx => hwrite x ((hpairs x).1 hx))
  rw [k5] at l1
  cases l1
  refine ⟨hN, fun t ht => ?_, fun hsum1 => ?_⟩
  · by_cases hex : ∃ x, S x.1 x.2 ∧ f x = t
    · obtain ⟨x, hx, rfl⟩ := hex
      exact l2 x ((hpairs x).2 hx)
    · push Not at hex
      show o t = _
      rw [l3 t fun x hx => hex x ((hpairs x).1 hx), hone, Finset.sum_eq_zero]
      intro s hs
      refine Finset.sum_eq_zero fun x hx => ?_
      refine hterm s x t (Finset.mem_range.1 hs) (Finset.mem_range.1 hx) ht fun hc => ?_
      have h1 := (hf (s, x) hc.1).1
      have h2 := C15_next_state kind W H selfT e.mdp hr s x t (by rw [hN]; exact Finset.mem_range.1 hs)
        (Finset.mem_range.1 hx) (by rw [hN]; exact ht) hc.2
      rw [h2] at h1
      exact hex (s, x) hc.1 (Except.ok.inj h1).symm
  · have hrow : ∀ s x, s < W * H → x < e.mdp.nActions →
        ∑ t ∈ Finset.range (W * H), μ s / Z * π s x * e.mdp.sas s x t = μ s / Z * π s x := by
      intro s x hs hx
      by_cases h1 : 0 < μ s
      · have hSx := (hS s x).2 ⟨hs, h1, hx⟩
        by_cases hp : Spec.Possible e.mdp.trans s x
        · obtain ⟨u, hu, hpu⟩ := hp
          rw [hnS] at hu
          rw [hsas] at hpu
          rw [Finset.sum_eq_single u, h01 s x u hs hx hu hpu, mul_one]
          · intro t ht hne
            have ht' := Finset.mem_range.1 ht
            refine hterm s x t hs hx ht' fun hc => hne ?_
            have h2 := C15_next_state kind W H selfT e.mdp hr s x t (by rw [hN]; exact hs) hx (by rw [hN]; exact ht') hc.2
            have h3 := C15_next_state kind W H selfT e.mdp hr s x u (by rw [hN]; exact hs) hx (by rw [hN]; exact hu) hpu
            rw [h2] at h3
            exact Except.ok.inj h3
          · intro hc; exact absurd (Finset.mem_range.2 hu) hc
        · rw [himp s x hSx hp]
          simp
      · rw [hμz s hs h1]
        simp
    rw [Finset.sum_congr rfl fun t _ => hone t, Finset.sum_comm]
    have : ∀ s ∈ Finset.range (W * H), ∑ t ∈ Finset.range (W * H), ∑ x ∈ Finset.range e.mdp.nActions,
        μ s / Z * π s x * e.mdp.sas s x t = μ s / Z := by
      intro s hs
      have hs' := Finset.mem_range.1 hs
      rw [Finset.sum_comm, Finset.sum_congr rfl fun x hx => hrow s x hs' (Finset.mem_range.1 hx),
        ← Finset.mul_sum]
      by_cases h1 : 0 < μ s
      · rw [hsum1 s hs' h1, mul_one]
      · rw [hμz s hs' h1, zero_div, zero_mul]
    rw [Finset.sum_congr rfl this, ← Finset.sum_div, hZ, div_self hμ1.ne']

/-- The fox at the bottom of the corridor, about to walk up, meets the hypotheses: actions 1-3 are impossible
and have probability 0, action 0 leads to state 1, nothing leads to state 0. -/
example : ∃ m m' e, Mdp.GridReach .square 1 3 false m ∧ Env.init m exSpecs = (m', .ok e) ∧
    ∃ a ∈ (e.run [.fit "fox" exFit fun _ => 0]).agents, a.name = "fox" ∧ a.position = 0 ∧
      (∃ q P, a.alg.qValues = some q ∧ a.selector.piP q = .ok P ∧ P.d1 = 4 ∧
        (∀ x, x < 4 → P.get 0 x = .fin (if x = 0 then 1 else 0))) ∧
      (∀ x, x < 4 → (Spec.Possible (e.run [.fit "fox" exFit fun _ => 0]).mdp.trans 0 x ↔ x = 0)) ∧
      (∀ x, x < 4 → ¬ 0 < (e.run [.fit "fox" exFit fun _ => 0]).mdp.sas 0 x 0) ∧
      ∃ out, ((e.run [.fit "fox" exFit fun _ => 0]).stepProba "fox" none fun _ => 0).2 = .ok out ∧
        out.get 0 = .fin 0 ∧ out.get 1 = .fin 1 ∧ out.get 2 = .fin 0 := by
  obtain ⟨m, m', e, h1, h2, h3⟩ := exStart (fun e =>
    ((e.run [.fit "fox" exFit fun _ => 0]).agents.any fun a => decide (a.name = "fox" ∧ a.position = 0) &&
      match a.alg.qValues with
      | none => false
      | some q => match a.selector.piP q with
        | .error _ => false
        | .ok P => decide (P.d1 = 4) &&
          (List.range 4).all fun x => decide (P.get 0 x = .fin (if x = 0 then 1 else 0))) &&
    ((List.range 4).all fun x => decide ((Spec.Possible (e.run [.fit "fox" exFit fun _ => 0]).mdp.trans 0 x ↔ x = 0) ∧
      ¬ 0 < (e.run [.fit "fox" exFit fun _ => 0]).mdp.sas 0 x 0)) &&
    match ((e.run [.fit "fox" exFit fun _ => 0]).stepProba "fox" none fun _ => 0).2 with
    | .ok out => decide (out.get 0 = .fin 0 ∧ out.get 1 = .fin 1 ∧ out.get 2 = .fin 0)
    | .error _ => false) (by decide +kernel)
  simp only [Bool.and_eq_true, List.any_eq_true, List.all_eq_true, List.mem_range] at h3
  obtain ⟨⟨⟨a, ha, h4, h5⟩, h6⟩, h7⟩ := h3
  have h4 := of_decide_eq_true h4
  refine ⟨m, m', e, h1, h2, a, ha, h4.1, h4.2, ?_, fun x hx => (of_decide_eq_true (h6 x hx)).1,
    fun x hx => (of_decide_eq_true (h6 x hx)).2, ?_⟩
  · split at h5
    · cases h5
    · rename_i q hq
      split at h5
      · cases h5
      · rename_i P hP
        simp only [Bool.and_eq_true, List.all_eq_true, List.mem_range] at h5
        exact ⟨q, P, hq, hP, of_decide_eq_true h5.1, fun x hx => of_decide_eq_true (h5.2 x hx)⟩
  · split at h7
    · rename_i out ho
      exact ⟨out, ho, of_decide_eq_true h7⟩
    · cases h7

end MaMDP
