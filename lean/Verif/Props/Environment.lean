import Verif.Lemmas.EnvStart
import Mathlib.Tactic.Ring
import Mathlib.Algebra.BigOperators.Intervals

/-! # Environments and agents: C37, C38, C40-C48

`m` is a grid MDP in any state its own interface can bring it to, `specs` the dictionary of agents,
`e0` the environment `Environment(m, specs)`, `ops` any list of calls on it, failing ones included. -/

set_option linter.unusedSectionVars false

namespace MaMDP

variable {K : Type} [Field K] [LinearOrder K] [IsStrictOrderedRing K] {δ : Type}
variable {kind : GridKind} {W H : Nat} {selfT : Bool} {m m' : Mdp K} {specs : List (AgentSpec K δ)}
  {e0 : Env K δ}

/-! ## A concrete environment for the examples -/

/-- Two agents: the fox consumes feature 0 and the hen (row 2). -/
def exSpecs : List (AgentSpec Rat Nat) :=
  [⟨"fox", 2, maxSelector, .fresh, some 0, .of1 ⟨3, fun i => if i = 0 then 1 else 0⟩, [0, 2]⟩,
   ⟨"hen", 1, maxSelector, .fresh, some 2, .of1 ⟨3, fun _ => 1⟩, []⟩]

/-- A corridor of three states with one feature, at its last state. -/
def exMdp : Py (Mdp Rat) := Mdp.initGrid .square 1 3 false ⟨1, 3, fun _ s => if s = 2 then 1 else 0⟩ none

/-- The agents in the corridor. -/
def exEnv : Py (Env Rat Nat) := match exMdp with
  | .ok m => (Env.init m exSpecs).2
  | .error e => .error e

/-- Action values that prefer walking up the corridor. -/
def exFit : FitOut Rat := fun _ => .ok (.of1 ⟨3, fun _ => .fin 0⟩,
  .of2 ⟨3, 4, fun s a => if a = 0 ∧ s < 2 then .fin 1 else if a = 2 ∧ 0 < s then .fin 0 else .ninf⟩)

/-- The fox walks to the hen and eats it and the feature. -/
def exOps : List (EnvOp Rat Nat) :=
  [.fit "fox" exFit fun _ => 0, .step "fox" fun _ => 0, .step "fox" fun _ => 0]

theorem exStart (p : Env Rat Nat → Bool)
    (h : (match exEnv with | .ok e => p e | .error _ => false) = true) :
    ∃ m m' e, Mdp.GridReach .square 1 3 false m ∧ Env.init m exSpecs = (m', .ok e) ∧ p e = true := by
  unfold exEnv at h
  cases hm : exMdp with
  | error e => rw [hm] at h; cases h
  | ok m =>
    rw [hm] at h
    simp only at h
    rcases hi : Env.init m exSpecs with ⟨m', x | x⟩
    · rw [hi] at h; cases h
    · rw [hi] at h; exact ⟨m, m', x, .init hm, hi, h⟩

/-! ## C37 planned moves -/

theorem sum_window (c T : Nat) : ∀ N, c ≤ N →
    (∑ i ∈ Finset.range N, if c ≤ i ∧ i < c + T then 1 else 0) = min T (N - c) := by
  intro N
  induction N with
  | zero => intro h; simp [Nat.le_zero.1 h]
  | succ N ih =>
    intro h
    rw [Finset.sum_range_succ]
    by_cases hc : c ≤ N
    · rw [ih hc]
      split_ifs <;> omega
    · have : c = N + 1 := by omega
      subst this
      rw [Finset.sum_eq_zero]
      · simp
      · intro i hi
        rw [if_neg]
        have := Finset.mem_range.1 hi
        omega

theorem sum_blocks (f : Nat → Nat) (n : Nat) : ∀ k,
    ((List.range k).map fun t => npSum n fun i => f (t * n + i)).sum = ∑ i ∈ Finset.range (k * n), f i := by
  intro k
  induction k with
  | zero => simp
  | succ k ih =>
    rw [List.range_succ, List.map_append, List.sum_append, ih, Nat.succ_mul, Finset.sum_range_add]
    simp [npSum]

/-- The plan has one entry per turn, the number of planned moves falling into that turn, and they add up
to all the moves that fit. -/
theorem C37_moves_plan (current nTurns nMoves total : Nat) (h : current < nMoves) (ht : 0 < nTurns) :
    ∃ plan, Env.movesPlan current nTurns nMoves total = .ok plan ∧ plan.length = nTurns ∧
      (∀ t, t < nTurns → plan[t]? = some (Spec.movesInTurn current total nMoves t)) ∧
      plan.sum = min total (nTurns * nMoves - current) := by
  unfold Env.movesPlan
  rw [if_neg (by omega), if_neg (by omega)]
  have hle : current ≤ nTurns * nMoves := by
    calc current ≤ nMoves := h.le
      _ = 1 * nMoves := (Nat.one_mul _).symm
      _ ≤ nTurns * nMoves := Nat.mul_le_mul_right _ ht
  have hs := sum_window current total (nTurns * nMoves) hle
  rw [← sum_blocks (fun i => if current ≤ i ∧ i < current + total then 1 else 0) nMoves nTurns] at hs
  simp only
  rw [if_neg (by rw [hs]; simp), if_neg (by simp)]
  refine ⟨_, rfl, by simp, fun t ht => ?_, hs⟩
  rw [List.getElem?_map, List.getElem?_range ht]
  simp only [Option.map_some, Option.some.injEq, npSum, Spec.movesInTurn]
  generalize hp : (fun i => decide (current ≤ t * nMoves + i ∧ t * nMoves + i < current + total)) = p
  have : ∀ n, (∑ i ∈ Finset.range n, if current ≤ t * nMoves + i ∧ t * nMoves + i < current + total
      then 1 else 0) = ((List.range n).filter p).length := by
    intro n
    induction n with
    | zero => simp
    | succ n ih =>
      rw [Finset.sum_range_succ, ih, List.range_succ, List.filter_append, List.length_append]
      congr 1
      subst hp
      by_cases hq : current ≤ t * nMoves + n ∧ t * nMoves + n < current + total
      · simp [hq]
      · simp only [if_neg hq, List.filter_cons, List.filter_nil, decide_eq_true_eq, List.length_nil]
  exact this nMoves

/-- Starting beyond the turn is refused, and so is planning no turn at all. -/
theorem C37_errors (current nTurns nMoves total : Nat) :
    (nMoves ≤ current → Env.movesPlan current nTurns nMoves total = .error .valueError) ∧
    (current < nMoves → Env.movesPlan current 0 nMoves total = .error .zeroDivisionError) := by
  unfold Env.movesPlan
  constructor
  · intro h; rw [if_pos h]
  · intro h; rw [if_neg (by omega), if_pos rfl]

/-- Five moves from the second of three per turn: two in this turn, three in the next. -/
example : Env.movesPlan 1 3 3 5 = .ok [2, 3, 0] := by decide +kernel

/-! ## C38 construction -/

/-- Construction succeeds exactly for acceptable agents. -/
theorem C38_validated (hm : Mdp.GridReach kind W H selfT m) (specs : List (AgentSpec K δ)) :
    (∃ e, (Env.init m specs).2 = .ok e) ↔
      ∀ sp ∈ specs, Spec.ValidAgent (W * H) (m.features.d0 - m.nAgents) specs.length sp := by
  have := Env.init_valid hm specs
  rw [hm.ok.nStates] at this
  exact this

/-- The features afterwards: the MDP's own rows are unchanged (rows left by an earlier environment are
dropped), followed by one row per agent, in order, that is 1 at the agent's start and 0 elsewhere. -/
theorem C38_features (hm : Mdp.GridReach kind W H selfT m) (hinit : Env.init m specs = (m', .ok e0)) :
    m' = e0.mdp ∧ e0.mdp.features.d0 = m.features.d0 - m.nAgents + specs.length ∧
    (∀ f s, f < m.features.d0 - m.nAgents → e0.mdp.features.get f s = m.features.get f s) ∧
    (∀ i sp, specs[i]? = some sp → ∃ p, sp.position = some p ∧ ∀ s,
      e0.mdp.features.get (m.features.d0 - m.nAgents + i) s = if s = Spec.stateOf (W * H) p then 1 else 0) ∧
    (∀ s a t, e0.mdp.sas s a t = m.sas s a t) := by
  obtain ⟨h1, -, -, -, -, -, h2, -, -, -, h3, -, h4, h5, -⟩ := Env.init_facts hm hinit
  refine ⟨h1, h2, h4, ?_, fun s a t => by rw [h3]⟩
  rw [hm.ok.nStates] at h5
  exact h5

/-- The agents afterwards, for distinct names: one per dictionary entry, in order, numbered from 0, at its
start, with the data given. -/
theorem C38_agents (hm : Mdp.GridReach kind W H selfT m) (hinit : Env.init m specs = (m', .ok e0))
    (hnames : (specs.map (·.name)).Nodup) :
    e0.agents.length = specs.length ∧ e0.nSteps = 0 ∧
    ∀ (i : Nat) (a : Agent K δ) (sp : AgentSpec K δ), e0.agents[i]? = some a → specs[i]? = some sp →
      a.name = sp.name ∧ a.idx = i ∧ sp.position = some a.position ∧ a.start = a.position ∧
      a.history = [a.position] ∧ a.consumes = sp.consumes ∧ (∀ f, a.consumed f = 0) ∧ a.nMoves = sp.nMoves ∧
      a.reward.d0 = m.features.d0 - m.nAgents + specs.length ∧
      (∃ get, sp.reward = .nd [a.reward.d0] get ∧ ∀ k, a.reward.get k = get [k]) ∧
      a.selector = sp.selector ∧ a.alg = sp.alg ∧ a.pi = none ∧ a.piP = none := by
  obtain ⟨-, -, -, -, h0, -, -, -, -, -, -, -, -, -, h1, -⟩ := Env.init_facts hm hinit
  obtain ⟨h2, h3⟩ := h1 hnames
  refine ⟨h2, h0, fun i a sp ha hsp => ?_⟩
  obtain ⟨sp', p, r, h4, h5, h6, rfl⟩ := h3 i a ha
  rw [hsp] at h4; cases h4
  exact ⟨rfl, rfl, h5, rfl, rfl, rfl, fun _ => rfl, rfl, rfl, ⟨r, h6, fun _ => rfl⟩, rfl, rfl, rfl, rfl⟩

example : ∃ m m' e, Mdp.GridReach .square 1 3 false m ∧ Env.init m exSpecs = (m', .ok e) ∧
    (exSpecs.map (·.name)).Nodup := by
  obtain ⟨m, m', e, h1, h2, -⟩ := exStart (fun _ => true) (by decide +kernel)
  exact ⟨m, m', e, h1, h2, by decide⟩

/-! ## C40 agents stand on states -/

theorem C40_positions (hm : Mdp.GridReach kind W H selfT m) (hinit : Env.init m specs = (m', .ok e0))
    (ops : List (EnvOp K δ)) :
    ∀ a ∈ (e0.run ops).agents, -((W * H : Nat) : Int) ≤ a.position ∧ a.position < (W * H : Nat) := by
  intro a ha
  obtain ⟨h1, -⟩ := Env.started hm hinit ops
  obtain ⟨j, hj, -⟩ := h1.pos a ha
  rw [h1.reach.ok.nStates] at hj
  by_contra hc
  rw [pyIdx_eq_none.2 (by omega)] at hj
  cases hj

/-- Steps only ever report non-negative positions. -/
theorem C40_reported (hm : Mdp.GridReach kind W H selfT m) (hinit : Env.init m specs = (m', .ok e0))
    (ops : List (EnvOp K δ)) (n : String) (d : Nat → δ) (p : Int)
    (h : ((e0.run ops).step n d).2 = .ok p) : 0 ≤ p ∧ p < (W * H : Nat) := by
  obtain ⟨h1, -⟩ := Env.started hm hinit ops
  rcases Env.step_cases h1 n d with ⟨-, h2⟩ | ⟨a, a', err, -, -, -, -, -, -, h2⟩ |
    ⟨a, a1, j, t, g, c, -, hm, -, -, -, h2, -⟩ | ⟨a, a1, j, t, g, -, hm, -, -, h2, -⟩ <;> rw [h2] at h
  · cases h
  · cases h
  · cases h
    have := hm.lt
    rw [h1.reach.ok.nStates] at this
    omega
  · cases h

/-- A history that moves an agent. -/
example : ∃ m m' e, Mdp.GridReach .square 1 3 false m ∧ Env.init m exSpecs = (m', .ok e) ∧
    ((e.run exOps).agents.map (·.position) = [2, 2]) := by
  obtain ⟨m, m', e, h1, h2, h3⟩ := exStart
    (fun e => decide ((e.run exOps).agents.map (·.position) = [2, 2])) (by decide +kernel)
  exact ⟨m, m', e, h1, h2, of_decide_eq_true h3⟩

/-! ## C41 agent feature rows -/

/-- For every history: nothing anywhere else in an agent's row, and 0 or 1 at its position. -/
theorem C41_zero_elsewhere (hm : Mdp.GridReach kind W H selfT m) (hinit : Env.init m specs = (m', .ok e0))
    (ops : List (EnvOp K δ)) : ∀ a ∈ (e0.run ops).agents,
      (∀ s, s < W * H → s ≠ Spec.stateOf (W * H) a.position →
        (e0.run ops).mdp.features.get (m.features.d0 - m.nAgents + a.idx) s = 0) ∧
      ((e0.run ops).mdp.features.get (m.features.d0 - m.nAgents + a.idx) (Spec.stateOf (W * H) a.position) = 0 ∨
      (e0.run ops).mdp.features.get (m.features.d0 - m.nAgents + a.idx) (Spec.stateOf (W * H) a.position) = 1) := by
  intro a ha
  obtain ⟨-, -, -, -, -, -, hd, hna, -⟩ := Env.init_facts hm hinit
  obtain ⟨h1, hl⟩ := Env.started hm hinit ops
  obtain ⟨j, hj, hr, hr'⟩ := h1.pos a ha
  rw [h1.reach.ok.nStates] at hj hr
  have := Env.stateOf_eq hj
  subst this
  have hrow : (e0.run ops).mdp.agentRow a.idx = m.features.d0 - m.nAgents + a.idx := by
    rw [hl.row]; unfold Mdp.agentRow; rw [hd, hna]; omega
  rw [hrow] at hr hr'
  exact ⟨hr, hr'⟩

/-- Between any two moments, unless `set_agent_position` is called with a position below minus the number
of states: the agent's entry is 1 at the later moment, or it was not 1 at the earlier one and the agent has
not moved, or some agent consumed it in between (its count for that row went up). Missing from the full
claim: histories with such calls, see `C41_refuted`. -/
theorem C41_between_partial (hm : Mdp.GridReach kind W H selfT m) (hinit : Env.init m specs = (m', .ok e0))
    (hc : ∀ sp ∈ specs, ∀ f ∈ sp.consumes, -((m.features.d0 - m.nAgents + specs.length : Nat) : Int) ≤ f)
    (ops1 ops2 : List (EnvOp K δ))
    (hops : ∀ op ∈ ops2, ∀ n p, op = .setAgentPosition n p → -((W * H : Nat) : Int) ≤ p)
    (e1 e2 : Env K δ) (he1 : e1 = e0.run ops1) (he2 : e2 = e1.run ops2)
    (a a' : Agent K δ) (ha : a ∈ e1.agents) (ha' : a' ∈ e2.agents) (hn : a'.name = a.name)
    (row : Nat) (hrow : row = m.features.d0 - m.nAgents + a.idx) :
    e2.mdp.features.get row (Spec.stateOf (W * H) a'.position) = 1 ∨
    (e1.mdp.features.get row (Spec.stateOf (W * H) a.position) ≠ 1 ∧ a'.position = a.position) ∨
    ∃ b ∈ e1.agents, ∃ b' ∈ e2.agents, b'.name = b.name ∧ b.consumed row < b'.consumed row ∧
      ∃ f ∈ b.consumes, f = row ∨ f = row - (m.features.d0 - m.nAgents + specs.length : Nat) := by
  obtain ⟨-, hok, -, -, -, -, hd, hna, -⟩ := Env.init_facts hm hinit
  obtain ⟨h1, hl⟩ := Env.started hm hinit ops1
  have hv := (Env.validConsumes_init hm hinit hc).later hok h1 hl
  have h2 := Env.Ok.run ops2 _ h1
  have hl2 := Env.later_run ops2 h1
  rw [← he1] at h1 hl hv h2 hl2
  rw [← he2] at h2 hl2
  have hk : Env.Kept e1 e2 := by
    rw [he2]; exact Env.Kept.run h1 ops2 (by rw [h1.reach.ok.nStates]; exact hops)
  obtain ⟨j, hj, -⟩ := h1.pos a ha
  obtain ⟨j', hj', -⟩ := h2.pos a' ha'
  have e1n := h1.reach.ok.nStates
  have e2n := h2.reach.ok.nStates
  have hr : e1.mdp.agentRow a.idx = row := by
    rw [hl.row, hrow]; unfold Mdp.agentRow; rw [hd, hna]; omega
  have := hk a ha a' ha' hn j j' hj (by rw [← hl2.nStates]; exact hj')
  rw [hr] at this
  rw [e1n] at hj
  rw [e2n] at hj'
  rw [← Env.stateOf_eq hj, ← Env.stateOf_eq hj']
  rcases this with h3 | h3 | ⟨b, hb, b', hb', h4, ⟨f, h5, h6⟩, h7 | ⟨f', h7, h8⟩⟩
  · exact .inl h3
  · exact .inr (.inl h3)
  · refine .inr (.inr ⟨b, hb, b', hb', h4, h7, f, h5, ?_⟩)
    rw [hl.d0, hd] at h6
    unfold pyIdx at h6
    split_ifs at h6 <;> simp only [Option.some.injEq] at h6 <;> omega
  · obtain ⟨r, hr'⟩ := hv b hb f' h7
    rw [hr'] at h8; cases h8

/-- From construction on: the entry is 1 unless some agent has consumed it. -/
theorem C41_partial (hm : Mdp.GridReach kind W H selfT m) (hinit : Env.init m specs = (m', .ok e0))
    (hc : ∀ sp ∈ specs, ∀ f ∈ sp.consumes, -((m.features.d0 - m.nAgents + specs.length : Nat) : Int) ≤ f)
    (ops : List (EnvOp K δ))
    (hops : ∀ op ∈ ops, ∀ n p, op = .setAgentPosition n p → -((W * H : Nat) : Int) ≤ p)
    (a : Agent K δ) (ha : a ∈ (e0.run ops).agents) (row : Nat)
    (hrow : row = m.features.d0 - m.nAgents + a.idx) :
    (e0.run ops).mdp.features.get row (Spec.stateOf (W * H) a.position) = 1 ∨
    ∃ b ∈ (e0.run ops).agents, 0 < b.consumed row ∧
      ∃ f ∈ b.consumes, f = row ∨ f = row - (m.features.d0 - m.nAgents + specs.length : Nat) := by
  obtain ⟨-, hok, -, -, -, -, hd, hna, hst, -, -, -, -, h5, -, hall⟩ := Env.init_facts hm hinit
  obtain ⟨h1, hl⟩ := Env.started hm hinit ops
  obtain ⟨a0, ha0, hn, hidx, -⟩ := hl.back hok h1 ha
  rcases C41_between_partial hm hinit hc [] ops hops e0 (e0.run ops) rfl rfl a0 a ha0 ha hn row
    (by rw [hrow, hidx]) with h2 | ⟨h2, -⟩ | ⟨b, hb, b', hb', hbn, h3, f, h4, h5⟩
  · exact .inl h2
  · obtain ⟨i, sp, p, r, e1, e2, -, rfl⟩ := hall a0 ha0
    obtain ⟨p', e3, e4⟩ := h5 i sp e1
    rw [e2] at e3; cases e3
    exfalso
    apply h2
    rw [hrow, hidx]
    rw [hm.ok.nStates] at e4
    exact (e4 _).trans (if_pos rfl)
  · obtain ⟨b0, hb0, n0, -, -, c0, -⟩ := hl.agents b hb
    have : b0 = b' := Env.eq_of_name h1.nodup hb0 hb' (n0.trans hbn.symm)
    subst this
    exact .inr ⟨b0, hb0, by omega, f, c0 ▸ h4, h5⟩

/-- The claim fails: `set_agent_position("hen", -9)` raises and wipes the hen's row although no agent has
consumed anything. -/
theorem C41_refuted : ∃ m m' e, Mdp.GridReach .square 1 3 false m ∧ Env.init m exSpecs = (m', .ok e) ∧
    (e.setAgentPosition "hen" (-9)).2 = .error .indexError ∧
    ∃ a ∈ (e.run [.setAgentPosition "hen" (-9)]).agents, a.name = "hen" ∧ a.position = 2 ∧
      (∀ s, s < 3 → (e.run [.setAgentPosition "hen" (-9)]).mdp.features.get
        (m.features.d0 - m.nAgents + a.idx) s = 0) ∧
      ∀ b ∈ (e.run [.setAgentPosition "hen" (-9)]).agents, ∀ f, b.consumed f = 0 := by
  obtain ⟨m, m', e, h1, h2, h3⟩ := exStart
    (fun e => decide ((e.setAgentPosition "hen" (-9)).2 = .error .indexError) &&
      (e.run [.setAgentPosition "hen" (-9)]).agents.any fun a => decide (a.name = "hen" ∧ a.position = 2) &&
        (List.range 3).all fun s => decide ((e.run [.setAgentPosition "hen" (-9)]).mdp.features.get
        (e.mdp.features.d0 - e.mdp.nAgents + a.idx) s = 0)) (by decide +kernel)
  rw [Bool.and_eq_true, decide_eq_true_eq, List.any_eq_true] at h3
  obtain ⟨g1, a, g2, h3⟩ := h3
  rw [Bool.and_eq_true, decide_eq_true_eq, List.all_eq_true] at h3
  obtain ⟨⟨g3, g4⟩, g5⟩ := h3
  obtain ⟨-, hok, -, -, -, -, hd, hna, -, -, -, -, -, -, -, hall⟩ := Env.init_facts h1 h2
  refine ⟨m, m', e, h1, h2, g1, a, g2, g3, g4, ?_, ?_⟩
  · have : m.features.d0 - m.nAgents = e.mdp.features.d0 - e.mdp.nAgents := by rw [hd, hna]; omega
    rw [this]; exact fun s hs => of_decide_eq_true (g5 s (List.mem_range.2 hs))
  · intro b hb f
    have hmem : ∀ c ∈ e.agents, ∀ f, c.consumed f = 0 := by
      intro c hc f
      obtain ⟨i, sp, p, r, -, -, -, rfl⟩ := hall c hc
      rfl
    change b ∈ (e.setAgentPosition "hen" (-9)).1.agents at hb
    rcases Env.setAgentPosition_cases hok "hen" (-9) with ⟨-, h4⟩ | ⟨c, hc, -, ⟨j, -, h4⟩ | ⟨-, h4⟩ | ⟨-, h4, -⟩⟩
    · rw [h4] at hb; exact hmem b hb f
    · rw [h4] at g1; cases g1
    · rw [h4] at hb; exact hmem b hb f
    · rw [h4] at hb
      rcases (Env.mem_put (List.mem_map_of_mem (f := (·.name)) hc)).1 hb with rfl | ⟨hb, -⟩
      · exact hmem b hc f
      · exact hmem b hb f

/-- After the fox has eaten the hen: the fox's entry is 1, the hen's is 0 and the fox's count is 1. -/
example : ∃ m m' e, Mdp.GridReach .square 1 3 false m ∧ Env.init m exSpecs = (m', .ok e) ∧
    (∀ sp ∈ exSpecs, ∀ f ∈ sp.consumes, -((m.features.d0 - m.nAgents + exSpecs.length : Nat) : Int) ≤ f) ∧
    (e.run exOps).mdp.features.get 1 2 = 1 ∧ (e.run exOps).mdp.features.get 2 2 = 0 ∧
    (e.run exOps).agents.map (·.consumed 2) = [1, 0] := by
  obtain ⟨m, m', e, h1, h2, h3⟩ := exStart
    (fun e => decide ((e.run exOps).mdp.features.get 1 2 = 1 ∧ (e.run exOps).mdp.features.get 2 2 = 0 ∧
      (e.run exOps).agents.map (·.consumed 2) = [1, 0])) (by decide +kernel)
  refine ⟨m, m', e, h1, h2, ?_, of_decide_eq_true h3⟩
  intro sp hsp f hf
  have : (0 : Int) ≤ f := by
    simp only [exSpecs, List.mem_cons, List.not_mem_nil, or_false] at hsp
    rcases hsp with rfl | rfl <;> (simp at hf; try omega)
  omega

/-! ## C42 the other agents -/

/-- A call about one agent leaves everything about every other agent as it was (for any environment). -/
theorem C42_others (e : Env K δ) (n other : String) (hne : other ≠ n) :
    (∀ o d, (e.fit n o d).1.agent? other = e.agent? other) ∧
    (∀ d, (e.step n d).1.agent? other = e.agent? other) ∧
    (∀ p d, (e.stepProba n p d).1.agent? other = e.agent? other) ∧
    (∀ s mp t r c orc, (e.stepMulti n s mp t r c orc).1.agent? other = e.agent? other) ∧
    (∀ p, (e.setAgentPosition n p).1.agent? other = e.agent? other) :=
  ⟨fun o d => Env.agent?_fit hne o d, fun d => Env.agent?_step hne d,
    fun p d => Env.agent?_stepProba hne p d, fun s mp t r c orc => Env.agent?_stepMulti hne s mp t r c orc,
    fun p => Env.agent?_setAgentPosition hne p⟩

/-- The hen while the fox moves. -/
example : ∃ m m' e, Mdp.GridReach .square 1 3 false m ∧ Env.init m exSpecs = (m', .ok e) ∧
    ((e.run exOps).agent? "hen").map (·.position) = some 2 ∧
    ((e.run exOps).agent? "fox").map (·.position) = some 2 ∧
    (e.agent? "fox").map (·.position) = some 0 := by
  obtain ⟨m, m', e, h1, h2, h3⟩ := exStart
    (fun e => decide (((e.run exOps).agent? "hen").map (·.position) = some 2 ∧
    ((e.run exOps).agent? "fox").map (·.position) = some 2 ∧
    (e.agent? "fox").map (·.position) = some 0)) (by decide +kernel)
  exact ⟨m, m', e, h1, h2, of_decide_eq_true h3⟩

/-! ## C43 position histories -/

/-- For lists of single calls: the history is the start, followed by what each successful step of the agent
reported since the last reset. -/
theorem C43_history (hm : Mdp.GridReach kind W H selfT m) (hinit : Env.init m specs = (m', .ok e0))
    (hc : ∀ sp ∈ specs, ∀ f ∈ sp.consumes, -((m.features.d0 - m.nAgents + specs.length : Nat) : Int) ≤ f)
    (ops : List (EnvOp K δ)) (hops : ∀ op ∈ ops, Spec.Single op) (n : String) (p0 : Int)
    (hp : (e0.agent? n).map (·.position) = some p0) :
    (e0.run ops).getHistory n = .ok (Spec.record n p0 e0 [p0] ops) := by
  obtain ⟨-, hok, -, -, -, -, -, -, -, -, -, -, -, -, -, hall⟩ := Env.init_facts hm hinit
  obtain ⟨h1, -⟩ := Env.started hm hinit ops
  cases ha : e0.agent? n with
  | none => rw [ha] at hp; cases hp
  | some a =>
    rw [ha] at hp
    simp only [Option.map_some, Option.some.injEq] at hp
    obtain ⟨hmem, rfl⟩ := Env.agent?_mem ha
    have := Env.history_run ops e0 hok (Env.validConsumes_init hm hinit hc) a hmem hops
    obtain ⟨i, sp, p, r, -, -, -, rfl⟩ := hall a hmem
    simp only [Env.newAgent] at hp
    subst hp
    cases hb : (e0.run ops).agent? sp.name with
    | none =>
      simp only [Env.newAgent] at this
      rw [hb] at this; cases this
    | some b =>
      simp only [Env.newAgent] at this
      rw [hb] at this
      simp only [Option.map_some, Option.some.injEq] at this
      unfold Env.getHistory
      simp only [Env.newAgent]
      rw [(Env.lookup_ok h1).2 (Env.agent?_mem hb)]
      simp only [this]

/-- `step_multi` is, for the environment, a list of single calls: fits and steps of the named agent. So
every history is covered by `C43_history`. -/
theorem C43_step_multi (e : Env K δ) (n : String) (s : Env.StepsArg) (mp : Option (List Nat)) (nT : Nat)
    (refit stop : Bool) (orc : Nat → Env.StepOracle K δ) :
    ∃ calls : List (EnvOp K δ), (∀ op ∈ calls, (∃ o d, op = .fit n o d) ∨ ∃ d, op = .step n d) ∧
      (e.stepMulti n s mp nT refit stop orc).1 = e.run calls :=
  Env.stepMulti_calls e n s mp nT refit stop orc

/-- Any history leaves the environment that some list of single calls leaves. -/
theorem C43_all_histories (e : Env K δ) (ops : List (EnvOp K δ)) :
    ∃ calls : List (EnvOp K δ), (∀ op ∈ calls, Spec.Single op) ∧ e.run ops = e.run calls :=
  Env.run_single ops e

/-- A history with steps, a move by hand and a reset in it. -/
example : ∃ m m' e, Mdp.GridReach .square 1 3 false m ∧ Env.init m exSpecs = (m', .ok e) ∧
    (e.agent? "fox").map (·.position) = some 0 ∧ (∀ op ∈ exOps, Spec.Single op) ∧
    Spec.record "fox" 0 e [0] (exOps ++ [.setAgentPosition "fox" 0]) = [0, 1, 2] ∧
    Spec.record "fox" 0 e [0] (exOps ++ [.reset, .step "fox" fun _ => 0]) = [0, 1] := by
  obtain ⟨m, m', e, h1, h2, h3⟩ := exStart
    (fun e => decide ((e.agent? "fox").map (·.position) = some 0 ∧
      Spec.record "fox" 0 e [0] (exOps ++ [.setAgentPosition "fox" 0]) = [0, 1, 2] ∧
      Spec.record "fox" 0 e [0] (exOps ++ [.reset, .step "fox" fun _ => 0]) = [0, 1])) (by decide +kernel)
  obtain ⟨h4, h5, h6⟩ := of_decide_eq_true h3
  exact ⟨m, m', e, h1, h2, h4, by simp [exOps, Spec.Single], h5, h6⟩

/-! ## C44 reset -/

/-- After any history `reset` succeeds, the features are those right after construction, and every agent
is back where it was then, with a history of one entry and no policy. -/
theorem C44_reset (hm : Mdp.GridReach kind W H selfT m) (hinit : Env.init m specs = (m', .ok e0))
    (hne : specs ≠ []) (ops : List (EnvOp K δ)) :
    (e0.run ops).reset.2 = .ok () ∧
    (e0.run ops).reset.1.mdp.features = e0.mdp.features ∧
    ∀ a0 ∈ e0.agents, ∃ a, (e0.run ops).reset.1.agent? a0.name = some a ∧ a.position = a0.position ∧
      a.history = [a0.position] ∧ a.pi = none ∧ a.piP = none := by
  obtain ⟨-, hok, -, -, -, ho, -, -, -, -, -, -, -, -, -, hall⟩ := Env.init_facts hm hinit
  obtain ⟨h1, hl⟩ := Env.started hm hinit ops
  rw [(Env.reset_eq h1).1]
  refine ⟨rfl, ?_, fun a0 ha0 => ?_⟩
  · change (e0.run ops).mdp.originalFeatures = _
    rw [Env.orig_run ops hok, ho hne]
  · obtain ⟨a, ha, hn, -, hs, -⟩ := hl.agents a0 ha0
    refine ⟨Env.resetAgent a, (Env.agent?_eq (Env.reset_eq h1).2.nodup).2
      ⟨List.mem_map_of_mem (f := Env.resetAgent) ha, hn⟩, ?_⟩
    obtain ⟨i, sp, p, r, -, -, -, rfl⟩ := hall a0 ha0
    exact ⟨hs, by simp only [Env.resetAgent, hs]; rfl, rfl, rfl⟩

/-- A reset that has something to undo. -/
example : ∃ m m' e, Mdp.GridReach .square 1 3 false m ∧ Env.init m exSpecs = (m', .ok e) ∧ exSpecs ≠ [] ∧
    e.mdp.features.get 0 2 = 1 ∧ (e.run exOps).mdp.features.get 0 2 = 0 ∧
    (e.run exOps).reset.1.mdp.features.get 0 2 = 1 := by
  obtain ⟨m, m', e, h1, h2, h3⟩ := exStart
    (fun e => decide (e.mdp.features.get 0 2 = 1 ∧ (e.run exOps).mdp.features.get 0 2 = 0 ∧
    (e.run exOps).reset.1.mdp.features.get 0 2 = 1)) (by decide +kernel)
  exact ⟨m, m', e, h1, h2, by simp [exSpecs], of_decide_eq_true h3⟩

/-! ## C45 reset and the counters -/

/-- The claim fails in general: `reset` leaves the step count and every consumption record as they are. -/
theorem C45_refuted (hm : Mdp.GridReach kind W H selfT m) (hinit : Env.init m specs = (m', .ok e0))
    (ops : List (EnvOp K δ)) :
    (e0.run ops).reset.1.nSteps = (e0.run ops).nSteps ∧
    (e0.run ops).reset.1.agents.map (·.consumed) = (e0.run ops).agents.map (·.consumed) := by
  obtain ⟨h1, -⟩ := Env.started hm hinit ops
  rw [(Env.reset_eq h1).1]
  refine ⟨rfl, ?_⟩
  simp only [Env.resetEnv, List.map_map]
  rfl

/-- A run after which both are non-zero. -/
theorem C45_refuted_witness : ∃ m m' e, Mdp.GridReach .square 1 3 false m ∧ Env.init m exSpecs = (m', .ok e) ∧
    (e.run exOps).reset.1.nSteps = 2 ∧ (e.run exOps).reset.1.agents.map (·.consumed 0) = [1, 0] := by
  obtain ⟨m, m', e, h1, h2, h3⟩ := exStart
    (fun e => decide ((e.run exOps).reset.1.nSteps = 2 ∧
      (e.run exOps).reset.1.agents.map (·.consumed 0) = [1, 0])) (by decide +kernel)
  exact ⟨m, m', e, h1, h2, of_decide_eq_true h3⟩

/-- Calls that move nobody. -/
def Spec.Still : EnvOp K δ → Prop
  | .step .. => False
  | .stepProba .. => False
  | .stepMulti .. => False
  | _ => True

/-- What remains true: the counters are zero after `reset` if no agent has stepped at all since
construction. Missing: every other history. -/
theorem C45_partial (hm : Mdp.GridReach kind W H selfT m) (hinit : Env.init m specs = (m', .ok e0))
    (ops : List (EnvOp K δ)) (hops : ∀ op ∈ ops, Spec.Still op) :
    (e0.run ops).reset.1.nSteps = 0 ∧ ∀ a ∈ (e0.run ops).reset.1.agents, ∀ f, a.consumed f = 0 := by
  obtain ⟨-, hok, -, -, h0, -, -, -, -, -, -, -, -, -, -, hall⟩ := Env.init_facts hm hinit
  have key : ∀ (ops : List (EnvOp K δ)) (e : Env K δ), (∀ op ∈ ops, Spec.Still op) → Env.Ok kind W H selfT e →
      e.nSteps = 0 → (∀ a ∈ e.agents, ∀ f, a.consumed f = 0) →
      (e.run ops).nSteps = 0 ∧ ∀ a ∈ (e.run ops).agents, ∀ f, a.consumed f = 0 := by
    intro ops
    induction ops with
    | nil => intro e _ _ h1 h2; exact ⟨h1, h2⟩
    | cons op ops ih =>
      intro e hs h h1 h2
      have hput : ∀ {m : Mdp K} {a a' : Agent K δ}, a ∈ e.agents → a'.name = a.name →
          a'.consumed = a.consumed → (e.put m a').nSteps = 0 ∧
          ∀ b ∈ (e.put m a').agents, ∀ f, b.consumed f = 0 := by
        intro m a a' ha hn hc
        refine ⟨h1, fun b hb f => ?_⟩
        rcases (Env.mem_put (by rw [hn]; exact List.mem_map_of_mem (f := (·.name)) ha)).1 hb with rfl | ⟨hb, -⟩
        · rw [hc]; exact h2 a ha f
        · exact h2 b hb f
      have hst : (e.apply op).nSteps = 0 ∧ ∀ a ∈ (e.apply op).agents, ∀ f, a.consumed f = 0 := by
        have hop := hs op List.mem_cons_self
        cases op with
        | fit n o d =>
          simp only [Env.apply]
          rcases Env.fit_cases h n o d with ⟨-, h3⟩ | ⟨a, h3, -, h4⟩
          · rw [h3]; exact ⟨h1, h2⟩
          · rw [h4]
            exact hput h3 (Agent.fit_same a e.mdp o d).1.name (Agent.fit_same a e.mdp o d).1.consumed
        | step n d => exact absurd hop (by simp [Spec.Still])
        | stepProba n p d => exact absurd hop (by simp [Spec.Still])
        | stepMulti n s p t r c o => exact absurd hop (by simp [Spec.Still])
        | stepMultiInteractive n m =>
          simp only [Env.apply, Env.stepMultiInteractive]
          split
          · exact ⟨h1, h2⟩
          · exact ⟨h1, h2⟩
          · split_ifs
            · exact ⟨h1, h2⟩
            · split <;> exact ⟨h1, h2⟩
        | reset =>
          simp only [Env.apply]
          rw [(Env.reset_eq h).1]
          refine ⟨h1, fun a ha f => ?_⟩
          obtain ⟨b, hb, rfl⟩ := List.mem_map.1 ha
          exact h2 b hb f
        | setAgentPosition n p =>
          simp only [Env.apply]
          rcases Env.setAgentPosition_cases h n p with ⟨-, h3⟩ | ⟨a, h3, -, ⟨j, -, h4⟩ | ⟨-, h4⟩ | ⟨-, h4, -⟩⟩
          · rw [h3]; exact ⟨h1, h2⟩
          · rw [h4]; exact hput h3 rfl rfl
          · rw [h4]; exact ⟨h1, h2⟩
          · rw [h4]; exact hput h3 rfl rfl
        | setWalls w => exact ⟨h1, h2⟩
        | addWallXY x y => exact ⟨h1, h2⟩
        | resetWalls => exact ⟨h1, h2⟩
        | setAlgorithm n st =>
          simp only [Env.apply]
          rcases Env.setAlgorithm_cases h n st with ⟨-, h3⟩ | ⟨a, h3, -, h4⟩
          · rw [h3]; exact ⟨h1, h2⟩
          · rw [h4]; exact hput h3 rfl rfl
      exact ih (e.apply op) (fun o ho => hs o (List.mem_cons_of_mem _ ho)) (Env.Ok.run [op] e h) hst.1 hst.2
  obtain ⟨h1, h2⟩ := key ops e0 hops hok h0 (fun a ha f => by
    obtain ⟨i, sp, p, r, -, -, -, rfl⟩ := hall a ha; rfl)
  obtain ⟨h3, -⟩ := Env.started hm hinit ops
  rw [(Env.reset_eq h3).1]
  refine ⟨h1, fun a ha f => ?_⟩
  obtain ⟨b, hb, rfl⟩ := List.mem_map.1 ha
  exact h2 b hb f

example : ∀ op ∈ [EnvOp.fit "fox" exFit (fun _ => 0), .setAgentPosition "fox" 1, .reset],
    Spec.Still (K := Rat) (δ := Nat) op := by
  simp [Spec.Still]

/-! ## C46 conservation -/

/-- Between any two moments without a `reset` in between, the states carrying a feature of the MDP's own
plus the times it has been consumed by all agents together stay the same. -/
theorem C46_conservation (hm : Mdp.GridReach kind W H selfT m) (hinit : Env.init m specs = (m', .ok e0))
    (hc : ∀ sp ∈ specs, ∀ f ∈ sp.consumes, -((m.features.d0 - m.nAgents + specs.length : Nat) : Int) ≤ f)
    (ops1 ops2 : List (EnvOp K δ)) (hops : EnvOp.reset ∉ ops2) (f : Nat) (hf : f < m.features.d0 - m.nAgents) :
    Spec.consumedTotal (e0.run (ops1 ++ ops2)) f + Spec.carrying (e0.run (ops1 ++ ops2)).mdp f =
      Spec.consumedTotal (e0.run ops1) f + Spec.carrying (e0.run ops1).mdp f := by
  obtain ⟨-, hok, -, -, -, -, hd, hna, -⟩ := Env.init_facts hm hinit
  obtain ⟨h1, hl⟩ := Env.started hm hinit ops1
  rw [Env.run_append]
  exact Env.cons_run h1 ((Env.validConsumes_init hm hinit hc).later hok h1 hl) ops2 hops
    (by rw [hl.d0, hl.nAgents, hd, hna]; omega)

/-- From construction: what has been consumed plus what remains is what the MDP started with. -/
theorem C46_from_start (hm : Mdp.GridReach kind W H selfT m) (hinit : Env.init m specs = (m', .ok e0))
    (hc : ∀ sp ∈ specs, ∀ f ∈ sp.consumes, -((m.features.d0 - m.nAgents + specs.length : Nat) : Int) ≤ f)
    (ops : List (EnvOp K δ)) (hops : EnvOp.reset ∉ ops) (f : Nat) (hf : f < m.features.d0 - m.nAgents) :
    Spec.consumedTotal (e0.run ops) f + Spec.carrying (e0.run ops).mdp f = Spec.carrying m f := by
  have h := C46_conservation hm hinit hc [] ops hops f hf
  obtain ⟨-, -, -, -, -, -, -, -, hst, -, -, -, hown, -, -, hall⟩ := Env.init_facts hm hinit
  simp only [List.nil_append] at h
  rw [h]
  have h1 : Spec.consumedTotal (e0.run []) f = 0 := by
    unfold Spec.consumedTotal
    rw [List.sum_eq_zero]
    intro x hx
    obtain ⟨a, ha, rfl⟩ := List.mem_map.1 hx
    obtain ⟨i, sp, p, r, -, -, -, rfl⟩ := hall a ha
    rfl
  rw [h1, Nat.zero_add]
  change Spec.carrying e0.mdp f = _
  unfold Spec.carrying
  rw [hst]
  congr 1
  apply Finset.filter_congr
  intro s _
  rw [hown f s hf]

/-- Consumed counts never decrease, over any history. -/
theorem C46_monotone (hm : Mdp.GridReach kind W H selfT m) (hinit : Env.init m specs = (m', .ok e0))
    (ops1 ops2 : List (EnvOp K δ)) (a : Agent K δ) (ha : a ∈ (e0.run ops1).agents) :
    ∃ a' ∈ (e0.run (ops1 ++ ops2)).agents, a'.name = a.name ∧ ∀ f, a.consumed f ≤ a'.consumed f := by
  obtain ⟨h1, -⟩ := Env.started hm hinit ops1
  obtain ⟨a', h2, h3, -, -, -, -, -, -, -, h4⟩ := (Env.later_run ops2 h1).agents a ha
  rw [Env.run_append]
  exact ⟨a', h2, h3, h4⟩

/-- One state carries feature 0 at first, none after the fox has consumed it once. -/
example : ∃ m m' e, Mdp.GridReach .square 1 3 false m ∧ Env.init m exSpecs = (m', .ok e) ∧
    EnvOp.reset ∉ exOps ∧ Spec.carrying e.mdp 0 = 1 ∧ Spec.carrying (e.run exOps).mdp 0 = 0 ∧
    Spec.consumedTotal (e.run exOps) 0 = 1 := by
  obtain ⟨m, m', e, h1, h2, h3⟩ := exStart
    (fun e => decide (Spec.carrying e.mdp 0 = 1 ∧ Spec.carrying (e.run exOps).mdp 0 = 0 ∧
    Spec.consumedTotal (e.run exOps) 0 = 1)) (by decide +kernel)
  exact ⟨m, m', e, h1, h2, by simp [exOps], of_decide_eq_true h3⟩

/-! ## C47 unknown names -/

theorem C47_unknown (hm : Mdp.GridReach kind W H selfT m) (hinit : Env.init m specs = (m', .ok e0))
    (ops : List (EnvOp K δ)) (n : String) (hn : n ∉ specs.map (·.name)) (e : Env K δ) (he : e = e0.run ops) :
    (∀ o d, e.fit n o d = (e, .error .valueError)) ∧
    (∀ d, e.step n d = (e, .error .valueError)) ∧
    (∀ p d, e.stepProba n p d = (e, .error .valueError)) ∧
    (∀ s mp t r c orc, e.stepMulti n s mp t r c orc = (e, .error .valueError)) ∧
    (∀ p, e.setAgentPosition n p = (e, .error .valueError)) ∧
    e.getHistory n = .error .valueError ∧ e.getQValues n = .error .valueError ∧
    e.getPi n = .error .valueError ∧ e.getPiP n = .error .valueError := by
  obtain ⟨-, -, -, hnames, -⟩ := Env.init_facts hm hinit
  obtain ⟨-, hl⟩ := Env.started hm hinit ops
  have h : e.lookup n = .error .valueError := by
    unfold Env.lookup
    rw [if_pos]
    rw [he, hl.names, hnames]; exact hn
  refine ⟨fun o d => ?_, fun d => ?_, fun p d => ?_, fun s mp t r c orc => ?_, fun p => ?_, ?_, ?_, ?_, ?_⟩
  · unfold Env.fit; rw [h]
  · unfold Env.step; rw [h]
  · unfold Env.stepProba; rw [h]
  · unfold Env.stepMulti; rw [h]
  · unfold Env.setAgentPosition; rw [h]
  · unfold Env.getHistory; rw [h]
  · unfold Env.getQValues; rw [h]
  · unfold Env.getPi; rw [h]
  · unfold Env.getPiP; rw [h]

/-- Known names are found: none of these calls fails because of the name. -/
theorem C47_known (hm : Mdp.GridReach kind W H selfT m) (hinit : Env.init m specs = (m', .ok e0))
    (ops : List (EnvOp K δ)) (n : String) (hn : n ∈ specs.map (·.name)) :
    ∃ h, (e0.run ops).getHistory n = .ok h := by
  obtain ⟨-, -, -, hnames, -⟩ := Env.init_facts hm hinit
  obtain ⟨h1, hl⟩ := Env.started hm hinit ops
  obtain ⟨a, ha, han⟩ := List.mem_map.1 ((h1.names n).1 (by rw [hl.names, hnames]; exact hn))
  unfold Env.getHistory
  rw [(Env.lookup_ok h1).2 ⟨ha, han⟩]
  exact ⟨_, rfl⟩

example : "wolf" ∉ exSpecs.map (·.name) ∧ "fox" ∈ exSpecs.map (·.name) := by decide

/-! ## C48 stepping before fitting -/

/-- An agent given with an unfitted algorithm, after any history that does not fit it: stepping it raises
and leaves the environment exactly as it was; asking for its policy raises, its Q values are `None`. -/
theorem C48_unfitted (hm : Mdp.GridReach kind W H selfT m) (hinit : Env.init m specs = (m', .ok e0))
    (n : String) (hn : n ∈ specs.map (·.name)) (hfresh : ∀ sp ∈ specs, sp.name = n → sp.alg = .fresh)
    (ops : List (EnvOp K δ)) (hops : ∀ op ∈ ops, ¬ Spec.Fits n op) (d : Nat → δ) :
    (e0.run ops).step n d = (e0.run ops, .error .attributeError) ∧
    (e0.run ops).getPi n = .error .attributeError ∧ (e0.run ops).getPiP n = .error .attributeError ∧
    (e0.run ops).getQValues n = .ok none := by
  obtain ⟨-, hok, -, hnames, -, -, -, -, -, -, -, -, -, -, -, hall⟩ := Env.init_facts hm hinit
  obtain ⟨h1, hl⟩ := Env.started hm hinit ops
  obtain ⟨a0, ha0, hn0⟩ := List.mem_map.1 ((hok.names n).1 (by rw [hnames]; exact hn))
  have h2 := Env.alg_run n ops e0 hok hops
  rw [(Env.agent?_eq hok.nodup).2 ⟨ha0, hn0⟩] at h2
  have hf : a0.alg = .fresh := by
    obtain ⟨i, sp, p, r, e1, -, -, rfl⟩ := hall a0 ha0
    exact hfresh sp (List.mem_of_getElem? e1) hn0
  cases ha : (e0.run ops).agent? n with
  | none => rw [ha] at h2; cases h2
  | some a =>
    rw [ha] at h2
    simp only [Option.map_some, Option.some.injEq, hf] at h2
    obtain ⟨hmem, han⟩ := Env.agent?_mem ha
    have hlk := (Env.lookup_ok h1).2 ⟨hmem, han⟩
    refine ⟨?_, ?_, ?_, ?_⟩
    · unfold Env.step
      rw [hlk]
      simp only
      unfold Agent.step
      rw [if_pos (by rw [h2]; rfl)]
      simp only
      rw [Env.put_self h1.nodup hmem]
    · unfold Env.getPi; rw [hlk]; simp [h2, AlgState.fresh]
    · unfold Env.getPiP; rw [hlk]; simp [h2, AlgState.fresh]
    · unfold Env.getQValues; rw [hlk]; simp [h2, AlgState.fresh]

/-- The hen is not fitted by the fox's calls. -/
example : "hen" ∈ exSpecs.map (·.name) ∧ (∀ sp ∈ exSpecs, sp.name = "hen" → sp.alg = .fresh) ∧
    ∀ op ∈ exOps, ¬ Spec.Fits "hen" op := by
  refine ⟨by decide, ?_, ?_⟩
  · intro sp hsp _
    simp only [exSpecs, List.mem_cons, List.not_mem_nil, or_false] at hsp
    rcases hsp with rfl | rfl <;> rfl
  · simp [exOps, Spec.Fits]

end MaMDP
