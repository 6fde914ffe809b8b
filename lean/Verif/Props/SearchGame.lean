import Verif.Lemmas.SearchGame

/-! # Playing by tree search (C148) -/

set_option linter.unusedSectionVars false

namespace MaMDP

variable {K : Type} [Field K] [LinearOrder K] [IsStrictOrderedRing K] {δ : Type}
  {kind : GridKind} {W H : Nat} {selfT : Bool} {m m' : Mdp K} {specs : List (AgentSpec K δ)} {e0 : Env K δ}

/-- **C148**, the selectors: both action selectors can decide. -/
theorem C148_selectors : Spec.Decides (maxSelector (K := K)) (fun _ => True) ∧
    ∀ T : ℝ, 0 < T → Spec.Decides (softmaxSelector T) fun u => 0 ≤ u ∧ u < 1 :=
  ⟨decides_max, decides_softmax⟩

/-- **C148**, one call: `step_multi` with `refit=True` for an agent that plans by tree search and was never fitted, after any
history that left every agent on a state with some possible action. No search runs forever, nothing is raised, and the agent
goes along a path of possible moves: as many as were asked for, whose states are returned; or, if it was asked to stop, until
it catches an agent. Nobody else moves. Opponents are simulated as in C64. -/
theorem C148_turn (hm : Mdp.GridReach kind W H selfT m) (hinit : Env.init m specs = (m', .ok e0))
    (hnd : (specs.map (·.name)).Nodup) (hrows : m.nNonAgent = m.features.d0 - m.nAgents)
    (hcons : ∀ sp ∈ specs, ∀ f ∈ sp.consumes, -((m.features.d0 - m.nAgents + specs.length : Nat) : Int) ≤ f)
    (ops : List (EnvOp K δ)) (e : Env K δ) (he : e = e0.run ops) (a : Agent K δ) (ha : a ∈ e.agents)
    (o : MctsOpts K) (nIter : Nat) (reset : Bool)
    (hlive : ∀ b ∈ e.agents, Spec.Live e.mdp.trans (Spec.stateOf (W * H) b.position))
    (hcares : o.interactive = true → ∀ b ∈ e.agents, b.name ≠ a.name → ∃ f, f < e.mdp.nFeatures ∧ b.reward.get f ≠ 0)
    (hone : o.caching = true → ∀ b ∈ e.agents, ∀ f ∈ b.consumes, ∀ g ∈ b.consumes,
      pyIdx e.mdp.nFeatures f = pyIdx e.mdp.nFeatures g)
    (hpol : o.policy = .random ∨ (o.policy = .solve ∧ o.algorithm = .valueIteration ∧ 0 < o.viDiscount ∧
      o.viDiscount < 1 ∧ 0 < o.viMaxIter ∧ (o.selection = .max ∨ o.temperature = 0)))
    (D : δ → Prop) (hdec : Spec.Decides a.selector D)
    (nSteps : Env.StepsArg) (k : Nat) (hk : Spec.Asks nSteps a.nMoves k) (hle : k ≤ a.nMoves)
    (B : Nat) (hmoves : ∀ b ∈ e.agents, 0 < b.nMoves ∧ b.nMoves ≤ B) (plan : Option (List Nat))
    (hplan : ∀ l, plan = some l → l.length = e.agents.length ∧ ∀ x ∈ l, 0 < x)
    (nTurns : Nat) (hT : 0 < nTurns) (stop : Bool) (orc : Nat → SearchOracle K δ)
    (horc : ∀ i, (∀ s, D ((orc i).fitDraws s)) ∧ (∀ s, D ((orc i).draws s)) ∧
      nTurns * e.agents.length * (B + 1) + 1 ≤ (orc i).fuel) :
    ∃ e' obj' r path a',
      e.stepMultiSearch a.name (.init o nIter reset) nSteps plan nTurns stop orc = some (e', obj', .ok r) ∧
      Spec.Walk e.mdp.trans (Spec.stateOf (W * H) a.position) path ∧ e'.agent? a.name = some a' ∧
      a'.history = a.history ++ path.map (fun (t : Nat) => (t : Int)) ∧
      a'.position = (path.getLast?.elim a.position fun t => (t : Int)) ∧
      ((r = some (path.map fun (t : Nat) => (t : Int)) ∧ path.length = k ∧
          (stop = true → k ≠ 0 → e'.caught a' = false)) ∨
        (r = none ∧ path.length ≤ k ∧ path ≠ [] ∧ stop = true ∧ e'.caught a' = true)) ∧
      (∀ n, n ≠ a.name → e'.agent? n = e.agent? n) ∧ e'.mdp.trans = e.mdp.trans ∧
      ∃ later, e' = e0.run (ops ++ later) := by
  obtain ⟨e', obj', r, path, h1, -, -, h2, ⟨a', h3, h4, h5, h6⟩, h7, h8, -, later, h9⟩ :=
    Env.stepMultiSearch_goes hm hinit hnd hrows hcons ops e he a ha (.init o nIter reset) hlive hcares hone (D := fun _ => True)
      (hpol.imp id fun ⟨h1, h2, h3, h4, h5, h6⟩ => ⟨h1, h2, h3, h4, h5, choiceWorks_max h6 _⟩) hdec
      (MctsObj.usable_init o nIter reset _) nSteps k hk hle (fun b hb => (hmoves b hb).1) plan hplan nTurns hT stop orc B
      (fun b hb => (hmoves b hb).2) (fun i => ⟨fun _ _ => trivial, horc i⟩)
  exact ⟨e', obj', r, path, a', h1, h2, h3, h4, h5, h6, h7, h8, later, by rw [Env.run_append, ← he]; exact h9⟩

/-- **C148**, catching: in a call as in C148_turn for an agent that gives no negative feature numbers, with no agent at a
negative position, a catch is reported exactly if the agent ends on the state of an agent whose feature it consumes. -/
theorem C148_catches (hm : Mdp.GridReach kind W H selfT m) (hinit : Env.init m specs = (m', .ok e0))
    (hnd : (specs.map (·.name)).Nodup) (hrows : m.nNonAgent = m.features.d0 - m.nAgents)
    (hcons : ∀ sp ∈ specs, ∀ f ∈ sp.consumes, -((m.features.d0 - m.nAgents + specs.length : Nat) : Int) ≤ f)
    (ops : List (EnvOp K δ)) (e : Env K δ) (he : e = e0.run ops) (a : Agent K δ) (ha : a ∈ e.agents)
    (o : MctsOpts K) (nIter : Nat) (reset : Bool)
    (hlive : ∀ b ∈ e.agents, Spec.Live e.mdp.trans (Spec.stateOf (W * H) b.position))
    (hcares : o.interactive = true → ∀ b ∈ e.agents, b.name ≠ a.name → ∃ f, f < e.mdp.nFeatures ∧ b.reward.get f ≠ 0)
    (hone : o.caching = true → ∀ b ∈ e.agents, ∀ f ∈ b.consumes, ∀ g ∈ b.consumes,
      pyIdx e.mdp.nFeatures f = pyIdx e.mdp.nFeatures g)
    (hpol : o.policy = .random ∨ (o.policy = .solve ∧ o.algorithm = .valueIteration ∧ 0 < o.viDiscount ∧
      o.viDiscount < 1 ∧ 0 < o.viMaxIter ∧ (o.selection = .max ∨ o.temperature = 0)))
    (D : δ → Prop) (hdec : Spec.Decides a.selector D)
    (nSteps : Env.StepsArg) (k : Nat) (hk : Spec.Asks nSteps a.nMoves k) (hle : k ≤ a.nMoves)
    (B : Nat) (hmoves : ∀ b ∈ e.agents, 0 < b.nMoves ∧ b.nMoves ≤ B) (plan : Option (List Nat))
    (hplan : ∀ l, plan = some l → l.length = e.agents.length ∧ ∀ x ∈ l, 0 < x)
    (nTurns : Nat) (hT : 0 < nTurns) (stop : Bool) (orc : Nat → SearchOracle K δ)
    (horc : ∀ i, (∀ s, D ((orc i).fitDraws s)) ∧ (∀ s, D ((orc i).draws s)) ∧
      nTurns * e.agents.length * (B + 1) + 1 ≤ (orc i).fuel)
    (hnn : ∀ f ∈ a.consumes, 0 ≤ f) (hpos : ∀ b ∈ e.agents, 0 ≤ b.position) (hk0 : k ≠ 0) (hstop : stop = true) :
    ∃ e' obj' r a', e.stepMultiSearch a.name (.init o nIter reset) nSteps plan nTurns stop orc = some (e', obj', .ok r) ∧
      e'.agent? a.name = some a' ∧ (r = none ↔ Spec.Catches e' a') := by
  obtain ⟨e', obj', r, path, a', h1, -, h3, -, h5, h6, h7, -, later, h9⟩ := C148_turn hm hinit hnd hrows hcons ops e he a ha o
    nIter reset hlive hcares hone hpol D hdec nSteps k hk hle B hmoves plan hplan nTurns hT stop orc horc
  refine ⟨e', obj', r, a', h1, h3, ?_⟩
  have hok : Env.Ok kind W H selfT e := by rw [he]; exact (Env.started hm hinit ops).1
  have hok' : Env.Ok kind W H selfT e' := by rw [h9]; exact (Env.started hm hinit _).1
  have hl : Env.Later e e' := by rw [h9, Env.run_append, ← he]; exact Env.later_run later hok
  obtain ⟨ha', hn'⟩ := Env.agent?_mem h3
  have hcs : a'.consumes = a.consumes := by
    obtain ⟨b, hb, b1, -, -, b4, -⟩ := hl.back hok hok' ha'
    rw [b4, Env.eq_of_name hok.nodup hb ha (by rw [← b1, hn'])]
  have hpos' : ∀ b ∈ e'.agents, 0 ≤ b.position := by
    intro b hb
    by_cases hbn : b.name = a.name
    · rw [Env.eq_of_name hok'.nodup hb ha' (by rw [hbn, hn']), h5]
      cases path.getLast? with
      | none => exact hpos a ha
      | some t => exact Int.natCast_nonneg t
    · have := h7 b.name hbn
      rw [(Env.agent?_eq hok'.nodup).2 ⟨hb, rfl⟩] at this
      exact hpos b (Env.agent?_mem this.symm).1
  rw [← C50_partial hm hinit hrows (ops ++ later) e' h9 a' ha' (by rw [hcs]; exact hnn) hpos']
  rcases h6 with ⟨rfl, -, h6⟩ | ⟨rfl, -, -, -, h6⟩
  · simp [h6 hstop hk0]
  · simp [h6]

/-- **C148**, asking for more than a turn: as C148_turn, but with more steps than the agent has moves per turn. The agent makes
all the moves of its turn, and then the call raises `ValueError`; unless it was asked to stop and catches an agent before. -/
theorem C148_too_many (hm : Mdp.GridReach kind W H selfT m) (hinit : Env.init m specs = (m', .ok e0))
    (hnd : (specs.map (·.name)).Nodup) (hrows : m.nNonAgent = m.features.d0 - m.nAgents)
    (hcons : ∀ sp ∈ specs, ∀ f ∈ sp.consumes, -((m.features.d0 - m.nAgents + specs.length : Nat) : Int) ≤ f)
    (ops : List (EnvOp K δ)) (e : Env K δ) (he : e = e0.run ops) (a : Agent K δ) (ha : a ∈ e.agents)
    (o : MctsOpts K) (nIter : Nat) (reset : Bool)
    (hlive : ∀ b ∈ e.agents, Spec.Live e.mdp.trans (Spec.stateOf (W * H) b.position))
    (hcares : o.interactive = true → ∀ b ∈ e.agents, b.name ≠ a.name → ∃ f, f < e.mdp.nFeatures ∧ b.reward.get f ≠ 0)
    (hone : o.caching = true → ∀ b ∈ e.agents, ∀ f ∈ b.consumes, ∀ g ∈ b.consumes,
      pyIdx e.mdp.nFeatures f = pyIdx e.mdp.nFeatures g)
    (hpol : o.policy = .random ∨ (o.policy = .solve ∧ o.algorithm = .valueIteration ∧ 0 < o.viDiscount ∧
      o.viDiscount < 1 ∧ 0 < o.viMaxIter ∧ (o.selection = .max ∨ o.temperature = 0)))
    (D : δ → Prop) (hdec : Spec.Decides a.selector D)
    (nSteps : Env.StepsArg) (k : Nat) (hk : Spec.Asks nSteps a.nMoves k) (hgt : a.nMoves < k)
    (B : Nat) (hmoves : ∀ b ∈ e.agents, 0 < b.nMoves ∧ b.nMoves ≤ B) (plan : Option (List Nat))
    (hplan : ∀ l, plan = some l → l.length = e.agents.length ∧ ∀ x ∈ l, 0 < x)
    (nTurns : Nat) (hT : 0 < nTurns) (stop : Bool) (orc : Nat → SearchOracle K δ)
    (horc : ∀ i, (∀ s, D ((orc i).fitDraws s)) ∧ (∀ s, D ((orc i).draws s)) ∧
      nTurns * e.agents.length * (B + 1) + 1 ≤ (orc i).fuel) :
    ∃ e' obj' r path a',
      e.stepMultiSearch a.name (.init o nIter reset) nSteps plan nTurns stop orc = some (e', obj', r) ∧
      Spec.Walk e.mdp.trans (Spec.stateOf (W * H) a.position) path ∧ e'.agent? a.name = some a' ∧
      a'.history = a.history ++ path.map (fun (t : Nat) => (t : Int)) ∧
      a'.position = (path.getLast?.elim a.position fun t => (t : Int)) ∧
      ((r = .error .valueError ∧ path.length = a.nMoves ∧ (stop = true → e'.caught a' = false)) ∨
        (r = .ok none ∧ path.length ≤ a.nMoves ∧ path ≠ [] ∧ stop = true ∧ e'.caught a' = true)) ∧
      (∀ n, n ≠ a.name → e'.agent? n = e.agent? n) ∧ e'.mdp.trans = e.mdp.trans ∧
      ∃ later, e' = e0.run (ops ++ later) := by
  obtain ⟨e', obj', r, path, a', h1, h2, h3, h4, h5, h6, h7⟩ := C148_turn hm hinit hnd hrows hcons ops e he a ha o nIter reset
    hlive hcares hone hpol D hdec .default a.nMoves (.inl ⟨rfl, rfl⟩) le_rfl B hmoves plan hplan nTurns hT stop orc horc
  have hok : Env.Ok kind W H selfT e := by rw [he]; exact (Env.started hm hinit ops).1
  refine ⟨e', obj', _, path, a',
    Env.stepMultiSearch_more hok a ha _ nSteps k hk hgt plan nTurns stop orc e' obj' r h1, h2, h3, h4, h5, ?_, h7⟩
  rcases h6 with ⟨rfl, g1, g2⟩ | ⟨rfl, g1, g2, g3, g4⟩
  · exact .inl ⟨rfl, g1, fun hs => g2 hs (by have := (hmoves a ha).1; omega)⟩
  · exact .inr ⟨rfl, g1, g2, g3, g4⟩

/-- **C148**, refusals: an unknown name, a plan that does not give a number for every agent, or gives zero for some, an empty
list of numbers of steps. The exception comes before any search begins, and nothing is changed, whatever the agents are. -/
theorem C148_refused (hm : Mdp.GridReach kind W H selfT m) (hinit : Env.init m specs = (m', .ok e0))
    (ops : List (EnvOp K δ)) (e : Env K δ) (he : e = e0.run ops) (n : String) (obj : MctsObj K) (nSteps : Env.StepsArg)
    (nTurns : Nat) (stop : Bool) (orc : Nat → SearchOracle K δ) :
    ((∀ a ∈ e.agents, a.name ≠ n) → ∀ plan,
      e.stepMultiSearch n obj nSteps plan nTurns stop orc = some (e, obj, .error .valueError)) ∧
    ((∃ a ∈ e.agents, a.name = n) → ∀ l, l.length ≠ e.agents.length →
      e.stepMultiSearch n obj nSteps (some l) nTurns stop orc = some (e, obj, .error .valueError)) ∧
    ((∃ a ∈ e.agents, a.name = n) → nSteps ≠ .list [] → ∀ l, l.length = e.agents.length → 0 ∈ l →
      e.stepMultiSearch n obj nSteps (some l) nTurns stop orc = some (e, obj, .error .valueError)) ∧
    ((∃ a ∈ e.agents, a.name = n) → ∀ l, l.length = e.agents.length →
      e.stepMultiSearch n obj (.list []) (some l) nTurns stop orc = some (e, obj, .error .indexError)) := by
  have hok : Env.Ok kind W H selfT e := by rw [he]; exact (Env.started hm hinit ops).1
  have hsteps : ∀ a ∈ e.agents, a.name = n → e.lookup n = .ok a ∧ ∃ nas, e.allSteps n = .ok nas := by
    intro a ha han
    obtain ⟨nas, h1, -⟩ := Env.allSteps_ok hok ((hok.names n).2 (List.mem_map.2 ⟨a, ha, han⟩))
    exact ⟨(Env.lookup_ok hok).2 ⟨ha, han⟩, nas, h1⟩
  refine ⟨fun h plan => ?_, fun ⟨a, ha, han⟩ l hl => ?_, fun ⟨a, ha, han⟩ hne l hl h0 => ?_, fun ⟨a, ha, han⟩ l hl => ?_⟩
  · have : e.lookup n = .error .valueError := by
      unfold Env.lookup
      rw [if_pos]
      intro hc
      obtain ⟨a, ha, han⟩ := List.mem_map.1 ((hok.names n).1 hc)
      exact h a ha han
    unfold Env.stepMultiSearch
    rw [this]
  · obtain ⟨h1, nas, h2⟩ := hsteps a ha han
    unfold Env.stepMultiSearch
    simp only [h1, h2, Option.getD_some]
    rw [if_pos hl]
  · obtain ⟨h1, nas, h2⟩ := hsteps a ha han
    have hc : ∃ k, nSteps.count a.nMoves = .ok k := by
      rcases nSteps with _ | k | _ | ⟨k, l⟩
      · exact ⟨_, rfl⟩
      · exact ⟨_, rfl⟩
      · exact absurd rfl hne
      · exact ⟨_, rfl⟩
    obtain ⟨k, hk⟩ := hc
    unfold Env.stepMultiSearch
    simp only [h1, h2, hk, Option.getD_some]
    rw [if_neg (fun h => h hl), if_pos (fun h => absurd (h 0 h0) (lt_irrefl 0))]
  · obtain ⟨h1, nas, h2⟩ := hsteps a ha han
    unfold Env.stepMultiSearch
    simp only [h1, h2, Env.StepsArg.count, Option.getD_some]
    rw [if_neg (fun h => h hl)]

/-- **C148**, whole games: any number of such calls one after the other, in any order of the agents, every agent with its own
tree search and its own settings, caches kept or not. No search runs forever and no call raises; every call returns as many
states as were asked for or, if asked to stop, that an agent was caught. In the end every agent has gone along a path of
possible moves from where it was. -/
theorem C148_game (hm : Mdp.GridReach kind W H selfT m) (hinit : Env.init m specs = (m', .ok e0))
    (hnd : (specs.map (·.name)).Nodup) (hrows : m.nNonAgent = m.features.d0 - m.nAgents)
    (hcons : ∀ sp ∈ specs, ∀ f ∈ sp.consumes, -((m.features.d0 - m.nAgents + specs.length : Nat) : Int) ≤ f)
    (ops : List (EnvOp K δ)) (e : Env K δ) (he : e = e0.run ops)
    (o : String → MctsOpts K) (nIter : String → Nat) (reset : String → Bool)
    (hlive : ∀ b ∈ e.agents, Spec.Live e.mdp.trans (Spec.stateOf (W * H) b.position))
    (hcares : ∀ a ∈ e.agents, (o a.name).interactive = true → ∀ b ∈ e.agents, b.name ≠ a.name →
      ∃ f, f < e.mdp.nFeatures ∧ b.reward.get f ≠ 0)
    (hone : ∀ a ∈ e.agents, (o a.name).caching = true → ∀ b ∈ e.agents, ∀ f ∈ b.consumes, ∀ g ∈ b.consumes,
      pyIdx e.mdp.nFeatures f = pyIdx e.mdp.nFeatures g)
    (hpol : ∀ a ∈ e.agents, (o a.name).policy = .random ∨ ((o a.name).policy = .solve ∧
      (o a.name).algorithm = .valueIteration ∧ 0 < (o a.name).viDiscount ∧ (o a.name).viDiscount < 1 ∧
      0 < (o a.name).viMaxIter ∧ ((o a.name).selection = .max ∨ (o a.name).temperature = 0)))
    (D : δ → Prop) (B : Nat)
    (hag : ∀ b ∈ e.agents, 0 < b.nMoves ∧ b.nMoves ≤ B ∧ Spec.Decides b.selector D)
    (turns : List SearchTurn) (orc : Nat → Nat → SearchOracle K δ)
    (hturns : ∀ t ∈ turns, (∃ a ∈ e.agents, a.name = t.name ∧ ∃ k, Spec.Asks t.nSteps a.nMoves k ∧ k ≤ a.nMoves) ∧
      (∀ l, t.nMovesPlan = some l → l.length = e.agents.length ∧ ∀ x ∈ l, 0 < x) ∧ 0 < t.nTurns ∧
      ∀ j i, t.nTurns * e.agents.length * (B + 1) + 1 ≤ (orc j i).fuel)
    (horc : ∀ j i, (∀ s, D ((orc j i).fitDraws s)) ∧ (∀ s, D ((orc j i).draws s))) :
    ∃ e' objs' rs, e.game orc turns 0 (fun n => .init (o n) (nIter n) (reset n)) = some (e', objs', rs) ∧
      List.Forall₂ (fun t r => (t.stop = true ∧ r = .ok none) ∨ ∃ l, r = .ok (some l) ∧
        ∃ a ∈ e.agents, a.name = t.name ∧ Spec.Asks t.nSteps a.nMoves l.length) turns rs ∧
      e'.mdp.trans = e.mdp.trans ∧
      ∀ a ∈ e.agents, ∃ a' ∈ e'.agents, a'.name = a.name ∧ ∃ path : List Nat,
        Spec.Walk e.mdp.trans (Spec.stateOf (W * H) a.position) path ∧
        a'.history = a.history ++ path.map (fun (t : Nat) => (t : Int)) ∧
        a'.position = (path.getLast?.elim a.position fun t => (t : Int)) := by
  obtain ⟨e', objs', rs, h1, h2, h3⟩ := Env.game_goes hm hinit hnd hrows hcons (D := fun _ => True) (Dsel := D) B orc turns 0
    ops e (fun n => .init (o n) (nIter n) (reset n)) he hlive hag hcares hone
    (fun a ha => (hpol a ha).imp id fun ⟨h1, h2, h3, h4, h5, h6⟩ => ⟨h1, h2, h3, h4, h5, choiceWorks_max h6 _⟩)
    (fun a ha => MctsObj.usable_init _ _ _ _) hturns (fun j i => ⟨fun _ _ => trivial, horc j i⟩)
  exact ⟨e', objs', rs, h1, h2, h3.trans, h3.path⟩

/-- The same over the reals, where simulated opponents may also choose by softmax. -/
theorem C148_game_softmax {m m' : Mdp ℝ} {specs : List (AgentSpec ℝ δ)} {e0 : Env ℝ δ}
    (hm : Mdp.GridReach kind W H selfT m) (hinit : Env.init m specs = (m', .ok e0))
    (hnd : (specs.map (·.name)).Nodup) (hrows : m.nNonAgent = m.features.d0 - m.nAgents)
    (hcons : ∀ sp ∈ specs, ∀ f ∈ sp.consumes, -((m.features.d0 - m.nAgents + specs.length : Nat) : Int) ≤ f)
    (ops : List (EnvOp ℝ δ)) (e : Env ℝ δ) (he : e = e0.run ops)
    (o : String → MctsOpts ℝ) (nIter : String → Nat) (reset : String → Bool)
    (hlive : ∀ b ∈ e.agents, Spec.Live e.mdp.trans (Spec.stateOf (W * H) b.position))
    (hcares : ∀ a ∈ e.agents, (o a.name).interactive = true → ∀ b ∈ e.agents, b.name ≠ a.name →
      ∃ f, f < e.mdp.nFeatures ∧ b.reward.get f ≠ 0)
    (hone : ∀ a ∈ e.agents, (o a.name).caching = true → ∀ b ∈ e.agents, ∀ f ∈ b.consumes, ∀ g ∈ b.consumes,
      pyIdx e.mdp.nFeatures f = pyIdx e.mdp.nFeatures g)
    (hpol : ∀ a ∈ e.agents, (o a.name).policy = .random ∨ ((o a.name).policy = .solve ∧
      (o a.name).algorithm = .valueIteration ∧ 0 < (o a.name).viDiscount ∧ (o a.name).viDiscount < 1 ∧
      0 < (o a.name).viMaxIter ∧ ((o a.name).selection = .max ∨ (o a.name).temperature = 0 ∨
        ((o a.name).selection = .softmax ∧ (o a.name).soft = softmax))))
    (D : δ → Prop) (B : Nat)
    (hag : ∀ b ∈ e.agents, 0 < b.nMoves ∧ b.nMoves ≤ B ∧ Spec.Decides b.selector D)
    (turns : List SearchTurn) (orc : Nat → Nat → SearchOracle ℝ δ)
    (hturns : ∀ t ∈ turns, (∃ a ∈ e.agents, a.name = t.name ∧ ∃ k, Spec.Asks t.nSteps a.nMoves k ∧ k ≤ a.nMoves) ∧
      (∀ l, t.nMovesPlan = some l → l.length = e.agents.length ∧ ∀ x ∈ l, 0 < x) ∧ 0 < t.nTurns ∧
      ∀ j i, t.nTurns * e.agents.length * (B + 1) + 1 ≤ (orc j i).fuel)
    (horc : ∀ j i, (∀ x y, 0 ≤ ((orc j i).search x y).u ∧ ((orc j i).search x y).u < 1) ∧
      (∀ s, D ((orc j i).fitDraws s)) ∧ (∀ s, D ((orc j i).draws s))) :
    ∃ e' objs' rs, e.game orc turns 0 (fun n => .init (o n) (nIter n) (reset n)) = some (e', objs', rs) ∧
      List.Forall₂ (fun t r => (t.stop = true ∧ r = .ok none) ∨ ∃ l, r = .ok (some l) ∧
        ∃ a ∈ e.agents, a.name = t.name ∧ Spec.Asks t.nSteps a.nMoves l.length) turns rs ∧
      e'.mdp.trans = e.mdp.trans ∧
      ∀ a ∈ e.agents, ∃ a' ∈ e'.agents, a'.name = a.name ∧ ∃ path : List Nat,
        Spec.Walk e.mdp.trans (Spec.stateOf (W * H) a.position) path ∧
        a'.history = a.history ++ path.map (fun (t : Nat) => (t : Int)) ∧
        a'.position = (path.getLast?.elim a.position fun t => (t : Int)) := by
  obtain ⟨e', objs', rs, h1, h2, h3⟩ := Env.game_goes hm hinit hnd hrows hcons (D := fun d => 0 ≤ d.u ∧ d.u < 1) (Dsel := D) B
    orc turns 0 ops e (fun n => .init (o n) (nIter n) (reset n)) he hlive hag hcares hone
    (fun a ha => (hpol a ha).imp id fun ⟨h1, h2, h3, h4, h5, h6⟩ => ⟨h1, h2, h3, h4, h5, by
      rcases h6 with h6 | h6 | ⟨h6, h7⟩
      · exact choiceWorks_max (.inl h6) _
      · exact choiceWorks_max (.inr h6) _
      · exact choiceWorks_softmax h6 h7⟩)
    (fun a ha => MctsObj.usable_init _ _ _ _) hturns horc
  exact ⟨e', objs', rs, h1, h2, h3.trans, h3.path⟩

/-! ### A game -/

/-- The hen moves, then the fox has two moves but stops when it has caught the hen, then the hen is asked for no step. -/
def exTurns : List SearchTurn :=
  [⟨"hen", .default, none, 2, false⟩, ⟨"fox", .default, some [2, 1], 2, true⟩, ⟨"hen", .int 0, none, 1, true⟩]

/-- Always the first outcome, and just enough rounds. -/
def exFate : Nat → Nat → SearchOracle Rat Nat := fun _ _ => ⟨fun _ _ => ⟨0, 0⟩, 13, fun _ _ => none, fun _ => 0, fun _ => 0⟩

/-- The hen thinks about the fox, the fox only about itself. -/
def exMinds : String → MctsOpts Rat := fun n => { exOpts with interactive := n == "hen" }

/-- The game in the corridor meets the conditions of `C148_game`, and this is how it goes: the hen goes to state 1, where the
fox catches it. -/
example : ∃ (m m' : Mdp Rat) (e : Env Rat Nat), Mdp.GridReach .square 1 3 false m ∧ Env.init m exSpecs = (m', .ok e) ∧
    (exSpecs.map (·.name)).Nodup ∧ m.nNonAgent = m.features.d0 - m.nAgents ∧
    (∀ sp ∈ exSpecs, ∀ f ∈ sp.consumes, -((m.features.d0 - m.nAgents + exSpecs.length : Nat) : Int) ≤ f) ∧
    (∀ b ∈ e.agents, Spec.Live e.mdp.trans (Spec.stateOf (1 * 3) b.position)) ∧
    (∀ b ∈ e.agents, ∃ f, f < e.mdp.nFeatures ∧ b.reward.get f ≠ 0) ∧
    (∀ n, (exMinds n).caching = false ∧ (exMinds n).policy = .solve ∧ (exMinds n).algorithm = .valueIteration ∧
      0 < (exMinds n).viDiscount ∧ (exMinds n).viDiscount < 1 ∧ 0 < (exMinds n).viMaxIter ∧ (exMinds n).selection = .max) ∧
    (∀ b ∈ e.agents, 0 < b.nMoves ∧ b.nMoves ≤ 2 ∧ Spec.Decides b.selector fun _ => True) ∧
    (∀ t ∈ exTurns, (∃ a ∈ e.agents, a.name = t.name ∧ ∃ k, Spec.Asks t.nSteps a.nMoves k ∧ k ≤ a.nMoves) ∧
      (∀ l, t.nMovesPlan = some l → l.length = e.agents.length ∧ ∀ x ∈ l, 0 < x) ∧ 0 < t.nTurns ∧
      ∀ j i, t.nTurns * e.agents.length * (2 + 1) + 1 ≤ (exFate j i).fuel) ∧
    ∃ e' objs', e.game exFate exTurns 0 (fun n => .init (exMinds n) 2 (n == "hen")) =
      some (e', objs', [.ok (some [1]), .ok none, .ok (some [])]) := by
  obtain ⟨m, m', e, h1, h2, h3⟩ := exStart (fun e => decide (e.agents.length = 2 ∧ e.mdp.nNonAgent = 1) && e.agents.all (fun b =>
      ((List.range e.mdp.trans.nA).any fun x => (List.range e.mdp.trans.nS).any fun t =>
        decide (0 < e.mdp.trans.p (Spec.stateOf (1 * 3) b.position) x t)) &&
      (List.range e.mdp.nFeatures).any fun f => decide (b.reward.get f ≠ 0)) &&
      (match e.game exFate exTurns 0 (fun n => .init (exMinds n) 2 (n == "hen")) with
      | some (_, _, [.ok (some [1]), .ok none, .ok (some [])]) => true
      | _ => false)) (by decide +kernel)
  simp only [Bool.and_eq_true, List.all_eq_true, List.any_eq_true, List.mem_range, decide_eq_true_eq] at h3
  obtain ⟨⟨⟨hlen, hnon⟩, hb⟩, hg⟩ := h3
  obtain ⟨-, hok, hval, -, -, -, hd0, hna, -, hnn, -, -, -, -, hags, hag⟩ := Env.init_facts h1 h2
  have hmd : m.features.d0 - m.nAgents = 1 := by
    obtain ⟨⟨g, hg⟩, -, -⟩ := hval _ List.mem_cons_self
    have : (3 : Nat) = m.features.d0 - m.nAgents + 2 := by
      have := (PyArr.nd.inj hg).1
      simpa [exSpecs] using this
    omega
  have hnd : (exSpecs.map (·.name)).Nodup := by decide
  have hsp : ∀ sp ∈ exSpecs, 0 < sp.nMoves ∧ sp.nMoves ≤ 2 ∧ sp.selector = maxSelector := by
    intro sp hsp
    simp only [exSpecs, List.mem_cons, List.not_mem_nil, or_false] at hsp
    rcases hsp with rfl | rfl <;> simp
  have hfox : ∃ a ∈ e.agents, a.name = "fox" ∧ a.nMoves = 2 := by
    have h0 := List.getElem?_eq_getElem (l := e.agents) (i := 0) (by omega)
    obtain ⟨sp, p, r, g1, -, -, g2⟩ := (hags hnd).2 0 _ h0
    cases g1
    exact ⟨_, List.getElem_mem _, by rw [g2]; exact ⟨rfl, rfl⟩⟩
  have hhen : ∃ a ∈ e.agents, a.name = "hen" ∧ a.nMoves = 1 := by
    have h0 := List.getElem?_eq_getElem (l := e.agents) (i := 1) (by omega)
    obtain ⟨sp, p, r, g1, -, -, g2⟩ := (hags hnd).2 1 _ h0
    cases g1
    exact ⟨_, List.getElem_mem _, by rw [g2]; exact ⟨rfl, rfl⟩⟩
  obtain ⟨fox, f1, f2, f3⟩ := hfox
  obtain ⟨hen, g1, g2, g3⟩ := hhen
  refine ⟨m, m', e, h1, h2, hnd, by rw [← hnn, hnon, hmd], ?_, fun b hb' => ?_, fun b hb' => (hb b hb').2, fun n => ?_,
    fun b hb' => ?_, fun t ht => ?_, ?_⟩
  · rw [hmd]
    simp [exSpecs]
  · obtain ⟨⟨x, hx, t, ht, hp⟩, -⟩ := hb b hb'
    exact ⟨x, hx, t, ht, hp⟩
  · exact ⟨rfl, rfl, rfl, by norm_num [exMinds, exOpts], by norm_num [exMinds, exOpts], by norm_num [exMinds, exOpts], rfl⟩
  · obtain ⟨i, sp, p, r, k1, -, -, rfl⟩ := hag b hb'
    obtain ⟨k2, k3, k4⟩ := hsp sp (List.mem_of_getElem? k1)
    exact ⟨k2, k3, by change Spec.Decides sp.selector _; rw [k4]; exact decides_max⟩
  · rw [hlen]
    simp only [exTurns, List.mem_cons, List.not_mem_nil, or_false] at ht
    rcases ht with rfl | rfl | rfl
    · exact ⟨⟨hen, g1, g2, 1, .inl ⟨rfl, g3.symm⟩, g3.ge⟩, fun l hl => (by cases hl), by norm_num, fun _ _ => by simp [exFate]⟩
    · exact ⟨⟨fox, f1, f2, 2, .inl ⟨rfl, f3.symm⟩, f3.ge⟩, fun l hl => (by cases hl; decide), by norm_num, fun _ _ => by simp [exFate]⟩
    · exact ⟨⟨hen, g1, g2, 0, .inr (.inl rfl), Nat.zero_le _⟩, fun l hl => (by cases hl), by norm_num, fun _ _ => by simp [exFate]⟩
  · split at hg
    · exact ⟨_, _, by assumption⟩
    · cases hg

/-- In the same game the hen, which has one move per turn, is asked for three steps: it goes to state 1, then `ValueError`. And
an empty list of numbers of steps, or a plan with a zero, leaves it where it is. -/
example : ∃ (m m' : Mdp Rat) (e : Env Rat Nat), Mdp.GridReach .square 1 3 false m ∧ Env.init m exSpecs = (m', .ok e) ∧
    (∃ e' obj' a', e.stepMultiSearch "hen" (.init (exMinds "hen") 2 true) (.int 3) none 2 false (exFate 0) =
      some (e', obj', .error .valueError) ∧ e'.agent? "hen" = some a' ∧ a'.history = [2, 1]) ∧
    (∃ obj', e.stepMultiSearch "hen" (.init (exMinds "hen") 2 true) (.list []) (some [1, 1]) 2 false (exFate 0) =
      some (e, obj', .error .indexError)) ∧
    (∃ obj', e.stepMultiSearch "hen" (.init (exMinds "hen") 2 true) .default (some [1, 0]) 2 false (exFate 0) =
      some (e, obj', .error .valueError)) := by
  obtain ⟨m, m', e, h1, h2, h3⟩ := exStart (fun e => decide (e.agents.length = 2) &&
      (match e.stepMultiSearch "hen" (.init (exMinds "hen") 2 true) (.int 3) none 2 false (exFate 0) with
      | some (e', _, .error .valueError) => (e'.agent? "hen").any fun a => decide (a.history = [2, 1])
      | _ => false)) (by decide +kernel)
  simp only [Bool.and_eq_true, decide_eq_true_eq] at h3
  obtain ⟨hlen, hg⟩ := h3
  have hhen : ∃ a ∈ e.agents, a.name = "hen" := by
    obtain ⟨-, -, -, -, -, -, -, -, -, -, -, -, -, -, hags, -⟩ := Env.init_facts h1 h2
    have h0 := List.getElem?_eq_getElem (l := e.agents) (i := 1) (by omega)
    obtain ⟨sp, p, r, g1, -, -, g2⟩ := (hags (by decide)).2 1 _ h0
    cases g1
    exact ⟨_, List.getElem_mem _, by rw [g2]; rfl⟩
  refine ⟨m, m', e, h1, h2, ?_, ?_, ?_⟩
  · split at hg
    · rw [Option.any_eq_true] at hg
      obtain ⟨a', g1, g2⟩ := hg
      exact ⟨_, _, a', by assumption, g1, of_decide_eq_true g2⟩
    · cases hg
  · exact ⟨_, (C148_refused h1 h2 [] e rfl "hen" _ .default 2 false (exFate 0)).2.2.2 hhen [1, 1] hlen.symm⟩
  · exact ⟨_, (C148_refused h1 h2 [] e rfl "hen" _ .default 2 false (exFate 0)).2.2.1 hhen (by simp) [1, 0] hlen.symm
      (by simp)⟩

end MaMDP
