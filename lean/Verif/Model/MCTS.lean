import Verif.Model.Environment
import Mathlib.Analysis.SpecialFunctions.Sqrt

/-! # Model of `/repo/maMDP/algorithms/mcts.py`

States, features, agents and actions are numbered from 0; a position given by the user may be negative and then counts
from the end, as everywhere in NumPy. Each move of an iteration receives one outcome of the random generator: a number
for uniform choices and a fraction for weighted ones. The two functions that need the real numbers (the square root of
a logarithm in `UCB`, and `softmax`) are arguments; `ucbBonus` and `softmax` are the ones of the code.
Not modelled: `sr` (computed but never used), `verbose`, timing, `solve_all_value_iteration` (unused). -/

namespace MaMDP

variable {K : Type} [Field K] [LinearOrder K] [IsStrictOrderedRing K]

/-- `np.argwhere(sas[node, :, :])` in `get_actions_states` (mcts.py:26-36): the pairs of action and next state with a
non-zero entry, by action, then by state. -/
def actionsStates (M : Trans K) (s : Nat) : List (Nat × Nat) :=
  (List.range M.nA).flatMap fun a => (npWhere M.nS fun t => decide (M.p s a t ≠ 0)).map fun t => (a, t)

/-- The third result of `get_actions_states` (mcts.py:34). -/
def nextStates (M : Trans K) (s : Nat) : List Nat := (actionsStates M s).map (·.2)

/-- `opponent_policy_method`. See mcts.py:80-115. -/
inductive OppPolicy
  | random | solve | other
  deriving DecidableEq

/-- `opponent_algorithm`. See mcts.py:85-96. -/
inductive OppAlg
  | valueIteration | sr | other
  deriving DecidableEq

/-- `opponent_action_selection`. See mcts.py:98-113. -/
inductive OppSelection
  | max | softmax | other
  deriving DecidableEq

/-- A table of action values. See mcts.py:85-96. -/
abbrev QTable (K : Type) := Nat → Nat → Ext K

/-- The settings of the search (mcts.py:242-270). `bonus n k` is `sqrt(2 * log(n) / (1 + k))`, `none` for NaN; `soft`
is the softmax of a row. -/
structure MctsOpts (K : Type) where
  interactive : Bool
  C : K
  caughtCost : K
  policy : OppPolicy
  algorithm : OppAlg
  selection : OppSelection
  temperature : K
  caching : Bool
  returnOthers : Bool
  viMaxIter : Nat
  viDiscount : K
  viTol : K
  bonus : Nat → Nat → Option K
  soft : Nat → (Nat → WithBot (WithTop K)) → K → Nat → Ext K

/-- `sqrt(2 * log(n) / (1 + k))` as in `UCB` (mcts.py:143-145): for `n = 0` the logarithm is -inf and the root NaN. -/
noncomputable def ucbBonus (n k : Nat) : Option ℝ :=
  if n = 0 then none else some (Real.sqrt (2 * Real.log n / (1 + k)))

/-- One outcome of the random generator. See mcts.py:23, 103, 175, 191. -/
structure Draw (K : Type) where
  pick : Nat
  u : K

/-- The action values used by an opponent (mcts.py:85-96): given ones, or those of value iteration. -/
def opponentQ (o : MctsOpts K) (M : Trans K) (nF : Nat) (w : Nat → K) (features : Nat → Nat → K)
    (q : Option (QTable K)) : Py (QTable K) :=
  match q with
  | some q => .ok q
  | none => match o.algorithm with
    | .valueIteration =>
      match solveHard M (stateReward nF w features) o.viMaxIter o.viDiscount o.viTol with
      | .error e => .error e
      | .ok (_, q) => .ok q
    | .sr => .error .notImplementedError
    | .other => .error .valueError

/-- The action chosen by an opponent (mcts.py:98-113). A softmax that is not finite does not arise from value
iteration with a positive temperature. -/
def opponentAction (o : MctsOpts K) (M : Trans K) (q : QTable K) (s : Nat) (d : Draw K) : Py Nat :=
  if o.selection = .max ∨ o.temperature = 0 then
    if M.nA = 0 then .error .valueError
    else randomMax M.nA (fun a => (q s a).clean) d.pick
  else match o.selection with
    | .softmax =>
      match finRow M.nA (o.soft M.nA (fun a => (q s a).clean) o.temperature) with
      | none => .error .valueError
      | some p => randChoiceNb M.nA p d.u
    | _ => .error .notImplementedError

/-- `get_opponent_next_state` (mcts.py:39-122). -/
def opponentNext (o : MctsOpts K) (M : Trans K) (nF : Nat) (w : Nat → K) (features : Nat → Nat → K) (s : Nat)
    (q : Option (QTable K)) (d : Draw K) : Py (Nat × Option (QTable K)) :=
  let r : Py (Nat × Option (QTable K)) := match o.policy with
    | .random => match rngChoice (nextStates M s) d.pick with
      | .error e => .error e
      | .ok t => .ok (t, q)
    | .solve => match opponentQ o M nF w features q with
      | .error e => .error e
      | .ok q => match opponentAction o M q s d with
        | .error e => .error e
        | .ok a => .ok (npArgmax M.nS (M.p s a), some q)
    | .other => .error .notImplementedError
  match r with
  | .error e => .error e
  | .ok (t, q) =>
    if (List.range M.nA).any fun a => decide (0 < M.p s a t) then .ok (t, q) else .error .assertionError

/-- `UCB` (mcts.py:125-147) of state `s` seen from `node`. -/
def ucb (bonus : Nat → Nat → Option K) (V : Nat → K) (N : Nat → Nat) (C : K) (node s : Nat) : Option K :=
  (bonus (N node) (N s)).map fun b => V s / (1 + (N s : K)) + C * b

/-- `np.argmax` of a vector that may contain NaN: the first NaN, otherwise the first maximum. See mcts.py:187. -/
def argmaxNan (n : Nat) (f : Nat → Option K) : Nat :=
  match (List.range n).find? fun i => (f i).isNone with
  | some i => i
  | none => npArgmax n fun i => (f i).getD 0

/-- `MCTS_next_node` (mcts.py:150-193). -/
def nextNode (bonus : Nat → Nat → Option K) (expand : Bool) (V : Nat → K) (N : Nat → Nat) (states : List Nat) (C : K)
    (node : Nat) (d : Nat) : Py (Nat × Bool) :=
  if expand ∧ states.any (fun s => decide (N s = 0)) then
    match rngChoice (states.filter fun s => decide (N s = 0)) d with
    | .error e => .error e
    | .ok t => .ok (t, false)
  else if expand then
    match states[argmaxNan states.length fun i => ucb bonus V N C node (states.getD i 0)]? with
    | none => .error .valueError
    | some t => .ok (t, expand)
  else match rngChoice states d with
    | .error e => .error e
    | .ok t => .ok (t, expand)

/-- The loop of `check_agent_overlap` (mcts.py:221-238) over the pairs of consuming and consumed agent. The result is
the added reward, who is active, and whether the primary agent was caught. -/
def overlapLoop (nodes : Nat → Int) (cost : K) (values : Nat → K) :
    List (Nat × Nat) → K → (Nat → Bool) → K × (Nat → Bool) × Bool
  | [], added, active => (added, active, false)
  | (i, j) :: l, added, active =>
    if nodes i = nodes j then
      let active := upd1 active j false
      if j = 0 then (added + cost, active, true)
      else overlapLoop nodes cost values l (if i = 0 then added + values j else added) active
    else overlapLoop nodes cost values l added active

/-- `np.where(consumes_agents)` (mcts.py:219): the pairs by consumer, then by consumed. -/
def agentPairs (n : Nat) (consumes : Nat → Nat → Bool) : List (Nat × Nat) :=
  (List.range n).flatMap fun i => (npWhere n (consumes i)).map fun j => (i, j)

/-- `check_agent_overlap` (mcts.py:196-238). -/
def checkOverlap (n : Nat) (consumes : Nat → Nat → Bool) (nodes : Nat → Int) (cost : K) (active : Nat → Bool)
    (values : Nat → K) : K × (Nat → Bool) × Bool :=
  overlapLoop nodes cost values (agentPairs n consumes) 0 active

/-- What an iteration knows about the agents (arguments of `mcts_iteration`, mcts.py:242-270): number, starting nodes,
who consumes whom and what, the value of each to the primary agent (number 0), reward weights, and feature row. All
reward functions have one entry per feature. -/
structure SimAgents (K : Type) where
  n : Nat
  nodes : Nat → Int
  consumesAgents : Nat → Nat → Bool
  consumesFeatures : Nat → Nat → Bool
  values : Nat → K
  rewards : Nat → Nat → K
  featIdx : List Nat

/-- Key of the cache (mcts.py:404-414): the nodes of the other agents and the record of consumption of the features
the agent cares about. (For a single feature Python uses its record itself rather than a 1-tuple of it.) -/
abbrev CacheKey := List Int × List (List Int)

/-- Cached action values, one dictionary per agent. See mcts.py:713-715. -/
abbrev QCache (K : Type) := Nat → CacheKey → Option (Option (QTable K))

/-- What a simulated iteration has done so far (mcts.py:316-340): whether it still expands, the reward collected, the
states visited by the primary agent, where everybody is, the features, the states visited by the others, who is still
active, where each feature was consumed, and the cache. -/
structure Sim (K : Type) where
  expand : Bool
  acc : K
  visited : List Nat
  nodes : Nat → Int
  features : Nat → Nat → K
  others : Nat → List Nat
  active : Nat → Bool
  consumed : Nat → List Int
  cache : QCache K

/-- The start of an iteration (mcts.py:316-340). -/
def Sim.start (nodes : Nat → Int) (features : Nat → Nat → K) (cache : QCache K) : Sim K :=
  { expand := true, acc := 0, visited := [], nodes := nodes, features := features, others := fun _ => []
    active := fun _ => true, consumed := fun _ => [], cache := cache }

/-- `agent_preferences[actor]` (mcts.py:342-345). -/
def preferences (A : SimAgents K) (nF a : Nat) : List Nat := npWhere nF fun f => decide (A.rewards a f ≠ 0)

/-- The key for the moving agent `a` (mcts.py:404-409); `itemgetter()` without arguments raises `TypeError`. -/
def cacheKey (A : SimAgents K) (nF a : Nat) (st : Sim K) : Py CacheKey :=
  if preferences A nF a = [] then .error .typeError
  else .ok (((List.range A.n).filter fun b => b ≠ a).map st.nodes, (preferences A nF a).map st.consumed)

/-- An active opponent's move (mcts.py:401-460): its next node, and the new cache. -/
def opponentMove (o : MctsOpts K) (M : Trans K) (A : SimAgents K) (nF a : Nat) (d : Draw K) (st : Sim K)
    (here : Nat) : Py (Nat × QCache K) :=
  match cacheKey A nF a st with
  | .error e => .error e
  | .ok key =>
    match (if o.caching then st.cache a key else none) with
    | some q => match opponentNext o M nF (A.rewards a) st.features here q d with
      | .error e => .error e
      | .ok (t, _) => .ok (t, st.cache)
    | none => match opponentNext o M nF (A.rewards a) st.features here none d with
      | .error e => .error e
      | .ok (t, q) => .ok (t, if o.caching then
          fun b k => if b = a ∧ k = key then some q else st.cache b k
        else st.cache)

/-- Consumption after a move to `t` by an active agent `a` (mcts.py:462-483). When recording, `if` on an array with
several entries raises `ValueError`. -/
def consumeAt (caching : Bool) (A : SimAgents K) (nF a : Nat) (st : Sim K) (t : Nat) : Py (Sim K) :=
  let features := fun f s => if A.consumesFeatures a f = true ∧ s = t then 0 else st.features f s
  if caching then match npWhere nF (A.consumesFeatures a) with
    | [] => .ok { st with features := features }
    | [f] => .ok { st with
        features := features
        consumed := if st.features f t ≠ 0 then upd1 st.consumed f (st.consumed f ++ [(t : Int)]) else st.consumed }
    | _ => .error .valueError
  else .ok { st with features := features }

/-- The primary agent's move (mcts.py:380-397, 462-483): it goes to the next node of the search, collects the reward
found there and consumes. -/
def primaryMove (o : MctsOpts K) (M : Trans K) (A : SimAgents K) (nF : Nat) (V : Nat → K) (N : Nat → Nat)
    (d : Draw K) (st : Sim K) (here : Nat) : Py (Sim K) :=
  match nextNode o.bonus st.expand V N (nextStates M here) o.C here d.pick with
  | .error e => .error e
  | .ok (t, expand) =>
    let st' := { st with
      expand := expand, nodes := upd1 st.nodes 0 (t : Int), visited := st.visited ++ [t]
      acc := st.acc + stateReward nF (A.rewards 0) st.features t }
    if st'.active 0 then consumeAt o.caching A nF 0 st' t else .ok st'

/-- The move of another agent `a` (mcts.py:399-483): an active one follows its policy and consumes, an inactive one
stays. -/
def otherMove (o : MctsOpts K) (M : Trans K) (A : SimAgents K) (nF a : Nat) (d : Draw K) (st : Sim K) (here : Nat) :
    Py (Sim K) :=
  if st.active a then match opponentMove o M A nF a d st here with
    | .error e => .error e
    | .ok (t, cache) => consumeAt o.caching A nF a { st with
        nodes := upd1 st.nodes a (t : Int), cache := cache
        others := if o.returnOthers then upd1 st.others a (st.others a ++ [t]) else st.others } t
  else .ok st

/-- The check at the start of a move, in interactive mode only (mcts.py:361-378): the added reward, who is active, and
whether the primary agent was caught. -/
def checkResult (o : MctsOpts K) (A : SimAgents K) (st : Sim K) : K × (Nat → Bool) × Bool :=
  if o.interactive then checkOverlap A.n A.consumesAgents st.nodes o.caughtCost st.active A.values
  else (0, st.active, false)

/-- One move of agent `a` (mcts.py:356-483): mark its node in its feature row, check who is eaten, move. The second
result says that the primary agent was caught, which ends the iteration. (In non-interactive mode `a` is always 0.) -/
def simMove (o : MctsOpts K) (M : Trans K) (A : SimAgents K) (nF : Nat) (V : Nat → K) (N : Nat → Nat) (a : Nat)
    (d : Draw K) (st : Sim K) : Py (Sim K × Bool) :=
  match A.featIdx[a]?, pyIdx M.nS (st.nodes a) with
  | some row, some here =>
    if nF ≤ row then .error .indexError
    else
      let r := checkResult o A st
      let st' := { st with
        features := fun f s => if f = row then (if s = here then 1 else 0) else st.features f s
        acc := st.acc + r.1, active := r.2.1 }
      if r.2.2 then .ok (st', true)
      else match (if a = 0 then primaryMove o M A nF V N d st' here else otherMove o M A nF a d st' here) with
        | .error e => .error e
        | .ok st'' => .ok (st'', false)
  | _, _ => .error .indexError

/-- Who is moving (mcts.py:321, 331, 334, 347): the actor, its moves in the current turn, the turns taken by each
agent, and the total number of moves. -/
structure Clock where
  actor : Nat
  moves : Nat → Nat
  turns : Nat → Nat
  total : Nat

/-- At the start (mcts.py:321-347). -/
def Clock.start : Clock := ⟨0, fun _ => 0, fun _ => 0, 0⟩

/-- `n_moves[actor][current_turns[actor]]` (mcts.py:356, 494). -/
def Clock.planned (plan : List (List Nat)) (c : Clock) : Py Nat :=
  match plan[c.actor]? with
  | none => .error .indexError
  | some l => match l[c.turns c.actor]? with
    | none => .error .indexError
    | some k => .ok k

/-- Counting a move (mcts.py:485-488). -/
def Clock.tick (c : Clock) : Clock :=
  { c with moves := upd1 c.moves c.actor (c.moves c.actor + 1), total := c.total + 1 }

/-- Who moves next (mcts.py:490-505), with `n` agents and `k` moves planned for the actor's turn. -/
def Clock.pass (n k : Nat) (c : Clock) : Clock :=
  if c.moves c.actor = k then
    { c with
      moves := upd1 c.moves c.actor 0, turns := upd1 c.turns c.actor (c.turns c.actor + 1)
      actor := if c.actor < n - 1 then c.actor + 1 else 0 }
  else c

/-- The `while` loop of `mcts_iteration` (mcts.py:353-505), at most `fuel` rounds; `none` if it has not ended then. -/
def simLoop (o : MctsOpts K) (M : Trans K) (A : SimAgents K) (nF : Nat) (V : Nat → K) (N : Nat → Nat)
    (plan : List (List Nat)) (draws : Nat → Draw K) : Nat → Clock → Sim K → Option (Py (Sim K))
  | 0, _, _ => none
  | fuel + 1, c, st =>
    if c.total < (plan.map List.sum).sum then
      match c.planned plan with
      | .error e => some (.error e)
      | .ok k =>
        if 0 < k then match simMove o M A nF V N c.actor (draws c.total) st with
          | .error e => some (.error e)
          | .ok (st, true) => some (.ok st)
          | .ok (st, false) =>
            simLoop o M A nF V N plan draws fuel (if o.interactive then c.tick.pass A.n k else c.tick) st
        else simLoop o M A nF V N plan draws fuel (if o.interactive then c.pass A.n k else c) st
    else some (.ok st)

/-- `mcts_iteration` (mcts.py:242-514). The first two results are the caller's feature array and starting nodes, which
the code copies before changing (mcts.py:320, 322); the third is the outcome. -/
def mctsIteration (o : MctsOpts K) (M : Trans K) (A : SimAgents K) (nF : Nat) (features : Nat → Nat → K)
    (nodes : Nat → Int) (V : Nat → K) (N : Nat → Nat) (plan : List (List Nat)) (cache : QCache K)
    (draws : Nat → Draw K) (fuel : Nat) : (Nat → Nat → K) × (Nat → Int) × Option (Py (Sim K)) :=
  (features, nodes, simLoop o M A nF V N plan draws fuel .start (Sim.start nodes features cache))

/-- One entry of `agent_info` or `opponent_info` (mcts.py:908-929). -/
structure AgentInfo (K : Type) where
  position : Int
  nMoves : Nat
  consumes : List Int
  reward : Arr1 K
  featIdx : Nat

/-- `d[k] = v` on a dictionary in insertion order. See mcts.py:531. -/
def rowSet (d : List (Nat × Nat)) (k v : Nat) : List (Nat × Nat) :=
  if k ∈ d.map (·.1) then d.map fun p => if p.1 = k then (k, v) else p else d ++ [(k, v)]

/-- `agent_idx` (mcts.py:522-531): from feature row to number of the agent. -/
def agentIdx (l : List (AgentInfo K)) : List (Nat × Nat) :=
  (l.zipIdx).foldl (fun d x => rowSet d x.1.featIdx x.2) []

/-- `consumes = np.zeros_like(reward); consumes[list] = 1` (mcts.py:534-535). -/
def consumesRow (n : Nat) (l : List Int) : Py (Nat → Bool) :=
  l.foldlM (m := Except PyErr) (fun row f => match pyIdx n f with
    | none => .error .indexError
    | some i => .ok (upd1 row i true)) fun _ => false

/-- `get_agent_values` (mcts.py:551-568). -/
def agentValues (n : Nat) (idx : List (Nat × Nat)) (reward : Nat → K) : Nat → K :=
  (List.range n).foldl (fun vals a => if a ≠ 0 then
    idx.foldl (fun vals kv => if kv.2 = a then upd1 vals a (reward kv.1) else vals) vals else vals) fun _ => 0

/-- `d.get(k)`. See mcts.py:580-581. -/
def rowGet (d : List (Nat × Nat)) (k : Nat) : Option Nat := (d.find? fun p => p.1 = k).map (·.2)

/-- `get_agent_consumes` (mcts.py:571-585). -/
def agentConsumes (n nF : Nat) (rows : Nat → Nat → Bool) (idx : List (Nat × Nat)) : Nat → Nat → Bool :=
  (List.range n).foldl (fun c a => (npWhere nF (rows a)).foldl (fun c i => match rowGet idx i with
    | some j => upd2 c a j true
    | none => c) c) fun _ _ => false

/-- `extract_all_agent_info` (mcts.py:588-617) with `extract_agent_info` (mcts.py:517-548), for the primary agent and its
opponents in order. `np.stack` needs rows of one length; the value of an opponent is looked up at its feature row. -/
def extractInfo (l : List (AgentInfo K)) : Py (SimAgents K) :=
  match l.mapM (m := Except PyErr) fun i => consumesRow i.reward.d0 i.consumes with
  | .error e => .error e
  | .ok rows => match l with
    | [] => .error .valueError
    | p :: _ =>
      if l.any fun i => decide (i.reward.d0 ≠ p.reward.d0) then .error .valueError
      else if l.tail.any fun i => decide (p.reward.d0 ≤ i.featIdx) then .error .indexError
      else
        let rowAt : Nat → Nat → Bool := fun a => rows.getD a fun _ => false
        .ok {
          n := l.length
          nodes := fun a => (l[a]?.map (·.position)).getD 0
          consumesAgents := agentConsumes l.length p.reward.d0 rowAt (agentIdx l)
          consumesFeatures := rowAt
          values := agentValues l.length (agentIdx l) p.reward.get
          rewards := fun a => ((l[a]?.map (·.reward.get)).getD fun _ => 0)
          featIdx := (agentIdx l).map (·.1) }

/-- The tables of the search with its cache and its records (mcts.py:710-719). -/
structure Search (K : Type) where
  V : Nat → K
  N : Nat → Nat
  cache : QCache K
  visited : List (List Nat)
  others : List (Nat → List Nat)

/-- Backpropagation (mcts.py:756-759). -/
def backprop (r : K) (visited : List Nat) (VN : (Nat → K) × (Nat → Nat)) : (Nat → K) × (Nat → Nat) :=
  visited.foldl (fun p v => (upd1 p.1 v (p.1 v + r), upd1 p.2 v (p.2 v + 1))) VN

/-- The loop of `run_mcts` (mcts.py:721-765): `k` iterations left, the next one is number `i`. The caller's arrays are
threaded through. The records are kept whether or not they are asked for. -/
def runLoop (o : MctsOpts K) (M : Trans K) (A : SimAgents K) (nF : Nat) (plan : List (List Nat))
    (draws : Nat → Nat → Draw K) (fuel : Nat) :
    Nat → Nat → (Nat → Nat → K) → (Nat → Int) → Search K → (Nat → Nat → K) × (Nat → Int) × Option (Py (Search K))
  | 0, _, features, nodes, s => (features, nodes, some (.ok s))
  | k + 1, i, features, nodes, s =>
    match mctsIteration o M A nF features nodes s.V s.N plan s.cache (draws i) fuel with
    | (features, nodes, none) => (features, nodes, none)
    | (features, nodes, some (.error e)) => (features, nodes, some (.error e))
    | (features, nodes, some (.ok st)) =>
      runLoop o M A nF plan draws fuel k (i + 1) features nodes
        { V := (backprop st.acc st.visited (s.V, s.N)).1
          N := (backprop st.acc st.visited (s.V, s.N)).2
          cache := st.cache
          visited := s.visited ++ [st.visited]
          others := s.others ++ [st.others] }

/-- Fresh tables (mcts.py:710-719). -/
def Search.fresh (cache : QCache K) : Search K := ⟨fun _ => 0, fun _ => 0, cache, [], []⟩

/-- `run_mcts` (mcts.py:621-770) after extracting the agents. Without `n_moves` the plan consists of the agents' plain
numbers of moves, and `sum` of an int raises `TypeError` in the first iteration. -/
def runMcts (o : MctsOpts K) (M : Trans K) (A : SimAgents K) (nF nIter : Nat) (features : Nat → Nat → K)
    (plan : Option (List (List Nat))) (cache : QCache K) (draws : Nat → Nat → Draw K) (fuel : Nat) :
    (Nat → Nat → K) × (Nat → Int) × Option (Py (Search K)) :=
  match plan with
  | some plan => runLoop o M A nF plan draws fuel nIter 0 features A.nodes (Search.fresh cache)
  | none => (features, A.nodes,
      if nIter = 0 then some (.ok (Search.fresh cache)) else some (.error .typeError))

/-- `get_MCTS_action_values` (mcts.py:773-780): actions with their values. -/
def mctsActionValues (M : Trans K) (V : Nat → K) (N : Nat → Nat) (s : Nat) : List (Nat × K) :=
  (actionsStates M s).map fun x => (x.1, V x.2 / (1 + (N x.2 : K)))

/-- The Q table built at the end of `MCTS._fit` (mcts.py:995-998). -/
def mctsQ (M : Trans K) (V : Nat → K) (N : Nat → Nat) (s : Nat) : QTable K :=
  (mctsActionValues M V N s).foldl (fun q x => upd2 q s x.1 (.fin x.2)) fun _ _ => .nan

/-- `create_agent_info` (mcts.py:892-931): the agent itself, then in interactive mode the others in order. -/
def Env.agentInfos {δ : Type} (e : Env K δ) (a : Agent K δ) (interactive : Bool) (w : Arr1 K) : List (AgentInfo K) :=
  ⟨a.position, a.nMoves, a.consumes, w, a.featIdx⟩ ::
    if interactive then (e.agents.filter fun b => b.name ≠ a.name).map fun b =>
      ⟨b.position, b.nMoves, b.consumes, b.reward, b.featIdx⟩
    else []

/-- `MCTS._fit` (mcts.py:933-1000) of agent `a` in environment `e`: the state values and Q table. -/
def Env.mctsFit {δ : Type} (e : Env K δ) (a : Agent K δ) (o : MctsOpts K) (nIter : Nat)
    (plan : Option (List (List Nat))) (cache : QCache K) (draws : Nat → Nat → Draw K) (fuel : Nat) (w : Arr1 K) :
    Option (Py (PyArr (Ext K) × PyArr (Ext K))) :=
  match extractInfo (e.agentInfos a o.interactive w) with
  | .error err => some (.error err)
  | .ok A => match (runMcts o e.mdp.trans A w.d0 nIter e.mdp.features.get plan cache draws fuel).2.2 with
    | none => none
    | some (.error err) => some (.error err)
    | some (.ok s) => match pyIdx e.mdp.nStates a.position with
      | none => some (.error .indexError)
      | some here => some (.ok (.of1 ⟨e.mdp.nStates, fun t => .fin (s.V t)⟩,
          .of2 ⟨e.mdp.nStates, e.mdp.nActions, mctsQ e.mdp.trans s.V s.N here⟩))

end MaMDP
