import Verif.Model.Algorithm
import Verif.Model.ActionSelection

/-! # Model of `/repo/maMDP/agents.py` and `/repo/maMDP/environments.py`

An agent's planning algorithm enters through what its `_fit` returns: every call that fits takes an
arbitrary function from the checked reward array to an outcome (`FitOut`), so the theorems hold for
every algorithm whose `_fit` does not itself modify the environment (true of all algorithms in the
repository). Every call that recomputes a policy takes the generator's outcomes, one per state. -/

namespace MaMDP

variable {K : Type} [Field K] [LinearOrder K] [IsStrictOrderedRing K] {δ : Type}

/-- What a call of the algorithm's `_fit` does, as a function of the reward array. See base.py:50-52. -/
abbrev FitOut (K : Type) := Arr1 K → Py (PyArr (Ext K) × PyArr (Ext K))

/-- Product of extended floats. See agents.py:220. -/
def Ext.mul : Ext K → Ext K → Ext K
  | .nan, _ => .nan
  | _, .nan => .nan
  | .fin x, .fin y => .fin (x * y)
  | .fin x, .pinf => if 0 < x then .pinf else if x < 0 then .ninf else .nan
  | .fin x, .ninf => if 0 < x then .ninf else if x < 0 then .pinf else .nan
  | .pinf, .fin y => if 0 < y then .pinf else if y < 0 then .ninf else .nan
  | .ninf, .fin y => if 0 < y then .ninf else if y < 0 then .pinf else .nan
  | .pinf, .pinf => .pinf
  | .pinf, .ninf => .ninf
  | .ninf, .pinf => .ninf
  | .ninf, .ninf => .pinf

/-- `position > 0`. See agents.py:215. -/
def Ext.isPos : Ext K → Bool
  | .fin x => decide (0 < x)
  | .pinf => true
  | _ => false

/-- An `AttachedAgent` (agents.py:64-102). `consumed` is indexed by feature row; `start` is
`__starting_position` (set once, by the first assignment of the position); `n_moves` is a natural
number. Not modelled: back references and the stored keyword arguments. -/
structure Agent (K δ : Type) where
  name : String
  nMoves : Nat
  reward : Arr1 K
  consumes : List Int
  consumed : Nat → Nat
  selector : Selector K δ
  idx : Nat
  featIdx : Nat
  alg : AlgState K
  start : Int
  position : Int
  history : List Int
  pi : Option (Arr1 Int)
  piP : Option (Arr2 (Ext K))

namespace Agent

/-- The `position` setter (agents.py:137-149). Formatting the message of the intended `ValueError`
itself raises `IndexError` (two placeholders, one argument). -/
def setPosition (a : Agent K δ) (m : Mdp K) (p : Int) : Mdp K × Agent K δ × Py Unit :=
  if (m.nStates : Int) ≤ p then (m, a, .error .indexError)
  else match m.updateAgentFeature a.idx p with
    | (m', .error e) => (m', a, .error e)
    | (m', .ok ()) => (m', { a with position := p }, .ok ())

/-- `get_policy` (agents.py:151-154): probabilities first, then actions. -/
def getPolicy (a : Agent K δ) (draws : Nat → δ) : Agent K δ × Py Unit :=
  match a.alg.qValues with
  | none => (a, .error .typeError)
  | some q => match a.selector.piP q with
    | .error e => (a, .error e)
    | .ok P => match a.selector.pi q draws with
      | .error e => ({ a with piP := some P }, .error e)
      | .ok p => ({ a with piP := some P, pi := some p }, .ok ())

/-- `AttachedAgent.fit` (agents.py:156-162). -/
def fit (a : Agent K δ) (m : Mdp K) (out : FitOut K) (draws : Nat → δ) : Agent K δ × Py Unit :=
  match algFit out m.nFeatures m.nStates m.nActions (.of1 a.reward) a.alg with
  | (st, .error e) => ({ a with alg := st }, .error e)
  | (st, .ok ()) => getPolicy { a with alg := st } draws

/-- `AttachedAgent.step` (agents.py:164-179). -/
def step (a : Agent K δ) (m : Mdp K) (draws : Nat → δ) : Mdp K × Agent K δ × Py Unit :=
  if a.alg.fitComplete = false then (m, a, .error .attributeError)
  else match a.getPolicy draws with
    | (a, .error e) => (m, a, .error e)
    | (a, .ok ()) => match a.pi with
      | none => (m, a, .error .typeError)
      | some pi => match pyIdx pi.d0 a.position with
        | none => (m, a, .error .indexError)
        | some s =>
          if pi.get s < 0 then (m, a, .error .valueError)
          else match m.getNextState a.position (pi.get s) with
            | .error e => (m, a, .error e)
            | .ok t => match a.setPosition m t with
              | (m, a, .error e) => (m, a, .error e)
              | (m, a, .ok ()) =>
                let a := { a with history := a.history ++ [a.position] }
                match m.updateAgentFeature a.idx a.position with
                | (m, .error e) => (m, a, .error e)
                | (m, .ok ()) => (m, a, .ok ())

/-- `position / position.sum()` (agents.py:201), entrywise; dividing by 0 gives infinities or NaN. -/
def normalise (p : Arr1 K) : Nat → Ext K := fun s =>
  if npSum p.d0 p.get ≠ 0 then .fin (p.get s / npSum p.d0 p.get)
  else if 0 < p.get s then .pinf else if p.get s < 0 then .ninf else .nan

/-- The double loop of `step_proba` (agents.py:217-220): `next_states_p[next_state] = ...` assigns,
so later writes to the same state replace earlier ones. -/
def probaLoop (m : Mdp K) (P : Arr2 (Ext K)) (pos : Nat → Ext K) :
    List (Nat × Nat) → (Nat → Ext K) → Py (Nat → Ext K)
  | [], out => .ok out
  | (s, a) :: l, out => match m.getNextState s a with
    | .error e => .error e
    | .ok t => probaLoop m P pos l (upd1 out t (Ext.mul (P.get s a) (pos s)))

/-- The starting distribution of `step_proba` (agents.py:195-197). -/
def probaStart (a : Agent K δ) (m : Mdp K) (position : Option (Arr1 K)) : Py (Arr1 K) :=
  match position with
  | some p => .ok p
  | none => match pyIdx m.nStates a.position with
    | none => .error .indexError
    | some s => .ok ⟨m.nStates, fun t => if t = s then 1 else 0⟩

/-- `AttachedAgent.step_proba` (agents.py:181-222). The warning is not modelled. -/
def stepProba (a : Agent K δ) (m : Mdp K) (position : Option (Arr1 K)) (draws : Nat → δ) :
    Agent K δ × Py (Arr1 (Ext K)) :=
  match a.probaStart m position with
  | .error e => (a, .error e)
  | .ok p =>
    if p.d0 ≠ m.nStates then (a, .error .assertionError)
    else if a.alg.fitComplete = false then (a, .error .attributeError)
    else match a.getPolicy draws with
      | (a, .error e) => (a, .error e)
      | (a, .ok ()) => match a.piP with
        | none => (a, .error .typeError)
        | some P =>
          let pos := normalise p
          let pairs := (npWhere m.nStates fun s => Ext.isPos (pos s)).flatMap fun s =>
            (List.range P.d1).map fun x => (s, x)
          match probaLoop m P pos pairs (fun _ => .fin 0) with
          | .error e => (a, .error e)
          | .ok out => (a, .ok ⟨m.nStates, out⟩)

/-- `AttachedAgent.reset` (agents.py:225-229). -/
def reset (a : Agent K δ) (m : Mdp K) : Mdp K × Agent K δ × Py Unit :=
  match a.setPosition m a.start with
  | (m, a, .error e) => (m, a, .error e)
  | (m, a, .ok ()) => (m, { a with pi := none, piP := none, history := [a.start] }, .ok ())

/-- `Environment._consume_features` (environments.py:230-242), for the agent that just moved. -/
def consume (a : Agent K δ) (m : Mdp K) : Mdp K × Agent K δ × Py Unit :=
  if a.consumes = [] then (m, a, .ok ())
  else match m.consumeFeatures a.consumes a.position with
    | (m, .error e) => (m, a, .error e)
    | (m, .ok c) => (m, { a with consumed := fun f => a.consumed f + c f }, .ok ())

end Agent

/-- One entry of the `agents` dictionary given to `Environment`: the `Agent` object (agents.py:21-54)
with its start position (`none`: not an int), reward function and consumed features. -/
structure AgentSpec (K δ : Type) where
  name : String
  nMoves : Nat
  selector : Selector K δ
  alg : AlgState K
  position : Option Int
  reward : PyArr K
  consumes : List Int

/-- An `Environment` object (environments.py:44-75). `agents` is the dictionary in insertion order. -/
structure Env (K δ : Type) where
  mdp : Mdp K
  agentNames : List String
  agents : List (Agent K δ)
  nSteps : Nat

namespace Env

/-- `self.__agents[a.name] = a`: replaces the entry with that name or appends. See environments.py:155. -/
def insertAgent (l : List (Agent K δ)) (a : Agent K δ) : List (Agent K δ) :=
  if a.name ∈ l.map (·.name) then l.map fun b => if b.name = a.name then a else b
  else l ++ [a]

/-- `AttachedAgent.__init__` (agents.py:67-102) via `Agent._attach` (agents.py:56-61). -/
def attach (m : Mdp K) (n : Nat) (sp : AgentSpec K δ) (position : Int) (reward : Arr1 K) :
    Mdp K × Py (Agent K δ) :=
  let featIdx := n + m.nNonAgent
  match m.addAgentFeature position with
  | (m, .error e) => (m, .error e)
  | (m, .ok ()) =>
    let a : Agent K δ := {
      name := sp.name, nMoves := sp.nMoves, reward := reward, consumes := sp.consumes
      consumed := fun _ => 0, selector := sp.selector, idx := n, featIdx := featIdx, alg := sp.alg
      start := position, position := position, history := [position], pi := none, piP := none }
    match a.setPosition m position with
    | (m, _, .error e) => (m, .error e)
    | (m, a, .ok ()) => (m, .ok a)

/-- The checks of one iteration of the loop of `_set_mdp_and_agents` (environments.py:109-150). -/
def checkSpec (nF nAgents : Nat) (sp : AgentSpec K δ) : Py (Int × Arr1 K) :=
  match sp.reward with
  | .notArray => .error .typeError
  | .nd shape get => match shape with
    | [n] => match sp.position with
      | none => .error .typeError
      | some p =>
        if n ≠ nF + nAgents then .error .attributeError
        else if ∃ f ∈ sp.consumes, (n : Int) - 1 < f then .error .valueError
        else .ok (p, ⟨n, fun i => get [i]⟩)
    | _ => .error .attributeError

/-- The loop of `_set_mdp_and_agents` (environments.py:104-155), starting at agent number `n`. -/
def attachLoop (nF nAgents : Nat) : Nat → List (AgentSpec K δ) → Mdp K → List (Agent K δ) →
    Mdp K × Py (List (Agent K δ))
  | _, [], m, as => (m, .ok as)
  | n, sp :: sps, m, as => match checkSpec nF nAgents sp with
    | .error e => (m, .error e)
    | .ok (p, r) => match attach m n sp p r with
      | (m, .error e) => (m, .error e)
      | (m, .ok a) => attachLoop nF nAgents (n + 1) sps m (insertAgent as a)

/-- `Environment.__init__` (environments.py:45-75) with `_set_mdp_and_agents` (85-155). The result
also contains the MDP object left behind when an exception is raised. -/
def init (m : Mdp K) (specs : List (AgentSpec K δ)) : Mdp K × Py (Env K δ) :=
  let r : Mdp K × Py Unit := if 0 < m.nAgents then m.removeAgentFeatures else (m, .ok ())
  match r with
  | (m, .error e) => (m, .error e)
  | (m, .ok ()) => match attachLoop m.nFeatures specs.length 0 specs m [] with
    | (m, .error e) => (m, .error e)
    | (m, .ok as) => (m, .ok ⟨m, specs.map (·.name), as, 0⟩)

/-- `self.agents[name]`. See environments.py:182, 199. -/
def agent? (e : Env K δ) (name : String) : Option (Agent K δ) := e.agents.find? fun a => a.name = name

/-- Store an agent's new state and the MDP's. See environments.py:182, 199. -/
def put (e : Env K δ) (m : Mdp K) (a : Agent K δ) : Env K δ :=
  { e with mdp := m, agents := e.agents.map fun b => if b.name = a.name then a else b }

/-- `_check_agent_name` (environments.py:157-165) followed by the dictionary lookup. -/
def lookup (e : Env K δ) (name : String) : Py (Agent K δ) :=
  if name ∉ e.agentNames then .error .valueError
  else match e.agent? name with
    | none => .error .keyError
    | some a => .ok a

/-- `Environment.fit` (environments.py:167-182). -/
def fit (e : Env K δ) (name : String) (out : FitOut K) (draws : Nat → δ) : Env K δ × Py Unit :=
  match e.lookup name with
  | .error err => (e, .error err)
  | .ok a => match a.fit e.mdp out draws with
    | (a, r) => (e.put e.mdp a, r)

/-- `Environment.step` (environments.py:184-206). -/
def step (e : Env K δ) (name : String) (draws : Nat → δ) : Env K δ × Py Int :=
  match e.lookup name with
  | .error err => (e, .error err)
  | .ok a => match a.step e.mdp draws with
    | (m, a, .error err) => (e.put m a, .error err)
    | (m, a, .ok ()) => match a.consume m with
      | (m, a, .error err) => (e.put m a, .error err)
      | (m, a, .ok ()) => ({ e.put m a with nSteps := e.nSteps + 1 }, .ok a.position)

/-- `Environment.step_proba` (environments.py:208-228). -/
def stepProba (e : Env K δ) (name : String) (position : Option (Arr1 K)) (draws : Nat → δ) :
    Env K δ × Py (Arr1 (Ext K)) :=
  match e.lookup name with
  | .error err => (e, .error err)
  | .ok a => match a.stepProba e.mdp position draws with
    | (a, .error err) => (e.put e.mdp a, .error err)
    | (a, .ok p) => ({ e.put e.mdp a with nSteps := e.nSteps + 1 }, .ok p)

/-- `_check_agents_caught` (environments.py:244-254) for agent `a`. -/
def caught (e : Env K δ) (a : Agent K δ) : Bool :=
  a.consumes.any fun f => e.agents.any fun b =>
    decide ((b.featIdx : Int) = f) && decide (a.position = b.position)

/-- `get_n_moves_plan` (environments.py:10-41). `np.split` into 0 parts divides by zero; the two
assertions at the end are kept. -/
def movesPlan (currentMove nTurns nMoves total : Nat) : Py (List Nat) :=
  if nMoves ≤ currentMove then .error .valueError
  else if nTurns = 0 then .error .zeroDivisionError
  else
    let arr : Nat → Nat := fun i => if currentMove ≤ i ∧ i < currentMove + total then 1 else 0
    let plan := (List.range nTurns).map fun t => npSum nMoves fun i => arr (t * nMoves + i)
    if ¬ plan.sum ≤ total then .error .assertionError
    else if plan.length ≠ nTurns then .error .assertionError
    else .ok plan

/-- `_get_all_agents_n_steps(primary_agent)` (environments.py:256-269): the `n_moves` of the primary
agent, then those of the others in order. -/
def allSteps (e : Env K δ) (primary : String) : Py (List Nat) :=
  (primary :: e.agentNames.filter fun n => n ≠ primary).mapM (m := Except PyErr) fun n =>
    match e.agent? n with
    | none => .error .keyError
    | some a => .ok a.nMoves

/-- The plan passed to `fit` in step `i` of `step_multi` (environments.py:368-390): agent 0 starts at
its `i`-th move, the others at their first. `n_agent_steps[j]` beyond its end raises `IndexError`. -/
def stepPlan (i nTurns : Nat) (nAgentSteps : List Nat) : Nat → List Nat → Py (List (List Nat))
  | _, [] => .ok []
  | j, total :: rest => match nAgentSteps[j]? with
    | none => .error .indexError
    | some n => match movesPlan (if j = 0 then i else 0) nTurns n total with
      | .error e => .error e
      | .ok p => match stepPlan i nTurns nAgentSteps (j + 1) rest with
        | .error e => .error e
        | .ok ps => .ok (p :: ps)

/-- What the outside world contributes to step number `i` of `step_multi`: what the algorithm returns
for the given plan, and the generator's outcomes for the fit and for the step. See environments.py:361-395. -/
structure StepOracle (K δ : Type) where
  out : List (List Nat) → FitOut K
  fitDraws : Nat → δ
  draws : Nat → δ

/-- The refit part of step `i` of `step_multi` (environments.py:366-392). -/
def refitFor (e : Env K δ) (name : String) (nAgentSteps movesPlan : List Nat) (nTurns : Nat) (refit : Bool)
    (orc : StepOracle K δ) (i : Nat) : Env K δ × Py Unit :=
  if refit then match stepPlan i nTurns nAgentSteps 0 movesPlan with
    | .error err => (e, .error err)
    | .ok plan => e.fit name (orc.out plan) orc.fitDraws
  else (e, .ok ())

/-- The loop of `step_multi` (environments.py:365-404): `k` steps left, the next one is number `i`.
`none` stands for the returned `False`. -/
def stepLoop (name : String) (nAgentSteps movesPlan : List Nat) (nTurns : Nat) (refit stop : Bool)
    (orc : Nat → StepOracle K δ) : Nat → Nat → Env K δ → List Int → Env K δ × Py (Option (List Int))
  | 0, _, e, acc => (e, .ok (some acc))
  | k + 1, i, e, acc =>
    match e.refitFor name nAgentSteps movesPlan nTurns refit (orc i) i with
    | (e, .error err) => (e, .error err)
    | (e, .ok ()) => match e.step name (orc i).draws with
      | (e, .error err) => (e, .error err)
      | (e, .ok _) => match e.lookup name with
        | .error err => (e, .error err)
        | .ok a =>
          if e.caught a && stop then (e, .ok none)
          else stepLoop name nAgentSteps movesPlan nTurns refit stop orc k (i + 1) e (acc ++ [a.position])

/-- The `n_steps` argument of `step_multi`. See environments.py:340-350. -/
inductive StepsArg
  | default
  | int (k : Nat)
  | list (l : List Nat)

/-- The number of steps to make (environments.py:340-347). -/
def StepsArg.count (agentMoves : Nat) : StepsArg → Py Nat
  | .default => .ok agentMoves
  | .int k => .ok k
  | .list [] => .error .indexError
  | .list (k :: _) => .ok k

/-- `Environment.step_multi` (environments.py:272-404). -/
def stepMulti (e : Env K δ) (name : String) (nSteps : StepsArg) (nMovesPlan : Option (List Nat))
    (nTurnsPlan : Nat) (refit stop : Bool) (orc : Nat → StepOracle K δ) :
    Env K δ × Py (Option (List Int)) :=
  match e.lookup name with
  | .error err => (e, .error err)
  | .ok a => match e.allSteps name with
    | .error err => (e, .error err)
    | .ok nAgentSteps =>
      let plan := nMovesPlan.getD nAgentSteps
      if plan.length ≠ e.agents.length then (e, .error .valueError)
      else match nSteps.count a.nMoves with
        | .error err => (e, .error err)
        | .ok k =>
          if ¬ ∀ x ∈ plan, 0 < x then (e, .error .valueError)
          else stepLoop name nAgentSteps plan nTurnsPlan refit stop orc k 0 e []

/-- `Environment.step_multi_interactive` (environments.py:406-508). Without `n_moves` the name
`agent_name` is read before assignment. The call of `step_multi` (488-497) gives `n_steps` twice (and
the unknown keyword `adjust_planning_steps`), which raises `TypeError` before anything happens.
`names = none` is the default; `n_moves[n][t]` is evaluated before the call. -/
def stepMultiInteractive (e : Env K δ) (names : Option (List String)) (nMoves : Option (List (List Nat))) :
    Env K δ × Py Unit :=
  match nMoves with
  | none => (e, .error .unboundLocalError)
  | some [] => (e, .error .indexError)
  | some (n0 :: _) =>
    let names := names.getD e.agentNames
    if ∃ n ∈ names, n ∉ e.agentNames then (e, .error .valueError)
    else match n0, names with
      | [], _ => (e, .ok ())
      | _, [] => (e, .ok ())
      | _ :: _, _ :: _ => (e, .error .typeError)

/-- The agent loop of `Environment.reset` (environments.py:515-516). -/
def resetLoop : List (Agent K δ) → Mdp K → Mdp K × List (Agent K δ) × Py Unit
  | [], m => (m, [], .ok ())
  | a :: as, m => match a.reset m with
    | (m, a, .error e) => (m, a :: as, .error e)
    | (m, a, .ok ()) => match resetLoop as m with
      | (m, as, r) => (m, a :: as, r)

/-- `Environment.reset` (environments.py:510-517). -/
def reset (e : Env K δ) : Env K δ × Py Unit :=
  match resetLoop e.agents e.mdp with
  | (m, as, .error err) => ({ e with mdp := m, agents := as }, .error err)
  | (m, as, .ok ()) => match m.reset with
    | (m, r) => ({ e with mdp := m, agents := as }, r)

/-- `Environment.set_agent_position` (environments.py:519-529). -/
def setAgentPosition (e : Env K δ) (name : String) (p : Int) : Env K δ × Py Unit :=
  match e.lookup name with
  | .error err => (e, .error err)
  | .ok a => match a.setPosition e.mdp p with
    | (m, a, r) => (e.put m a, r)

/-- Setting `env.agents[name].algorithm` (agents.py:104-112), or changing that object without going through the agent: its
`reset` (base.py:80-88) or its `fit` (base.py:25-69), also a `fit` of a tree searcher that fails after having forgotten
everything (mcts.py:941). `st` is what the algorithm stores afterwards. -/
def setAlgorithm (e : Env K δ) (name : String) (st : AlgState K) : Env K δ × Py Unit :=
  match e.agent? name with
  | none => (e, .error .keyError)
  | some a => (e.put e.mdp { a with alg := st }, .ok ())

/-- `get_agent_position_history` (environments.py:531-543). -/
def getHistory (e : Env K δ) (name : String) : Py (List Int) :=
  match e.lookup name with
  | .error err => .error err
  | .ok a => .ok a.history

/-- `get_agent_q_values` (environments.py:545-557); `none` is Python's `None`. -/
def getQValues (e : Env K δ) (name : String) : Py (Option (Arr2 (Ext K))) :=
  match e.lookup name with
  | .error err => .error err
  | .ok a => .ok a.alg.qValues

/-- `get_agent_pi` (environments.py:559-574). -/
def getPi (e : Env K δ) (name : String) : Py (Option (Arr1 Int)) :=
  match e.lookup name with
  | .error err => .error err
  | .ok a => if a.alg.fitComplete then .ok a.pi else .error .attributeError

/-- `get_agent_pi_p` (environments.py:576-591). -/
def getPiP (e : Env K δ) (name : String) : Py (Option (Arr2 (Ext K))) :=
  match e.lookup name with
  | .error err => .error err
  | .ok a => if a.alg.fitComplete then .ok a.piP else .error .attributeError

/-- Changing walls through the environment's MDP: `env.mdp.walls = w` (mdp.py:108-139). -/
def setWalls (e : Env K δ) (w : Arr1 K) : Env K δ × Py Unit :=
  match e.mdp.setWalls w with
  | (m, r) => ({ e with mdp := m }, r)

/-- `env.mdp.add_wall_xy(x, y)` (mdp.py:390-417). -/
def addWallXY (e : Env K δ) (x y : List Int) : Env K δ × Py Unit :=
  match e.mdp.addWallXY x y with
  | (m, r) => ({ e with mdp := m }, r)

/-- `env.mdp.reset_walls()` (mdp.py:419-421). -/
def resetWalls (e : Env K δ) : Env K δ × Py Unit :=
  match e.mdp.resetWalls with
  | (m, r) => ({ e with mdp := m }, r)

end Env

/-- The calls that can change an environment. See environments.py:167-529. -/
inductive EnvOp (K δ : Type)
  | fit (name : String) (out : FitOut K) (draws : Nat → δ)
  | step (name : String) (draws : Nat → δ)
  | stepProba (name : String) (position : Option (Arr1 K)) (draws : Nat → δ)
  | stepMulti (name : String) (nSteps : Env.StepsArg) (nMovesPlan : Option (List Nat)) (nTurns : Nat)
      (refit stop : Bool) (orc : Nat → Env.StepOracle K δ)
  | stepMultiInteractive (names : Option (List String)) (nMoves : Option (List (List Nat)))
  | reset
  | setAgentPosition (name : String) (p : Int)
  | setAlgorithm (name : String) (st : AlgState K)
  | setWalls (w : Arr1 K)
  | addWallXY (x y : List Int)
  | resetWalls

namespace Env

/-- The environment a call leaves behind, whether or not it raised. See environments.py:167-529. -/
def apply (e : Env K δ) : EnvOp K δ → Env K δ
  | .fit n o d => (e.fit n o d).1
  | .step n d => (e.step n d).1
  | .stepProba n p d => (e.stepProba n p d).1
  | .stepMulti n s p t r c o => (e.stepMulti n s p t r c o).1
  | .stepMultiInteractive n m => (e.stepMultiInteractive n m).1
  | .reset => e.reset.1
  | .setAgentPosition n p => (e.setAgentPosition n p).1
  | .setAlgorithm n st => (e.setAlgorithm n st).1
  | .setWalls w => (e.setWalls w).1
  | .addWallXY x y => (e.addWallXY x y).1
  | .resetWalls => e.resetWalls.1

/-- A history of calls. See environments.py:167-529. -/
def run (e : Env K δ) (ops : List (EnvOp K δ)) : Env K δ := ops.foldl apply e

end Env

end MaMDP
