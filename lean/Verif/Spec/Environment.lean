import Verif.Model.Environment
import Verif.Spec.Values

/-! # Vocabulary for environments -/

namespace MaMDP.Spec

variable {K : Type} [Field K] [LinearOrder K] [IsStrictOrderedRing K] {δ : Type}

/-- An acceptable agent for an MDP with `nStates` states and `nFeatures` features of its own, in an
environment of `nAgents` agents: a vector reward with one entry per feature and agent, a start that
indexes a state (negative indices count from the end), nothing consumed beyond the last entry. -/
def ValidAgent (nStates nFeatures nAgents : Nat) (sp : AgentSpec K δ) : Prop :=
  (∃ get, sp.reward = .nd [nFeatures + nAgents] get) ∧
  (∃ p : Int, sp.position = some p ∧ -(nStates : Int) ≤ p ∧ p < nStates) ∧
  ∀ f ∈ sp.consumes, f < (nFeatures + nAgents : Nat)

/-- The state a position denotes (negative positions count from the end). -/
def stateOf (nStates : Nat) (p : Int) : Nat := if 0 ≤ p then p.toNat else (p + nStates).toNat

/-- Number of moves with numbers in `[first, first + total)` that fall into turn `t`, when each turn has
`nMoves` moves. -/
def movesInTurn (first total nMoves t : Nat) : Nat :=
  ((List.range nMoves).filter fun i => first ≤ t * nMoves + i ∧ t * nMoves + i < first + total).length

/-- How many states carry feature `f`. -/
def carrying (m : Mdp K) (f : Nat) : Nat :=
  ((Finset.range m.nStates).filter fun s => 0 < m.features.get f s).card

/-- How often feature `f` has been consumed, all agents together. -/
def consumedTotal (e : Env K δ) (f : Nat) : Nat := (e.agents.map fun a => a.consumed f).sum

/-- What an agent's history should be after a call, given what it was before: a successful step adds the
position it reports, `reset` starts again from the starting position, anything else changes nothing. -/
def historyAfter (n : String) (start : Int) (e : Env K δ) (h : List Int) : EnvOp K δ → List Int
  | .step n' d => if n' = n then
      match (e.step n' d).2 with
      | .ok p => h ++ [p]
      | .error _ => h
    else h
  | .reset => [start]
  | _ => h

/-- What an agent's history should be after a list of calls. -/
def record (n : String) (start : Int) : Env K δ → List Int → List (EnvOp K δ) → List Int
  | _, h, [] => h
  | e, h, op :: ops => record n start (e.apply op) (historyAfter n start e h op) ops

/-- Calls other than `step_multi`. -/
def Single : EnvOp K δ → Prop
  | .stepMulti .. => False
  | _ => True

/-- The call fits agent `n`, or changes its algorithm. -/
def Fits (n : String) : EnvOp K δ → Prop
  | .fit n' _ _ => n' = n
  | .stepMulti n' _ _ _ refit _ _ => n' = n ∧ refit = true
  | .setAlgorithm n' _ => n' = n
  | _ => False

/-- No usable estimate: NaN or -inf. -/
def Unusable : Ext K → Prop
  | .nan => True
  | .ninf => True
  | _ => False

/-- The estimates for state `s` are missing exactly for the actions that cannot be taken there. -/
def MaskedAt (M : Trans K) (q : Arr2 (Ext K)) (s : Nat) : Prop :=
  q.d0 = M.nS ∧ q.d1 = M.nA ∧ ∀ x, x < M.nA → (Unusable (q.get s x) ↔ ¬ Possible M s x)

/-- Some action can be taken in state `s`. -/
def Live (M : Trans K) (s : Nat) : Prop := ∃ x, x < M.nA ∧ Possible M s x

/-- `t` can be reached from `s` by one action. -/
def Successor (M : Trans K) (s t : Nat) : Prop := t < M.nS ∧ ∃ x, x < M.nA ∧ 0 < M.p s x t

/-- A planning algorithm whose action values are missing exactly for impossible actions. -/
def MaskedOut (M : Trans K) (out : FitOut K) : Prop :=
  ∀ w v g, out w = .ok (v, .nd [M.nS, M.nA] g) → ∀ s, s < M.nS →
    MaskedAt M ⟨M.nS, M.nA, fun i j => g [i, j]⟩ s

/-- A selector that never picks an action without usable estimate while another one has one, whenever the
generator's outcomes satisfy `D`. -/
def Safe (sel : Selector K δ) (D : δ → Prop) : Prop :=
  ∀ q draws pi, (∀ s, D (draws s)) → sel.pi q draws = .ok pi → pi.d0 = q.d0 ∧
    ∀ s, s < q.d0 → (∃ b, b < q.d1 ∧ ¬ Unusable (q.get s b)) →
      pi.get s = -1 ∨ ∃ x : Nat, x < q.d1 ∧ pi.get s = x ∧ ¬ Unusable (q.get s x)

/-- Calls that leave the walls alone and move agent `n` only by stepping it, on action values that are
missing exactly for impossible actions. -/
def Roams (M : Trans K) (D : δ → Prop) (n : String) : EnvOp K δ → Prop
  | .fit n' out _ => n' = n → MaskedOut M out
  | .step n' d => n' = n → ∀ s, D (d s)
  | .stepMulti n' _ _ _ refit _ orc => n' = n → ∀ i, (∀ s, D ((orc i).draws s)) ∧
      (refit = true → ∀ plan, MaskedOut M ((orc i).out plan))
  | .setAgentPosition n' _ => n' ≠ n
  | .setAlgorithm n' st => n' = n → ∀ q, st.qValues = some q → ∀ s, s < M.nS → MaskedAt M q s
  | .setWalls _ => False
  | .addWallXY _ _ => False
  | .resetWalls => False
  | _ => True

/-- One round of a multi-step call: first `pre` (a refit, or nothing), then a step of agent `n`. -/
def turn (n : String) (pre : Nat → Env K δ → Env K δ × Py Unit) (draws : Nat → Nat → δ) (i : Nat)
    (e : Env K δ) : Env K δ × Py Int :=
  match pre i e with
  | (e, .error err) => (e, .error err)
  | (e, .ok ()) => e.step n (draws i)

/-- The environment before round `i`. -/
def before (n : String) (pre : Nat → Env K δ → Env K δ × Py Unit) (draws : Nat → Nat → δ) (e : Env K δ) :
    Nat → Env K δ
  | 0 => e
  | i + 1 => (turn n pre draws i (before n pre draws e i)).1

/-- Round `i` ends with agent `n` standing on an agent it consumes. -/
def CaughtAfter (n : String) (pre : Nat → Env K δ → Env K δ × Py Unit) (draws : Nat → Nat → δ) (e : Env K δ)
    (i : Nat) : Prop :=
  ∃ a ∈ (before n pre draws e (i + 1)).agents, a.name = n ∧ (before n pre draws e (i + 1)).caught a = true

/-- What a call making up to `k` rounds should do and return (`none` when it stops because of a catch):
all rounds succeed; or round `j` is the first to fail; or round `j` is the first to end in a catch. -/
def Rounds (n : String) (pre : Nat → Env K δ → Env K δ × Py Unit) (draws : Nat → Nat → δ) (e : Env K δ)
    (stop : Bool) (k : Nat) (r : Env K δ × Py (Option (List Int))) : Prop :=
  (∃ ps : List Int, ps.length = k ∧
    (∀ i p, ps[i]? = some p → (turn n pre draws i (before n pre draws e i)).2 = .ok p ∧
      ¬ (stop = true ∧ CaughtAfter n pre draws e i)) ∧
    r = (before n pre draws e k, .ok (some ps))) ∨
  (∃ j err, j < k ∧ (∀ i, i < j → (∃ p, (turn n pre draws i (before n pre draws e i)).2 = .ok p) ∧
      ¬ (stop = true ∧ CaughtAfter n pre draws e i)) ∧
    (turn n pre draws j (before n pre draws e j)).2 = .error err ∧
    r = (before n pre draws e (j + 1), .error err)) ∨
  (∃ j p, j < k ∧ (∀ i, i < j → (∃ p, (turn n pre draws i (before n pre draws e i)).2 = .ok p) ∧
      ¬ (stop = true ∧ CaughtAfter n pre draws e i)) ∧
    (turn n pre draws j (before n pre draws e j)).2 = .ok p ∧ stop = true ∧ CaughtAfter n pre draws e j ∧
    r = (before n pre draws e (j + 1), .ok none))

/-- Agent `a` stands on the same state as some agent whose feature row it consumes. Agent rows come after
the MDP's own rows; negative feature numbers and positions count from the end. -/
def Catches (e : Env K δ) (a : Agent K δ) : Prop :=
  ∃ b ∈ e.agents, (∃ f ∈ a.consumes,
      stateOf e.mdp.features.d0 f = e.mdp.features.d0 - e.mdp.nAgents + b.idx) ∧
    stateOf e.mdp.nStates a.position = stateOf e.mdp.nStates b.position

/-- The plan an agent on its `i`-th move makes: its own moves spread over the turns starting with move `i`,
those of the other agents starting with their first. `nMoves`, `total`: moves per turn and planned moves
of each agent, the moving agent first. -/
def planAt (i nTurns : Nat) : (nMoves total : List Nat) → List (List Nat)
  | n :: ns, k :: ks => ((List.range nTurns).map fun t => movesInTurn i k n t) ::
      List.zipWith (fun n k => (List.range nTurns).map fun t => movesInTurn 0 k n t) ns ks
  | _, _ => []

/-- The position weights `step_proba` starts from: those given, or all weight on the agent's state. -/
def startDist (nStates : Nat) (here : Int) : Option (Arr1 K) → Nat → K
  | some p => p.get
  | none => fun s => if s = stateOf nStates here then 1 else 0

/-- Probability of being in state `t` after one step from a state drawn with weights `μ`, acting with
probabilities `π`. -/
def oneStep (M : Trans K) (μ : Nat → K) (π : Nat → Nat → K) (t : Nat) : K :=
  ∑ s ∈ Finset.range M.nS, ∑ x ∈ Finset.range M.nA,
    μ s / (∑ u ∈ Finset.range M.nS, μ u) * π s x * M.p s x t

end MaMDP.Spec
