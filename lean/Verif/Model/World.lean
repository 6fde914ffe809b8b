import Verif.Model.Environment

/-! # Environments that share objects

`Model/Environment.lean` treats the MDP and the planning algorithms of an environment as parts of it. In the
code they are objects the environment refers to: `Environment` keeps the MDP object it is given
(`/repo/maMDP/environments.py`, line 93), and `Agent._attach` hands the agent's one algorithm object to every
environment it is added to (`/repo/maMDP/agents.py`, lines 58-61). Here these objects live in a world and
environments hold references; what a call does to the objects is as in `Model/Environment.lean`. Action
selectors are shared too, but keep nothing except their generator. An algorithm's references to the agent and
environment it was attached to last (base.py:20-23) are used by tree searches only: see `Model/SharedSearch.lean`. -/

namespace MaMDP

variable {K : Type} [Field K] [LinearOrder K] [IsStrictOrderedRing K] {δ : Type}

/-- An environment object: everything but the state of its MDP and of its agents' algorithms, and references
to those, the algorithms in the order of the agents. See environments.py:85-155, agents.py:67-102. -/
structure EnvObj (K δ : Type) where
  core : Env K δ
  mdp : Nat
  algs : List Nat

/-- The MDP objects, algorithm objects and environments of a program. See environments.py:44-75. -/
structure World (K δ : Type) where
  mdps : Nat → Mdp K
  algs : Nat → AlgState K
  envs : List (EnvObj K δ)

/-- What a program does: call methods of environments, build an environment from an MDP object and agents
(each with the number of its algorithm object), or call methods of an MDP object. See environments.py:44-529. -/
inductive WorldOp (K δ : Type)
  | env (j : Nat) (op : EnvOp K δ)
  | newEnv (m : Nat) (specs : List (AgentSpec K δ × Nat))
  | onMdp (m : Nat) (op : MdpOp K)

namespace World

/-- An environment as its user sees it. See environments.py:77-83, agents.py:104-106. -/
def value (w : World K δ) (o : EnvObj K δ) : Env K δ :=
  { o.core with
    mdp := w.mdps o.mdp
    agents := List.zipWith (fun a r => { a with alg := w.algs r }) o.core.agents o.algs }

/-- The algorithm objects after a call on agents with these references. See agents.py:156-159. -/
def writeAlgs (old : Nat → AlgState K) (refs : List Nat) (agents : List (Agent K δ)) : Nat → AlgState K := fun r =>
  match (refs.zip agents).find? fun p => p.1 = r with
  | some p => p.2.alg
  | none => old r

/-- A call on environment number `j`. See environments.py:167-529. -/
def env (w : World K δ) (j : Nat) (op : EnvOp K δ) : World K δ :=
  match w.envs[j]? with
  | none => w
  | some o =>
    let e := (w.value o).apply op
    { mdps := fun i => if i = o.mdp then e.mdp else w.mdps i
      algs := writeAlgs w.algs o.algs e.agents
      envs := w.envs.set j ⟨e, o.mdp, o.algs⟩ }

/-- The algorithm object of the agent with a name: the one added last. See environments.py:152-155. -/
def refOf (specs : List (AgentSpec K δ × Nat)) (name : String) : Nat :=
  match specs.reverse.find? fun p => p.1.name = name with
  | some p => p.2
  | none => 0

/-- `Environment(mdp, agents)`. See environments.py:45-155, agents.py:56-61. -/
def newEnv (w : World K δ) (m : Nat) (specs : List (AgentSpec K δ × Nat)) : World K δ × Py Unit :=
  match Env.init (w.mdps m) (specs.map fun p => { p.1 with alg := w.algs p.2 }) with
  | (m', .error err) => ({ w with mdps := fun i => if i = m then m' else w.mdps i }, .error err)
  | (m', .ok e) =>
    ({ w with
       mdps := fun i => if i = m then m' else w.mdps i
       envs := w.envs ++ [⟨e, m, e.agents.map fun a => refOf specs a.name⟩] }, .ok ())

/-- One step of a program. See environments.py:44-529, mdp.py:53-200. -/
def apply (w : World K δ) : WorldOp K δ → World K δ
  | .env j op => w.env j op
  | .newEnv m specs => (w.newEnv m specs).1
  | .onMdp m op => { w with mdps := fun i => if i = m then (w.mdps m).apply op else w.mdps i }

/-- A program. See environments.py:44-529. -/
def run (w : World K δ) (ops : List (WorldOp K δ)) : World K δ := ops.foldl apply w

end World

end MaMDP
