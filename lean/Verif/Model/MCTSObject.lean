import Verif.Model.MCTS

/-! # Model of the class `MCTS` of `/repo/maMDP/algorithms/mcts.py` as an object

What a call of `fit` leaves behind, also when it fails, and the cache kept between calls. `sr` (mcts.py:947-948) is
computed once and never used; computing it cannot fail (C35). -/

namespace MaMDP

variable {K : Type} [Field K] [LinearOrder K] [IsStrictOrderedRing K] {δ : Type}

/-- An `MCTS` object (mcts.py:864-882): settings, what every algorithm stores, the tables of the last search and the
cache. -/
structure MctsObj (K : Type) where
  opts : MctsOpts K
  nIter : Nat
  resetCache : Bool
  st : AlgState K
  V : Option (Nat → K)
  N : Option (Nat → Nat)
  cache : Option (QCache K)

/-- `MCTS.__init__` (mcts.py:864-882). -/
def MctsObj.init (opts : MctsOpts K) (nIter : Nat) (resetCache : Bool) : MctsObj K :=
  ⟨opts, nIter, resetCache, .fresh, none, none, none⟩

/-- `reset` (base.py:80-88) with `_reset` (mcts.py:884-887). -/
def MctsObj.reset (obj : MctsObj K) : MctsObj K := { obj with st := .fresh, V := none, N := none }

/-- `clear_cache` (mcts.py:889-890). -/
def MctsObj.clearCache (obj : MctsObj K) : MctsObj K := { obj with cache := none }

/-- A call of `fit`: the environment and agent the object is attached to (mcts.py:906, 921, 936), as they are at the
time, the arguments of `fit` (base.py:25), and the outcomes of the random generator. `after` is what a kept cache
contains after an exception in the middle of a search; it may be anything. -/
structure FitCall (K δ : Type) where
  link : Option (Env K δ × Agent K δ)
  mdp : Mdp K
  reward : PyArr K
  position : Int
  plan : Option (List (List Nat))
  draws : Nat → Nat → Draw K
  fuel : Nat
  after : QCache K

/-- The first lines of `MCTS._fit` (mcts.py:941-945). -/
def MctsObj.prepare (obj : MctsObj K) : MctsObj K :=
  if obj.resetCache then obj.reset.clearCache else obj.reset

/-- What follows the search (mcts.py:985-1000, base.py:54-69): action values at the given position, the checks of the
results, and storing them. -/
def MctsObj.accept (obj : MctsObj K) (m : Mdp K) (position : Int) (s : Search K) : MctsObj K × Py Unit :=
  match pyIdx m.nStates position with
  | none => (obj, .error .indexError)
  | some here =>
    match checkOutput m.nStates m.nActions (.of1 ⟨m.nStates, fun t => .fin (s.V t)⟩)
        (.of2 ⟨m.nStates, m.nActions, mctsQ m.trans s.V s.N here⟩) with
    | .error e => (obj, .error e)
    | .ok (v, q) => ({ obj with st := ⟨true, some v, some q⟩ }, .ok ())

/-- The search itself (mcts.py:951-983) for an attached object. -/
def MctsObj.search (obj : MctsObj K) (e : Env K δ) (a : Agent K δ) (c : FitCall K δ) (w : Arr1 K) :
    Option (MctsObj K × Py Unit) :=
  match extractInfo (e.agentInfos a obj.opts.interactive w) with
  | .error err => some (obj, .error err)
  | .ok A =>
    match (runMcts obj.opts c.mdp.trans A w.d0 obj.nIter c.mdp.features.get c.plan (obj.cache.getD fun _ _ => none)
        c.draws c.fuel).2.2 with
    | none => none
    | some (.error err) => some ({ obj with cache := obj.cache.map fun _ => c.after }, .error err)
    | some (.ok s) =>
      some (({ obj with V := some s.V, N := some s.N, cache := some s.cache } : MctsObj K).accept c.mdp c.position s)

/-- `MCTS.fit` (base.py:25-69, mcts.py:933-1000): the object left behind and the outcome; `none` if the search does not
end within the given number of rounds. An object that is not attached has no agent to ask for its name. -/
def MctsObj.fit (obj : MctsObj K) (c : FitCall K δ) : Option (MctsObj K × Py Unit) :=
  match checkReward c.mdp.nFeatures c.reward with
  | .error err => some (obj, .error err)
  | .ok w => match c.link with
    | none => if obj.opts.interactive then some (obj, .error .notImplementedError)
        else some (obj.prepare, .error .attributeError)
    | some (e, a) => obj.prepare.search e a c w

/-- The methods a user calls. See mcts.py:884-890, base.py:25, 80. -/
inductive MctsOp (K δ : Type)
  | fit (c : FitCall K δ)
  | reset
  | clearCache

/-- One call; exceptions are caught by the user. See mcts.py:884-1000. -/
def MctsObj.apply (obj : MctsObj K) : MctsOp K δ → Option (MctsObj K)
  | .fit c => (obj.fit c).map (·.1)
  | .reset => some obj.reset
  | .clearCache => some obj.clearCache

/-- Calls one after the other. See mcts.py:884-1000. -/
def MctsObj.run (obj : MctsObj K) : List (MctsOp K δ) → Option (MctsObj K)
  | [] => some obj
  | op :: ops => match obj.apply op with
    | none => none
    | some obj => obj.run ops

end MaMDP
