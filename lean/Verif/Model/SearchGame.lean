import Verif.Model.SearchAgent

/-! # Model of `Environment.step_multi` in `/repo/maMDP/environments.py` for agents that plan by tree search -/

namespace MaMDP

variable {K : Type} [Field K] [LinearOrder K] [IsStrictOrderedRing K] {δ : Type}

/-- What the outside world contributes to one step of `step_multi`: the random outcomes of the search, its allowance of
rounds, what a kept cache contains after an exception (see `SearchArgs`), and the outcomes for the action selector in the
fit and in the step. See environments.py:361-395. -/
structure SearchOracle (K δ : Type) where
  search : Nat → Nat → Draw K
  fuel : Nat
  after : QCache K
  fitDraws : Nat → δ
  draws : Nat → δ

/-- The loop of `step_multi` with `refit=True` (environments.py:365-404) for an agent whose algorithm is the tree search
`obj`: `k` steps left, the next one is number `i`. `none`: some search does not end within its allowance. -/
def Env.searchLoop (name : String) (nAgentSteps movesPlan : List Nat) (nTurns : Nat) (stop : Bool)
    (orc : Nat → SearchOracle K δ) : Nat → Nat → Env K δ → MctsObj K → List Int →
    Option (Env K δ × MctsObj K × Py (Option (List Int)))
  | 0, _, e, obj, acc => some (e, obj, .ok (some acc))
  | k + 1, i, e, obj, acc => match Env.stepPlan i nTurns nAgentSteps 0 movesPlan with
    | .error err => some (e, obj, .error err)
    | .ok plan =>
      match e.fitSearch name obj ⟨some plan, (orc i).search, (orc i).fuel, (orc i).after⟩ (orc i).fitDraws with
      | none => none
      | some (e, obj, .error err) => some (e, obj, .error err)
      | some (e, obj, .ok ()) => match e.step name (orc i).draws with
        | (e, .error err) => some (e, obj, .error err)
        | (e, .ok _) => match e.lookup name with
          | .error err => some (e, obj, .error err)
          | .ok a =>
            if e.caught a && stop then some (e, obj, .ok none)
            else Env.searchLoop name nAgentSteps movesPlan nTurns stop orc k (i + 1) e obj (acc ++ [a.position])

/-- `Environment.step_multi` with `refit=True` (environments.py:272-404) for an agent whose algorithm is the tree search
`obj`. -/
def Env.stepMultiSearch (e : Env K δ) (name : String) (obj : MctsObj K) (nSteps : Env.StepsArg)
    (nMovesPlan : Option (List Nat)) (nTurnsPlan : Nat) (stop : Bool) (orc : Nat → SearchOracle K δ) :
    Option (Env K δ × MctsObj K × Py (Option (List Int))) :=
  match e.lookup name with
  | .error err => some (e, obj, .error err)
  | .ok a => match e.allSteps name with
    | .error err => some (e, obj, .error err)
    | .ok nAgentSteps =>
      let plan := nMovesPlan.getD nAgentSteps
      if plan.length ≠ e.agents.length then some (e, obj, .error .valueError)
      else match nSteps.count a.nMoves with
        | .error err => some (e, obj, .error err)
        | .ok k =>
          if ¬ ∀ x ∈ plan, 0 < x then some (e, obj, .error .valueError)
          else Env.searchLoop name nAgentSteps plan nTurnsPlan stop orc k 0 e obj []

/-- The arguments of one such call. See environments.py:272-281. -/
structure SearchTurn where
  name : String
  nSteps : Env.StepsArg
  nMovesPlan : Option (List Nat)
  nTurns : Nat
  stop : Bool

/-- A game: calls of `step_multi` with `refit=True` one after the other, every agent with its own tree search; `orc j` is
what the outside world contributes to call number `j`. The results are returned in order. See environments.py:272-404. -/
def Env.game (orc : Nat → Nat → SearchOracle K δ) : List SearchTurn → Nat → Env K δ → (String → MctsObj K) →
    Option (Env K δ × (String → MctsObj K) × List (Py (Option (List Int))))
  | [], _, e, objs => some (e, objs, [])
  | t :: ts, j, e, objs =>
    match e.stepMultiSearch t.name (objs t.name) t.nSteps t.nMovesPlan t.nTurns t.stop (orc j) with
    | none => none
    | some (e, obj, r) => match Env.game orc ts (j + 1) e (fun n => if n = t.name then obj else objs n) with
      | none => none
      | some (e, objs, rs) => some (e, objs, r :: rs)

end MaMDP
