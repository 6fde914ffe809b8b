import Verif.Model.MCTS
import Verif.Spec.Environment

/-! # Vocabulary for tree search -/

namespace MaMDP.Spec

variable {K : Type} [Field K] [LinearOrder K] [IsStrictOrderedRing K]

/-- The upper confidence bound of state `s`, seen from `node`: average value plus `C` times
`sqrt(2 log(visits of node) / (1 + visits of s))`. -/
noncomputable def upper (V : Nat → ℝ) (N : Nat → Nat) (C : ℝ) (node s : Nat) : ℝ :=
  V s / (1 + N s) + C * Real.sqrt (2 * Real.log (N node) / (1 + N s))

/-- How often state `t` was visited in a list of iterations, each given by its return and its visited states. -/
def visitsOf (outs : List (K × List Nat)) (t : Nat) : Nat := (outs.map fun x => x.2.count t).sum

/-- The sum of the returns of the iterations, once per visit of state `t`. -/
def valueOf (outs : List (K × List Nat)) (t : Nat) : K := (outs.map fun x => (x.2.count t : K) * x.1).sum

/-- Agent `i` consumes agent `j` and stands on the same state. -/
def Eats (consumes : Nat → Nat → Bool) (nodes : Nat → Int) (i j : Nat) : Prop :=
  consumes i j = true ∧ nodes i = nodes j

instance (consumes : Nat → Nat → Bool) (nodes : Nat → Int) (i j : Nat) : Decidable (Eats consumes nodes i j) :=
  inferInstanceAs (Decidable (consumes i j = true ∧ nodes i = nodes j))

/-- The order in which agents move: turn by turn, in each turn agent by agent, each as often as planned. -/
def schedule (plan : List (List Nat)) (turns : Nat) : List Nat :=
  (List.range turns).flatMap fun t => (List.range plan.length).flatMap fun a =>
    List.replicate ((plan.getD a []).getD t 0) a

/-- Making the moves of the listed agents one after the other, the first being number `i`, until one fails or the
primary agent is caught; the second result says whether it was caught. -/
def follow {σ : Type} (move : Nat → Nat → σ → Py (σ × Bool)) : Nat → List Nat → σ → Py (σ × Bool)
  | _, [], st => .ok (st, false)
  | i, a :: l, st => match move i a st with
    | .error e => .error e
    | .ok (st, true) => .ok (st, true)
    | .ok (st, false) => follow move (i + 1) l st

/-- The moves made in `follow` without the primary agent being caught: mover, state before and state after. -/
def steps {σ : Type} (move : Nat → Nat → σ → Py (σ × Bool)) : Nat → List Nat → σ → List (Nat × σ × σ)
  | _, [], _ => []
  | i, a :: l, st => match move i a st with
    | .ok (st', false) => (a, st, st') :: steps move (i + 1) l st'
    | _ => []

/-- A result without the information whether the primary agent was caught. -/
def outcome {σ : Type} : Py (σ × Bool) → Py σ
  | .error e => .error e
  | .ok (st, _) => .ok st

/-- A list of states, each reached from the one before by some action (the first from `s`). -/
def Walk (M : Trans K) : Nat → List Nat → Prop
  | _, [] => True
  | s, t :: l => Successor M s t ∧ Walk M t l

/-- A plan that the loop can follow: in interactive mode one list per agent, all for `T` turns; otherwise with at least
one move of the agent in the first turn. -/
def GoodPlan (interactive : Bool) (agents T : Nat) (plan : List (List Nat)) : Prop :=
  if interactive then plan.length = agents ∧ ∀ l ∈ plan, l.length = T
  else ∃ k own others, plan = (k :: own) :: others ∧ 0 < k

end MaMDP.Spec
