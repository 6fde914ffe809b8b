import Verif.Spec.Replay

/-! # Agents listed in another order -/

namespace MaMDP.Spec

variable {K δ : Type} [Field K] [LinearOrder K] [IsStrictOrderedRing K]

/-- The feature with number `f` in the first environment, in the second: the MDP's own `nOwn` features keep their
numbers; the feature of agent number `i` becomes that of agent number `τ i`. -/
def listedAs (nOwn : Nat) (τ : Nat → Nat) (f : Nat) : Nat := if f < nOwn then f else nOwn + τ (f - nOwn)

/-- `specs'` lists the agents of `specs` in another order, agent number `i` as number `τ i`; their rewards and consumed
features mean the same features. -/
structure Relisted (nOwn : Nat) (τ : Nat → Nat) (specs specs' : List (AgentSpec K δ)) : Prop where
  length : specs'.length = specs.length
  number : ∀ i, i < specs.length → τ i < specs.length
  inj : ∀ i j, i < specs.length → j < specs.length → τ i = τ j → i = j
  same : ∀ i sp, specs[i]? = some sp → ∃ (sp' : AgentSpec K δ) (r r' : List Nat → K) (l : List Nat), specs'[τ i]? = some sp' ∧
    sp'.name = sp.name ∧ sp'.nMoves = sp.nMoves ∧ sp'.selector = sp.selector ∧ sp'.alg = sp.alg ∧
    sp'.position = sp.position ∧
    sp.reward = .nd [nOwn + specs.length] r ∧ sp'.reward = .nd [nOwn + specs.length] r' ∧
    (∀ f, f < nOwn + specs.length → r' [listedAs nOwn τ f] = r [f]) ∧
    (∀ f ∈ l, f < nOwn + specs.length) ∧ sp.consumes = l.map (fun f : Nat => (f : Int)) ∧
    sp'.consumes = l.map (fun f : Nat => ((listedAs nOwn τ f : Nat) : Int))

/-- Something a user does: plan for an agent by value iteration, let it step, let it make several steps, ask for the
distribution after a step, put it somewhere, start again, build or remove walls. -/
inductive PlayOp (K δ : Type)
  | plan (n : String) (maxIter : Nat) (γ tol : K) (draws : Nat → δ)
  | step (n : String) (draws : Nat → δ)
  | ask (n : String) (p : Option (Arr1 K)) (draws : Nat → δ)
  | put (n : String) (p : Int)
  | walk (n : String) (steps : Env.StepsArg) (plan : Option (List Nat)) (stop : Bool) (draws : Nat → Nat → δ)
  | again
  | walls (w : Arr1 K)
  | wallsAt (x y : List Int)
  | noWalls

/-- The call made for it in environment `e`. -/
def PlayOp.call (e : Env K δ) : PlayOp K δ → EnvOp K δ
  | .plan n k γ tol d => .fit n (valueIterationFit e.mdp k γ tol) d
  | .step n d => .step n d
  | .ask n p d => .stepProba n p d
  | .put n p => .setAgentPosition n p
  | .walk n k p stop d => .stepMulti n k p 1 false stop (fun i => ⟨fun _ => valueIterationFit e.mdp 0 0 0, d i, d i⟩)
  | .again => .reset
  | .walls w => .setWalls w
  | .wallsAt x y => .addWallXY x y
  | .noWalls => .resetWalls

/-- What a sequence of these leaves behind. -/
def play (e : Env K δ) (l : List (PlayOp K δ)) : Env K δ := l.foldl (fun e op => e.apply (op.call e)) e

end MaMDP.Spec
