import Verif.Spec.Environment
import Verif.Spec.Values
import Verif.Spec.Relisted
import Verif.Spec.Replay

/-! # A map inside a bigger one, with walls everywhere else -/

namespace MaMDP.Spec

variable {K δ : Type} [Field K] [LinearOrder K] [IsStrictOrderedRing K]

/-- State `t` is one of the states `σ 0, σ 1, …, σ (n - 1)`. -/
def Among (n : Nat) (σ : Nat → Nat) (t : Nat) : Prop := ∃ s, s < n ∧ σ s = t

/-- `M'` is `M`, state `s` now having the number `σ s` and the order being the same, and besides states that can be
neither entered nor left. -/
structure Embedded (M M' : Trans K) (σ : Nat → Nat) : Prop where
  nA : M'.nA = M.nA
  state : ∀ s, s < M.nS → σ s < M'.nS
  order : ∀ s t, s < t → t < M.nS → σ s < σ t
  p : ∀ s a t, s < M.nS → a < M.nA → t < M.nS → M'.p (σ s) a (σ t) = M.p s a t
  out : ∀ s a t, s < M'.nS → a < M.nA → t < M'.nS → ¬ (Among M.nS σ s ∧ Among M.nS σ t) → M'.p s a t = 0

/-- The number, on a map with rows of length `H'`, of the cell `dx` further on in the first coordinate and `dy` in the
second than the cell of state `s` of a map with rows of length `H`. -/
def placed (H H' dx dy s : Nat) : Nat := (s / H + dx) * H' + (s % H + dy)

/-- The same place: state `p` of the small map, whose number on the big one is `σ p`. -/
def PlacedAt (n : Nat) (σ : Nat → Nat) (x x' : Int) : Prop := ∃ p : Nat, p < n ∧ x = p ∧ x' = (σ p : Nat)

/-- The generator delivers the same numbers for the same places on both maps (and anything it can deliver, `can`,
elsewhere). -/
structure SameDraws (n n' : Nat) (σ : Nat → Nat) (can : δ → Prop) (d d' : Nat → δ) : Prop where
  ok : ∀ s, s < n → can (d s)
  ok' : ∀ s, s < n' → can (d' s)
  get : ∀ s, s < n → d' (σ s) = d s

/-- The same thing done on both maps: planning, stepping, several steps, putting an agent somewhere from where it can go
on, starting again. -/
inductive SameCall (M : Trans K) (n' : Nat) (σ : Nat → Nat) (can : δ → Prop) : PlayOp K δ → PlayOp K δ → Prop
  | plan (n : String) (maxIter : Nat) (γ tol : K) {d d' : Nat → δ} : SameDraws M.nS n' σ can d d' →
      SameCall M n' σ can (.plan n maxIter γ tol d) (.plan n maxIter γ tol d')
  | step (n : String) {d d' : Nat → δ} : SameDraws M.nS n' σ can d d' → SameCall M n' σ can (.step n d) (.step n d')
  | put (n : String) (p : Nat) : p < M.nS → Live M p → SameCall M n' σ can (.put n p) (.put n (σ p : Nat))
  | walk (n : String) (k : Env.StepsArg) (plan : Option (List Nat)) (stop : Bool) {d d' : Nat → Nat → δ} :
      (∀ i, SameDraws M.nS n' σ can (d i) (d' i)) → SameCall M n' σ can (.walk n k plan stop d) (.walk n k plan stop d')
  | again : SameCall M n' σ can .again .again

/-- The same answer: the same exception, or the same places. -/
inductive SameAnswer (n : Nat) (σ : Nat → Nat) : EnvAnswer K → EnvAnswer K → Prop
  | done (r : Py Unit) : SameAnswer n σ (.done r) (.done r)
  | failed (er : PyErr) : SameAnswer n σ (.moved (.error er)) (.moved (.error er))
  | moved {x x' : Int} : PlacedAt n σ x x' → SameAnswer n σ (.moved (.ok x)) (.moved (.ok x'))
  | broken (er : PyErr) : SameAnswer n σ (.walked (.error er)) (.walked (.error er))
  | caught : SameAnswer n σ (.walked (.ok none)) (.walked (.ok none))
  | walked {l l' : List Int} : List.Forall₂ (PlacedAt n σ) l l' → SameAnswer n σ (.walked (.ok (some l))) (.walked (.ok (some l')))

/-- The same situation on both maps: the agents stand at the same places, have been at the same places, have eaten the
same and have the same values; the features are the same at the same places. -/
structure SameGame (n : Nat) (σ : Nat → Nat) (e e' : Env K δ) : Prop where
  names : e'.agentNames = e.agentNames
  steps : e'.nSteps = e.nSteps
  rows : e'.mdp.features.d0 = e.mdp.features.d0
  features : ∀ f s, f < e.mdp.features.d0 → s < n → e'.mdp.features.get f (σ s) = e.mdp.features.get f s
  agents : List.Forall₂ (fun a a' : Agent K δ => a'.name = a.name ∧ PlacedAt n σ a.position a'.position ∧
    List.Forall₂ (PlacedAt n σ) a.history a'.history ∧ a'.consumed = a.consumed ∧
    a'.alg.fitComplete = a.alg.fitComplete ∧
    ∀ v, a.alg.values = some v → ∃ v', a'.alg.values = some v' ∧ ∀ s, s < n → v'.get (σ s) = v.get s) e.agents e'.agents

/-- The same agent, new, for both maps; it starts where it can go on. -/
structure SameSpec (M : Trans K) (σ : Nat → Nat) (sp sp' : AgentSpec K δ) : Prop where
  start : ∃ p : Nat, p < M.nS ∧ Live M p ∧ sp.position = some (p : Int) ∧ sp' = { sp with position := some ((σ p : Nat) : Int) }
  new : sp.alg = .fresh

end MaMDP.Spec
