import Verif.Model.DynamicProgramming

/-! # Vocabulary for value functions -/

namespace MaMDP.Spec

variable {K : Type} [Field K] [LinearOrder K] [IsStrictOrderedRing K]

/-- Transition probabilities are non-negative and each row sums to at most 1 (0 for an action that
cannot be taken). -/
structure SubStochastic (M : Trans K) : Prop where
  nonneg : ∀ s a t, s < M.nS → a < M.nA → t < M.nS → 0 ≤ M.p s a t
  le_one : ∀ s a, s < M.nS → a < M.nA → ∑ t ∈ Finset.range M.nS, M.p s a t ≤ 1

/-- Expected value of taking action `a` in state `s` when states are worth `V`: rewards are
received on arrival. -/
def Q (M : Trans K) (r : Nat → K) (γ : K) (V : Nat → K) (s a : Nat) : K :=
  ∑ t ∈ Finset.range M.nS, M.p s a t * (r t + γ * V t)

/-- The Bellman equation the code iterates: every state is worth its best action, an impossible
action counting as worth 0. -/
def Bellman (M : Trans K) (r : Nat → K) (γ : K) (V : Nat → K) : Prop :=
  ∀ s, s < M.nS → (∀ a, a < M.nA → Q M r γ V s a ≤ V s) ∧ ∃ a, a < M.nA ∧ Q M r γ V s a = V s

/-- Action `a` can be taken in state `s`. -/
def Possible (M : Trans K) (s a : Nat) : Prop := ∃ t, t < M.nS ∧ 0 < M.p s a t

/-- What states are worth when it is the turn of state `s` in a pass over all states: those before it have their new
value. -/
def seen (old new : Nat → K) (s : Nat) : Nat → K := fun t => if t < s then new t else old t

/-- `new` is the result of a pass of value iteration over the states in order, starting from `old`: every state gets the
value of its best action, given what states are worth at that moment. -/
def Pass (M : Trans K) (r : Nat → K) (γ : K) (old new : Nat → K) : Prop :=
  ∀ s, s < M.nS → (∀ a, a < M.nA → Q M r γ (seen old new s) s a ≤ new s) ∧
    ∃ a, a < M.nA ∧ Q M r γ (seen old new s) s a = new s

/-- The same for soft value iteration: `log (∑ exp Q + 1e-200)`. -/
def SoftPass (M : Trans ℝ) (r : Nat → ℝ) (γ : ℝ) (old new : Nat → ℝ) : Prop :=
  ∀ s, s < M.nS →
    new s = Real.log ((∑ a ∈ Finset.range M.nA, Real.exp (Q M r γ (seen old new s) s a)) + 1 / 10 ^ 200)

/-- Values after `n` passes of `state_value_iterator` from zero. -/
def sweeps (M : Trans K) (r : Nat → K) (γ : K) : Nat → Nat → K
  | 0 => fun _ => 0
  | n + 1 => (sweep (hardBackup M.nA) M r γ (sweeps M r γ n)).values

/-- The actions and resulting states `(a₁, s₁), (a₂, s₂), ...` can be taken one after the other from
state `s`. -/
def Plays (M : Trans K) : Nat → List (Nat × Nat) → Prop
  | _, [] => True
  | s, (a, t) :: l => a < M.nA ∧ t < M.nS ∧ M.p s a t = 1 ∧ Plays M t l

/-- Discounted reward collected on the way: `r s₁ + γ r s₂ + γ² r s₃ + ...`. -/
def discounted (r : Nat → K) (γ : K) : List (Nat × Nat) → K
  | [] => 0
  | (_, t) :: l => r t + γ * discounted r γ l

/-- Every action leads to one state or nowhere. -/
def Deterministic (M : Trans K) : Prop :=
  ∀ s a t, s < M.nS → a < M.nA → t < M.nS → M.p s a t = 0 ∨ M.p s a t = 1

end MaMDP.Spec
