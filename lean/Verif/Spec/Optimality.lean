import Verif.Spec.Values
import Verif.Spec.Policy

/-! # Vocabulary for following a plan -/

namespace MaMDP.Spec

variable {K : Type} [Field K] [LinearOrder K] [IsStrictOrderedRing K]

/-- Every action of the walk is one of the best, according to `q`, in the state where it is taken. -/
def Greedy (nA : Nat) (q : Nat → Nat → Ext K) : Nat → List (Nat × Nat) → Prop
  | _, [] => True
  | s, (a, t) :: l => (∀ b, b < nA → NoBetter (q s b) (q s a)) ∧ Greedy nA q t l

/-- Some sequence of `n` actions leads from `s` to `g`. -/
def Reaches (M : Trans K) (s g n : Nat) : Prop :=
  ∃ l, Plays M s l ∧ l.length = n ∧ (s :: l.map (·.2)).getLast? = some g

/-- `d` is the least number of actions that lead from `s` to `g`. -/
def Distance (M : Trans K) (s g d : Nat) : Prop :=
  Reaches M s g d ∧ ∀ n, n < d → ¬ Reaches M s g n

/-- Discounted reward of visiting the given states one after the other. -/
def visitReward (r : Nat → K) (γ : K) : List Nat → K
  | [] => 0
  | t :: l => r t + γ * visitReward r γ l

end MaMDP.Spec
