import Verif.Spec.Environment
import Verif.Spec.Policy

/-! What is said about games played by tree search. -/

namespace MaMDP.Spec

variable {K : Type} [Field K] [LinearOrder K] [IsStrictOrderedRing K] {δ : Type}

/-- A selector that can decide: for every table with at least one estimate and no entry `+inf` it gives probabilities and,
whenever the generator's outcomes satisfy `D`, a choice, which in every state with a usable estimate is an action with a
usable estimate. -/
def Decides (sel : Selector K δ) (D : δ → Prop) : Prop :=
  ∀ q : Arr2 (Ext K), (∃ s x, s < q.d0 ∧ x < q.d1 ∧ q.get s x ≠ .nan) →
    (∀ s x, s < q.d0 → x < q.d1 → q.get s x ≠ .pinf) →
    (∃ P, sel.piP q = .ok P) ∧ ∀ draws, (∀ s, D (draws s)) → ∃ p, sel.pi q draws = .ok p ∧ p.d0 = q.d0 ∧
      ∀ s, s < q.d0 → (∃ b, b < q.d1 ∧ ¬ Unusable (q.get s b)) →
        ∃ x : Nat, x < q.d1 ∧ p.get s = x ∧ ¬ Unusable (q.get s x)

/-- The argument `n_steps` asks an agent with `nMoves` moves per turn for `k` steps. -/
def Asks (arg : Env.StepsArg) (nMoves k : Nat) : Prop :=
  (arg = .default ∧ k = nMoves) ∨ arg = .int k ∨ ∃ l, arg = .list (k :: l)

end MaMDP.Spec
