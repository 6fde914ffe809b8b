import Verif.Model.OwnSelector

/-! # Vocabulary for selectors of the user's own -/

namespace MaMDP.Spec

variable {K α : Type} [Field K] [LinearOrder K] [IsStrictOrderedRing K]

/-- The value is a two-dimensional array of this shape with some entry that is not NaN. -/
def GoodTable (n m : Nat) (get : List Nat → Ext K) (q : PyArr (Ext K)) : Prop :=
  q = .nd [n, m] get ∧ ∃ s, s < n ∧ ∃ a, a < m ∧ get [s, a] ≠ .nan

/-- No conclusion can be drawn about a state: all estimates are NaN, or there are both infinities. -/
def NoMean (m : Nat) (get : List Nat → Ext K) (s : Nat) : Prop :=
  (∀ a, a < m → get [s, a] = .nan) ∨
    ((∃ a, a < m ∧ get [s, a] = .pinf) ∧ ∃ a, a < m ∧ get [s, a] = .ninf)

/-- What the user's class is given: the table with -inf for NaN. -/
def withoutNan (get : List Nat → Ext K) (s a : Nat) : WithBot (WithTop K) :=
  match get [s, a] with
  | .nan => ⊥
  | .ninf => ⊥
  | .fin x => ((x : WithTop K) : WithBot (WithTop K))
  | .pinf => ((⊤ : WithTop K) : WithBot (WithTop K))

/-- The array the reply stands for, if it is one. -/
def replyArray (kept : PyArr α) : Reply α → PyArr α
  | .plain => .notArray
  | .container => .notArray
  | .kept => kept
  | .new shape get => .nd shape get

end MaMDP.Spec
