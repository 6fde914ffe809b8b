import Verif.Model.Py

/-! # Vocabulary for policies -/

namespace MaMDP.Spec

variable {K : Type} [Field K] [LinearOrder K] [IsStrictOrderedRing K]

/-- `x` is no better than `y`: no estimate and -inf are worst, +inf is best. -/
def NoBetter : Ext K → Ext K → Prop
  | .nan, _ => True
  | .ninf, _ => True
  | .fin x, .fin y => x ≤ y
  | .fin _, .pinf => True
  | .pinf, .pinf => True
  | _, _ => False

/-- Action `a` of state `s` is one of the best. -/
def IsBest (q : Arr2 (Ext K)) (s a : Nat) : Prop :=
  a < q.d1 ∧ ∀ b, b < q.d1 → NoBetter (q.get s b) (q.get s a)

/-- State `s` has at least one estimate, and a well-defined mean (not both infinities). -/
def HasEstimate (q : Arr2 (Ext K)) (s : Nat) : Prop :=
  (∃ a, a < q.d1 ∧ q.get s a ≠ .nan) ∧
    ¬ ((∃ a, a < q.d1 ∧ q.get s a = .pinf) ∧ ∃ a, a < q.d1 ∧ q.get s a = .ninf)

/-- State `s` has no estimate at all. -/
def NoEstimate (q : Arr2 (Ext K)) (s : Nat) : Prop := ∀ a, a < q.d1 → q.get s a = .nan

/-- `u` falls into the `i`-th of the consecutive intervals of lengths `p 0, p 1, ...`. -/
def InSlot (p : Nat → K) (i : Nat) (u : K) : Prop :=
  ∑ j ∈ Finset.range i, p j ≤ u ∧ u < ∑ j ∈ Finset.range i, p j + p i

end MaMDP.Spec
