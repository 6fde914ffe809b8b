import Verif.Spec.Values
import Verif.Spec.Policy

/-! # Vocabulary for changed rewards -/

namespace MaMDP.Spec

variable {K : Type} [Field K] [LinearOrder K] [IsStrictOrderedRing K]

/-- The number times `c`; the missing and infinite ones stay. -/
def times (c : K) : Ext K → Ext K
  | .fin x => .fin (c * x)
  | .nan => .nan
  | .ninf => .ninf
  | .pinf => .pinf

/-- All entries of a table times `c`. -/
def timesAll (c : K) (q : Arr2 (Ext K)) : Arr2 (Ext K) := ⟨q.d0, q.d1, fun s a => times c (q.get s a)⟩

end MaMDP.Spec
