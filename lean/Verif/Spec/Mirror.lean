import Verif.Spec.Values
import Verif.Spec.Policy
import Verif.Spec.Grid

/-! # Vocabulary for renamed and mirrored worlds -/

namespace MaMDP.Spec

variable {K : Type} [Field K] [LinearOrder K] [IsStrictOrderedRing K]

/-- `M'` is `M` with state `s` called `σ s` and action `a` called `τ a`. -/
structure Renamed (M M' : Trans K) (σ τ : Nat → Nat) : Prop where
  nS : M'.nS = M.nS
  nA : M'.nA = M.nA
  state : ∀ s, s < M.nS → σ s < M.nS
  state_inj : ∀ s t, s < M.nS → t < M.nS → σ s = σ t → s = t
  action : ∀ a, a < M.nA → τ a < M.nA
  action_inj : ∀ a b, a < M.nA → b < M.nA → τ a = τ b → a = b
  p : ∀ s a t, s < M.nS → a < M.nA → t < M.nS → M'.p (σ s) (τ a) (σ t) = M.p s a t

/-- The state mirrored in the second coordinate, rows of length `H`. -/
def flipY (H s : Nat) : Nat := s / H * H + (H - 1 - s % H)

/-- The square move mirrored in the second coordinate. -/
def flipYAction (a : Nat) : Nat := if a = 0 then 2 else if a = 2 then 0 else a

/-- The state mirrored in the first coordinate, `W` rows of length `H`. -/
def flipX (W H s : Nat) : Nat := (W - 1 - s / H) * H + s % H

/-- The square move mirrored in the first coordinate. -/
def flipXAction (a : Nat) : Nat := if a = 1 then 3 else if a = 3 then 1 else a

/-- The hexagonal move mirrored in the first coordinate. -/
def flipXHex (a : Nat) : Nat :=
  if a = 1 then 5 else if a = 5 then 1 else if a = 2 then 4 else if a = 4 then 2 else a

end MaMDP.Spec
