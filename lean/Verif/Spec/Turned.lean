import Mathlib.Data.Nat.Notation

/-! # Vocabulary for C112: grids with exchanged coordinates, and turned grids -/

namespace MaMDP.Spec

/-- The state with its coordinates exchanged, when going from `W` rows of length `H` to `H` rows of length `W`. -/
def swapXY (W H s : Nat) : Nat := s % H * W + s / H

/-- The square move with its coordinates exchanged. -/
def swapAction (a : Nat) : Nat := if a = 0 then 1 else if a = 1 then 0 else if a = 2 then 3 else if a = 3 then 2 else a

/-- The state opposite, after half a turn, on `W` rows of length `H`. -/
def halfTurn (W H s : Nat) : Nat := (W - 1 - s / H) * H + (H - 1 - s % H)

/-- The hexagonal move in the opposite direction. -/
def oppositeHex (a : Nat) : Nat := if a < 3 then a + 3 else if a < 6 then a - 3 else a

end MaMDP.Spec
