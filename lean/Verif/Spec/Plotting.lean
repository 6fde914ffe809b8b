import Mathlib.Algebra.Order.Field.Basic

/-! # Vocabulary for plots -/

namespace MaMDP.Spec

variable {K : Type} [Field K] [LinearOrder K] [IsStrictOrderedRing K]

/-- Squared distance of two points of the plane. -/
def dist2 (p q : K × K) : K := (p.1 - q.1) ^ 2 + (p.2 - q.2) ^ 2

/-- Centre of cell `(x, z)` in a honeycomb of hexagons with corner radius `r`, where `h` is the distance from the centre
to an edge: columns are 3/2 of the radius apart, cells of a column two edge distances, and even columns start one edge
distance further up. -/
def honeycomb (r h : K) (x z : Nat) : K × K := (3 / 2 * r * x, h * (2 * z + if x % 2 = 0 then 1 else 0))

end MaMDP.Spec
