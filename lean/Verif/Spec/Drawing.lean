import Verif.Model.Drawing
import Verif.Spec.Plotting

/-! # Vocabulary for pictures -/

namespace MaMDP.Spec

variable {K : Type} [Field K] [LinearOrder K] [IsStrictOrderedRing K]

/-- Where state `s` of a grid with columns of height `H` belongs in a picture: on a square grid at its coordinates, on a
hexagonal one at the centre of its cell in a honeycomb of hexagons of radius 1 (√3/2 taken to eight digits). -/
def place (K : Type) [Field K] : GridKind → Nat → Nat → K × K
  | .square, H, s => (((s / H : Nat) : K), ((s % H : Nat) : K))
  | .hex, H, s => honeycomb 1 (86602540 / 100000000) (s / H) (s % H)

/-- An arrow from the point `p` to the point `q`. -/
def Joins (mk : Mark K) (p q : K × K) : Prop := ∃ d : K × K, mk = .arrow p d ∧ p.1 + d.1 = q.1 ∧ p.2 + d.2 = q.2

/-- The plotting call shows the grid and returns normally. -/
def Shows (kind : GridKind) (W H : Nat) : DrawOp K → Prop
  | .plot m c a => ∃ x l, plotMdp kind W H none m c a = (x, .ok l)
  | .values v h => ∃ x l, plotValues kind W H none v h = (x, .ok l)
  | .trajectory _ => False
  | .sequence _ => False

/-- The call leaves out the hexagon of state `s`. -/
def Hides (H s : Nat) : DrawOp K → Prop
  | .values _ hide => (((s / H : Nat) : Int), ((s % H : Nat) : Int)) ∈ hide
  | _ => False

/-- The colour of feature number `f`: the caller's, or the entry of the ten default colours, the last of them for every
feature from number 9 on. -/
inductive Coloured : Option (List String) → Nat → Paint → Prop
  | palette {f : Nat} (h : f < 10) : Coloured none f (.tab10 f)
  | last {f : Nat} (h : 10 ≤ f) : Coloured none f (.tab10 9)
  | given {l : List String} {f : Nat} {c : String} (h : l[f]? = some c) : Coloured (some l) f (.named c)

/-- The opacity of feature number `f`: the caller's, or one half. -/
inductive Opaque : Option (List K) → Nat → K → Prop
  | half {f : Nat} : Opaque none f (1 / 2)
  | given {l : List K} {f : Nat} {a : K} (h : l[f]? = some a) : Opaque (some l) f a

end MaMDP.Spec
