import Verif.Model.IRL

/-! # Vocabulary for features under other numbers -/

namespace MaMDP.Spec

variable {K : Type} [Field K] [LinearOrder K] [IsStrictOrderedRing K]

/-- `m'` is the same world as `m`, with feature `f` of `m` under the number `σ f`. If `m'` has further features, none of
its states has them. -/
structure FeaturesMoved (σ : Nat → Nat) (m m' : Mdp K) : Prop where
  trans : m'.trans = m.trans
  columns : m.features.d1 = m.nStates
  columns' : m'.features.d1 = m'.nStates
  number : ∀ f, f < m.nFeatures → σ f < m'.nFeatures
  inj : ∀ f g, f < m.nFeatures → g < m.nFeatures → σ f = σ g → f = g
  row : ∀ f s, f < m.nFeatures → s < m.nStates → m'.features.get (σ f) s = m.features.get f s
  absent : ∀ g s, g < m'.nFeatures → (∀ f, f < m.nFeatures → σ f ≠ g) → s < m.nStates → m'.features.get g s = 0

/-- `m'` is `m` with the features in another order. -/
structure Reordered (σ : Nat → Nat) (m m' : Mdp K) : Prop extends FeaturesMoved σ m m' where
  count : m'.nFeatures = m.nFeatures

/-- `x'` holds under the number `σ f` what `x` holds under the number `f`. -/
def Moved (n : Nat) (σ : Nat → Nat) {X : Type} (x x' : Nat → X) : Prop := ∀ f, f < n → x' (σ f) = x f

/-- Two calls fail alike, or both return the same weights up to the numbers of the features. -/
def ResultMoved (n : Nat) (σ : Nat → Nat) {X : Type} : Py (Nat → X) → Py (Nat → X) → Prop
  | .ok x, .ok x' => Moved n σ x x'
  | .error e, .error e' => e = e'
  | _, _ => False

/-- The same starting weights up to the numbers of the features. -/
def StartMoved (n : Nat) (σ : Nat → Nat) {X : Type} : Theta X → Theta X → Prop
  | .none, .none => True
  | .vec x, .vec x' => Moved n σ x x'
  | .obj, .obj => True
  | _, _ => False

/-- The same features are to be ignored. -/
def IgnoreMoved (n : Nat) (σ : Nat → Nat) (ign ign' : Ignore) : Prop :=
  (ign = .tuple [] ∧ ign' = .tuple []) ∨
  (∃ f, f < n ∧ ign = .tuple [(f : Int)] ∧ ign' = .tuple [(σ f : Int)]) ∨
  ∃ l : List Nat, (∀ f ∈ l, f < n) ∧ ign = .list (l.map fun (f : Nat) => (f : Int)) ∧
    ign' = .list (l.map fun (f : Nat) => (σ f : Int))

/-- Two lists of worlds, each pair alike up to the numbers of the features; `n` features each in the first list, `n'` in
the second. -/
def ManyMoved (n n' : Nat) (σ : Nat → Nat) (l l' : List (Mdp K)) : Prop :=
  List.Forall₂ (fun m m' => FeaturesMoved σ m m' ∧ m.nFeatures = n ∧ m'.nFeatures = n') l l'

/-- As `ResultMoved`, for a call that may not return. -/
def OutcomeMoved (n : Nat) (σ : Nat → Nat) {X : Type} : Option (Py (Nat → X)) → Option (Py (Nat → X)) → Prop
  | some x, some x' => ResultMoved n σ x x'
  | none, none => True
  | _, _ => False

end MaMDP.Spec
