import Verif.Model.LearnerArgs

/-! # Spec: settings that the learners' messages describe -/

namespace MaMDP.Spec

variable {K : Type} [Field K] [LinearOrder K] [IsStrictOrderedRing K]

/-- A call that gives an object. -/
def Accepted {X : Type} (x : Py X) : Prop := ∃ o, x = .ok o

/-- A call that stops at an `assert`. -/
def Asserts {X : Type} (x : Py X) : Prop := x = .error .assertionError

/-- "Asymmetry must be 1 or greater". -/
def AsymmetryAsSaid (asymmetry : K) : Prop := 1 ≤ asymmetry

/-- The decay, be it an integer or a float, is not negative. -/
def DecayFine : Decay K → Prop
  | .int d => 0 ≤ d
  | .float d _ => 0 ≤ d

end MaMDP.Spec
