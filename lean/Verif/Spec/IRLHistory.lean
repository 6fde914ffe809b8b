import Verif.Spec.IRL

/-! # Vocabulary for learning histories -/

namespace MaMDP.Spec

/-- The first `k` moves of a list of trajectories: those trajectories that are needed, the last one cut off after its
last move that counts. -/
def firstMoves {α β : Type} : Nat → List (α × β × List Int) → List (α × β × List Int)
  | 0, _ => []
  | _, [] => []
  | k + 1, (a, b, t) :: l =>
    if k + 1 < t.length then [(a, b, t.take (k + 2))] else (a, b, t) :: firstMoves (k + 1 - (t.length - 1)) l

/-- Number of moves in a list of trajectories. -/
def moveCount {α β : Type} (l : List (α × β × List Int)) : Nat := (l.map fun d => d.2.2.length - 1).sum

end MaMDP.Spec
