import Verif.Spec.Chance

/-! # Tables of action values that are close to each other -/

namespace MaMDP.Spec

/-- Two tables of action values of the same size have -inf at the same places, and elsewhere finite numbers that differ by
at most `E`. -/
def NearTables (E : ℝ) (q q' : Arr2 (Ext ℝ)) : Prop :=
  q.d0 = q'.d0 ∧ q.d1 = q'.d1 ∧ ∀ s a, s < q.d0 → a < q.d1 →
    (q.get s a = .ninf ∧ q'.get s a = .ninf) ∨ ∃ x y, q.get s a = .fin x ∧ q'.get s a = .fin y ∧ |x - y| ≤ E

/-- The exact action values of the actions that can be taken, -inf for the others. -/
noncomputable def exactTable (M : Trans ℝ) (r : Nat → ℝ) (γ : ℝ) (V : Nat → ℝ) : Arr2 (Ext ℝ) :=
  open Classical in ⟨M.nS, M.nA, fun s a => if Possible M s a then .fin (Q M r γ V s a) else .ninf⟩

end MaMDP.Spec
