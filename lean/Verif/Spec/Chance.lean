import Verif.Spec.Temperature
import Verif.Spec.Environment
import Verif.Spec.Values
import Mathlib.MeasureTheory.Measure.Lebesgue.Basic

/-! # Chances of moves and walks (C132) -/

namespace MaMDP.Spec

/-- The softmax rule: the chance of action `x` in state `s` is its share of the weights `exp (q / T)`. -/
noncomputable def moveChance (T : ℝ) (q : Arr2 (Ext ℝ)) (s x : Nat) : ℝ :=
  weight T (q.get s x) / ∑ y ∈ Finset.range q.d1, weight T (q.get s y)

/-- The chance of a walk (actions with the states they lead to) from `s`: the product over its moves. -/
noncomputable def walkChance (T : ℝ) (q : Arr2 (Ext ℝ)) : Nat → List (Nat × Nat) → ℝ
  | _, [] => 1
  | s, (x, t) :: l => moveChance T q s x * walkChance T q t l

/-- The chance of standing on `t` after `k` moves from `s`, for the chain that moves by the softmax rule. -/
noncomputable def standing (M : Trans ℝ) (T : ℝ) (q : Arr2 (Ext ℝ)) : Nat → Nat → Nat → ℝ
  | 0, s, t => if s = t then 1 else 0
  | k + 1, s, t => ∑ x ∈ Finset.range M.nA, ∑ u ∈ Finset.range M.nS,
      moveChance T q s x * M.p s x u * standing M T q k u t

/-- What the random generator delivers during `k` steps in an environment of `n` states: one number for each step and
state. -/
abbrev Outcome (k n : Nat) : Type := Fin k × Fin n → ℝ

/-- The numbers a generator delivers are in `[0, 1)`. -/
def Delivered {k n : Nat} (ω : Outcome k n) : Prop := ∀ i, 0 ≤ ω i ∧ ω i < 1

/-- The number for step `j` and state `s`. -/
noncomputable def drawAt {k n : Nat} (ω : Outcome k n) (j s : Nat) : ℝ :=
  if h : j < k ∧ s < n then ω (⟨j, h.1⟩, ⟨s, h.2⟩) else 0

/-- The environment after `k` steps of an agent. -/
noncomputable def stepped (e : Env ℝ ℝ) (name : String) {k n : Nat} (ω : Outcome k n) : Env ℝ ℝ :=
  e.run ((List.range k).map fun j => .step name (drawAt ω j))

/-- Two actions never lead from the same state to the same state. -/
def MovesDiffer (M : Trans ℝ) : Prop :=
  ∀ s x y t, s < M.nS → x < M.nA → y < M.nA → t < M.nS → 0 < M.p s x t → 0 < M.p s y t → x = y

end MaMDP.Spec
