import Verif.Lemmas.EnvSteps

/-! # Lemma for C146 -/

set_option linter.unusedSectionVars false

namespace MaMDP

variable {K : Type} [Field K] [LinearOrder K] [IsStrictOrderedRing K] {δ : Type}

/-- In every MDP and for an agent in any condition, an agent moved to another state (and changed in nothing else)
answers as it did for the distribution that is certain of this state. -/
theorem stepProba_moved (a : Agent K δ) (m₁ m₂ : Mdp K) (s : Nat) (hs : s < m₁.nStates)
    (hn : m₂.nStates = m₁.nStates) (hg : ∀ x y, m₂.getNextState x y = m₁.getNextState x y) (d : Nat → δ) :
    (({ a with position := (s : Int) } : Agent K δ).stepProba m₂ none d).2 =
      (a.stepProba m₁ (some ⟨m₁.nStates, fun t => if t = s then 1 else 0⟩) d).2 := by
  have hl : ∀ (P : Arr2 (Ext K)) (pos : Nat → Ext K) (l : List (Nat × Nat)) (out : Nat → Ext K),
      Agent.probaLoop m₂ P pos l out = Agent.probaLoop m₁ P pos l out := by
    intro P pos l
    induction l with
    | nil => intro out; rfl
    | cons x l ih => intro out; simp only [Agent.probaLoop, hg, ih]
  have hi : pyIdx m₁.nStates (s : Int) = some s := by rw [pyIdx_nat, if_pos hs]
  simp only [Agent.stepProba, Agent.probaStart, hn, hi, ne_eq, not_true_eq_false, if_false, hl]
  by_cases hf : a.alg.fitComplete = false
  · rw [if_pos hf, if_pos hf]
  · rw [if_neg hf, if_neg hf]
    simp only [Agent.getPolicy]
    cases hq : a.alg.qValues with
    | none => rfl
    | some q =>
      cases hP : a.selector.piP q with
      | error err => simp only [hP]
      | ok P =>
        cases hp : a.selector.pi q d with
        | error err => simp only [hP, hp]
        | ok p =>
          simp only [hP, hp]
          cases Agent.probaLoop m₁ P (Agent.normalise (⟨m₁.nStates, fun t => if t = s then 1 else 0⟩ : Arr1 K))
            ((npWhere m₁.nStates fun r => Ext.isPos (Agent.normalise
              (⟨m₁.nStates, fun t => if t = s then 1 else 0⟩ : Arr1 K) r)).flatMap
              fun r => (List.range P.d1).map fun x => (r, x)) (fun _ => .fin 0) <;> rfl

end MaMDP
