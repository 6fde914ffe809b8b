import Verif.Model.MCTSObject

/-! # Vocabulary for fits one after the other -/

namespace MaMDP.Spec

variable {K : Type} [Field K] [LinearOrder K] [IsStrictOrderedRing K] {δ : Type}

/-- A fit in a given world: transitions `M`, features `base` outside the rows that mark the agents, and opponents with
given tastes. Agents may be anywhere and the planning agent's reward may be anything. The agents meet the conditions
under which caching is harmless within one fit (`C62_partial`): no opponent's reward depends on where agents are, and
nobody consumes more than one feature. -/
def InWorld (M : Trans K) (base : Nat → Nat → K) (nF : Nat) (rows : List Nat) (tastes : List (Nat → K))
    (interactive : Bool) (c : FitCall K δ) : Prop :=
  ∃ e a get p os, c.link = some (e, a) ∧ c.mdp.nFeatures = nF ∧ c.reward = .nd [nF] get ∧ c.mdp.trans = M ∧
    (∀ f, f < nF → f ∉ rows → ∀ s, c.mdp.features.get f s = base f s) ∧
    e.agentInfos a interactive ⟨nF, fun i => get [i]⟩ = p :: os ∧
    (p :: os).map (·.featIdx) = rows ∧ os.map (·.reward.get) = tastes ∧
    (∀ i ∈ p :: os, i.reward.d0 = nF) ∧ (∀ i ∈ p :: os, i.featIdx < nF) ∧
    (∀ i ∈ p :: os, ∀ f ∈ i.consumes, ∃ x, pyIdx nF f = some x) ∧ rows.Nodup ∧
    (∀ i ∈ os, ∀ j ∈ p :: os, i.reward.get j.featIdx = 0) ∧
    (∀ i ∈ p :: os, ∀ f ∈ i.consumes, ∀ g ∈ i.consumes, pyIdx nF f = pyIdx nF g)

/-- Successful fits one after the other lead from one object to another. -/
def AllFit : MctsObj K → List (FitCall K δ) → MctsObj K → Prop
  | obj, [], x => x = obj
  | obj, c :: cs, x => ∃ y, obj.fit c = some (y, .ok ()) ∧ AllFit y cs x

end MaMDP.Spec
