import Verif.Lemmas.Relisted
import Verif.Props.EnvironmentSteps

/-! # C153: the order in which the agents are listed -/

set_option linter.unusedSectionVars false

namespace MaMDP

variable {K δ : Type} [Field K] [LinearOrder K] [IsStrictOrderedRing K]
variable {kind : GridKind} {W H : Nat} {selfT : Bool} {m m' : Mdp K} {specs specs' : List (AgentSpec K δ)} {e : Env K δ}
variable {τ : Nat → Nat}

/-- **C153**, same feature numbers for the same things: an environment built from the same agents in another order. -/
theorem C153_relisted (hm : Mdp.GridReach kind W H selfT m) (hown : m.nNonAgent = m.features.d0 - m.nAgents)
    (hinit : Env.init m specs = (m', .ok e)) (hne : specs ≠ []) (hn : (specs.map (·.name)).Nodup)
    (h : Spec.Relisted (m.features.d0 - m.nAgents) τ specs specs') :
    ∃ m'' e', Env.init m specs' = (m'', .ok e') ∧ ∀ l : List (Spec.PlayOp K δ),
      (∀ op : Spec.PlayOp K δ, Spec.answer (Spec.play e' l) (op.call (Spec.play e' l)) = Spec.answer (Spec.play e l) (op.call (Spec.play e l))) ∧
      (∀ n, (Spec.play e' l).getHistory n = (Spec.play e l).getHistory n ∧
        (Spec.play e' l).getQValues n = (Spec.play e l).getQValues n ∧
        (Spec.play e' l).getPi n = (Spec.play e l).getPi n ∧
        (Spec.play e' l).getPiP n = (Spec.play e l).getPiP n) ∧
      (∀ n a, (Spec.play e l).agent? n = some a → ∃ a', (Spec.play e' l).agent? n = some a' ∧
        a'.position = a.position ∧ ∀ f, f < m.features.d0 - m.nAgents + specs.length →
          a'.consumed (Spec.listedAs (m.features.d0 - m.nAgents) τ f) = a.consumed f) ∧
      (∀ f s, f < m.features.d0 - m.nAgents + specs.length →
        (Spec.play e' l).mdp.features.get (Spec.listedAs (m.features.d0 - m.nAgents) τ f) s =
          (Spec.play e l).mdp.features.get f s) ∧
      (Spec.play e' l).nSteps = (Spec.play e l).nSteps ∧ (Spec.play e' l).mdp.walls = (Spec.play e l).mdp.walls := by
  obtain ⟨m'', e', h1, h2, h3, h4⟩ := Env.init_relisted hm hown hinit hne hn h
  have hσ := Relisted.renumbers h
  have hle : specs.length ≤ m.features.d0 - m.nAgents + specs.length := by omega
  refine ⟨m'', e', h1, fun l => ?_⟩
  obtain ⟨p1, p2, p3⟩ := h4.play hσ hle l e e' h2 h3
  refine ⟨fun op => (p1.call hσ hle p2 p3 op).2, fun n => ?_, fun n a ha => ?_, fun f s hf => ?_, p1.steps, ?_⟩
  · unfold Env.getHistory Env.getQValues Env.getPi Env.getPiP
    rcases p1.lookup n with ⟨er, q1, q2⟩ | ⟨a, a', q1, q2, -, -, w, i, fi, cs, cd, rfl, -⟩
    · rw [q1, q2]; exact ⟨rfl, rfl, rfl, rfl⟩
    · rw [q1, q2]; exact ⟨rfl, rfl, rfl, rfl⟩
  · rcases p1.agents n with ⟨q1, -⟩ | ⟨b, a', q1, q2, w, i, fi, cs, cd, rfl, hs⟩
    · rw [q1] at ha; cases ha
    · rw [q1] at ha
      cases ha
      exact ⟨_, q2, rfl, hs.consumed⟩
  · obtain ⟨F, O, q0, -, -, -, -, -, -, -, q7, -⟩ := p1.mdp
    rw [q0]
    exact congrFun (q7 f hf) s
  · obtain ⟨F, O, q0, -⟩ := p1.mdp
    rw [q0]

/-- Fox and hen of the example, the hen listed first: rows 1 and 2 change places. -/
def exSpecsSwapped : List (AgentSpec Rat Nat) :=
  [⟨"hen", 1, maxSelector, .fresh, some 2, .of1 ⟨3, fun _ => 1⟩, []⟩,
   ⟨"fox", 2, maxSelector, .fresh, some 0, .of1 ⟨3, fun i => if i = 0 then 1 else 0⟩, [0, 1]⟩]

theorem exSpecsSwapped_relisted : Spec.Relisted 1 (fun i => 1 - i) exSpecs exSpecsSwapped := by
  refine ⟨rfl, fun i hi => ?_, fun i j hi hj he => ?_, fun i sp hi => ?_⟩
  · change i < 2 at hi; change 1 - i < 2; omega
  · change i < 2 at hi; change j < 2 at hj; change 1 - i = 1 - j at he; omega
  · match i, hi with
    | 0, hi =>
      cases hi
      refine ⟨_, _, _, [0, 2], rfl, rfl, rfl, rfl, rfl, rfl, rfl, rfl, fun f hf => ?_, by decide, rfl, rfl⟩
      change f < 3 at hf
      interval_cases f <;> rfl
    | 1, hi =>
      cases hi
      refine ⟨_, _, _, [], rfl, rfl, rfl, rfl, rfl, rfl, rfl, rfl, fun f hf => rfl, by decide, rfl, rfl⟩
    | (i + 2), hi => simp [exSpecs] at hi

/-- The fox plans and walks to the hen. -/
def exPursuit : List (Spec.PlayOp Rat Nat) :=
  [.plan "fox" 20 (1 / 2) (1 / 100) fun _ => 0, .step "fox" fun _ => 0, .walk "fox" (.int 1) none false fun _ _ => 0]

example : ∃ m m' e, Mdp.GridReach .square 1 3 false m ∧ m.nNonAgent = m.features.d0 - m.nAgents ∧
    Env.init m exSpecs = (m', .ok e) ∧ (exSpecs.map (·.name)).Nodup ∧
    Spec.Relisted (m.features.d0 - m.nAgents) (fun i => 1 - i) exSpecs exSpecsSwapped ∧
    ∃ a, (Spec.play e exPursuit).agent? "fox" = some a ∧ a.position = 2 ∧ a.consumed 0 = 1 ∧ a.consumed 2 = 1 ∧
      a.history = [0, 1, 2] := by
  obtain ⟨m, m', e, h1, h2, h3⟩ := exStart' exMdp exSpecs (fun e => match (Spec.play e exPursuit).agent? "fox" with
    | some a => decide (a.position = 2 ∧ a.consumed 0 = 1 ∧ a.consumed 2 = 1 ∧ a.history = [0, 1, 2]) &&
        decide (e.mdp.nNonAgent = 1 ∧ e.mdp.features.d0 = 3)
    | none => false) (by decide +kernel) (fun m hm => .init hm)
  obtain ⟨-, -, -, -, -, -, f7, -, -, f10, -⟩ := Env.init_facts h1 h2
  cases hq : (Spec.play e exPursuit).agent? "fox" with
  | none => simp only [hq] at h3; cases h3
  | some a =>
    simp only [hq, Bool.and_eq_true, decide_eq_true_eq] at h3
    obtain ⟨⟨g1, g2, g3, g4⟩, g5, g6⟩ := h3
    have hl : exSpecs.length = 2 := rfl
    have hd : m.features.d0 - m.nAgents = 1 := by omega
    refine ⟨m, m', e, h1, by omega, h2, by decide, ?_, a, hq, g1, g2, g3, g4⟩
    rw [hd]
    exact exSpecsSwapped_relisted

/-- Fox and hen on one state of an MDP whose features were replaced, the hen listed first. -/
def exSpecs2Swapped : List (AgentSpec Rat Nat) :=
  [⟨"hen", 1, maxSelector, .fresh, some 0, .of1 ⟨4, fun _ => 1⟩, []⟩,
   ⟨"fox", 2, maxSelector, .fresh, some 0, .of1 ⟨4, fun _ => 1⟩, [2]⟩]

theorem exSpecs2Swapped_relisted : Spec.Relisted 2 (fun i => 1 - i) exSpecs2 exSpecs2Swapped := by
  refine ⟨rfl, fun i hi => ?_, fun i j hi hj he => ?_, fun i sp hi => ?_⟩
  · change i < 2 at hi; change 1 - i < 2; omega
  · change i < 2 at hi; change j < 2 at hj; change 1 - i = 1 - j at he; omega
  · match i, hi with
    | 0, hi =>
      cases hi
      exact ⟨_, _, _, [3], rfl, rfl, rfl, rfl, rfl, rfl, rfl, rfl, fun f hf => rfl, by decide, rfl, rfl⟩
    | 1, hi =>
      cases hi
      exact ⟨_, _, _, [], rfl, rfl, rfl, rfl, rfl, rfl, rfl, rfl, fun f hf => rfl, by decide, rfl, rfl⟩
    | (i + 2), hi => simp [exSpecs2] at hi

/-- The fox makes one step and is stopped if it catches something. -/
def exOneStep : Spec.PlayOp Rat Nat := .walk "fox" (.int 1) none true fun _ _ => 0

/-- The condition on `nNonAgent` is needed: on an MDP whose features were replaced before the environment was built, the
order decides whether the fox, alone on its state, is stopped for a catch. -/
theorem C153_rows_witness : ∃ (m m' m'' : Mdp Rat) (e e' : Env Rat Nat), Mdp.GridReach .square 1 3 false m ∧
    Env.init m exSpecs2 = (m', .ok e) ∧ Env.init m exSpecs2Swapped = (m'', .ok e') ∧
    (exSpecs2.map (·.name)).Nodup ∧
    Spec.Relisted (m.features.d0 - m.nAgents) (fun i => 1 - i) exSpecs2 exSpecs2Swapped ∧
    ∃ l, Spec.answer (Spec.play e l) (exOneStep.call (Spec.play e l)) = .walked (.ok (some [1])) ∧
      Spec.answer (Spec.play e' l) (exOneStep.call (Spec.play e' l)) = .walked (.ok none) := by
  let l : List (Spec.PlayOp Rat Nat) := [.plan "fox" 1 (1 / 2) (1 / 100) fun _ => 0]
  let isW : Spec.EnvAnswer Rat → Option (List Int) → Bool := fun a r => match a with
    | .walked (.ok x) => decide (x = r)
    | _ => false
  have hw : ∀ a r, isW a r = true → a = .walked (.ok r) := by
    intro a r h
    match a, h with
    | .walked (.ok x), h => simp only [isW, decide_eq_true_eq] at h; rw [h]
  have key : (match exMdp2 with
      | .ok m => match (Env.init m exSpecs2).2, (Env.init m exSpecs2Swapped).2 with
        | .ok e, .ok e' => isW (Spec.answer (Spec.play e l) (exOneStep.call (Spec.play e l))) (some [1]) &&
            isW (Spec.answer (Spec.play e' l) (exOneStep.call (Spec.play e' l))) none &&
            decide (m.features.d0 - m.nAgents = 2)
        | _, _ => false
      | .error _ => false) = true := by decide +kernel
  cases hm : exMdp2 with
  | error er => rw [hm] at key; cases key
  | ok m =>
    rw [hm] at key
    simp only at key
    have hr : Mdp.GridReach .square 1 3 false m := by
      unfold exMdp2 at hm
      cases h : exMdp with
      | error e => rw [h] at hm; cases hm
      | ok m0 =>
        rw [h] at hm
        cases hm
        exact .step _ (.init h) (by intro x hx; cases hx)
    rcases h1 : Env.init m exSpecs2 with ⟨m', _ | e⟩
    · rw [h1] at key; cases key
    rcases h2 : Env.init m exSpecs2Swapped with ⟨m'', _ | e'⟩
    · rw [h1, h2] at key; cases key
    rw [h1, h2] at key
    simp only [Bool.and_eq_true, decide_eq_true_eq] at key
    refine ⟨m, m', m'', e, e', hr, h1, h2, by decide, ?_, l, hw _ _ key.1.1, hw _ _ key.1.2⟩
    rw [key.2]
    exact exSpecs2Swapped_relisted

end MaMDP
