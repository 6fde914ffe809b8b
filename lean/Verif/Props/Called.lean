import Verif.Lemmas.Called
import Verif.Props.Environment

/-! # C161: the names of the agents do not matter -/

set_option linter.unusedSectionVars false

namespace MaMDP

open Spec (callAgent callSpec callEnv callOp)

variable {K δ : Type} [Field K] [LinearOrder K] [IsStrictOrderedRing K] {ρ : String → String}

/-- Building the environment of the agents called by other names: the same MDP is left behind, the same error is raised,
and the environment differs in the names alone. -/
theorem C161_built (hρ : Function.Injective ρ) (m : Mdp K) (specs : List (AgentSpec K δ)) :
    (Env.init m (specs.map (callSpec ρ))).1 = (Env.init m specs).1 ∧
    (∀ err, (Env.init m (specs.map (callSpec ρ))).2 = .error err ↔ (Env.init m specs).2 = .error err) ∧
    (∀ e, (Env.init m specs).2 = .ok e → (Env.init m (specs.map (callSpec ρ))).2 = .ok (callEnv ρ e)) ∧
    ∀ e, (callEnv ρ e : Env K δ).mdp = e.mdp ∧ (callEnv ρ e).nSteps = e.nSteps ∧
      (callEnv ρ e).agentNames = e.agentNames.map ρ := by
  rw [Env.init_call hρ]
  refine ⟨rfl, fun err => ?_, fun e h => ?_, fun e => ⟨rfl, rfl, rfl⟩⟩
  · cases (Env.init m specs).2 <;> simp
  · simp only [h]

/-- The same calls with the other names, whatever they are and whether or not they raise: they return and raise the same
one by one, and leave behind the same MDP, the same counter, and for every agent the same position, history, counts of
what was eaten, plan and policy. -/
theorem C161_calls (hρ : Function.Injective ρ) (e : Env K δ) (ops : List (EnvOp K δ)) :
    (∀ l1 op l2, ops = l1 ++ op :: l2 →
      Spec.answer ((callEnv ρ e).run (l1.map (callOp ρ))) (callOp ρ op) = Spec.answer (e.run l1) op) ∧
    ((callEnv ρ e).run (ops.map (callOp ρ))).mdp = (e.run ops).mdp ∧
    ((callEnv ρ e).run (ops.map (callOp ρ))).nSteps = (e.run ops).nSteps ∧
    ((callEnv ρ e).run (ops.map (callOp ρ))).agentNames = (e.run ops).agentNames.map ρ ∧
    ∀ n, ((callEnv ρ e).run (ops.map (callOp ρ))).getHistory (ρ n) = (e.run ops).getHistory n ∧
      ((callEnv ρ e).run (ops.map (callOp ρ))).getQValues (ρ n) = (e.run ops).getQValues n ∧
      ((callEnv ρ e).run (ops.map (callOp ρ))).getPi (ρ n) = (e.run ops).getPi n ∧
      ((callEnv ρ e).run (ops.map (callOp ρ))).getPiP (ρ n) = (e.run ops).getPiP n ∧
      ∀ a, (e.run ops).agent? n = some a → ∃ b, ((callEnv ρ e).run (ops.map (callOp ρ))).agent? (ρ n) = some b ∧
        b.name = ρ a.name ∧ b.position = a.position ∧ b.history = a.history ∧ b.consumed = a.consumed ∧
        b.alg = a.alg ∧ b.pi = a.pi ∧ b.piP = a.piP ∧ b.idx = a.idx ∧ b.featIdx = a.featIdx := by
  refine ⟨fun l1 op l2 _ => ?_, ?_⟩
  · rw [Env.run_call hρ]
    exact (Env.apply_call hρ _ op).2
  · rw [Env.run_call hρ]
    refine ⟨rfl, rfl, rfl, fun n => ?_⟩
    unfold Env.getHistory Env.getQValues Env.getPi Env.getPiP
    rw [Env.lookup_call hρ]
    refine ⟨?_, ?_, ?_, ?_, fun a ha => ?_⟩
    iterate 4 cases (e.run ops).lookup n <;> rfl
    refine ⟨callAgent ρ a, ?_, rfl, rfl, rfl, rfl, rfl, rfl, rfl, rfl, rfl⟩
    rw [Env.agent?_call hρ, ha]
    rfl

/-- A tree search for an agent called by another name, among others called by other names: with the same outcomes of
chance it leaves behind the same search (values, cache, policy), raises the same, and gives the agent the same plan; so
does moving it by `step_multi` with replanning. -/
theorem C161_search (hρ : Function.Injective ρ) (e : Env K δ) (n : String) (obj : MctsObj K) :
    (∀ (x : SearchArgs K) (d : Nat → δ), (callEnv ρ e).fitSearch (ρ n) obj x d =
      (e.fitSearch n obj x d).map fun y => (callEnv ρ y.1, y.2)) ∧
    ∀ (s : Env.StepsArg) (p : Option (List Nat)) (t : Nat) (stop : Bool) (orc : Nat → SearchOracle K δ),
      (callEnv ρ e).stepMultiSearch (ρ n) obj s p t stop orc =
        (e.stepMultiSearch n obj s p t stop orc).map fun y => (callEnv ρ y.1, y.2) :=
  ⟨fun x d => Env.fitSearch_call hρ e n obj x d, fun s p t stop orc => Env.stepMultiSearch_call hρ e n obj s p t stop orc⟩

/-- A whole game of agents planning by tree search, played under other names: the calls return and raise the same in the
same order, and the final environments differ in the names alone. -/
theorem C161_game (hρ : Function.Injective ρ) (orc : Nat → Nat → SearchOracle K δ) (ts : List SearchTurn) (j : Nat)
    (e x : Env K δ) (objs objs' after : String → MctsObj K) (rs : List (Py (Option (List Int))))
    (h : ∀ n, objs' (ρ n) = objs n) (hg : Env.game orc ts j e objs = some (x, after, rs)) :
    ∃ after', (∀ n, after' (ρ n) = after n) ∧
      Env.game orc (ts.map fun t => { t with name := ρ t.name }) j (callEnv ρ e) objs' =
        some (callEnv ρ x, after', rs) := by
  have := Env.game_call hρ orc ts j e objs objs' h
  rw [hg] at this
  exact this

/-- Fox and hen in the corridor, called with an exclamation mark. -/
example : Function.Injective (fun s : String => s ++ "!") ∧
    ∃ m m' e, Mdp.GridReach .square 1 3 false m ∧ Env.init m exSpecs = (m', .ok e) ∧
      (e.run exOps).agents.map (·.position) = [2, 2] ∧
      ((callEnv (· ++ "!") e).run (exOps.map (callOp (· ++ "!")))).agents.map (fun a => (a.name, a.position)) =
        [("fox!", 2), ("hen!", 2)] := by
  refine ⟨fun a b h => ?_, ?_⟩
  · exact String.append_left_inj _ |>.1 h
  · obtain ⟨m, m', e, h1, h2, h3⟩ := exStart
      (fun e => decide ((e.run exOps).agents.map (·.position) = [2, 2] ∧
        ((callEnv (· ++ "!") e).run (exOps.map (callOp (· ++ "!")))).agents.map (fun a => (a.name, a.position)) =
        [("fox!", 2), ("hen!", 2)])) (by decide +kernel)
    simp only [decide_eq_true_eq] at h3
    exact ⟨m, m', e, h1, h2, h3⟩

/-- The names must stay different: with one name for both, the second agent takes the place of the first, and where the
fox should be there is a hen. -/
theorem C161_same_name_witness : ∃ (m m' m'' : Mdp Rat) (e e' : Env Rat Nat), Mdp.GridReach .square 1 3 false m ∧
    Env.init m exSpecs = (m', .ok e) ∧ Env.init m (exSpecs.map (callSpec fun _ => "fox")) = (m'', .ok e') ∧
    e.agents.map (fun a => (a.name, a.position)) = [("fox", 0), ("hen", 2)] ∧
    e'.agents.map (fun a => (a.name, a.position)) = [("fox", 2)] ∧
    e.getHistory "fox" = .ok [0] ∧ e'.getHistory "fox" = .ok [2] := by
  have hd : (match exMdp with
      | .error _ => false
      | .ok m => match Env.init m exSpecs, Env.init m (exSpecs.map (callSpec fun _ => "fox")) with
        | (_, .ok e), (_, .ok e') => decide (e.agents.map (fun a => (a.name, a.position)) = [("fox", 0), ("hen", 2)] ∧
          e'.agents.map (fun a => (a.name, a.position)) = [("fox", 2)]) &&
          decide ((match e.getHistory "fox" with | .ok l => some l | .error _ => none) = some [0] ∧
            (match e'.getHistory "fox" with | .ok l => some l | .error _ => none) = some [2])
        | _, _ => false) = true := by decide +kernel
  cases hm : exMdp with
  | error err => rw [hm] at hd; cases hd
  | ok m =>
    rw [hm] at hd
    simp only at hd
    rcases h1 : Env.init m exSpecs with ⟨m', x | e⟩
    · rw [h1] at hd; cases hd
    rcases h2 : Env.init m (exSpecs.map (callSpec fun _ => "fox")) with ⟨m'', x | e'⟩
    · rw [h1, h2] at hd; cases hd
    rw [h1, h2] at hd
    simp only [Bool.and_eq_true, decide_eq_true_eq] at hd
    refine ⟨m, m', m'', e, e', .init hm, h1, h2, hd.1.1, hd.1.2, ?_, ?_⟩
    · cases hx : e.getHistory "fox" with
      | error => rw [hx] at hd; simp at hd
      | ok l => rw [hx] at hd; simpa using hd.2.1
    · cases hx : e'.getHistory "fox" with
      | error => rw [hx] at hd; simp at hd
      | ok l => rw [hx] at hd; simpa using hd.2.2

end MaMDP
