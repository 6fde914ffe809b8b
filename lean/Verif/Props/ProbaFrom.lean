import Verif.Model.ProbaFrom
import Verif.Lemmas.ProbaFrom
import Verif.Props.EnvironmentSteps

/-! # Asking what a step from some state would lead to: C146 -/

set_option linter.unusedSectionVars false

namespace MaMDP

variable {K : Type} [Field K] [LinearOrder K] [IsStrictOrderedRing K] {δ : Type}
variable {kind : GridKind} {W H : Nat} {selfT : Bool} {m m' : Mdp K} {specs : List (AgentSpec K δ)}
  {e0 : Env K δ}

/-- **C146 is false**: whatever has been called before, `step_proba` with a state number raises `TypeError` for every
agent of the environment and every number. -/
theorem C146_refuted (hm : Mdp.GridReach kind W H selfT m) (hinit : Env.init m specs = (m', .ok e0))
    (ops : List (EnvOp K δ)) (e : Env K δ) (he : e = e0.run ops) (a : Agent K δ) (ha : a ∈ e.agents) (s : Int)
    (d : Nat → δ) : e.stepProbaArg a.name (.state s) d = (e, .error .typeError) := by
  have hok : Env.Ok kind W H selfT e := by rw [he]; exact (Env.started hm hinit ops).1
  unfold Env.stepProbaArg
  rw [(Env.lookup_ok hok).2 ⟨ha, rfl⟩]

/-- What does hold, after any history: with the array that has a 1 at a state and 0 elsewhere the call moves nobody and
answers exactly as it would, without a position, had the agent first been put into that state. -/
theorem C146_partial (hm : Mdp.GridReach kind W H selfT m) (hinit : Env.init m specs = (m', .ok e0))
    (ops : List (EnvOp K δ)) (e : Env K δ) (he : e = e0.run ops) (a : Agent K δ) (ha : a ∈ e.agents) (s : Nat)
    (hs : s < W * H) (d : Nat → δ) :
    (e.setAgentPosition a.name s).2 = .ok () ∧
    (e.stepProbaArg a.name (.dist ⟨W * H, fun t => if t = s then 1 else 0⟩) d).2 =
      ((e.setAgentPosition a.name s).1.stepProbaArg a.name .default d).2 ∧
    (e.stepProbaArg a.name (.dist ⟨W * H, fun t => if t = s then 1 else 0⟩) d).1.mdp = e.mdp ∧
    (e.stepProbaArg a.name (.dist ⟨W * H, fun t => if t = s then 1 else 0⟩) d).1.agents.map
      (fun b => (b.name, b.position)) = e.agents.map fun b => (b.name, b.position) := by
  have hok : Env.Ok kind W H selfT e := by rw [he]; exact (Env.started hm hinit ops).1
  have hN : e.mdp.nStates = W * H := hok.reach.ok.nStates
  have hs' : s < e.mdp.nStates := by rw [hN]; exact hs
  obtain ⟨h1, -⟩ | ⟨b, hb, hbn, hc⟩ := Env.setAgentPosition_cases hok a.name s
  · exact absurd ((hok.names a.name).2 (List.mem_map_of_mem (f := (·.name)) ha)) h1
  · have hba : b = a := Env.eq_of_name hok.nodup hb ha hbn
    subst hba
    rcases hc with ⟨j, hj, h1⟩ | ⟨h1, -⟩ | ⟨h1, -, -⟩
    · have hjs : j = s := by rw [pyIdx_nat, if_pos hs'] at hj; exact (Option.some.inj hj).symm
      subst hjs
      have hok2 : Env.Ok kind W H selfT (e.setAgentPosition b.name j).1 := hok.setAgentPosition b.name j
      have hmem : ({ b with position := (j : Int) } : Agent K δ) ∈ (e.setAgentPosition b.name j).1.agents := by
        rw [h1]
        exact (Env.mem_put (List.mem_map_of_mem (f := (·.name)) ha)).2 (.inl rfl)
      have hmv := stepProba_moved b e.mdp (e.setAgentPosition b.name j).1.mdp j hs' (by rw [h1]; rfl)
        (fun x y => by rw [h1]; rfl) d
      have hE : (e.stepProba b.name (some ⟨W * H, fun t => if t = j then 1 else 0⟩) d).2 =
          (b.stepProba e.mdp (some ⟨W * H, fun t => if t = j then 1 else 0⟩) d).2 ∧
          (e.stepProba b.name (some ⟨W * H, fun t => if t = j then 1 else 0⟩) d).1.mdp = e.mdp ∧
          (e.stepProba b.name (some ⟨W * H, fun t => if t = j then 1 else 0⟩) d).1.agents =
            (e.put e.mdp (b.stepProba e.mdp (some ⟨W * H, fun t => if t = j then 1 else 0⟩) d).1).agents := by
        unfold Env.stepProba
        rw [(Env.lookup_ok hok).2 ⟨ha, rfl⟩]
        simp only
        rcases b.stepProba e.mdp (some ⟨W * H, fun t => if t = j then 1 else 0⟩) d with ⟨x, y | y⟩ <;>
          exact ⟨rfl, rfl, rfl⟩
      have hE2 : ((e.setAgentPosition b.name j).1.stepProba b.name none d).2 =
          (({ b with position := (j : Int) } : Agent K δ).stepProba (e.setAgentPosition b.name j).1.mdp none d).2 := by
        unfold Env.stepProba
        rw [(Env.lookup_ok hok2).2 ⟨hmem, rfl⟩]
        simp only
        rcases ({ b with position := (j : Int) } : Agent K δ).stepProba (e.setAgentPosition b.name j).1.mdp none d
          with ⟨x, y | y⟩ <;> rfl
      refine ⟨by rw [h1], ?_, hE.2.1, ?_⟩
      · show (e.stepProba b.name _ d).2 = ((e.setAgentPosition b.name j).1.stepProba b.name none d).2
        rw [hE.1, hE2, hmv, hN]
      · show (e.stepProba b.name _ d).1.agents.map _ = _
        rw [hE.2.2]
        unfold Env.put
        rw [List.map_map]
        apply List.map_congr_left
        intro c hc
        have hsame := (Agent.stepProba_same b e.mdp (some ⟨W * H, fun t => if t = j then 1 else 0⟩) d).1
        simp only [Function.comp]
        split_ifs with hn
        · have : c = b := Env.eq_of_name hok.nodup hc ha (hn.trans hsame.name)
          subst this
          rw [hsame.name, hsame.position]
        · rfl
    · omega
    · omega

/-- The fitted fox of the corridor, asked about state 1: it would go on to state 2. -/
example : ∃ m m' e, Mdp.GridReach .square 1 3 false m ∧ Env.init m exSpecs = (m', .ok e) ∧
    (∃ a ∈ (e.run [.fit "fox" exFit fun _ => 0]).agents, a.name = "fox" ∧ a.position = 0) ∧
    ∃ out, ((e.run [.fit "fox" exFit fun _ => 0]).stepProbaArg "fox"
      (.dist ⟨1 * 3, fun t => if t = 1 then 1 else 0⟩) fun _ => 0).2 = .ok out ∧ out.get 2 = .fin 1 := by
  obtain ⟨m, m', e, h1, h2, h3⟩ := exStart (fun e =>
    (e.run [.fit "fox" exFit fun _ => 0]).agents.any (fun a => decide (a.name = "fox" ∧ a.position = 0)) &&
    match ((e.run [.fit "fox" exFit fun _ => 0]).stepProbaArg "fox"
      (.dist ⟨1 * 3, fun t => if t = 1 then 1 else 0⟩) fun _ => 0).2 with
    | .ok out => decide (out.get 2 = .fin 1)
    | .error _ => false) (by decide +kernel)
  rw [Bool.and_eq_true, List.any_eq_true] at h3
  obtain ⟨⟨a, ha, h3⟩, h4⟩ := h3
  refine ⟨m, m', e, h1, h2, ⟨a, ha, of_decide_eq_true h3⟩, ?_⟩
  split at h4
  · rename_i out ho
    exact ⟨out, ho, of_decide_eq_true h4⟩
  · cases h4

end MaMDP
