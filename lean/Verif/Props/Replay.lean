import Verif.Lemmas.Replay
import Verif.Props.Environment

/-! # C152: an episode played again after a reset -/

set_option linter.unusedSectionVars false

namespace MaMDP

variable {K δ : Type} [Field K] [LinearOrder K] [IsStrictOrderedRing K]
variable {kind : GridKind} {W H : Nat} {selfT : Bool} {m m' : Mdp K} {specs : List (AgentSpec K δ)} {e0 : Env K δ}

/-- After a reset, the environment is as new up to counters and plans. -/
theorem Env.reset_ghost_start (hm : Mdp.GridReach kind W H selfT m) (hinit : Env.init m specs = (m', .ok e0))
    (hne : specs ≠ []) (ops : List (EnvOp K δ)) (hw : ∀ op ∈ ops, Spec.KeepsWalls op) :
    ∃ k G, (e0.run ops).reset.1 = e0.ghost (e0.run ops).nSteps k G ∧
      ∀ a, (e0.run ops).agent? a.name = some a → k a.name = a.consumed := by
  obtain ⟨-, hok, -, -, h0, ho, -, -, -, -, -, -, -, -, -, hall⟩ := Env.init_facts hm hinit
  obtain ⟨h1, hl⟩ := Env.started hm hinit ops
  obtain ⟨F, ns, hF⟩ := Env.keeps_run ops hw e0 hok
  have hnames := Env.names_run ops hok
  refine ⟨fun n f => ((e0.run ops).agent? n).elim 0 (fun a => a.consumed f), fun n => ((e0.run ops).agent? n).map (·.alg),
    ?_, fun a ha => funext fun f => by simp only [ha, Option.elim]⟩
  rw [(Env.reset_eq h1).1]
  unfold Env.resetEnv Env.ghost
  rw [hl.names, h0]
  simp only [Env.mk.injEq, Nat.add_zero, true_and, and_true]
  refine ⟨?_, ?_⟩
  · rw [hF]
    simp only
    have h2 := Env.init_names hinit hne
    have h3 := ho hne
    generalize e0.mdp = M at *
    obtain ⟨x1, x2, x3, x4, x5, x6, x7, x8, x9, x10, x11, x12, x13, x14⟩ := M
    simp only at h2 h3 ⊢
    subst h3
    rw [h2]
  · apply List.ext_getElem
    · have := congrArg List.length hnames
      simpa using this
    · intro i hi hi'
      simp only [List.length_map] at hi hi'
      simp only [List.getElem_map]
      have hni : ((e0.run ops).agents[i]).name = (e0.agents[i]).name := by
        have := congrArg (fun l => l[i]?) hnames
        simp only [List.getElem?_map, List.getElem?_eq_getElem hi, List.getElem?_eq_getElem hi', Option.map_some,
          Option.some.injEq] at this
        exact this
      have ha : (e0.run ops).agents[i] ∈ (e0.run ops).agents := List.getElem_mem hi
      have ha0 : e0.agents[i] ∈ e0.agents := List.getElem_mem hi'
      have hq : (e0.run ops).agent? (e0.agents[i]).name = some (e0.run ops).agents[i] :=
        (Env.agent?_eq h1.nodup).2 ⟨ha, hni⟩
      obtain ⟨b, hb, b1, b2, b3, b4, b5, b6, b7, b8, -⟩ := Env.Later.back hok h1 hl ha
      have hbe : b = e0.agents[i] := Env.eq_of_name hok.nodup hb ha0 (b1.symm.trans hni)
      subst hbe
      obtain ⟨x, sp, p, r, -, -, -, hnew⟩ := hall _ ha0
      unfold Env.resetAgent Agent.ghost
      simp only [hq, Option.map_some, Option.getD_some, Option.elim]
      generalize (e0.run ops).agents[i] = A at *
      generalize e0.agents[i] = B at *
      subst hnew
      obtain ⟨a1, a2, a3, a4, a5, a6, a7, a8, a9, a10, a11, a12, a13, a14⟩ := A
      simp only at b1 b2 b3 b4 b5 b6 b7 b8 ⊢
      subst b1 b2 b3 b4 b5 b6 b7 b8
      simp [Env.newAgent]

/-- Whatever was done before (without moving walls), after `reset` the calls `again` return and raise what they
would in the newly built environment, one by one, and leave behind the same world: the same MDP, positions,
histories and policies, and the same plan for every agent planned for. Only the counters go on from where they were. -/
theorem C152_replay (hm : Mdp.GridReach kind W H selfT m) (hinit : Env.init m specs = (m', .ok e0))
    (hne : specs ≠ []) (ops : List (EnvOp K δ)) (hw : ∀ op ∈ ops, Spec.KeepsWalls op)
    (again : List (EnvOp K δ)) (hplan : Spec.PlansFirst e0 again) :
    (∀ l1 op l2, again = l1 ++ op :: l2 →
      Spec.answer ((e0.run ops).reset.1.run l1) op = Spec.answer (e0.run l1) op) ∧
    ((e0.run ops).reset.1.run again).mdp = (e0.run again).mdp ∧
    ((e0.run ops).reset.1.run again).nSteps = (e0.run ops).nSteps + (e0.run again).nSteps ∧
    ((e0.run ops).reset.1.run again).agentNames = (e0.run again).agentNames ∧
    ∀ n a b, (e0.run again).agent? n = some a → (e0.run ops).agent? n = some b →
      ∃ a', ((e0.run ops).reset.1.run again).agent? n = some a' ∧
        a'.position = a.position ∧ a'.history = a.history ∧ a'.pi = a.pi ∧ a'.piP = a.piP ∧
        (∀ f, a'.consumed f = b.consumed f + a.consumed f) ∧ (Spec.Planned e0 n again → a'.alg = a.alg) := by
  obtain ⟨k, G, hg, hk⟩ := Env.reset_ghost_start hm hinit hne ops hw
  obtain ⟨h1, G', h2, h3⟩ := Env.run_ghost (N := (e0.run ops).nSteps) (k := k) again e0 G
    (fun n l1 op l2 h hu => .inr (hplan n l1 op l2 h hu))
  rw [hg]
  refine ⟨h1, by rw [h3]; rfl, by rw [h3]; rfl, by rw [h3]; rfl, fun n a b ha hb => ?_⟩
  have hna : ∀ {e : Env K δ} {x : Agent K δ}, e.agent? n = some x → x.name = n := by
    intro e x hx
    unfold Env.agent? at hx
    have := List.find?_some hx
    simpa using this
  refine ⟨Agent.ghost k G' a, by rw [h3, Env.agent?_ghost, ha]; rfl, rfl, rfl, rfl, rfl, fun f => ?_, fun hp => ?_⟩
  · have hkb := hk b (by rw [hna hb]; exact hb)
    change k a.name f + a.consumed f = _
    rw [hna ha, ← hna hb, hkb]
  · change (G' a.name).getD a.alg = a.alg
    rw [hna ha, h2 n (.inr hp)]
    rfl

/-- The corridor, played and reset, then played again; the fox is planned for before it steps, eats again and is
reported to have eaten twice. -/
example : ∃ m m' e, Mdp.GridReach .square 1 3 false m ∧ Env.init m exSpecs = (m', .ok e) ∧ exSpecs ≠ [] ∧
    (∀ op ∈ exOps, Spec.KeepsWalls op) ∧ Spec.PlansFirst e exOps ∧
    ((e.run exOps).reset.1.run exOps).agents.map (·.position) = [2, 2] ∧
    ((e.run exOps).reset.1.run exOps).agents.map (·.consumed 0) = [2, 0] := by
  obtain ⟨m, m', e, h1, h2, h3⟩ := exStart
    (fun e => decide ((e.fit "fox" exFit fun _ => 0).2 = .ok ()) &&
      decide (((e.run exOps).reset.1.run exOps).agents.map (·.position) = [2, 2] ∧
      ((e.run exOps).reset.1.run exOps).agents.map (·.consumed 0) = [2, 0])) (by decide +kernel)
  simp only [Bool.and_eq_true, decide_eq_true_eq] at h3
  refine ⟨m, m', e, h1, h2, by decide, ?_, ?_, h3.2⟩
  · intro op hop
    simp only [exOps, List.mem_cons, List.not_mem_nil, or_false] at hop
    rcases hop with rfl | rfl | rfl <;> trivial
  · intro n l1 op l2 hl hu
    rcases l1 with _ | ⟨x, l1⟩
    · simp only [exOps, List.nil_append, List.cons.injEq] at hl
      rw [← hl.1] at hu; exact hu.elim
    · simp only [exOps, List.cons_append, List.cons.injEq] at hl
      have hn : n = "fox" := by
        have hmem : op ∈ [EnvOp.step "fox" fun _ => 0, EnvOp.step (K := Rat) "fox" fun _ => 0] := by
          rw [hl.2]; simp
        simp only [List.mem_cons, List.not_mem_nil, or_false, or_self] at hmem
        subst hmem
        exact hu.symm
      subst hn
      exact ⟨[], exFit, fun _ => 0, l1, by rw [hl.1]; rfl, h3.1⟩

/-- Without planning first, the step goes by the plan of the episode before, where in a new environment it raises. -/
theorem C152_stale_witness : ∃ m m' e, Mdp.GridReach .square 1 3 false m ∧ Env.init m exSpecs = (m', .ok e) ∧
    (e.step "fox" fun _ => 0).2 = .error .attributeError ∧
    ((e.run exOps).reset.1.step "fox" fun _ => 0).2 = .ok 1 := by
  obtain ⟨m, m', e, h1, h2, h3⟩ := exStart
    (fun e => decide ((e.step "fox" fun _ => 0).2 = .error .attributeError ∧
      ((e.run exOps).reset.1.step "fox" fun _ => 0).2 = .ok 1)) (by decide +kernel)
  exact ⟨m, m', e, h1, h2, of_decide_eq_true h3⟩

end MaMDP
