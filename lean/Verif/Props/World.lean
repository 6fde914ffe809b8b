import Verif.Lemmas.World
import Verif.Props.EnvironmentSteps

/-! # C101, C102: environments that share an MDP or an agent -/

set_option linter.unusedSectionVars false

namespace MaMDP

variable {K : Type} [Field K] [LinearOrder K] [IsStrictOrderedRing K] {δ : Type}

/-- Whatever is shared, a call on an environment has the effect described by the environment model on the MDP
and the algorithms as they are at that moment. -/
theorem C101_refines (mdps : Nat → Mdp K) (algs : Nat → AlgState K) (before : List (WorldOp K δ))
    (hd : Spec.DistinctAgents before) (j : Nat) (o : EnvObj K δ)
    (hj : ((Spec.noEnvs mdps algs).run before).envs[j]? = some o) (op : EnvOp K δ) :
    ∃ o', (((Spec.noEnvs mdps algs).run before).env j op).envs[j]? = some o' ∧
      (((Spec.noEnvs mdps algs).run before).env j op).value o' =
        (((Spec.noEnvs mdps algs).run before).value o).apply op :=
  World.env_self hj (World.run_ok before _ (fun o ho => by simp [Spec.noEnvs] at ho) hd o
    (List.mem_of_getElem? hj)) op

/-- What does hold: in a program of any length in which no two environments get the same MDP or the same agent
and no MDP is called behind the back of its environment, every environment goes from its construction through
exactly the calls made on it, whatever happens to the others in between. Missing: shared objects, see the
refutations. -/
theorem C101_partial (mdps : Nat → Mdp K) (algs : Nat → AlgState K) (before ops : List (WorldOp K δ)) (m : Nat)
    (specs : List (AgentSpec K δ × Nat))
    (hc : Spec.CarefulSteps (Spec.noEnvs mdps algs) (before ++ .newEnv m specs :: ops)) (m' : Mdp K) (e : Env K δ)
    (hinit : Env.init (((Spec.noEnvs mdps algs).run before).mdps m)
      (specs.map fun p => { p.1 with alg := ((Spec.noEnvs mdps algs).run before).algs p.2 }) = (m', .ok e)) :
    ∃ o, ((Spec.noEnvs mdps algs).run (before ++ .newEnv m specs :: ops)).envs[
        ((Spec.noEnvs mdps algs).run before).envs.length]? = some o ∧
      ((Spec.noEnvs mdps algs).run (before ++ .newEnv m specs :: ops)).value o =
        e.run (Spec.opsOn ((Spec.noEnvs mdps algs).run before).envs.length ops) := by
  obtain ⟨h1, h2, h3⟩ := World.careful_append hc
  have h0 : World.Apart (Spec.noEnvs mdps algs : World K δ) :=
    ⟨fun o ho => by simp [Spec.noEnvs] at ho, fun i j oi oj hi => by simp [Spec.noEnvs] at hi⟩
  obtain ⟨hs, -⟩ := World.careful_run before _ h0 h1
  have e0 : (Spec.noEnvs mdps algs : World K δ).run (before ++ .newEnv m specs :: ops) =
      (((Spec.noEnvs mdps algs).run before).newEnv m specs).1.run ops := by
    simp only [World.run, List.foldl_append, List.foldl_cons, World.apply]
  rw [e0]
  obtain ⟨k1, -, k3⟩ := World.newEnv_step hs m specs h2
  obtain ⟨o, e1, e2⟩ := k3 m' e hinit
  obtain ⟨-, k4⟩ := World.careful_run ops _ k1 h3
  obtain ⟨o', e3, e4⟩ := k4 _ o e1
  exact ⟨o', e3, by rw [e4, e2]⟩

/-- A fox at the upper end of the corridor. -/
def exFox : AgentSpec ℚ Nat := ⟨"fox", 1, maxSelector, .fresh, some 0, .of1 ⟨2, fun _ => 1⟩, []⟩

/-- A hen at the lower end of the corridor. -/
def exHen : AgentSpec ℚ Nat := ⟨"hen", 1, maxSelector, .fresh, some 2, .of1 ⟨2, fun _ => 1⟩, []⟩

/-- The corridor. -/
def exCorridor : Mdp ℚ := match exMdp with
  | .ok m => m
  | .error _ => .blank none false ⟨0, 0, 0, fun _ _ _ => 0⟩

/-- Any number of corridors and unfitted algorithms. -/
def exWorld0 : World ℚ Nat := Spec.noEnvs (fun _ => exCorridor) fun _ => .fresh

example : exMdp = .ok exCorridor := by
  have h : (match exMdp with | .ok _ => true | .error _ => false) = true := by decide +kernel
  cases hm : exMdp with
  | error e => rw [hm] at h; cases h
  | ok m => simp only [exCorridor, hm]

/-- A check of an environment after a program over corridors. -/
def exAfter (ops : List (WorldOp ℚ Nat)) (j : Nat) (p : Env ℚ Nat → Bool) : Bool :=
  match (exWorld0.run ops).envs[j]? with
  | none => false
  | some o => p ((exWorld0.run ops).value o)

/-- The agent's row of features is 1 at `s` and 0 in the other cells. -/
def exRow (e : Env ℚ Nat) (s : Nat) : Bool :=
  decide (∀ t : Fin 3, e.mdp.features.get 1 t = if (t : Nat) = s then 1 else 0)

/-- **C101 is false**: a second environment on the same MDP wipes out the features of the first one's agents.
In the first environment the fox is still at state 0, but its row of features is where the hen is; moving the
fox then moves the row of the second environment's hen. -/
theorem C101_refuted_mdp :
    exAfter [.newEnv 0 [(exFox, 0)]] 0 (fun e => exRow e 0 && e.agents.map (·.position) == [0]) = true ∧
    exAfter [.newEnv 0 [(exFox, 0)], .newEnv 0 [(exHen, 1)]] 0
      (fun e => exRow e 2 && e.agents.map (·.position) == [0]) = true ∧
    exAfter [.newEnv 0 [(exFox, 0)], .newEnv 0 [(exHen, 1)], .env 0 (.setAgentPosition "fox" 1)] 1
      (fun e => exRow e 1 && e.agents.map (·.position) == [2]) = true := by
  refine ⟨?_, ?_, ?_⟩ <;> decide +kernel

/-- Two environments with the same MDP object always present the same features, transitions and walls. -/
theorem C101_shared_mdp (w : World K δ) (i j : EnvObj K δ) (h : i.mdp = j.mdp) :
    (w.value i).mdp = (w.value j).mdp := by
  simp only [World.value, h]

/-- A program as in `C101_partial`: two corridors, two agents, calls in turn. -/
def exApart : List (WorldOp ℚ Nat) :=
  [.newEnv 0 [(exFox, 0)], .newEnv 1 [(exHen, 1)], .env 0 (.setAgentPosition "fox" 1),
   .env 1 (.fit "hen" exFitDown fun _ => 0), .env 1 (.step "hen" fun _ => 0)]

example : Spec.CarefulSteps exWorld0 exApart := by
  refine ⟨⟨?_, ?_, ?_⟩, ⟨?_, ?_, ?_⟩, trivial, trivial, trivial, trivial⟩ <;> decide +kernel

example : exAfter exApart 0 (fun e => exRow e 1 && e.agents.map (·.position) == [1]) = true ∧
    exAfter exApart 1 (fun e => exRow e 1 && e.agents.map (·.position) == [1]) = true := by
  constructor <;> decide +kernel

/-- An agent that is part of two environments has one algorithm object: what is planned in one is the plan in
the other, at every moment. -/
theorem C102_shared (w : World K δ) (i j : EnvObj K δ) (x y r : Nat) (hi : i.algs[x]? = some r)
    (hj : j.algs[y]? = some r) (a b : Agent K δ) (ha : (w.value i).agents[x]? = some a)
    (hb : (w.value j).agents[y]? = some b) : a.alg = b.alg := by
  have key : ∀ (o : EnvObj K δ) (x : Nat) (c : Agent K δ), o.algs[x]? = some r →
      (w.value o).agents[x]? = some c → c.alg = w.algs r := by
    intro o x c h1 h2
    simp only [World.value, List.getElem?_zipWith, h1] at h2
    cases h3 : o.core.agents[x]? with
    | none => rw [h3] at h2; simp at h2
    | some d => rw [h3] at h2; simp at h2; rw [← h2]
  rw [key i x a hi ha, key j y b hj hb]

/-- **C102 is false**: an agent that was never fitted in the first environment steps there, by the plan made in
the second one (another MDP object); and a plan made in the first is replaced by one made in the second. -/
theorem C102_refuted :
    exAfter [.newEnv 0 [(exFox, 0)], .newEnv 1 [(exFox, 0)]] 0
      (fun e => match (e.step "fox" fun _ => 0).2 with | .error .attributeError => true | _ => false) = true ∧
    exAfter [.newEnv 0 [(exFox, 0)], .newEnv 1 [(exFox, 0)], .env 1 (.fit "fox" exFit fun _ => 0)] 0
      (fun e => match (e.step "fox" fun _ => 0).2 with | .ok p => p == 1 | _ => false) = true ∧
    exAfter [.newEnv 0 [(exFox, 0)], .newEnv 1 [(exFox, 0)], .env 0 (.setAgentPosition "fox" 1),
        .env 0 (.fit "fox" exFit fun _ => 0)] 0
      (fun e => match (e.step "fox" fun _ => 0).2 with | .ok p => p == 2 | _ => false) = true ∧
    exAfter [.newEnv 0 [(exFox, 0)], .newEnv 1 [(exFox, 0)], .env 0 (.setAgentPosition "fox" 1),
        .env 0 (.fit "fox" exFit fun _ => 0), .env 1 (.fit "fox" exFitDown fun _ => 0)] 0
      (fun e => match (e.step "fox" fun _ => 0).2 with | .ok p => p == 0 | _ => false) = true := by
  refine ⟨?_, ?_, ?_, ?_⟩ <;> decide +kernel

/-- What does hold: a fit that returns normally leaves nothing of what other environments wrote into the
agent's algorithm. Fitting right before a step therefore makes sharing harmless. Missing: steps without a fit of
their own. -/
theorem C102_partial (e e' : Env K δ) (n : String) (out : FitOut K) (draws : Nat → δ)
    (h : e.fit n out draws = (e', .ok ())) (st : AlgState K) :
    (Spec.withAlg e n st).fit n out draws = (e', .ok ()) := by
  have hput : ∀ (a : Agent K δ), a.name = n → (Spec.withAlg e n st).put e.mdp a = e.put e.mdp a := by
    intro a ha
    have hl : (e.agents.map fun b => if b.name = n then { b with alg := st } else b).map
        (fun b => if b.name = a.name then a else b) = e.agents.map fun b => if b.name = a.name then a else b := by
      rw [List.map_map]
      apply List.map_congr_left
      intro b _
      simp only [Function.comp, ha]
      split_ifs <;> simp_all
    simp only [Spec.withAlg, Env.put, hl]
  unfold Env.fit at h ⊢
  cases hl : e.lookup n with
  | error err => rw [hl] at h; cases h
  | ok a =>
    rw [hl] at h
    simp only at h
    unfold Env.lookup at hl
    split_ifs at hl with h1
    have hfind : e.agent? n = some a := by
      cases hf : e.agent? n with
      | none => rw [hf] at hl; cases hl
      | some b => rw [hf] at hl; cases hl; rfl
    have hname : a.name = n := by
      have := List.find?_some hfind
      simpa using this
    have hl' : (Spec.withAlg e n st).lookup n = .ok { a with alg := st } := by
      unfold Env.lookup
      rw [if_neg (show ¬ n ∉ (Spec.withAlg e n st).agentNames from not_not.2 h1)]
      have : (Spec.withAlg e n st).agent? n = some { a with alg := st } := by
        unfold Env.agent? Spec.withAlg
        simp only
        rw [List.find?_map]
        have hc : ((fun a : Agent K δ => decide (a.name = n)) ∘
            fun a : Agent K δ => if a.name = n then { a with alg := st } else a) = fun a => decide (a.name = n) := by
          funext b
          simp only [Function.comp]
          split_ifs <;> simp_all
        rw [hc]
        unfold Env.agent? at hfind
        rw [hfind]
        simp [hname]
      rw [this]
    rw [hl']
    simp only
    have hfit : ∀ a', a.fit e.mdp out draws = (a', .ok ()) →
        ({ a with alg := st } : Agent K δ).fit e.mdp out draws = (a', .ok ()) ∧ a'.name = n := by
      intro a' ha
      have hs : a'.name = n := by
        have := Agent.fit_same a e.mdp out draws
        rw [ha] at this
        exact this.1.name.trans hname
      refine ⟨?_, hs⟩
      unfold Agent.fit algFit at ha ⊢
      simp only at ha ⊢
      cases h2 : checkReward e.mdp.nFeatures (.of1 a.reward) with
      | error err => rw [h2] at ha; cases ha
      | ok w =>
        rw [h2] at ha
        simp only at ha ⊢
        cases h3 : out w with
        | error err => rw [h3] at ha; cases ha
        | ok vq =>
          rw [h3] at ha
          simp only at ha ⊢
          cases h4 : checkOutput e.mdp.nStates e.mdp.nActions vq.1 vq.2 with
          | error err => rw [h4] at ha; cases ha
          | ok y => rw [h4] at ha; exact ha
    cases hf : a.fit e.mdp out draws with
    | mk a' r =>
      rw [hf] at h
      simp only [Prod.mk.injEq] at h
      obtain ⟨he, rfl⟩ := h
      obtain ⟨f1, f2⟩ := hfit a' hf
      change (match ({ a with alg := st } : Agent K δ).fit e.mdp out draws with
        | (a, r) => ((Spec.withAlg e n st).put e.mdp a, r)) = _
      rw [f1]
      simp only [hput a' f2, he]

/-- A shared agent that is fitted again in the first environment after the second one used it. -/
example : exAfter [.newEnv 0 [(exFox, 0)], .newEnv 1 [(exFox, 0)], .env 0 (.setAgentPosition "fox" 1),
    .env 1 (.fit "fox" exFitDown fun _ => 0), .env 0 (.fit "fox" exFit fun _ => 0)] 0
    (fun e => match (e.step "fox" fun _ => 0).2 with | .ok p => p == 2 | _ => false) = true ∧
    exAfter [.newEnv 0 [(exFox, 0)], .newEnv 1 [(exFox, 0)], .env 1 (.fit "fox" exFitDown fun _ => 0)] 0
    (fun e => match (e.fit "fox" exFit fun _ => 0).2 with | .ok _ => true | _ => false) = true := by
  constructor <;> decide +kernel

end MaMDP
