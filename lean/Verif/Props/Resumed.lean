import Verif.Lemmas.Resumed
import Verif.Props.EnvironmentSteps

/-! # C154: going on from where things stand -/

set_option linter.unusedSectionVars false

namespace MaMDP

variable {K δ : Type} [Field K] [LinearOrder K] [IsStrictOrderedRing K]
variable {kind : GridKind} {W H : Nat} {selfT : Bool} {m m' m2 : Mdp K} {specs : List (AgentSpec K δ)} {e0 : Env K δ}

/-- **C154**: after any history, an environment built on an MDP with the present features and walls, from the agents as
they are now, behaves from then on as the one with the history. -/
theorem C154_resumed (hm : Mdp.GridReach kind W H selfT m) (hinit : Env.init m specs = (m', .ok e0))
    (hnd : (specs.map (·.name)).Nodup) (ops : List (EnvOp K δ)) (hs : Spec.AllInSight (e0.run ops))
    (hm2 : Mdp.GridReach kind W H selfT m2)
    (hd : m2.features.d0 - m2.nAgents = (Spec.featuresNow (e0.run ops)).d0) (hq : m2.nNonAgent = m.nNonAgent)
    (hw : m2.walls = (e0.run ops).mdp.walls)
    (hf : ∀ f s, f < (Spec.featuresNow (e0.run ops)).d0 → s < (Spec.featuresNow (e0.run ops)).d1 →
      m2.features.get f s = (Spec.featuresNow (e0.run ops)).get f s) :
    ∃ m2' e2, Env.init m2 ((e0.run ops).agents.map Spec.agentNow) = (m2', .ok e2) ∧
      Spec.SameFromNow (e0.run ops) e2 := by
  obtain ⟨m2', e2, h1, h2, h3, h4, h5⟩ := Env.init_akin hm hinit hnd ops hs hm2 hd hq hw hf
  refine ⟨m2', e2, h1, ?_, ?_, ?_, ?_, ?_⟩
  · intro l op hl hop
    obtain ⟨p1, p2, p3, p4⟩ := Env.Akin.play l _ _ hl h5 h2 h3 h4
    exact (p1.call p2 p3 p4 op hop).2
  · intro l n a hl ha
    obtain ⟨p1, p2, -, -⟩ := Env.Akin.play l _ _ hl h5 h2 h3 h4
    rcases p1.agents n with ⟨q1, -⟩ | ⟨b, b2, q1, q2, q3⟩
    · exfalso
      have hstay : ∀ (l : List (Spec.PlayOp K δ)) (e : Env K δ), Env.Ok kind W H selfT e →
          ((Spec.play e l).agents.map (·.name)) = e.agents.map (·.name) := by
        intro l
        induction l with
        | nil => intro e _; rfl
        | cons op l ih =>
          intro e he
          exact (ih _ (he.run [op.call e])).trans (Env.names_run [op.call e] he)
      have h6 := hstay l _ h2
      have h7 : n ∈ (Spec.play (e0.run ops) l).agents.map (·.name) := by
        rw [h6]
        obtain ⟨h8, h9⟩ := Env.agent?_mem ha
        exact List.mem_map.2 ⟨a, h8, h9⟩
      obtain ⟨b, hb, hbn⟩ := List.mem_map.1 h7
      rw [(Env.agent?_eq p2.nodup).2 ⟨hb, hbn⟩] at q1
      cases q1
    · obtain ⟨t, t1, t2⟩ := q3.history
      refine ⟨b, b2, q1, q2, q3.position, q3.alg, ⟨t, ?_, ?_⟩, fun f => ?_⟩
      · rw [t1]; unfold Env.seenSoFar; rw [ha]; rfl
      · rw [t2]; unfold Env.standing; rw [ha]; rfl
      · rw [q3.consumed f]; unfold Env.eatenSoFar; rw [ha]; rfl
  · intro l hl
    exact (Env.Akin.play l _ _ hl h5 h2 h3 h4).1.steps
  · intro l f s hl hf hs
    obtain ⟨p1, p2, -, -⟩ := Env.Akin.play l _ _ hl h5 h2 h3 h4
    obtain ⟨F, O, ns, q, h6, -, -, h9⟩ := p1.mdp
    rw [h6]
    exact h9 f s hf (by rw [p2.reach.ok.featStates, ← p2.reach.ok.nStates]; exact hs)
  · intro l hl
    obtain ⟨F, O, ns, q, h6, -⟩ := (Env.Akin.play l _ _ hl h5 h2 h3 h4).1.mdp
    rw [h6]

/-- **C154** with a grid built anew from the present features and walls. -/
theorem C154_rebuilt {f : Arr2 K} {w : Option (Arr1 K)} (hm : Mdp.initGrid kind W H selfT f w = .ok m)
    (hinit : Env.init m specs = (m', .ok e0)) (hnd : (specs.map (·.name)).Nodup) (ops : List (EnvOp K δ))
    (hs : Spec.AllInSight (e0.run ops)) :
    ∃ m2 m2' e2, Mdp.initGrid kind W H selfT (Spec.featuresNow (e0.run ops)) (some (e0.run ops).mdp.walls) = .ok m2 ∧
      Env.init m2 ((e0.run ops).agents.map Spec.agentNow) = (m2', .ok e2) ∧ Spec.SameFromNow (e0.run ops) e2 := by
  have hr : Mdp.GridReach kind W H selfT m := .init hm
  obtain ⟨i1, i2, i3⟩ := Mdp.initGrid_inv hm
  obtain ⟨m0, j1, -, j3, -, j5, j6, -⟩ := Mdp.initGrid_ok (kind := kind) (selfT := selfT) i1 i2 i3
  rw [hm] at j1
  cases j1
  have ho := (Env.started hr hinit ops).1
  obtain ⟨m2, k1, -, k3, -, k5, k6, -, k8⟩ := Mdp.initGrid_ok (kind := kind) (selfT := selfT) (f := Spec.featuresNow (e0.run ops))
    (w := some (e0.run ops).mdp.walls) i1 ho.reach.ok.featStates
    (fun v hv => by cases hv; exact ⟨ho.reach.ok.wallsLen, ho.reach.ok.walls01⟩)
  have hown : (Spec.featuresNow (e0.run ops)).d0 = f.d0 := by
    obtain ⟨sv, hlen⟩ := Env.savable hr hinit hnd ops
    have hna : (e0.run ops).mdp.nAgents = specs.length := by
      rw [(Env.started hr hinit ops).2.nAgents]
      exact (Env.init_facts hr hinit).2.2.2.2.2.2.2.1
    change (e0.run ops).mdp.features.d0 - (e0.run ops).mdp.nAgents = _
    rw [sv.d0, hna, hlen, j3, j5]
    omega
  obtain ⟨m2', e2, h1, h2⟩ := C154_resumed hr hinit hnd ops hs (.init k1) (by rw [k3, k5]; rfl)
    (by rw [k6, j6, hown]) k8 (fun f s _ _ => by rw [k3])
  exact ⟨m2, m2', e2, k1, h1, h2⟩

/-- **C154** with the MDP object of the environment itself. -/
theorem C154_same_mdp (hm : Mdp.GridReach kind W H selfT m) (hinit : Env.init m specs = (m', .ok e0))
    (hnd : (specs.map (·.name)).Nodup) (ops : List (EnvOp K δ)) (hs : Spec.AllInSight (e0.run ops)) :
    ∃ m2' e2, Env.init (e0.run ops).mdp ((e0.run ops).agents.map Spec.agentNow) = (m2', .ok e2) ∧
      Spec.SameFromNow (e0.run ops) e2 := by
  refine C154_resumed hm hinit hnd ops hs (Env.started hm hinit ops).1.reach rfl ?_ rfl (fun _ _ _ _ => rfl)
  rw [Env.nonAgent_run ops (Env.init_facts hm hinit).2.1]
  exact (Env.init_facts hm hinit).2.2.2.2.2.2.2.2.2.1

/-- The fox plans and makes one step; a wall is built at its start. -/
def exHalfway : List (EnvOp Rat Nat) :=
  [.fit "fox" exFit fun _ => 0, .step "fox" fun _ => 0, .setWalls ⟨3, fun i => if i = 0 then 1 else 0⟩]

/-- Building the environment anew after `ops` and comparing. -/
theorem exRebuild (ops : List (EnvOp Rat Nat)) (p : Env Rat Nat → Env Rat Nat → Bool)
    (h : (match exMdp with
      | .ok m => match (Env.init m exSpecs).2 with
        | .ok e => match Mdp.initGrid .square 1 3 false (Spec.featuresNow (e.run ops)) (some (e.run ops).mdp.walls) with
          | .ok m2 => match (Env.init m2 ((e.run ops).agents.map Spec.agentNow)).2 with
            | .ok e2 => p (e.run ops) e2
            | .error _ => false
          | .error _ => false
        | .error _ => false
      | .error _ => false) = true) :
    ∃ f w m m' e0 m2 m2' e2, Mdp.initGrid .square 1 3 false f w = .ok m ∧ Env.init m exSpecs = (m', .ok e0) ∧
      Mdp.initGrid .square 1 3 false (Spec.featuresNow (e0.run ops)) (some (e0.run ops).mdp.walls) = .ok m2 ∧
      Env.init m2 ((e0.run ops).agents.map Spec.agentNow) = (m2', .ok e2) ∧ p (e0.run ops) e2 = true := by
  cases hm : exMdp with
  | error er => rw [hm] at h; cases h
  | ok m =>
    rw [hm] at h
    simp only at h
    rcases h1 : Env.init m exSpecs with ⟨m', er | e0⟩
    · rw [h1] at h; cases h
    rw [h1] at h
    simp only at h
    cases h2 : Mdp.initGrid .square 1 3 false (Spec.featuresNow (e0.run ops)) (some (e0.run ops).mdp.walls) with
    | error er => rw [h2] at h; cases h
    | ok m2 =>
      rw [h2] at h
      simp only at h
      rcases h3 : Env.init m2 ((e0.run ops).agents.map Spec.agentNow) with ⟨m2', er | e2⟩
      · rw [h3] at h; cases h
      rw [h3] at h
      exact ⟨_, _, m, m', e0, m2, m2', e2, hm, h1, h2, h3, h⟩

/-- Everyone in sight, as a test. -/
def seesAll (e : Env Rat Nat) : Bool :=
  e.agents.all fun a => decide (e.mdp.features.get (e.mdp.features.d0 - e.mdp.nAgents + a.idx)
    (Spec.stateOf e.mdp.nStates a.position) = 1)

theorem seesAll_iff {e : Env Rat Nat} : seesAll e = true ↔ Spec.AllInSight e := by
  unfold seesAll Spec.AllInSight
  rw [List.all_eq_true]
  exact forall_congr' fun a => forall_congr' fun _ => decide_eq_true_iff

/-- The fox makes the rest of its way and eats the hen. -/
def exRest : List (Spec.PlayOp Rat Nat) := [.step "fox" fun _ => 0]

/-- The record of an agent: where it has been, what it has eaten of the feature and of the hen. -/
def record (e : Env Rat Nat) (n : String) : List Int × Nat × Nat :=
  match e.agent? n with
  | some a => (a.history, a.consumed 0, a.consumed 2)
  | none => ([], 0, 0)

example : ∃ f w m m' e0 m2 m2' e2, Mdp.initGrid .square 1 3 false f w = .ok m ∧ Env.init m exSpecs = (m', .ok e0) ∧
    (exSpecs.map (·.name)).Nodup ∧ Spec.AllInSight (e0.run exHalfway) ∧
    Mdp.initGrid .square 1 3 false (Spec.featuresNow (e0.run exHalfway)) (some (e0.run exHalfway).mdp.walls) = .ok m2 ∧
    Env.init m2 ((e0.run exHalfway).agents.map Spec.agentNow) = (m2', .ok e2) ∧
    record (Spec.play (e0.run exHalfway) exRest) "fox" = ([0, 1, 2], 1, 1) ∧
    record (Spec.play e2 exRest) "fox" = ([1, 2], 1, 1) := by
  obtain ⟨f, w, m, m', e0, m2, m2', e2, h1, h2, h3, h4, h5⟩ := exRebuild exHalfway
    (fun e e2 => seesAll e && decide (record (Spec.play e exRest) "fox" = ([0, 1, 2], 1, 1) ∧
      record (Spec.play e2 exRest) "fox" = ([1, 2], 1, 1))) (by decide +kernel)
  rw [Bool.and_eq_true, decide_eq_true_eq] at h5
  exact ⟨f, w, m, m', e0, m2, m2', e2, h1, h2, by decide, seesAll_iff.1 h5.1, h3, h4, h5.2⟩

/-- The condition that everyone is in sight is needed: the hen that was eaten can be eaten again where the environment is
built anew. -/
theorem C154_sight_witness : ∃ f w m m' e0 m2 m2' e2, Mdp.initGrid .square 1 3 false f w = .ok m ∧
    Env.init m exSpecs = (m', .ok e0) ∧ (exSpecs.map (·.name)).Nodup ∧
    Mdp.initGrid .square 1 3 false (Spec.featuresNow (e0.run exOps)) (some (e0.run exOps).mdp.walls) = .ok m2 ∧
    Env.init m2 ((e0.run exOps).agents.map Spec.agentNow) = (m2', .ok e2) ∧ ∃ l, (∀ o ∈ l, Spec.GoesOn o) ∧
      record (e0.run exOps) "fox" = ([0, 1, 2], 1, 1) ∧
      record (Spec.play (e0.run exOps) l) "fox" = ([0, 1, 2, 1, 2], 1, 1) ∧
      record (Spec.play e2 l) "fox" = ([2, 1, 2], 0, 1) := by
  obtain ⟨f, w, m, m', e0, m2, m2', e2, h1, h2, h3, h4, h5⟩ := exRebuild exOps
    (fun e e2 => decide (record e "fox" = ([0, 1, 2], 1, 1) ∧
      record (Spec.play e (exRest ++ exRest)) "fox" = ([0, 1, 2, 1, 2], 1, 1) ∧
      record (Spec.play e2 (exRest ++ exRest)) "fox" = ([2, 1, 2], 0, 1))) (by decide +kernel)
  rw [decide_eq_true_eq] at h5
  refine ⟨f, w, m, m', e0, m2, m2', e2, h1, h2, by decide, h3, h4, exRest ++ exRest, ?_, h5⟩
  intro o ho
  simp only [exRest, List.cons_append, List.nil_append, List.mem_cons, List.not_mem_nil, or_false, or_self] at ho
  subst ho
  trivial

/-- Starting again is different: the environment with the history goes back to where it began, the new one to where it was
built. -/
theorem C154_again_witness : ∃ f w m m' e0 m2 m2' e2, Mdp.initGrid .square 1 3 false f w = .ok m ∧
    Env.init m exSpecs = (m', .ok e0) ∧ (exSpecs.map (·.name)).Nodup ∧ Spec.AllInSight (e0.run exHalfway) ∧
    Mdp.initGrid .square 1 3 false (Spec.featuresNow (e0.run exHalfway)) (some (e0.run exHalfway).mdp.walls) = .ok m2 ∧
    Env.init m2 ((e0.run exHalfway).agents.map Spec.agentNow) = (m2', .ok e2) ∧
    ((Spec.play (e0.run exHalfway) [.again]).agent? "fox").map (·.position) = some 0 ∧
    ((Spec.play e2 [.again]).agent? "fox").map (·.position) = some 1 := by
  obtain ⟨f, w, m, m', e0, m2, m2', e2, h1, h2, h3, h4, h5⟩ := exRebuild exHalfway
    (fun e e2 => seesAll e && decide (((Spec.play e [.again]).agent? "fox").map (·.position) = some 0 ∧
      ((Spec.play e2 [.again]).agent? "fox").map (·.position) = some 1)) (by decide +kernel)
  rw [Bool.and_eq_true, decide_eq_true_eq] at h5
  exact ⟨f, w, m, m', e0, m2, m2', e2, h1, h2, by decide, seesAll_iff.1 h5.1, h3, h4, h5.2⟩

end MaMDP
