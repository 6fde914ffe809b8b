import Verif.Spec.Alone
import Verif.Props.Indifferent

/-! # Worlds that differ only in what an agent does not care about -/

set_option linter.unusedSectionVars false

namespace MaMDP

variable {K δ : Type} [Field K] [LinearOrder K] [IsStrictOrderedRing K]
variable {kind : GridKind} {W H : Nat} {selfT : Bool} {P : Nat → Prop} {m m1 m2 : Mdp K} {a : Agent K δ}

/-- The MDPs differ at most in the feature rows in `P`. -/
def Mdp.Twin (P : Nat → Prop) (m1 m2 : Mdp K) : Prop :=
  ∃ g, m2 = m1.withFeat g ∧ ∀ r, ¬ P r → g r = m1.features.get r

theorem Mdp.Twin.update (h : Mdp.Twin P m1 m2) (i p : Int) :
    Mdp.Twin P (m1.updateAgentFeature i p).1 (m2.updateAgentFeature i p).1 ∧
    (m2.updateAgentFeature i p).2 = (m1.updateAgentFeature i p).2 := by
  obtain ⟨g, rfl, hg⟩ := h
  have e0 : (m1.withFeat g).features.d0 = m1.features.d0 := rfl
  have e1 : (m1.withFeat g).features.d1 = m1.features.d1 := rfl
  have e2 : (m1.withFeat g).nFeatures = m1.nFeatures := rfl
  have e3 : (m1.withFeat g).nAgents = m1.nAgents := rfl
  unfold Mdp.updateAgentFeature
  rw [e0, e1, e2, e3]
  cases pyIdx m1.features.d0 ((m1.nFeatures : Int) - m1.nAgents + i) with
  | none => exact ⟨⟨g, rfl, hg⟩, rfl⟩
  | some r =>
    simp only
    cases pyIdx m1.features.d1 p with
    | none =>
      refine ⟨⟨_, rfl, fun f hf => funext fun s => ?_⟩, rfl⟩
      change (if f = r then (0 : K) else g f s) = if f = r then 0 else m1.features.get f s
      rw [hg f hf]
    | some j =>
      refine ⟨⟨_, rfl, fun f hf => funext fun s => ?_⟩, rfl⟩
      simp only [upd2, Mdp.withFeat, hg f hf]

theorem Mdp.Twin.eat {state : Int} : ∀ (l : List Int) (m1 m2 : Mdp K) (c : Nat → Nat), Mdp.Twin P m1 m2 →
    (∀ f ∈ l, ∀ r, pyIdx m1.features.d0 f = some r → ¬ P r) →
    Mdp.Twin P (Mdp.consumeLoop state l m1 c).1 (Mdp.consumeLoop state l m2 c).1 ∧
    (Mdp.consumeLoop state l m2 c).2 = (Mdp.consumeLoop state l m1 c).2 := by
  intro l
  induction l with
  | nil => intro m1 m2 c h _; exact ⟨h, rfl⟩
  | cons f l ih =>
    intro m1 m2 c h hl
    obtain ⟨g, rfl, hg⟩ := h
    have e0 : (m1.withFeat g).features.d0 = m1.features.d0 := rfl
    have e1 : (m1.withFeat g).features.d1 = m1.features.d1 := rfl
    unfold Mdp.consumeLoop
    rw [e0, e1]
    cases hr : pyIdx m1.features.d0 f with
    | none => exact ⟨⟨g, rfl, hg⟩, rfl⟩
    | some r =>
      cases pyIdx m1.features.d1 state with
      | none => exact ⟨⟨g, rfl, hg⟩, rfl⟩
      | some s =>
        have hP := hl f List.mem_cons_self r hr
        have hv : g r s = m1.features.get r s := by rw [hg r hP]
        have hl' : ∀ f ∈ l, ∀ r, pyIdx m1.features.d0 f = some r → ¬ P r :=
          fun f hf => hl f (List.mem_cons_of_mem _ hf)
        simp only [Mdp.withFeat, hv]
        by_cases h0 : 0 < m1.features.get r s
        · rw [if_pos h0, if_pos h0]
          refine ih _ _ _ ⟨_, rfl, fun f hf => funext fun t => ?_⟩ hl'
          simp only [upd2, hg f hf]
        · rw [if_neg h0, if_neg h0]
          exact ih _ _ _ ⟨g, rfl, hg⟩ hl'

namespace Agent

theorem setPosition_twin (h : Mdp.Twin P m1 m2) (a : Agent K δ) (p : Int) :
    Mdp.Twin P (a.setPosition m1 p).1 (a.setPosition m2 p).1 ∧ (a.setPosition m2 p).2 = (a.setPosition m1 p).2 := by
  have hn : m2.nStates = m1.nStates := by obtain ⟨g, rfl, -⟩ := h; rfl
  have hu := h.update a.idx p
  unfold setPosition
  rw [hn]
  by_cases hp : (m1.nStates : Int) ≤ p
  · rw [if_pos hp, if_pos hp]; exact ⟨h, rfl⟩
  · rw [if_neg hp, if_neg hp]
    rcases h1 : m1.updateAgentFeature a.idx p with ⟨x1, r1⟩
    rcases h2 : m2.updateAgentFeature a.idx p with ⟨x2, r2⟩
    rw [h1, h2] at hu
    obtain ⟨hu1, hu2⟩ := hu
    simp only at hu1 hu2
    subst hu2
    cases r2 with
    | error e => exact ⟨hu1, rfl⟩
    | ok u => exact ⟨hu1, rfl⟩

theorem step_twin (h : Mdp.Twin P m1 m2) (a : Agent K δ) (d : Nat → δ) :
    Mdp.Twin P (a.step m1 d).1 (a.step m2 d).1 ∧ (a.step m2 d).2 = (a.step m1 d).2 := by
  have hg : ∀ s x, m2.getNextState s x = m1.getNextState s x := by obtain ⟨g, rfl, -⟩ := h; intros; rfl
  unfold step
  by_cases hf : a.alg.fitComplete = false
  · rw [if_pos hf, if_pos hf]; exact ⟨h, rfl⟩
  rw [if_neg hf, if_neg hf]
  rcases a.getPolicy d with ⟨b, _ | _⟩
  · exact ⟨h, rfl⟩
  simp only
  cases b.pi with
  | none => exact ⟨h, rfl⟩
  | some pi =>
    simp only
    cases pyIdx pi.d0 b.position with
    | none => exact ⟨h, rfl⟩
    | some s =>
      simp only [hg]
      by_cases hs : pi.get s < 0
      · rw [if_pos hs, if_pos hs]; exact ⟨h, rfl⟩
      rw [if_neg hs, if_neg hs]
      cases m1.getNextState b.position (pi.get s) with
      | error e => exact ⟨h, rfl⟩
      | ok t =>
        simp only
        have hp := setPosition_twin h b t
        rcases h1 : b.setPosition m1 t with ⟨x1, b1, r1⟩
        rcases h2 : b.setPosition m2 t with ⟨x2, b2, r2⟩
        rw [h1, h2] at hp
        obtain ⟨hp1, hp2⟩ := hp
        simp only [Prod.mk.injEq] at hp1 hp2
        obtain ⟨rfl, rfl⟩ := hp2
        cases r2 with
        | error e => exact ⟨hp1, rfl⟩
        | ok u =>
          simp only
          have hu := hp1.update b2.idx b2.position
          rcases h3 : x1.updateAgentFeature b2.idx b2.position with ⟨y1, q1⟩
          rcases h4 : x2.updateAgentFeature b2.idx b2.position with ⟨y2, q2⟩
          rw [h3, h4] at hu
          obtain ⟨hu1, hu2⟩ := hu
          simp only at hu1 hu2
          subst hu2
          cases q2 with
          | error e => exact ⟨hu1, rfl⟩
          | ok u => exact ⟨hu1, rfl⟩

theorem consume_twin (h : Mdp.Twin P m1 m2) (a : Agent K δ)
    (ha : ∀ f ∈ a.consumes, ∀ r, pyIdx m1.features.d0 f = some r → ¬ P r) :
    Mdp.Twin P (a.consume m1).1 (a.consume m2).1 ∧ (a.consume m2).2 = (a.consume m1).2 := by
  unfold consume
  by_cases hc : a.consumes = []
  · rw [if_pos hc, if_pos hc]; exact ⟨h, rfl⟩
  rw [if_neg hc, if_neg hc]
  have hu := Mdp.Twin.eat (state := a.position) a.consumes m1 m2 (fun _ => 0) h ha
  unfold Mdp.consumeFeatures
  rcases h3 : Mdp.consumeLoop a.position a.consumes m1 (fun _ => 0) with ⟨y1, q1⟩
  rcases h4 : Mdp.consumeLoop a.position a.consumes m2 (fun _ => 0) with ⟨y2, q2⟩
  rw [h3, h4] at hu
  obtain ⟨hu1, hu2⟩ := hu
  simp only at hu1 hu2
  subst hu2
  cases q2 with
  | error e => exact ⟨hu1, rfl⟩
  | ok u => exact ⟨hu1, rfl⟩

theorem fit_twin (h : Mdp.Twin P m1 m2) (a : Agent K δ) (ha : ∀ r, P r → a.reward.get r = 0)
    (solver : Spec.Planner K) (d : Nat → δ) :
    a.fit m2 (Spec.plannerOn solver m2) d = a.fit m1 (Spec.plannerOn solver m1) d := by
  obtain ⟨g, rfl, hg⟩ := h
  have hout : Spec.plannerOn solver (m1.withFeat g) a.reward = Spec.plannerOn solver m1 a.reward := by
    unfold Spec.plannerOn
    congr 1
    funext s
    refine Finset.sum_congr rfl fun f _ => ?_
    change _ * g f s = _
    by_cases hf : P f
    · rw [ha f hf, zero_mul, zero_mul]
    · rw [hg f hf]
  have hd : (m1.withFeat g).nFeatures = m1.nFeatures := rfl
  unfold Agent.fit algFit
  simp only [PyArr.of1, checkReward, List.getD_cons_zero, hd]
  split_ifs
  · simp only
    rw [hout]
    rfl
  · rfl

theorem stepProba_twin (h : Mdp.Twin P m1 m2) (a : Agent K δ) (p : Option (Arr1 K)) (d : Nat → δ) :
    a.stepProba m2 p d = a.stepProba m1 p d := by
  have hl : ∀ (Q : Arr2 (Ext K)) pos l out, probaLoop m2 Q pos l out = probaLoop m1 Q pos l out := by
    obtain ⟨g, rfl, -⟩ := h
    intro Q pos l
    induction l with
    | nil => intros; rfl
    | cons x l ih =>
      intro out
      unfold probaLoop
      change (match m1.getNextState x.1 x.2 with | .error _ => _ | .ok _ => _) = _
      cases m1.getNextState x.1 x.2 with
      | error e => rfl
      | ok t => exact ih _
  have hn : m2.nStates = m1.nStates := by obtain ⟨g, rfl, -⟩ := h; rfl
  unfold stepProba probaStart
  simp only [hl, hn]

end Agent

namespace Agent

theorem step_frame (a : Agent K δ) (m : Mdp K) (d : Nat → δ) : (a.step m d).2.1.name = a.name ∧
    (a.step m d).2.1.consumes = a.consumes ∧ (a.step m d).1.features.d0 = m.features.d0 := by
  have hp := (getPolicy_same a d).1
  have hu : ∀ (m : Mdp K) (i p : Int), (m.updateAgentFeature i p).1.features.d0 = m.features.d0 := by
    intro m i p
    unfold Mdp.updateAgentFeature
    split
    · rfl
    · simp only
      split <;> rfl
  have hs : ∀ (b : Agent K δ) (m : Mdp K) (p : Int), (b.setPosition m p).2.1.name = b.name ∧
      (b.setPosition m p).2.1.consumes = b.consumes ∧ (b.setPosition m p).1.features.d0 = m.features.d0 := by
    intro b m p
    have h := hu m b.idx p
    unfold setPosition
    split
    · exact ⟨rfl, rfl, rfl⟩
    · split
      · rename_i hx; rw [hx] at h; exact ⟨rfl, rfl, h⟩
      · rename_i hx; rw [hx] at h; exact ⟨rfl, rfl, h⟩
  unfold step
  split
  · exact ⟨rfl, rfl, rfl⟩
  rcases hx : a.getPolicy d with ⟨b, err | u⟩
  · rw [hx] at hp; exact ⟨hp.name, hp.consumes, rfl⟩
  rw [hx] at hp
  have hb : b.name = a.name ∧ b.consumes = a.consumes := ⟨hp.name, hp.consumes⟩
  simp only
  split
  · exact ⟨hb.1, hb.2, rfl⟩
  split
  · exact ⟨hb.1, hb.2, rfl⟩
  split
  · exact ⟨hb.1, hb.2, rfl⟩
  split
  · exact ⟨hb.1, hb.2, rfl⟩
  rename_i t _
  have h := hs b m t
  rcases hy : b.setPosition m t with ⟨x, c, err | u⟩
  · rw [hy] at h; exact ⟨h.1.trans hb.1, h.2.1.trans hb.2, h.2.2⟩
  rw [hy] at h
  simp only at h ⊢
  have h' := hu x c.idx c.position
  rcases hz : x.updateAgentFeature c.idx c.position with ⟨y, err | u⟩
  · rw [hz] at h'; exact ⟨h.1.trans hb.1, h.2.1.trans hb.2, h'.trans h.2.2⟩
  · rw [hz] at h'; exact ⟨h.1.trans hb.1, h.2.1.trans hb.2, h'.trans h.2.2⟩

end Agent

namespace Env

/-- As far as the agent can tell, the environments are the same. -/
structure Twin (kind : GridKind) (W H : Nat) (selfT : Bool) (n : String) (P : Nat → Prop) (e0 e1 e2 : Env K δ) : Prop where
  ok1 : Ok kind W H selfT e1
  ok2 : Ok kind W H selfT e2
  later1 : Later e0 e1
  later2 : Later e0 e2
  agent : e2.agent? n = e1.agent? n
  mdp : Mdp.Twin P e1.mdp e2.mdp

variable {n : String} {e0 e1 e2 : Env K δ}

/-- Something elsewhere happens in the first of them. -/
theorem Twin.left (h0 : Ok kind W H selfT e0) (h : Twin kind W H selfT n P e0 e1 e2)
    (hP : ∀ r, ¬ P r → ∀ b ∈ e0.agents, b.name ≠ n → ¬ Spec.Changes e0.mdp.features.d0 e0.mdp.nAgents b r)
    (op : EnvOp K δ) (hop : Spec.Elsewhere n op) : Twin kind W H selfT n P e0 (e1.apply op) e2 := by
  have hok : Ok kind W H selfT (e1.apply op) := Ok.run [op] e1 h.ok1
  have ho : Others n e1 (e1.apply op) := others_run [op] e1 h.ok1 (by simpa using hop)
  obtain ⟨g, hm, hg⟩ := ho.mdp
  obtain ⟨g2, hm2, hg2⟩ := h.mdp
  refine ⟨hok, h.ok2, h.later1.trans ho.later, h.later2, h.agent.trans ho.agent.symm, g2, ?_, fun r hr => ?_⟩
  · rw [hm2, hm]; rfl
  · rw [hg2 r hr, hm]
    refine (hg r fun b hb hn hc => ?_).symm
    obtain ⟨b0, hb0, x1, x2, -, x4, -⟩ := h.later1.back h0 h.ok1 hb
    refine hP r hr b0 hb0 (by rwa [← x1]) ?_
    unfold Spec.Changes at hc ⊢
    rwa [x2, x4, h.later1.d0, h.later1.nAgents] at hc

/-- The agent as both of them have it. -/
theorem Twin.own (h0 : Ok kind W H selfT e0) (h : Twin kind W H selfT n P e0 e1 e2) (ha : a ∈ e0.agents)
    (hn : a.name = n) : ∃ b, b ∈ e1.agents ∧ b ∈ e2.agents ∧ b.name = n ∧ b.reward = a.reward ∧
      b.consumes = a.consumes := by
  have hs : n ∈ e1.agents.map (·.name) :=
    (h0.same_names h.ok1 h.later1 n).2 (hn ▸ List.mem_map_of_mem (f := (·.name)) ha)
  obtain ⟨b, hb, hbn⟩ := List.mem_map.1 hs
  obtain ⟨b0, hb0, x1, -, -, x4, -, -, x7, -⟩ := h.later1.back h0 h.ok1 hb
  have : b0 = a := eq_of_name h0.nodup hb0 ha (by rw [← x1, hn]; exact hbn)
  subst this
  refine ⟨b, hb, ?_, hbn, x7, x4⟩
  exact (agent?_mem (h.agent.trans ((agent?_eq h.ok1.nodup).2 ⟨hb, hbn⟩))).1

theorem Twin.put (h : Twin kind W H selfT n P e0 e1 e2) {b b' : Agent K δ} (h1 : b ∈ e1.agents) (h2 : b ∈ e2.agents)
    (hb : b.name = n) (hb' : b'.name = n) {m1 m2 : Mdp K} (hm : Mdp.Twin P m1 m2) {k1 k2 : Nat}
    (ok1 : Ok kind W H selfT { e1.put m1 b' with nSteps := k1 })
    (ok2 : Ok kind W H selfT { e2.put m2 b' with nSteps := k2 })
    (l1 : Later e1 { e1.put m1 b' with nSteps := k1 }) (l2 : Later e2 { e2.put m2 b' with nSteps := k2 }) :
    Twin kind W H selfT n P e0 { e1.put m1 b' with nSteps := k1 } { e2.put m2 b' with nSteps := k2 } := by
  refine ⟨ok1, ok2, h.later1.trans l1, h.later2.trans l2, ?_, hm⟩
  have e1' : (e1.put m1 b').agent? b.name = some b' := agent?_put_same h.ok1 h1 (hb'.trans hb.symm)
  have e2' : (e2.put m2 b').agent? b.name = some b' := agent?_put_same h.ok2 h2 (hb'.trans hb.symm)
  rw [hb] at e1' e2'
  exact e2'.trans e1'.symm

theorem Twin.plan (h0 : Ok kind W H selfT e0) (h : Twin kind W H selfT n P e0 e1 e2) (ha : a ∈ e0.agents)
    (hn : a.name = n) (hP : ∀ r, P r → a.reward.get r = 0) (solver : Spec.Planner K) (d : Nat → δ) :
    Twin kind W H selfT n P e0 (e1.fit n (Spec.plannerOn solver e1.mdp) d).1
      (e2.fit n (Spec.plannerOn solver e2.mdp) d).1 ∧
    (e2.fit n (Spec.plannerOn solver e2.mdp) d).2 = (e1.fit n (Spec.plannerOn solver e1.mdp) d).2 := by
  obtain ⟨b, hb1, hb2, hbn, hr, -⟩ := h.own h0 ha hn
  have o1 := h.ok1.fit n (Spec.plannerOn solver e1.mdp) d
  have o2 := h.ok2.fit n (Spec.plannerOn solver e2.mdp) d
  have l1 := later_fit h.ok1 n (Spec.plannerOn solver e1.mdp) d
  have l2 := later_fit h.ok2 n (Spec.plannerOn solver e2.mdp) d
  have hf := Agent.fit_twin h.mdp b (by rw [hr]; exact hP) solver d
  unfold Env.fit at o1 o2 l1 l2 ⊢
  rw [(lookup_ok h.ok1).2 ⟨hb1, hbn⟩] at o1 l1 ⊢
  rw [(lookup_ok h.ok2).2 ⟨hb2, hbn⟩] at o2 l2 ⊢
  simp only [hf] at o1 o2 l1 l2 ⊢
  exact ⟨h.put hb1 hb2 hbn ((Agent.fit_same b e1.mdp _ d).1.name.trans hbn) h.mdp o1 o2 l1 l2, trivial⟩

theorem Twin.ask (h0 : Ok kind W H selfT e0) (h : Twin kind W H selfT n P e0 e1 e2) (ha : a ∈ e0.agents)
    (hn : a.name = n) (p : Option (Arr1 K)) (d : Nat → δ) :
    Twin kind W H selfT n P e0 (e1.stepProba n p d).1 (e2.stepProba n p d).1 ∧
    (e2.stepProba n p d).2 = (e1.stepProba n p d).2 := by
  obtain ⟨b, hb1, hb2, hbn, hr, -⟩ := h.own h0 ha hn
  have o1 := h.ok1.stepProba n p d
  have o2 := h.ok2.stepProba n p d
  have l1 := later_stepProba h.ok1 n p d
  have l2 := later_stepProba h.ok2 n p d
  have hf := Agent.stepProba_twin h.mdp b p d
  have hname := (Agent.stepProba_same b e1.mdp p d).1.name.trans hbn
  unfold Env.stepProba at o1 o2 l1 l2 ⊢
  rw [(lookup_ok h.ok1).2 ⟨hb1, hbn⟩] at o1 l1 ⊢
  rw [(lookup_ok h.ok2).2 ⟨hb2, hbn⟩] at o2 l2 ⊢
  simp only [hf] at o1 o2 l1 l2 ⊢
  rcases hx : b.stepProba e1.mdp p d with ⟨b', err | q⟩
  · rw [hx] at o1 o2 l1 l2 hname
    exact ⟨h.put hb1 hb2 hbn hname h.mdp o1 o2 l1 l2, rfl⟩
  · rw [hx] at o1 o2 l1 l2 hname
    exact ⟨h.put hb1 hb2 hbn hname h.mdp o1 o2 l1 l2, rfl⟩

theorem Twin.move (h0 : Ok kind W H selfT e0) (h : Twin kind W H selfT n P e0 e1 e2) (ha : a ∈ e0.agents)
    (hn : a.name = n) (p : Int) :
    Twin kind W H selfT n P e0 (e1.setAgentPosition n p).1 (e2.setAgentPosition n p).1 ∧
    (e2.setAgentPosition n p).2 = (e1.setAgentPosition n p).2 := by
  obtain ⟨b, hb1, hb2, hbn, hr, -⟩ := h.own h0 ha hn
  have o1 := h.ok1.setAgentPosition n p
  have o2 := h.ok2.setAgentPosition n p
  have l1 := later_setAgentPosition h.ok1 n p
  have l2 := later_setAgentPosition h.ok2 n p
  have hf := Agent.setPosition_twin h.mdp b p
  have hname : (b.setPosition e1.mdp p).2.1.name = n := by
    unfold Agent.setPosition
    split
    · exact hbn
    · split <;> exact hbn
  unfold Env.setAgentPosition at o1 o2 l1 l2 ⊢
  rw [(lookup_ok h.ok1).2 ⟨hb1, hbn⟩] at o1 l1 ⊢
  rw [(lookup_ok h.ok2).2 ⟨hb2, hbn⟩] at o2 l2 ⊢
  rcases hx : b.setPosition e1.mdp p with ⟨x1, b1, r1⟩
  rcases hy : b.setPosition e2.mdp p with ⟨x2, b2, r2⟩
  simp only [hx] at o1 l1 hname
  simp only [hy] at o2 l2
  rw [hx, hy] at hf
  obtain ⟨hf1, hf2⟩ := hf
  simp only [Prod.mk.injEq] at hf1 hf2
  obtain ⟨rfl, rfl⟩ := hf2
  simp only [hx, hy]
  exact ⟨h.put hb1 hb2 hbn hname hf1 o1 o2 l1 l2, trivial⟩

theorem Twin.walk (h0 : Ok kind W H selfT e0) (h : Twin kind W H selfT n P e0 e1 e2) (ha : a ∈ e0.agents)
    (hn : a.name = n) (hP : ∀ f ∈ a.consumes, ∀ r, pyIdx e0.mdp.features.d0 f = some r → ¬ P r) (d : Nat → δ) :
    Twin kind W H selfT n P e0 (e1.step n d).1 (e2.step n d).1 ∧ (e2.step n d).2 = (e1.step n d).2 := by
  obtain ⟨b, hb1, hb2, hbn, -, hc⟩ := h.own h0 ha hn
  have o1 := h.ok1.step n d
  have o2 := h.ok2.step n d
  have l1 := later_step h.ok1 n d
  have l2 := later_step h.ok2 n d
  have hf := Agent.step_twin h.mdp b d
  have hsame := Agent.step_frame b e1.mdp d
  unfold Env.step at o1 o2 l1 l2 ⊢
  rw [(lookup_ok h.ok1).2 ⟨hb1, hbn⟩] at o1 l1 ⊢
  rw [(lookup_ok h.ok2).2 ⟨hb2, hbn⟩] at o2 l2 ⊢
  rcases hx : b.step e1.mdp d with ⟨x1, b1, r1⟩
  rcases hy : b.step e2.mdp d with ⟨x2, b2, r2⟩
  simp only [hx] at o1 l1 hsame
  simp only [hy] at o2 l2
  rw [hx, hy] at hf
  obtain ⟨hf1, hf2⟩ := hf
  simp only [Prod.mk.injEq] at hf1 hf2
  obtain ⟨rfl, rfl⟩ := hf2
  obtain ⟨s1, s2, s3⟩ := hsame
  simp only [hx, hy]
  cases r2 with
  | error err => exact ⟨h.put hb1 hb2 hbn (s1.trans hbn) hf1 o1 o2 l1 l2, rfl⟩
  | ok u =>
    simp only at o1 o2 l1 l2 ⊢
    have hg := Agent.consume_twin hf1 b2 (by rw [s2, hc, s3, h.later1.d0]; exact hP)
    rcases hx' : b2.consume x1 with ⟨y1, c1, q1⟩
    rcases hy' : b2.consume x2 with ⟨y2, c2, q2⟩
    have hcn : c1.name = n := by
      have : (b2.consume x1).2.1.name = b2.name := by
        unfold Agent.consume
        split
        · rfl
        · split <;> rfl
      rw [hx'] at this
      exact this.trans (s1.trans hbn)
    simp only [hx'] at o1 l1
    simp only [hy'] at o2 l2
    rw [hx', hy'] at hg
    obtain ⟨hg1, hg2⟩ := hg
    simp only [Prod.mk.injEq] at hg1 hg2
    obtain ⟨rfl, rfl⟩ := hg2
    cases q2 with
    | error err => exact ⟨h.put hb1 hb2 hbn hcn hg1 o1 o2 l1 l2, rfl⟩
    | ok u => exact ⟨h.put hb1 hb2 hbn hcn hg1 o1 o2 l1 l2, rfl⟩

end Env

end MaMDP
