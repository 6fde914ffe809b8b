import Verif.Lemmas.EnvInit
import Mathlib.Algebra.BigOperators.Group.List.Basic
import Mathlib.Algebra.BigOperators.Group.Finset.Piecewise

/-! Invariants of environment histories. -/

set_option linter.unusedSectionVars false

namespace MaMDP.Env

variable {K : Type} [Field K] [LinearOrder K] [IsStrictOrderedRing K] {δ : Type}
variable {kind : GridKind} {W H : Nat} {selfT : Bool} {e : Env K δ}

theorem bare_env {m : Mdp K} (hm : Mdp.GridReach kind W H selfT m) :
    Ok kind W H selfT (⟨bare m, [], [], 0⟩ : Env K δ) := by
  obtain ⟨h1, h2, -⟩ := bare_ok hm
  refine ⟨h1, by simp, by simp, by simp, by simp [h2], by simp, by simp, by simp⟩

theorem init_eq {m : Mdp K} (hm : Mdp.GridReach kind W H selfT m) (specs : List (AgentSpec K δ)) :
    init m specs = match attachLoop (bare m).nFeatures specs.length 0 specs (bare m) [] with
      | (m, .error e) => (m, .error e)
      | (m, .ok as) => (m, .ok ⟨m, specs.map (·.name), as, 0⟩) := by
  unfold init
  simp only [remove_eq hm]
  rcases attachLoop (bare m).nFeatures specs.length 0 specs (bare m) [] with ⟨m1, x | x⟩ <;> rfl

/-- A successful construction. -/
theorem init_ok {m m' : Mdp K} (hm : Mdp.GridReach kind W H selfT m) {specs : List (AgentSpec K δ)}
    {e0 : Env K δ} (h : init m specs = (m', .ok e0)) : Ok kind W H selfT e0 := by
  rw [init_eq hm] at h
  obtain ⟨b1, b2, -⟩ := bare_ok hm
  by_cases hv : ∀ sp ∈ specs, Spec.ValidAgent (bare m).nStates (bare m).nFeatures specs.length sp
  · obtain ⟨m1, as, h1, h2, -⟩ := attachLoop_ok (bare m).nFeatures specs.length specs (bare m) [] []
      (bare_env hm) (.inl rfl) hv
    rw [b2] at h1
    rw [h1] at h
    simp only [Prod.mk.injEq, Except.ok.injEq] at h
    rw [← h.2]
    simpa using h2
  · obtain ⟨err, h1⟩ := attachLoop_fail (bare m).nFeatures specs.length specs (bare m) [] []
      (bare_env hm) (.inl rfl) hv
    rw [b2] at h1
    cases hl : attachLoop (bare m).nFeatures specs.length 0 specs (bare m) [] with
    | mk m1 x =>
      rw [hl] at h1 h
      simp only at h1
      subst h1
      simp at h

/-- Later states: same features layout, agents keep what they consume and never lose counts. -/
structure Later (e e' : Env K δ) : Prop where
  d0 : e'.mdp.features.d0 = e.mdp.features.d0
  nAgents : e'.mdp.nAgents = e.mdp.nAgents
  nStates : e'.mdp.nStates = e.mdp.nStates
  names : e'.agentNames = e.agentNames
  agents : ∀ a ∈ e.agents, ∃ a' ∈ e'.agents, a'.name = a.name ∧ a'.idx = a.idx ∧ a'.start = a.start ∧
    a'.consumes = a.consumes ∧ a'.featIdx = a.featIdx ∧ a'.nMoves = a.nMoves ∧ a'.reward = a.reward ∧
    a'.selector = a.selector ∧ ∀ f, a.consumed f ≤ a'.consumed f

theorem Later.refl (e : Env K δ) : Later e e :=
  ⟨rfl, rfl, rfl, rfl, fun a ha => ⟨a, ha, rfl, rfl, rfl, rfl, rfl, rfl, rfl, rfl, fun _ => le_rfl⟩⟩

theorem Later.trans {e1 e2 e3 : Env K δ} (h1 : Later e1 e2) (h2 : Later e2 e3) : Later e1 e3 := by
  refine ⟨h2.d0.trans h1.d0, h2.nAgents.trans h1.nAgents, h2.nStates.trans h1.nStates,
    h2.names.trans h1.names, fun a ha => ?_⟩
  obtain ⟨b, hb, b1, b2, b3, b4, b5, b6, b7, b8, b9⟩ := h1.agents a ha
  obtain ⟨c, hc, c1, c2, c3, c4, c5, c6, c7, c8, c9⟩ := h2.agents b hb
  exact ⟨c, hc, c1.trans b1, c2.trans b2, c3.trans b3, c4.trans b4, c5.trans b5, c6.trans b6,
    c7.trans b7, c8.trans b8, fun f => (b9 f).trans (c9 f)⟩

theorem later_put (h : Ok kind W H selfT e) {a a' : Agent K δ} (ha : a ∈ e.agents) (hn : a'.name = a.name)
    (hi : a'.idx = a.idx) (hs : a'.start = a.start) (hc : a'.consumes = a.consumes)
    (hf : a'.featIdx = a.featIdx) (hm : a'.nMoves = a.nMoves) (hr : a'.reward = a.reward)
    (hsel : a'.selector = a.selector) (hcons : ∀ f, a.consumed f ≤ a'.consumed f)
    (m : Mdp K) (hd : m.features.d0 = e.mdp.features.d0) (hna : m.nAgents = e.mdp.nAgents)
    (hst : m.nStates = e.mdp.nStates) (k : Nat) : Later e { e.put m a' with nSteps := k } := by
  refine ⟨hd, hna, hst, rfl, fun b hb => ?_⟩
  have hmem := fun b => mem_put (e := e) (m := m) (a := a') (b := b)
    (by rw [hn]; exact List.mem_map_of_mem (f := (·.name)) ha)
  by_cases hbn : b.name = a.name
  · have := eq_of_name h.nodup hb ha hbn
    subst this
    exact ⟨a', (hmem a').2 (.inl rfl), hn, hi, hs, hc, hf, hm, hr, hsel, hcons⟩
  · exact ⟨b, (hmem b).2 (.inr ⟨hb, by rw [hn]; exact hbn⟩), rfl, rfl, rfl, rfl, rfl, rfl, rfl, rfl,
      fun _ => le_rfl⟩

theorem later_same (h : Ok kind W H selfT e) {a a' : Agent K δ} (ha : a ∈ e.agents)
    (hs : Agent.SameBody a a') (k : Nat) : Later e { e.put e.mdp a' with nSteps := k } :=
  later_put h ha hs.name hs.idx hs.start hs.consumes hs.featIdx hs.nMoves hs.reward hs.selector
    (fun f => by rw [hs.consumed]) _ rfl rfl rfl k

theorem Moved.later (h : Ok kind W H selfT e) {a a1 : Agent K δ} {d : Nat → δ} {j t : Nat}
    (hm : Moved e a d a1 j t) (c : Nat → Nat) (g : Nat → Nat → K) (k : Nat) :
    Later e { e.put (e.mdp.withFeat g) { a1 with consumed := fun f => a.consumed f + c f } with nSteps := k } := by
  obtain ⟨m1, m2, m3, m4, m5, m6, m7, m8, m9, m10, m11, m12⟩ := hm.name
  exact later_put h hm.mem (a' := { a1 with consumed := fun f => a.consumed f + c f }) m1 m2 m3 m5 m10 m11
    m12 m9 (fun f => Nat.le_add_right _ _) (e.mdp.withFeat g) rfl rfl rfl k

theorem Moved.later' (h : Ok kind W H selfT e) {a a1 : Agent K δ} {d : Nat → δ} {j t : Nat}
    (hm : Moved e a d a1 j t) (g : Nat → Nat → K) (k : Nat) :
    Later e { e.put (e.mdp.withFeat g) a1 with nSteps := k } := by
  obtain ⟨m1, m2, m3, m4, m5, m6, m7, m8, m9, m10, m11, m12⟩ := hm.name
  exact later_put h hm.mem (a' := a1) m1 m2 m3 m5 m10 m11 m12 m9 (fun f => by rw [m6])
    (e.mdp.withFeat g) rfl rfl rfl k

theorem later_fit (h : Ok kind W H selfT e) (n : String) (o : FitOut K) (d : Nat → δ) :
    Later e (e.fit n o d).1 := by
  rcases fit_cases h n o d with ⟨-, h1⟩ | ⟨a, h1, -, h2⟩
  · rw [h1]; exact .refl e
  · rw [h2]; exact later_same h h1 (Agent.fit_same a e.mdp o d).1 e.nSteps

theorem later_setAlgorithm (h : Ok kind W H selfT e) (n : String) (st : AlgState K) :
    Later e (e.setAlgorithm n st).1 := by
  rcases setAlgorithm_cases h n st with ⟨-, h1⟩ | ⟨a, h1, -, h2⟩
  · rw [h1]; exact .refl e
  · rw [h2]; exact later_same h h1 (setAlgorithm_same a st) e.nSteps

theorem later_step (h : Ok kind W H selfT e) (n : String) (d : Nat → δ) : Later e (e.step n d).1 := by
  rcases step_cases h n d with ⟨-, h1⟩ | ⟨a, a', err, h1, -, h2, -, -, -, h3⟩ |
    ⟨a, a1, j, t, g, c, -, hm, -, -, -, h1, -⟩ | ⟨a, a1, j, t, g, -, hm, -, -, h1, -⟩
  · rw [h1]; exact .refl e
  · rw [h3]; exact later_same h h1 h2 e.nSteps
  · rw [h1]; exact hm.later h c g _
  · rw [h1]; exact hm.later' h g e.nSteps

theorem later_stepProba (h : Ok kind W H selfT e) (n : String) (p : Option (Arr1 K)) (d : Nat → δ) :
    Later e (e.stepProba n p d).1 := by
  rcases stepProba_cases h n p d with ⟨-, h1⟩ | ⟨a, h1, -, ⟨err, -, h2⟩ | ⟨x, -, h2⟩⟩
  · rw [h1]; exact .refl e
  · rw [h2]; exact later_same h h1 (Agent.stepProba_same a e.mdp p d).1 e.nSteps
  · rw [h2]; exact later_same h h1 (Agent.stepProba_same a e.mdp p d).1 _

theorem later_setAgentPosition (h : Ok kind W H selfT e) (n : String) (p : Int) :
    Later e (e.setAgentPosition n p).1 := by
  rcases setAgentPosition_cases h n p with ⟨-, h1⟩ | ⟨a, h1, -, ⟨j, h2, h3⟩ | ⟨-, h3⟩ | ⟨-, h3, h4⟩⟩
  · rw [h1]; exact .refl e
  · rw [h3]
    exact later_put h h1 (a' := { a with position := p }) rfl rfl rfl rfl rfl rfl rfl rfl (fun _ => le_rfl)
      (e.mdp.setRow (e.mdp.agentRow a.idx) j) rfl rfl rfl e.nSteps
  · rw [h3]; exact .refl e
  · rw [h3]
    exact later_put h h1 (a' := a) rfl rfl rfl rfl rfl rfl rfl rfl (fun _ => le_rfl) (e.mdp.withFeat
      (fun f s => if f = e.mdp.agentRow a.idx then 0 else e.mdp.features.get f s)) rfl rfl rfl e.nSteps

theorem later_reset (h : Ok kind W H selfT e) : Later e e.reset.1 := by
  rw [(reset_eq h).1]
  exact ⟨h.reach.ok.origFeat, rfl, rfl, rfl, fun a ha => ⟨resetAgent a, List.mem_map_of_mem ha, rfl, rfl, rfl,
    rfl, rfl, rfl, rfl, rfl, fun _ => le_rfl⟩⟩

theorem later_walls (m : Mdp K) (h1 : m.features = e.mdp.features) (h2 : m.nAgents = e.mdp.nAgents)
    (h3 : m.nStates = e.mdp.nStates) : Later e { e with mdp := m } :=
  ⟨by simp only [h1], h2, h3, rfl, (Later.refl e).agents⟩

theorem later_run (ops : List (EnvOp K δ)) (h : Ok kind W H selfT e) : Later e (e.run ops) := by
  refine (run_induct (fun e' => Ok kind W H selfT e' ∧ Later e e') ?_ ?_ ?_ ?_ ?_ ?_ ?_ ?_ ?_ ops e
    ⟨h, .refl e⟩).2
  · rintro e' n o d ⟨h1, h2⟩; exact ⟨h1.fit n o d, h2.trans (later_fit h1 n o d)⟩
  · rintro e' n d ⟨h1, h2⟩; exact ⟨h1.step n d, h2.trans (later_step h1 n d)⟩
  · rintro e' n p d ⟨h1, h2⟩; exact ⟨h1.stepProba n p d, h2.trans (later_stepProba h1 n p d)⟩
  · rintro e' ⟨h1, h2⟩
    exact ⟨by rw [(reset_eq h1).1]; exact (reset_eq h1).2, h2.trans (later_reset h1)⟩
  · rintro e' n p ⟨h1, h2⟩
    exact ⟨h1.setAgentPosition n p, h2.trans (later_setAgentPosition h1 n p)⟩
  · rintro e' w ⟨h1, h2⟩
    have := Mdp.setWalls_feat h1.reach.ok w
    exact ⟨h1.setWalls w, h2.trans (later_walls _ this.1 this.2.2.1 this.2.2.2.2.1)⟩
  · rintro e' x y ⟨h1, h2⟩
    have := Mdp.addWallXY_feat h1.reach.ok x y
    exact ⟨h1.addWallXY x y, h2.trans (later_walls _ this.1 this.2.2.1 this.2.2.2.2.1)⟩
  · rintro e' ⟨h1, h2⟩
    have := Mdp.resetWalls_feat h1.reach.ok
    exact ⟨h1.resetWalls, h2.trans (later_walls _ this.1 this.2.2.1 this.2.2.2.2.1)⟩
  · rintro e' n st ⟨h1, h2⟩; exact ⟨h1.setAlgorithm n st, h2.trans (later_setAlgorithm h1 n st)⟩

/-- Original features never change. -/
theorem orig_run (ops : List (EnvOp K δ)) (h : Ok kind W H selfT e) :
    (e.run ops).mdp.originalFeatures = e.mdp.originalFeatures := by
  refine (run_induct (fun e' => Ok kind W H selfT e' ∧
    e'.mdp.originalFeatures = e.mdp.originalFeatures) ?_ ?_ ?_ ?_ ?_ ?_ ?_ ?_ ?_ ops e ⟨h, rfl⟩).2
  · rintro e' n o d ⟨h1, h2⟩
    refine ⟨h1.fit n o d, ?_⟩
    rcases fit_cases h1 n o d with ⟨-, h3⟩ | ⟨a, -, -, h3⟩ <;> rw [h3] <;> exact h2
  · rintro e' n d ⟨h1, h2⟩
    refine ⟨h1.step n d, ?_⟩
    rcases step_cases h1 n d with ⟨-, h3⟩ | ⟨a, a', err, -, -, -, -, -, -, h3⟩ |
      ⟨a, a1, j, t, g, c, -, hm, -, -, -, h3, -⟩ | ⟨a, a1, j, t, g, -, hm, -, -, h3, -⟩ <;>
      rw [h3] <;> exact h2
  · rintro e' n p d ⟨h1, h2⟩
    refine ⟨h1.stepProba n p d, ?_⟩
    rcases stepProba_cases h1 n p d with ⟨-, h3⟩ | ⟨a, -, -, ⟨err, -, h3⟩ | ⟨x, -, h3⟩⟩ <;>
      rw [h3] <;> exact h2
  · rintro e' ⟨h1, h2⟩
    rw [(reset_eq h1).1]
    exact ⟨(reset_eq h1).2, h2⟩
  · rintro e' n p ⟨h1, h2⟩
    refine ⟨h1.setAgentPosition n p, ?_⟩
    rcases setAgentPosition_cases h1 n p with ⟨-, h3⟩ | ⟨a, -, -, ⟨j, -, h3⟩ | ⟨-, h3⟩ | ⟨-, h3, h4⟩⟩ <;>
      rw [h3] <;> exact h2
  · rintro e' w ⟨h1, h2⟩
    exact ⟨h1.setWalls w, (Mdp.setWalls_feat h1.reach.ok w).2.1.trans h2⟩
  · rintro e' x y ⟨h1, h2⟩
    exact ⟨h1.addWallXY x y, (Mdp.addWallXY_feat h1.reach.ok x y).2.1.trans h2⟩
  · rintro e' ⟨h1, h2⟩
    exact ⟨h1.resetWalls, (Mdp.resetWalls_feat h1.reach.ok).2.1.trans h2⟩
  · rintro e' n st ⟨h1, h2⟩
    refine ⟨h1.setAlgorithm n st, ?_⟩
    rcases setAlgorithm_cases h1 n st with ⟨-, h3⟩ | ⟨a, -, -, h3⟩ <;> rw [h3] <;> exact h2

/-- Between `e` and `e'` some agent that eats row `r` did so: its count went up, or it has an invalid
index in its list (then its `consume` raises after eating, before counting). -/
def Ate (e e' : Env K δ) (r : Nat) : Prop :=
  ∃ b ∈ e.agents, ∃ b' ∈ e'.agents, b'.name = b.name ∧ Eats e b r ∧
    (b.consumed r < b'.consumed r ∨ ∃ f ∈ b.consumes, pyIdx e.mdp.features.d0 f = none)

theorem Ate.mono_right {e1 e2 e3 : Env K δ} {r : Nat} (h : Ate e1 e2 r) (hl : Later e2 e3) : Ate e1 e3 r := by
  obtain ⟨b, hb, b', hb', h1, h2, h3⟩ := h
  obtain ⟨c, hc, c1, -, -, -, -, -, -, -, c2⟩ := hl.agents b' hb'
  refine ⟨b, hb, c, hc, c1.trans h1, h2, ?_⟩
  rcases h3 with h3 | h3
  · exact .inl (lt_of_lt_of_le h3 (c2 r))
  · exact .inr h3

theorem Ate.mono_left {e1 e2 e3 : Env K δ} {r : Nat} (h : Ate e2 e3 r) (h2 : (e2.agents.map (·.name)).Nodup)
    (hl : Later e1 e2) (hnames : ∀ n, n ∈ e2.agents.map (·.name) → n ∈ e1.agents.map (·.name)) :
    Ate e1 e3 r := by
  obtain ⟨b, hb, b', hb', h1, ⟨f, h3, h4⟩, h5⟩ := h
  obtain ⟨c, hc, hcn⟩ := List.mem_map.1 (hnames b.name (List.mem_map_of_mem (f := (·.name)) hb))
  obtain ⟨b2, hb2, d1, -, -, d2, -, -, -, -, d3⟩ := hl.agents c hc
  have : b2 = b := eq_of_name h2 hb2 hb (d1.trans hcn)
  subst this
  refine ⟨c, hc, b', hb', h1.trans d1, ⟨f, d2 ▸ h3, by rw [← hl.d0]; exact h4⟩, ?_⟩
  rcases h5 with h5 | ⟨f', h5, h6⟩
  · exact .inl (lt_of_le_of_lt (d3 r) h5)
  · exact .inr ⟨f', d2 ▸ h5, by rw [← hl.d0]; exact h6⟩

theorem Later.row {e e' : Env K δ} (h : Later e e') (i : Nat) : e'.mdp.agentRow i = e.mdp.agentRow i := by
  unfold Mdp.agentRow; rw [h.d0, h.nAgents]

/-- From `e` to `e'` every agent's entry at its position is 1 afterwards, or it was not 1 before and the
agent has not been placed since, or somebody ate it in between. -/
def Kept (e e' : Env K δ) : Prop :=
  ∀ a ∈ e.agents, ∀ a' ∈ e'.agents, a'.name = a.name → ∀ j j', pyIdx e.mdp.nStates a.position = some j →
    pyIdx e.mdp.nStates a'.position = some j' →
    e'.mdp.features.get (e.mdp.agentRow a.idx) j' = 1 ∨
    (e.mdp.features.get (e.mdp.agentRow a.idx) j ≠ 1 ∧ a'.position = a.position) ∨
    Ate e e' (e.mdp.agentRow a.idx)

theorem Kept.refl (h : Ok kind W H selfT e) : Kept e e := by
  intro a ha a' ha' hn j j' hj hj'
  have := eq_of_name h.nodup ha' ha hn
  subst this
  rw [hj] at hj'; cases hj'
  by_cases h1 : e.mdp.features.get (e.mdp.agentRow a'.idx) j = 1
  · exact .inl h1
  · exact .inr (.inl ⟨h1, rfl⟩)

/-- The names in the dictionary never change. -/
theorem Ok.same_names {e e' : Env K δ} (h : Ok kind W H selfT e) (h' : Ok kind W H selfT e') (hl : Later e e')
    (n : String) : n ∈ e'.agents.map (·.name) ↔ n ∈ e.agents.map (·.name) := by
  rw [← h.names, ← h'.names, hl.names]

theorem Kept.trans {e1 e2 e3 : Env K δ} (h1 : Ok kind W H selfT e1) (h2 : Ok kind W H selfT e2)
    (l12 : Later e1 e2) (l23 : Later e2 e3) (k12 : Kept e1 e2) (k23 : Kept e2 e3) : Kept e1 e3 := by
  intro a ha a3 ha3 hn j j3 hj hj3
  obtain ⟨a2, ha2, n2, i2, -⟩ := l12.agents a ha
  obtain ⟨j2, hj2, -⟩ := h2.pos a2 ha2
  have hrow : e2.mdp.agentRow a2.idx = e1.mdp.agentRow a.idx := by rw [l12.row, i2]
  have hj2' : pyIdx e1.mdp.nStates a2.position = some j2 := by rw [← l12.nStates]; exact hj2
  have A := k12 a ha a2 ha2 n2 j j2 hj hj2'
  have B := k23 a2 ha2 a3 ha3 (hn.trans n2.symm) j2 j3 hj2 (by rw [l12.nStates]; exact hj3)
  rw [hrow] at B
  rcases B with B | ⟨B1, B2⟩ | B
  · exact .inl B
  · rcases A with A | ⟨A1, A2⟩ | A
    · exact absurd A B1
    · exact .inr (.inl ⟨A1, B2.trans A2⟩)
    · exact .inr (.inr (A.mono_right l23))
  · exact .inr (.inr (B.mono_left h2.nodup l12 fun n => (h1.same_names h2 l12 n).1))

theorem Kept.same (h : Ok kind W H selfT e) {a a' : Agent K δ} (ha : a ∈ e.agents)
    (hb : Agent.SameBody a a') (k : Nat) : Kept e { e.put e.mdp a' with nSteps := k } := by
  intro b hbm c hc hn j j' hj hj'
  have hpos : c.position = b.position := by
    rcases (mem_put (e := e) (m := e.mdp) (by rw [hb.name]; exact List.mem_map_of_mem (f := (·.name)) ha)).1
      hc with rfl | ⟨hb', -⟩
    · rw [hb.position, eq_of_name h.nodup ha hbm (hb.name.symm.trans hn)]
    · rw [eq_of_name h.nodup hb' hbm hn]
  rw [hpos, hj] at hj'
  cases hj'
  by_cases h1 : e.mdp.features.get (e.mdp.agentRow b.idx) j = 1
  · exact .inl h1
  · exact .inr (.inl ⟨h1, hpos⟩)

/-- The common part of the two moving cases. -/
theorem Kept.moved (h : Ok kind W H selfT e) {a a1 a2 : Agent K δ} {d : Nat → δ} {j t : Nat}
    (hm : Moved e a d a1 j t) (hn : a2.name = a.name) (hp : a2.position = t) (g : Nat → Nat → K) (k : Nat)
    (heat : ∀ r s, g r s = (e.mdp.setRow (e.mdp.agentRow a.idx) t).features.get r s ∨
        Ate e { e.put (e.mdp.withFeat g) a2 with nSteps := k } r) :
    Kept e { e.put (e.mdp.withFeat g) a2 with nSteps := k } := by
  intro b hb c hc hbc jb jc hjb hjc
  rcases (mem_put (e := e) (m := e.mdp.withFeat g) (by rw [hn]; exact List.mem_map_of_mem (f := (·.name)) hm.mem)).1
      hc with rfl | ⟨hc', hcn⟩
  · have : b = a := eq_of_name h.nodup hb hm.mem (hbc.symm.trans hn)
    subst this
    rw [hp, pyIdx_nat, if_pos hm.lt] at hjc
    cases hjc
    rcases heat (e.mdp.agentRow b.idx) t with h2 | h2
    · left
      change g (e.mdp.agentRow b.idx) t = 1
      rw [h2]
      simp [Mdp.setRow, Mdp.withFeat]
    · exact .inr (.inr h2)
  · have : c = b := eq_of_name h.nodup hc' hb hbc
    subst this
    rw [hjb] at hjc
    cases hjc
    have hne : e.mdp.agentRow c.idx ≠ e.mdp.agentRow a.idx := by
      intro h'
      have := agentRow_inj h'
      exact hcn (by rw [hn, List.inj_on_of_nodup_map h.idxs hc' hm.mem this])
    rcases heat (e.mdp.agentRow c.idx) jb with h2 | h2
    · have hg : g (e.mdp.agentRow c.idx) jb = e.mdp.features.get (e.mdp.agentRow c.idx) jb := by
        rw [h2]; simp [Mdp.setRow, Mdp.withFeat, hne]
      by_cases h1 : e.mdp.features.get (e.mdp.agentRow c.idx) jb = 1
      · exact .inl (hg.trans h1)
      · exact .inr (.inl ⟨h1, rfl⟩)
    · exact .inr (.inr h2)

theorem Kept.step (h : Ok kind W H selfT e) (n : String) (d : Nat → δ) : Kept e (e.step n d).1 := by
  rcases step_cases h n d with ⟨-, h1⟩ | ⟨a, a', err, h1, -, h2, -, -, -, h3⟩ |
    ⟨a, a1, j, t, g, c, -, hm, -, hg, hc, h1, -⟩ | ⟨a, a1, j, t, g, -, hm, hbad, hg, h1, -⟩
  · rw [h1]; exact .refl h
  · rw [h3]; exact .same h h1 h2 e.nSteps
  · rw [h1]
    obtain ⟨m1, m2, m3, m4, m5, m6, -⟩ := hm.name
    refine Kept.moved h hm (a2 := { a1 with consumed := fun f => a.consumed f + c f }) m1 m4 g _ ?_
    intro r s
    rw [hg r s]
    split_ifs with hcond
    · right
      refine ⟨a, hm.mem, { a1 with consumed := fun f => a.consumed f + c f },
        (mem_put (e := e) (m := e.mdp.withFeat g)
          (by simp only; rw [m1]; exact List.mem_map_of_mem (f := (·.name)) hm.mem)).2 (.inl rfl),
        m1, hcond.2.1, .inl ?_⟩
      have := hc r
      rw [if_pos ⟨hcond.2.1, by have := hcond.2.2; rw [hcond.1] at this; exact this⟩] at this
      simp only; omega
    · exact .inl rfl
  · rw [h1]
    obtain ⟨m1, m2, m3, m4, m5, m6, -⟩ := hm.name
    refine Kept.moved h hm (a2 := a1) m1 m4 g e.nSteps ?_
    intro r s
    rcases hg r s with h2 | ⟨-, -, -, f, e1, e2⟩
    · exact .inl h2
    · right
      push Not at hbad
      obtain ⟨f', e3, e4⟩ := hbad
      refine ⟨a, hm.mem, a1, (mem_put (e := e) (m := e.mdp.withFeat g)
        (by rw [m1]; exact List.mem_map_of_mem (f := (·.name)) hm.mem)).2 (.inl rfl), m1,
        ⟨f, e1, e2⟩, .inr ⟨f', e3, ?_⟩⟩
      cases hx : pyIdx e.mdp.features.d0 f' with
      | none => rfl
      | some r' => exact absurd hx (e4 r')

theorem Kept.setAgentPosition (h : Ok kind W H selfT e) (n : String) (p : Int)
    (hp : -(e.mdp.nStates : Int) ≤ p) : Kept e (e.setAgentPosition n p).1 := by
  rcases setAgentPosition_cases h n p with ⟨-, h1⟩ | ⟨a, h1, -, ⟨j, h2, h3⟩ | ⟨-, h3⟩ | ⟨h3, -⟩⟩
  · rw [h1]; exact .refl h
  · rw [h3]
    intro b hb c hc hbc jb jc hjb hjc
    rcases (mem_put (e := e) (m := e.mdp.setRow (e.mdp.agentRow a.idx) j)
      (a := { a with position := p }) (List.mem_map_of_mem (f := (·.name)) h1)).1 hc with rfl | ⟨hc', hcn⟩
    · have : b = a := eq_of_name h.nodup hb h1 hbc.symm
      subst this
      simp only at hjc
      rw [h2] at hjc; cases hjc
      left
      change (e.mdp.setRow (e.mdp.agentRow b.idx) j).features.get (e.mdp.agentRow b.idx) j = 1
      simp [Mdp.setRow, Mdp.withFeat]
    · have : c = b := eq_of_name h.nodup hc' hb hbc
      subst this
      rw [hjb] at hjc
      cases hjc
      have hne : e.mdp.agentRow c.idx ≠ e.mdp.agentRow a.idx := by
        intro h'
        have := agentRow_inj h'
        exact hcn (by rw [List.inj_on_of_nodup_map h.idxs hc' h1 this])
      have hg : (e.mdp.setRow (e.mdp.agentRow a.idx) j).features.get (e.mdp.agentRow c.idx) jb =
          e.mdp.features.get (e.mdp.agentRow c.idx) jb := by simp [Mdp.setRow, Mdp.withFeat, hne]
      by_cases h4 : e.mdp.features.get (e.mdp.agentRow c.idx) jb = 1
      · exact .inl (hg.trans h4)
      · exact .inr (.inl ⟨h4, rfl⟩)
  · rw [h3]; exact .refl h
  · omega

theorem Kept.reset (h : Ok kind W H selfT e) : Kept e e.reset.1 := by
  rw [(reset_eq h).1]
  intro a ha a' ha' hn j j' hj hj'
  obtain ⟨b, hb, rfl⟩ := List.mem_map.1 ha'
  have : b = a := eq_of_name h.nodup hb ha hn
  subst this
  left
  obtain ⟨js, h1, h2⟩ := h.start b hb
  change pyIdx e.mdp.nStates b.start = some j' at hj'
  rw [h1] at hj'; cases hj'
  exact (h2 j').trans (if_pos rfl)

theorem Kept.walls (h : Ok kind W H selfT e) (m : Mdp K) (h1 : m.features = e.mdp.features) :
    Kept e { e with mdp := m } := by
  intro a ha a' ha' hn j j' hj hj'
  have := Kept.refl h a ha a' ha' hn j j' hj hj'
  simp only [h1]
  exact this

/-- Like `run_induct`, for histories whose `reset`s and `set_agent_position`s are restricted. -/
theorem run_induct_on (A : EnvOp K δ → Prop) (P : Env K δ → Prop)
    (hfit : ∀ e n o d, P e → P (Env.fit e n o d).1) (hstep : ∀ e n d, P e → P (Env.step e n d).1)
    (hproba : ∀ e n p d, P e → P (Env.stepProba e n p d).1) (hreset : ∀ e, A .reset → P e → P (Env.reset e).1)
    (hset : ∀ e n p, A (.setAgentPosition n p) → P e → P (Env.setAgentPosition e n p).1)
    (hw : ∀ e w, P e → P (Env.setWalls e w).1)
    (ha : ∀ e x y, P e → P (Env.addWallXY e x y).1) (hrw : ∀ e, P e → P (Env.resetWalls e).1)
    (halg : ∀ e n st, P e → P (Env.setAlgorithm e n st).1)
    (ops : List (EnvOp K δ)) : (∀ op ∈ ops, A op) → ∀ e, P e → P (e.run ops) := by
  induction ops with
  | nil => intro _ e h; exact h
  | cons op ops ih =>
    intro hA e h
    refine ih (fun o ho => hA o (List.mem_cons_of_mem _ ho)) (e.apply op) ?_
    have hop := hA op List.mem_cons_self
    cases op with
    | fit n o d => exact hfit _ _ _ _ h
    | step n d => exact hstep _ _ _ h
    | stepProba n p d => exact hproba _ _ _ _ h
    | stepMulti n s p t r c o => exact stepMulti_induct P (fun e => hfit e n) (fun e => hstep e n) _ _ _ _ _ _ _ h
    | stepMultiInteractive n m =>
      simp only [apply, stepMultiInteractive]
      split
      · exact h
      · exact h
      · split_ifs
        · exact h
        · split <;> exact h
    | reset => exact hreset _ hop h
    | setAgentPosition n p => exact hset _ _ _ hop h
    | setWalls w => exact hw _ _ h
    | addWallXY x y => exact ha _ _ _ h
    | resetWalls => exact hrw _ h
    | setAlgorithm n st => exact halg _ _ _ h

theorem Kept.run (h : Ok kind W H selfT e) (ops : List (EnvOp K δ))
    (hops : ∀ op ∈ ops, ∀ n p, op = .setAgentPosition n p → -(e.mdp.nStates : Int) ≤ p) :
    Kept e (e.run ops) := by
  have step : ∀ {e1 e2 : Env K δ}, (Ok kind W H selfT e1 ∧ Later e e1 ∧ Kept e e1) →
      Ok kind W H selfT e2 → Later e1 e2 → Kept e1 e2 → Ok kind W H selfT e2 ∧ Later e e2 ∧ Kept e e2 :=
    fun h1 h2 l k => ⟨h2, h1.2.1.trans l, h1.2.2.trans h h1.1 h1.2.1 l k⟩
  refine (run_induct_on (fun op => ∀ n p, op = .setAgentPosition n p → -(e.mdp.nStates : Int) ≤ p)
    (fun e' => Ok kind W H selfT e' ∧ Later e e' ∧ Kept e e')
    ?_ ?_ ?_ ?_ ?_ ?_ ?_ ?_ ?_ ops hops e ⟨h, .refl e, .refl h⟩).2.2
  · intro e' n o d h1
    refine step h1 (h1.1.fit n o d) (later_fit h1.1 n o d) ?_
    rcases fit_cases h1.1 n o d with ⟨-, h3⟩ | ⟨a, h2, -, h3⟩
    · rw [h3]; exact .refl h1.1
    · rw [h3]; exact .same h1.1 h2 (Agent.fit_same a e'.mdp o d).1 e'.nSteps
  · intro e' n d h1
    exact step h1 (h1.1.step n d) (later_step h1.1 n d) (.step h1.1 n d)
  · intro e' n p d h1
    refine step h1 (h1.1.stepProba n p d) (later_stepProba h1.1 n p d) ?_
    rcases stepProba_cases h1.1 n p d with ⟨-, h3⟩ | ⟨a, h2, -, ⟨err, -, h3⟩ | ⟨x, -, h3⟩⟩
    · rw [h3]; exact .refl h1.1
    · rw [h3]; exact .same h1.1 h2 (Agent.stepProba_same a e'.mdp p d).1 e'.nSteps
    · rw [h3]; exact .same h1.1 h2 (Agent.stepProba_same a e'.mdp p d).1 _
  · intro e' _ h1
    exact step h1 (by rw [(reset_eq h1.1).1]; exact (reset_eq h1.1).2) (later_reset h1.1) (.reset h1.1)
  · intro e' n p hA h1
    exact step h1 (h1.1.setAgentPosition n p) (later_setAgentPosition h1.1 n p)
      (.setAgentPosition h1.1 n p (by rw [h1.2.1.nStates]; exact hA n p rfl))
  · intro e' w h1
    have := Mdp.setWalls_feat h1.1.reach.ok w
    exact step h1 (h1.1.setWalls w) (later_walls _ this.1 this.2.2.1 this.2.2.2.2.1) (.walls h1.1 _ this.1)
  · intro e' x y h1
    have := Mdp.addWallXY_feat h1.1.reach.ok x y
    exact step h1 (h1.1.addWallXY x y) (later_walls _ this.1 this.2.2.1 this.2.2.2.2.1) (.walls h1.1 _ this.1)
  · intro e' h1
    have := Mdp.resetWalls_feat h1.1.reach.ok
    exact step h1 h1.1.resetWalls (later_walls _ this.1 this.2.2.1 this.2.2.2.2.1) (.walls h1.1 _ this.1)
  · intro e' n st h1
    refine step h1 (h1.1.setAlgorithm n st) (later_setAlgorithm h1.1 n st) ?_
    rcases setAlgorithm_cases h1.1 n st with ⟨-, h3⟩ | ⟨a, h2, -, h3⟩
    · rw [h3]; exact .refl h1.1
    · rw [h3]; exact .same h1.1 h2 (setAlgorithm_same a st) e'.nSteps

/-- Sum over the agents after replacing one. -/
theorem sum_put (φ : Agent K δ → Nat) {a a' : Agent K δ} (hn : a'.name = a.name) :
    ∀ (l : List (Agent K δ)), (l.map (·.name)).Nodup → a ∈ l →
      ((l.map fun b => if b.name = a'.name then a' else b).map φ).sum + φ a = (l.map φ).sum + φ a' := by
  intro l
  induction l with
  | nil => intro _ h; simp at h
  | cons b l ih =>
    intro hnd hmem
    simp only [List.map_cons, List.nodup_cons] at hnd
    rcases List.mem_cons.1 hmem with rfl | hmem
    · have hrest : (l.map fun b => if b.name = a'.name then a' else b) = l := by
        conv_rhs => rw [← List.map_id l]
        apply List.map_congr_left
        intro c hc
        rw [if_neg]
        · rfl
        · intro h
          exact hnd.1 (List.mem_map.2 ⟨c, hc, h.trans hn⟩)
      simp only [List.map_cons, List.sum_cons, hn, if_true]
      rw [hn] at hrest
      rw [hrest]
      omega
    · have hne : b.name ≠ a'.name := by
        intro h
        exact hnd.1 (List.mem_map.2 ⟨a, hmem, by rw [h, hn]⟩)
      have := ih hnd.2 hmem
      simp only [List.map_cons, List.sum_cons, if_neg hne]
      omega

end MaMDP.Env
