import Verif.Lemmas.EnvHistory

/-! The environment right after construction. -/

set_option linter.unusedSectionVars false

namespace MaMDP.Env

variable {K : Type} [Field K] [LinearOrder K] [IsStrictOrderedRing K] {δ : Type}
variable {kind : GridKind} {W H : Nat} {selfT : Bool}

theorem init_valid {m : Mdp K} (hm : Mdp.GridReach kind W H selfT m) (specs : List (AgentSpec K δ)) :
    (∃ e, (init m specs).2 = .ok e) ↔
      ∀ sp ∈ specs, Spec.ValidAgent m.nStates (m.features.d0 - m.nAgents) specs.length sp := by
  obtain ⟨b1, b2, b3, b4, b5, -⟩ := bare_ok hm
  have hbn : (bare m).nFeatures = m.features.d0 - m.nAgents := b3
  rw [init_eq hm, hbn]
  constructor
  · rintro ⟨e, he⟩
    by_contra hv
    obtain ⟨err, h1⟩ := attachLoop_fail (m.features.d0 - m.nAgents) specs.length specs (bare m) [] []
      (bare_env hm) (.inl rfl) (by rw [b5]; exact hv)
    rw [b2] at h1
    rcases hl : attachLoop (m.features.d0 - m.nAgents) specs.length 0 specs (bare m) [] with ⟨m1, x | x⟩
    · rw [hl] at he; simp at he
    · rw [hl] at h1; simp at h1
  · intro hv
    obtain ⟨m1, as, h1, -⟩ := attachLoop_ok (m.features.d0 - m.nAgents) specs.length specs (bare m) [] []
      (bare_env hm) (.inl rfl) (by rw [b5]; exact hv)
    rw [b2] at h1
    rw [h1]
    exact ⟨_, rfl⟩

/-- Everything about a successful construction. -/
theorem init_facts {m m' : Mdp K} (hm : Mdp.GridReach kind W H selfT m) {specs : List (AgentSpec K δ)}
    {e : Env K δ} (h : init m specs = (m', .ok e)) :
    m' = e.mdp ∧ Ok kind W H selfT e ∧
    (∀ sp ∈ specs, Spec.ValidAgent m.nStates (m.features.d0 - m.nAgents) specs.length sp) ∧
    e.agentNames = specs.map (·.name) ∧ e.nSteps = 0 ∧
    (specs ≠ [] → e.mdp.features = e.mdp.originalFeatures) ∧
    e.mdp.features.d0 = m.features.d0 - m.nAgents + specs.length ∧ e.mdp.nAgents = specs.length ∧
    e.mdp.nStates = m.nStates ∧ e.mdp.nNonAgent = m.nNonAgent ∧ e.mdp.sas = m.sas ∧ e.mdp.walls = m.walls ∧
    (∀ f s, f < m.features.d0 - m.nAgents → e.mdp.features.get f s = m.features.get f s) ∧
    (∀ i sp, specs[i]? = some sp → ∃ p, sp.position = some p ∧ ∀ s,
        e.mdp.features.get (m.features.d0 - m.nAgents + i) s = if s = Spec.stateOf m.nStates p then 1 else 0) ∧
    ((specs.map (·.name)).Nodup → e.agents.length = specs.length ∧
      ∀ i a, e.agents[i]? = some a → ∃ sp p r, specs[i]? = some sp ∧
          sp.position = some p ∧ sp.reward = .nd [m.features.d0 - m.nAgents + specs.length] r ∧
          a = newAgent i (i + m.nNonAgent) sp p ⟨m.features.d0 - m.nAgents + specs.length, fun x => r [x]⟩) ∧
    (∀ a ∈ e.agents, ∃ i sp p r, specs[i]? = some sp ∧ sp.position = some p ∧ 
          sp.reward = .nd [m.features.d0 - m.nAgents + specs.length] r ∧
          a = newAgent i (i + m.nNonAgent) sp p ⟨m.features.d0 - m.nAgents + specs.length, fun x => r [x]⟩) := by
  obtain ⟨b1, b2, b3, b4, b5, b6, b7, b8⟩ := bare_ok hm
  have hbn : (bare m).nFeatures = m.features.d0 - m.nAgents := b3
  have hv := (init_valid hm specs).1 ⟨e, by rw [h]⟩
  obtain ⟨m1, as, h1, h2, h3, -, h5, h6, h7, h8, h9, h10, h11, h12, h13, h14⟩ :=
    attachLoop_ok (m.features.d0 - m.nAgents) specs.length specs (bare m) [] []
      (bare_env hm) (.inl rfl) (by rw [b5]; exact hv)
  rw [b2] at h1 h6 h13 h14
  rw [b3] at h5 h11 h12
  rw [b4] at h11
  rw [b5] at h7 h12
  rw [b6] at h8 h13 h14
  rw [init_eq hm, hbn, h1] at h
  simp only [Prod.mk.injEq, Except.ok.injEq] at h
  obtain ⟨rfl, rfl⟩ := h
  refine ⟨rfl, by simpa using h2, hv, rfl, rfl, h3, h5, by simpa using h6, h7, h8, h9.trans b7, h10.trans b8,
    h11, h12, ?_, ?_⟩
  · intro hnd
    obtain ⟨new, rfl, h15, h16⟩ := h13 (by simpa using hnd)
    refine ⟨by simpa using h15, fun i a hi => ?_⟩
    simpa using h16 i a (by simpa using hi)
  · intro a ha
    rcases h14 a ha with h15 | h15
    · simp at h15
    · simpa using h15

/-- Later states of a constructed environment. -/
theorem started {m m' : Mdp K} (hm : Mdp.GridReach kind W H selfT m) {specs : List (AgentSpec K δ)}
    {e : Env K δ} (h : init m specs = (m', .ok e)) (ops : List (EnvOp K δ)) :
    Ok kind W H selfT (e.run ops) ∧ Later e (e.run ops) :=
  ⟨Ok.run ops e (init_facts hm h).2.1, later_run ops (init_facts hm h).2.1⟩

theorem validConsumes_init {m m' : Mdp K} (hm : Mdp.GridReach kind W H selfT m) {specs : List (AgentSpec K δ)}
    {e : Env K δ} (h : init m specs = (m', .ok e))
    (hc : ∀ sp ∈ specs, ∀ f ∈ sp.consumes, -((m.features.d0 - m.nAgents + specs.length : Nat) : Int) ≤ f) :
    ValidConsumes e := by
  obtain ⟨-, -, hv, -, -, -, hd, -, -, -, -, -, -, -, -, hag⟩ := init_facts hm h
  intro a ha f hf
  obtain ⟨i, sp, p, r, h1, -, -, rfl⟩ := hag a ha
  have hsp := List.mem_of_getElem? h1
  have h2 := (hv sp hsp).2.2 f hf
  have h3 := hc sp hsp f hf
  rw [hd]
  cases hx : pyIdx (m.features.d0 - m.nAgents + specs.length) f with
  | some r => exact ⟨r, rfl⟩
  | none =>
    rcases pyIdx_eq_none.1 hx with h4 | h4 <;> omega

theorem stateOf_eq {n : Nat} {p : Int} {j : Nat} (h : pyIdx n p = some j) : j = Spec.stateOf n p := by
  unfold pyIdx at h
  unfold Spec.stateOf
  split_ifs at h ⊢ <;> simp only [Option.some.injEq] at h <;> omega

theorem run_append (e : Env K δ) (l1 l2 : List (EnvOp K δ)) : e.run (l1 ++ l2) = (e.run l1).run l2 := by
  unfold run; rw [List.foldl_append]

end MaMDP.Env
