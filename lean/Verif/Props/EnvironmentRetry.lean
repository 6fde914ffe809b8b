import Verif.Props.Environment
import Verif.Spec.EnvironmentRetry

/-! # C99: a rejected environment -/

set_option linter.unusedSectionVars false

namespace MaMDP

variable {K : Type} [Field K] [LinearOrder K] [IsStrictOrderedRing K] {δ : Type}
variable {kind : GridKind} {W H : Nat} {selfT : Bool} {m m1 : Mdp K}

namespace Env

/-- What the loop over agents leaves behind, however it ends, when the positions are in range. -/
theorem attachLoop_left (nF nA : Nat) : ∀ (sps : List (AgentSpec K δ)) (m : Mdp K) (as : List (Agent K δ)),
    Mdp.GridReach kind W H selfT m → m.nAgents ≤ m.features.d0 →
    (∀ sp ∈ sps, Spec.StartInRange m.nStates sp) →
    ∃ k, let m' := (attachLoop nF nA m.nAgents sps m as).1
      Mdp.GridReach kind W H selfT m' ∧ m'.nAgents = m.nAgents + k ∧ m'.features.d0 = m.features.d0 + k ∧
      m'.nStates = m.nStates ∧ m'.nActions = m.nActions ∧ m'.nNonAgent = m.nNonAgent ∧ m'.sas = m.sas ∧
      m'.walls = m.walls ∧ ∀ f s, f < m.features.d0 → m'.features.get f s = m.features.get f s := by
  intro sps
  induction sps with
  | nil => intro m as h hle _; exact ⟨0, h, rfl, rfl, rfl, rfl, rfl, rfl, rfl, fun _ _ _ => rfl⟩
  | cons sp sps ih =>
    intro m as h hle hr
    have hd : m.features.d1 = m.nStates := by rw [h.ok.featStates, h.ok.nStates]
    unfold attachLoop
    cases hc : checkSpec nF nA sp with
    | error e => exact ⟨0, h, rfl, rfl, rfl, rfl, rfl, rfl, rfl, fun _ _ _ => rfl⟩
    | ok x =>
      obtain ⟨p, r⟩ := x
      obtain ⟨-, hp, -⟩ := checkSpec_ok hc
      have hpi := pyIdx_start (hr sp List.mem_cons_self p hp)
      simp only
      rw [attach_ok rfl hle hd hpi]
      simp only
      have hreach : Mdp.GridReach kind W H selfT (addRow m (Spec.stateOf m.nStates p)) := by
        have := Mdp.GridReach.step (.addAgentFeature p) h (by simp)
        simp only [Mdp.apply, addAgentFeature_ok hd hpi] at this
        exact this
      obtain ⟨k, h1, h2, h3, h4, h5, h6, h7, h8, h9⟩ := ih (addRow m (Spec.stateOf m.nStates p))
        (insertAgent as (newAgent m.nAgents (m.nAgents + m.nNonAgent) sp p r)) hreach (Nat.succ_le_succ hle)
        (fun q hq => hr q (List.mem_cons_of_mem _ hq))
      refine ⟨k + 1, h1, ?_, ?_, h4, h5, h6, h7, h8, ?_⟩
      · refine h2.trans ?_
        simp only [addRow]; omega
      · refine h3.trans ?_
        simp only [addRow]; omega
      · intro f s hf
        refine (h9 f s (by simp only [addRow]; omega)).trans ?_
        simp only [addRow]
        rw [if_neg (by omega)]

/-- The loop over agents does the same on MDPs that present the same features. -/
theorem attachLoop_same (nF nA : Nat) : ∀ (sps : List (AgentSpec K δ)) (m m1 : Mdp K)
    (as : List (Agent K δ)), Mdp.GridReach kind W H selfT m → m.nAgents ≤ m.features.d0 →
    Spec.SameMdp m m1 → m1.nNonAgent = m.nNonAgent →
    (∃ err, (attachLoop nF nA m.nAgents sps m as).2 = .error err ∧
      (attachLoop nF nA m.nAgents sps m1 as).2 = .error err) ∨
    ∃ m' m1' as', attachLoop nF nA m.nAgents sps m as = (m', .ok as') ∧
      attachLoop nF nA m.nAgents sps m1 as = (m1', .ok as') ∧ Spec.SameMdp m' m1' := by
  intro sps
  induction sps with
  | nil => intro m m1 as _ _ h _; exact .inr ⟨m, m1, as, rfl, rfl, h⟩
  | cons sp sps ih =>
    intro m m1 as h hle hs hnn
    have hd : m.features.d1 = m.nStates := by rw [h.ok.featStates, h.ok.nStates]
    obtain ⟨s1, s2, s3, s4, s5, s6, s7, s8⟩ := hs
    unfold attachLoop
    cases hc : checkSpec nF nA sp with
    | error e => exact .inl ⟨e, rfl, rfl⟩
    | ok x =>
      obtain ⟨p, r⟩ := x
      simp only
      cases hpi : pyIdx m.nStates p with
      | none =>
        left
        refine ⟨.indexError, ?_, ?_⟩
        · have := attach_fail (n := m.nAgents) (sp := sp) (r := r) hpi
          cases ha : attach m m.nAgents sp p r with
          | mk a b => rw [ha] at this; simp only at this; subst this; rfl
        · have := attach_fail (m := m1) (n := m.nAgents) (sp := sp) (r := r) (by rw [s1]; exact hpi)
          cases ha : attach m1 m.nAgents sp p r with
          | mk a b => rw [ha] at this; simp only at this; subst this; rfl
      | some j =>
        rw [attach_ok rfl hle hd hpi, attach_ok s3 (by rw [s3, s4]; exact hle) (by rw [s5, s1]; exact hd)
          (by rw [s1]; exact hpi)]
        simp only
        have hreach : Mdp.GridReach kind W H selfT (addRow m j) := by
          have := Mdp.GridReach.step (.addAgentFeature p) h (by simp)
          simp only [Mdp.apply, addAgentFeature_ok hd hpi] at this
          exact this
        rw [hnn]
        refine ih (addRow m j) (addRow m1 j) _ hreach (Nat.succ_le_succ hle) ?_ hnn
        refine ⟨s1, s2, ?_, ?_, s5, ?_, s7, s8⟩
        · simp only [addRow, s3]
        · simp only [addRow, s4]
        · intro f s hf
          simp only [addRow, s4] at hf ⊢
          split_ifs with h1
          · rfl
          · rfl
          · exact s6 f s (by omega)

end Env

/-- The claim fails: one agent whose start is no state of the grid makes the constructor raise after it has
counted the agent. On an MDP with features and no agents the count is off by one from then on: agents that
were acceptable before are refused, whatever agents are accepted the last own feature is gone. -/
theorem C99_refuted (hm : Mdp.GridReach kind W H selfT m) (h0 : m.nAgents = 0) (hF : 0 < m.features.d0)
    (sp : AgentSpec K δ) (p : Int) (hp : sp.position = some p) (hout : p < -((W * H : Nat) : Int) ∨ (W * H : Nat) ≤ p)
    (hr : ∃ get, sp.reward = .nd [m.features.d0 + 1] get) (hc : ∀ f ∈ sp.consumes, f < (m.features.d0 + 1 : Nat)) :
    ∃ m1, Env.init m [sp] = (m1, .error .indexError) ∧
      (∀ specs : List (AgentSpec K δ), specs ≠ [] → (∃ e, (Env.init m specs).2 = .ok e) →
        ¬ ∃ e, (Env.init m1 specs).2 = .ok e) ∧
      ∀ (specs : List (AgentSpec K δ)) (m2 : Mdp K) (e : Env K δ), Env.init m1 specs = (m2, .ok e) →
        e.mdp.features.d0 = m.features.d0 - 1 + specs.length := by
  have g := hm.ok
  obtain ⟨get, hr⟩ := hr
  have hpi : pyIdx m.nStates p = none := by rw [pyIdx_eq_none, g.nStates]; omega
  have hi : Env.init m [sp] = ({ m with nAgents := 1 }, .error .indexError) := by
    unfold Env.init
    simp only [h0, Nat.lt_irrefl, if_false, List.length_singleton]
    unfold Env.attachLoop
    rw [Env.checkSpec_of (get := get) (by exact hr) hp (by exact hc)]
    simp only
    unfold Env.attach
    simp only [Mdp.addAgentFeature, hpi, h0]
  have hm1 : Mdp.GridReach kind W H selfT { m with nAgents := 1 } := by
    have := Mdp.GridReach.step (.addAgentFeature p) hm (by simp)
    simpa only [Mdp.apply, Mdp.addAgentFeature, hpi, h0] using this
  refine ⟨_, hi, ?_, ?_⟩
  · intro specs hne h1 h2
    rw [C38_validated hm] at h1
    rw [C38_validated hm1] at h2
    obtain ⟨q, hq⟩ := List.exists_mem_of_ne_nil specs hne
    obtain ⟨⟨g1, e1⟩, -⟩ := h1 q hq
    obtain ⟨⟨g2, e2⟩, -⟩ := h2 q hq
    rw [e1] at e2
    simp only [PyArr.nd.injEq, List.cons.injEq, and_true] at e2
    have h3 := e2.1
    omega
  · intro specs m2 e he
    have := (C38_features hm1 he).2.1
    exact this

/-- A corridor with one feature; the first attempt places the fox on state 3 of 0, 1, 2. -/
example : ∃ m : Mdp Rat, Mdp.GridReach .square 1 3 false m ∧ m.nAgents = 0 ∧ 0 < m.features.d0 ∧
    ∃ sp : AgentSpec Rat Nat, sp.position = some 3 ∧ (∃ get, sp.reward = .nd [m.features.d0 + 1] get) ∧
      (∀ f ∈ sp.consumes, f < (m.features.d0 + 1 : Nat)) := by
  obtain ⟨m, h1, -, h2, -, h3, -⟩ := Mdp.initGrid_ok (K := Rat) (kind := .square) (W := 1) (H := 3)
    (selfT := false) (f := ⟨1, 3, fun _ s => if s = 2 then 1 else 0⟩) (w := none) (by decide) rfl (by simp)
  refine ⟨m, .init h1, h3, by rw [h2]; decide, ⟨"fox", 2, maxSelector, .fresh, some 3, .of1 ⟨2, fun _ => 1⟩, [0]⟩,
    rfl, ?_, ?_⟩
  · rw [h2]; exact ⟨_, rfl⟩
  · rw [h2]; simp

/-- What does hold, when every start that is a number denotes a state: whatever made the constructor raise,
the MDP's own features, transitions and walls are as before, and a later attempt on the same MDP, with any
agents, has the outcome it would have had without the failed one. Missing: starts outside the grid. -/
theorem C99_partial (hm : Mdp.GridReach kind W H selfT m)
    (bad : List (AgentSpec K δ)) (hb : ∀ sp ∈ bad, Spec.StartInRange (W * H) sp)
    (err : PyErr) (hi : Env.init m bad = (m1, .error err)) :
    Mdp.GridReach kind W H selfT m1 ∧ m1.nAgents ≤ m1.features.d0 ∧
    m1.features.d0 - m1.nAgents = m.features.d0 - m.nAgents ∧
    (∀ f s, f < m.features.d0 - m.nAgents → m1.features.get f s = m.features.get f s) ∧
    m1.sas = m.sas ∧ m1.walls = m.walls ∧
    ∀ specs : List (AgentSpec K δ),
      (∃ err, (Env.init m specs).2 = .error err ∧ (Env.init m1 specs).2 = .error err) ∨
      ∃ m' m1' e e1, Env.init m specs = (m', .ok e) ∧ Env.init m1 specs = (m1', .ok e1) ∧ Spec.SameEnv e e1 := by
  obtain ⟨b1, b2, b3, b4, b5, b6, b7, b8⟩ := Env.bare_ok hm
  have hna : (Env.bare m).nActions = m.nActions := by unfold Env.bare; split_ifs <;> rfl
  have hleft := Env.attachLoop_left (Env.bare m).nFeatures bad.length bad (Env.bare m) [] b1 (by omega)
    (by rw [b5, hm.ok.nStates]; exact hb)
  rw [b2] at hleft
  have hm1 : m1 = (Env.attachLoop (Env.bare m).nFeatures bad.length 0 bad (Env.bare m) []).1 := by
    unfold Env.init at hi
    simp only [Env.remove_eq hm] at hi
    cases ha : Env.attachLoop (Env.bare m).nFeatures bad.length 0 bad (Env.bare m) [] with
    | mk a r =>
      rw [ha] at hi
      cases r <;> simp_all
  rw [← hm1] at hleft
  obtain ⟨k, c1, c2, c3, c4, c5, c6, c7, c8, c9⟩ := hleft
  obtain ⟨d1, d2, d3, d4, d5, d6, d7, d8⟩ := Env.bare_ok c1
  have hna1 : (Env.bare m1).nActions = m1.nActions := by unfold Env.bare; split_ifs <;> rfl
  have hown : m1.features.d0 - m1.nAgents = m.features.d0 - m.nAgents := by omega
  refine ⟨c1, by omega, hown, ?_, c7.trans b7, c8.trans b8, ?_⟩
  · intro f s hf
    rw [c9 f s (by omega), b4]
  intro specs
  have hsame : Spec.SameMdp (Env.bare m) (Env.bare m1) := by
    refine ⟨by rw [d5, c4], by rw [hna1, c5], by rw [d2, b2], by omega, ?_, ?_, by rw [d7, c7], by rw [d8, c8]⟩
    · rw [d1.ok.featStates, b1.ok.featStates]
    · intro f s hf
      rw [d4, c9 f s hf]
  have hnF : (Env.bare m1).nFeatures = (Env.bare m).nFeatures := hsame.2.2.2.1
  have hl := Env.attachLoop_same (Env.bare m).nFeatures specs.length specs (Env.bare m) (Env.bare m1) [] b1
    (by omega) hsame (by rw [d6, c6])
  rw [b2] at hl
  unfold Env.init
  simp only [Env.remove_eq hm, Env.remove_eq c1, hnF]
  rcases hl with ⟨er, h1, h2⟩ | ⟨m', m1', as', h1, h2, h3⟩
  · left
    refine ⟨er, ?_, ?_⟩
    · cases ha : Env.attachLoop (Env.bare m).nFeatures specs.length 0 specs (Env.bare m) [] with
      | mk a r => rw [ha] at h1; simp only at h1; subst h1; rfl
    · cases ha : Env.attachLoop (Env.bare m).nFeatures specs.length 0 specs (Env.bare m1) [] with
      | mk a r => rw [ha] at h2; simp only at h2; subst h2; rfl
  · right
    rw [h1, h2]
    exact ⟨m', m1', _, _, rfl, rfl, h3, rfl, rfl, rfl⟩

/-- The fox is attached before the hen's reward function turns out to be too short. -/
def exBad : List (AgentSpec Rat Nat) :=
  [⟨"fox", 2, maxSelector, .fresh, some 0, .of1 ⟨3, fun i => if i = 0 then 1 else 0⟩, [0, 2]⟩,
   ⟨"hen", 1, maxSelector, .fresh, some 2, .of1 ⟨2, fun _ => 1⟩, []⟩]

example : ∃ m m1 : Mdp Rat, Mdp.GridReach .square 1 3 false m ∧ (∀ sp ∈ exBad, Spec.StartInRange (1 * 3) sp) ∧
    Env.init m exBad = (m1, .error .attributeError) ∧ m1.nAgents = 1 := by
  have h : (match exMdp with
      | .ok m => match Env.init m exBad with
        | (m1, .error .attributeError) => decide (m1.nAgents = 1)
        | _ => false
      | .error _ => false) = true := by decide +kernel
  split at h
  · rename_i m hm
    split at h
    · rename_i m1 hi
      refine ⟨m, m1, .init hm, ?_, hi, of_decide_eq_true h⟩
      intro sp hsp p hp
      simp only [exBad, List.mem_cons, List.not_mem_nil, or_false] at hsp
      rcases hsp with rfl | rfl <;> · simp only [Option.some.injEq] at hp; subst hp; decide
    · cases h
  · cases h

end MaMDP
