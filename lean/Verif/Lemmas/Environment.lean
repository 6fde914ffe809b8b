import Verif.Model.Environment
import Verif.Lemmas.Features
import Mathlib.Data.List.Nodup

/-! Lemmas about agents and environments. -/

set_option linter.unusedSectionVars false

namespace MaMDP

variable {K : Type} [Field K] [LinearOrder K] [IsStrictOrderedRing K] {δ : Type}

namespace Mdp

/-- Only the entries of the feature array change. -/
def withFeat (m : Mdp K) (g : Nat → Nat → K) : Mdp K := { m with features := { m.features with get := g } }

/-- Row `r` becomes one-hot at `p`. -/
def setRow (m : Mdp K) (r p : Nat) : Mdp K :=
  m.withFeat fun f s => if f = r then (if s = p then 1 else 0) else m.features.get f s

/-- Row of agent number `i`. -/
def agentRow (m : Mdp K) (i : Nat) : Nat := m.features.d0 - m.nAgents + i

theorem agentRow_idx {m : Mdp K} {i : Nat} (h : m.nAgents ≤ m.features.d0) (hi : i < m.nAgents) :
    pyIdx m.features.d0 ((m.nFeatures : Int) - m.nAgents + i) = some (m.agentRow i) := by
  rw [pyIdx_spec]
  unfold nFeatures agentRow
  constructor
  · omega
  · left; omega

theorem agentRow_lt {m : Mdp K} {i : Nat} (h : m.nAgents ≤ m.features.d0) (hi : i < m.nAgents) :
    m.agentRow i < m.features.d0 := pyIdx_lt (agentRow_idx h hi)

theorem update_ok {m : Mdp K} {i : Nat} {p : Int} {j : Nat} (h : m.nAgents ≤ m.features.d0)
    (hi : i < m.nAgents) (hp : pyIdx m.features.d1 p = some j) :
    m.updateAgentFeature i p = (m.setRow (m.agentRow i) j, .ok ()) := by
  unfold updateAgentFeature
  rw [agentRow_idx h hi]
  simp only [hp, setRow, withFeat]
  congr 3
  funext f s
  simp only [upd2]
  by_cases h1 : f = m.agentRow i <;> by_cases h2 : s = j <;> simp [h1, h2]

theorem update_fail {m : Mdp K} {i : Nat} {p : Int} (h : m.nAgents ≤ m.features.d0)
    (hi : i < m.nAgents) (hp : pyIdx m.features.d1 p = none) :
    m.updateAgentFeature i p =
      (m.withFeat (fun f s => if f = m.agentRow i then 0 else m.features.get f s), .error .indexError) := by
  unfold updateAgentFeature
  rw [agentRow_idx h hi]
  simp only [hp, withFeat]

theorem setRow_setRow (m : Mdp K) (r p q : Nat) : (m.setRow r p).setRow r q = m.setRow r q := by
  have : ∀ g h : Nat → Nat → K, g = h → m.withFeat g = m.withFeat h := fun g h e => by rw [e]
  refine this _ _ ?_
  funext f s
  by_cases h : f = r
  · simp [h]
  · simp only [if_neg h]
    simp [setRow, withFeat, h]

/-- Whatever happens, consuming can only turn positive entries at the state into 0. -/
theorem consumeLoop_any (state : Int) (j : Nat) : ∀ (fs : List Int) (m : Mdp K) (c : Nat → Nat),
    pyIdx m.features.d1 state = some j →
    ∃ g, (consumeLoop state fs m c).1 = m.withFeat g ∧
      ∀ r s, g r s = m.features.get r s ∨
        (g r s = 0 ∧ s = j ∧ 0 < m.features.get r s ∧ ∃ f ∈ fs, pyIdx m.features.d0 f = some r) := by
  intro fs
  induction fs with
  | nil => intro m c _; exact ⟨m.features.get, rfl, fun _ _ => .inl rfl⟩
  | cons f fs ih =>
    intro m c hj
    unfold consumeLoop
    simp only [hj]
    cases hr : pyIdx m.features.d0 f with
    | none => exact ⟨m.features.get, rfl, fun _ _ => .inl rfl⟩
    | some r0 =>
      simp only
      split_ifs with hpos
      · obtain ⟨g, h1, h2⟩ := ih
          { m with features := { m.features with get := upd2 m.features.get r0 j 0 } }
          (upd1 c r0 (c r0 + 1)) hj
        refine ⟨g, h1, fun r s => ?_⟩
        have := h2 r s
        simp only [upd2] at this
        by_cases hrs : r = r0 ∧ s = j
        · obtain ⟨rfl, rfl⟩ := hrs
          simp only [and_self, if_true] at this
          right
          refine ⟨?_, rfl, hpos, f, List.mem_cons_self, hr⟩
          rcases this with h | h
          · exact h
          · exact h.1
        · simp only [if_neg hrs] at this
          rcases this with h | ⟨h3, h4, h5, f', h6, h7⟩
          · exact .inl h
          · exact .inr ⟨h3, h4, h5, f', List.mem_cons_of_mem _ h6, h7⟩
      · obtain ⟨g, h1, h2⟩ := ih m c hj
        refine ⟨g, h1, fun r s => ?_⟩
        rcases h2 r s with h | ⟨h3, h4, h5, f', h6, h7⟩
        · exact .inl h
        · exact .inr ⟨h3, h4, h5, f', List.mem_cons_of_mem _ h6, h7⟩

/-- An invalid index makes consuming fail. -/
theorem consumeLoop_fail (state : Int) : ∀ (fs : List Int) (m : Mdp K) (c : Nat → Nat) (f : Int),
    f ∈ fs → pyIdx m.features.d0 f = none → (consumeLoop state fs m c).2 = .error .indexError := by
  intro fs
  induction fs with
  | nil => intro m c f hf; simp at hf
  | cons f0 fs ih =>
    intro m c f hf hn
    unfold consumeLoop
    cases hr : pyIdx m.features.d0 f0 with
    | none => simp
    | some r0 =>
      have hf' : f ∈ fs := by
        rcases List.mem_cons.1 hf with rfl | h
        · rw [hr] at hn; cases hn
        · exact h
      cases hs : pyIdx m.features.d1 state with
      | none => simp
      | some j =>
        simp only
        split_ifs
        · exact ih _ _ f hf' hn
        · exact ih _ _ f hf' hn

theorem setWalls_feat {kind : GridKind} {W H : Nat} {selfT : Bool} {m : Mdp K}
    (h : GridOk kind W H selfT m) (w : Arr1 K) :
    (m.setWalls w).1.features = m.features ∧ (m.setWalls w).1.originalFeatures = m.originalFeatures ∧
    (m.setWalls w).1.nAgents = m.nAgents ∧ (m.setWalls w).1.nNonAgent = m.nNonAgent ∧
    (m.setWalls w).1.nStates = m.nStates ∧ (m.setWalls w).1.nActions = m.nActions := by
  by_cases hw : w.d0 ≠ W * H ∨ ∃ i, i < w.d0 ∧ ¬ (w.get i = 0 ∨ w.get i = 1)
  · rw [(setWalls_reject h.shape w hw).1]; simp
  · push Not at hw
    obtain ⟨m', h1, h2, h3, h4, h5, h6, h7, _⟩ := setWalls_grid h.pos h.shape h.orig h.featStates
      h.origFeatStates h.origFeat w hw.1 (fun i hi => hw.2 i (hw.1 ▸ hi))
    rw [h1]
    exact ⟨h4, h5, h6, h7, by rw [h2.nStates, h.nStates], by rw [h2.nActions, h.nActions]⟩

theorem addWallXY_feat {kind : GridKind} {W H : Nat} {selfT : Bool} {m : Mdp K}
    (h : GridOk kind W H selfT m) (x y : List Int) :
    (m.addWallXY x y).1.features = m.features ∧
    (m.addWallXY x y).1.originalFeatures = m.originalFeatures ∧
    (m.addWallXY x y).1.nAgents = m.nAgents ∧ (m.addWallXY x y).1.nNonAgent = m.nNonAgent ∧
    (m.addWallXY x y).1.nStates = m.nStates ∧ (m.addWallXY x y).1.nActions = m.nActions := by
  unfold addWallXY
  simp only [h.shape]
  split
  · simp
  · exact setWalls_feat h _

theorem resetWalls_feat {kind : GridKind} {W H : Nat} {selfT : Bool} {m : Mdp K}
    (h : GridOk kind W H selfT m) :
    m.resetWalls.1.features = m.features ∧
    m.resetWalls.1.originalFeatures = m.originalFeatures ∧
    m.resetWalls.1.nAgents = m.nAgents ∧ m.resetWalls.1.nNonAgent = m.nNonAgent ∧
    m.resetWalls.1.nStates = m.nStates ∧ m.resetWalls.1.nActions = m.nActions := by
  unfold resetWalls
  obtain ⟨m', h1, h2, h3, h4, h5, h6, h7, _⟩ := setWalls_grid
    (m := { m with walls := { m.walls with get := fun i => m.walls.get i * 0 } }) h.pos h.shape h.orig
    h.featStates h.origFeatStates h.origFeat { m.walls with get := fun i => m.walls.get i * 0 }
    h.wallsLen (fun i _ => by simp)
  simp only [h1]
  exact ⟨h4, h5, h6, h7, by rw [h2.nStates, h.nStates], by rw [h2.nActions, h.nActions]⟩

end Mdp

namespace Agent

/-- Two states of the same agent that differ at most in policy, algorithm results and history. -/
structure SameBody (a b : Agent K δ) : Prop where
  name : b.name = a.name
  nMoves : b.nMoves = a.nMoves
  reward : b.reward = a.reward
  consumes : b.consumes = a.consumes
  consumed : b.consumed = a.consumed
  selector : b.selector = a.selector
  idx : b.idx = a.idx
  featIdx : b.featIdx = a.featIdx
  start : b.start = a.start
  position : b.position = a.position

theorem SameBody.refl (a : Agent K δ) : SameBody a a := ⟨rfl, rfl, rfl, rfl, rfl, rfl, rfl, rfl, rfl, rfl⟩

/-- What recomputing the policy leaves alone. -/
theorem getPolicy_same (a : Agent K δ) (d : Nat → δ) :
    SameBody a (a.getPolicy d).1 ∧ (a.getPolicy d).1.history = a.history ∧
      (a.getPolicy d).1.alg = a.alg := by
  unfold getPolicy
  split
  · exact ⟨.refl a, rfl, rfl⟩
  · split
    · exact ⟨.refl a, rfl, rfl⟩
    · split <;> exact ⟨⟨rfl, rfl, rfl, rfl, rfl, rfl, rfl, rfl, rfl, rfl⟩, rfl, rfl⟩

theorem getPolicy_ok (a a' : Agent K δ) (d : Nat → δ) (h : a.getPolicy d = (a', .ok ())) :
    ∃ q P p, a.alg.qValues = some q ∧ a.selector.piP q = .ok P ∧ a.selector.pi q d = .ok p ∧
      a' = { a with piP := some P, pi := some p } := by
  unfold getPolicy at h
  cases hq : a.alg.qValues with
  | none => simp [hq] at h
  | some q =>
    simp only [hq] at h
    cases hP : a.selector.piP q with
    | error e => simp [hP] at h
    | ok P =>
      simp only [hP] at h
      cases hp : a.selector.pi q d with
      | error e => simp [hp] at h
      | ok p =>
        simp only [hp] at h
        have := (Prod.mk.inj h).1
        exact ⟨q, P, p, rfl, hP, hp, this.symm⟩

theorem fit_same (a : Agent K δ) (m : Mdp K) (o : FitOut K) (d : Nat → δ) :
    SameBody a (a.fit m o d).1 ∧ (a.fit m o d).1.history = a.history := by
  unfold fit
  split
  · exact ⟨⟨rfl, rfl, rfl, rfl, rfl, rfl, rfl, rfl, rfl, rfl⟩, rfl⟩
  · rename_i st h
    have h := getPolicy_same { a with alg := st } d
    obtain ⟨h1, h2, -⟩ := h
    exact ⟨⟨h1.1, h1.2, h1.3, h1.4, h1.5, h1.6, h1.7, h1.8, h1.9, h1.10⟩, h2⟩

theorem stepProba_same (a : Agent K δ) (m : Mdp K) (p : Option (Arr1 K)) (d : Nat → δ) :
    SameBody a (a.stepProba m p d).1 ∧ (a.stepProba m p d).1.history = a.history ∧
      (a.stepProba m p d).1.alg = a.alg := by
  have hp := getPolicy_same a d
  unfold stepProba
  split
  · exact ⟨.refl a, rfl, rfl⟩
  · split_ifs
    · exact ⟨.refl a, rfl, rfl⟩
    · exact ⟨.refl a, rfl, rfl⟩
    · split
      · rename_i heq; rw [heq] at hp; exact hp
      · rename_i heq; rw [heq] at hp
        split
        · exact hp
        · simp only; split <;> exact hp

/-- An agent whose feature row exists and whose position is a state. -/
structure Seated (a : Agent K δ) (m : Mdp K) (j : Nat) : Prop where
  le : m.nAgents ≤ m.features.d0
  idx : a.idx < m.nAgents
  d1 : m.features.d1 = m.nStates
  pos : pyIdx m.nStates a.position = some j

theorem setPosition_ok {a : Agent K δ} {m : Mdp K} {p : Int} {j : Nat} (h1 : m.nAgents ≤ m.features.d0)
    (h2 : a.idx < m.nAgents) (h3 : m.features.d1 = m.nStates) (hp : pyIdx m.nStates p = some j) :
    a.setPosition m p = (m.setRow (m.agentRow a.idx) j, { a with position := p }, .ok ()) := by
  unfold setPosition
  have : ¬ (m.nStates : Int) ≤ p := by
    intro h
    rw [pyIdx_eq_none.2 (.inl h)] at hp; cases hp
  rw [if_neg this, Mdp.update_ok h1 h2 (by rw [h3]; exact hp)]

/-- Assignment of an invalid position. -/
theorem setPosition_fail {a : Agent K δ} {m : Mdp K} {p : Int} (h1 : m.nAgents ≤ m.features.d0)
    (h2 : a.idx < m.nAgents) (h3 : m.features.d1 = m.nStates) (hp : pyIdx m.nStates p = none) :
    a.setPosition m p = (if (m.nStates : Int) ≤ p then m else
      m.withFeat (fun f s => if f = m.agentRow a.idx then 0 else m.features.get f s), a,
      .error .indexError) := by
  unfold setPosition
  split_ifs with h
  · rfl
  · rw [Mdp.update_fail h1 h2 (by rw [h3]; exact hp)]

/-- A step either fails leaving MDP and position alone, or moves to the next state. -/
theorem step_cases {a : Agent K δ} {m : Mdp K} {j : Nat} (hs : a.Seated m j) (hpos : 0 < m.nStates)
    (d : Nat → δ) :
    (∃ a' err, a.step m d = (m, a', .error err) ∧ SameBody a a' ∧ a'.history = a.history ∧
      a'.alg = a.alg) ∨
    (∃ q P p s t, a.alg.fitComplete = true ∧ a.alg.qValues = some q ∧ a.selector.piP q = .ok P ∧
      a.selector.pi q d = .ok p ∧ pyIdx p.d0 a.position = some s ∧ 0 ≤ p.get s ∧
      m.getNextState a.position (p.get s) = .ok t ∧ t < m.nStates ∧
      a.step m d = (m.setRow (m.agentRow a.idx) t,
        { a with piP := some P, pi := some p, position := t, history := a.history ++ [(t : Int)] },
        .ok ())) := by
  have hsame := getPolicy_same a d
  unfold step
  split_ifs with hf
  · exact .inl ⟨a, _, rfl, .refl a, rfl, rfl⟩
  · cases hg : a.getPolicy d with
    | mk a1 r =>
      rw [hg] at hsame
      cases r with
      | error err => exact .inl ⟨a1, err, rfl, hsame⟩
      | ok u =>
        obtain ⟨q, P, p, hq, hP, hp, rfl⟩ := getPolicy_ok a a1 d hg
        simp only
        cases hi : pyIdx p.d0 a.position with
        | none => exact .inl ⟨_, _, rfl, hsame⟩
        | some s =>
          simp only
          split_ifs with hneg
          · exact .inl ⟨_, _, rfl, hsame⟩
          · cases hn : m.getNextState a.position (p.get s) with
            | error err => exact .inl ⟨_, _, rfl, hsame⟩
            | ok t =>
              have ht : t < m.nStates := by
                unfold Mdp.getNextState at hn
                split at hn
                · cases hn
                · split at hn
                  · split at hn
                    · cases hn; exact npArgmax_lt _ hpos
                    · cases hn
                  · cases hn
              right
              refine ⟨q, P, p, s, t, by simpa using hf, hq, hP, hp, hi, by omega, hn, ht, ?_⟩
              have ht' : pyIdx m.nStates (t : Int) = some t := by simp [ht]
              simp only
              rw [setPosition_ok (a := { a with piP := some P, pi := some p }) hs.le hs.idx hs.d1 ht']
              simp only
              rw [Mdp.update_ok (m := m.setRow (m.agentRow a.idx) t) (j := t) hs.le hs.idx
                (by have := hs.d1; simp only [Mdp.setRow, Mdp.withFeat]; rw [this]; exact ht')]
              simp only
              have : (m.setRow (m.agentRow a.idx) t).agentRow a.idx = m.agentRow a.idx := rfl
              rw [this, Mdp.setRow_setRow]

/-- Consuming with valid indices. -/
theorem consume_ok {a : Agent K δ} {m : Mdp K} {j : Nat} (hs : a.Seated m j)
    (hc : ∀ f ∈ a.consumes, ∃ r, pyIdx m.features.d0 f = some r) :
    ∃ (g : Nat → Nat → K) (c : Nat → Nat), a.consume m = (m.withFeat g, { a with consumed := fun f => a.consumed f + c f }, .ok ()) ∧
      (∀ r s, g r s = if s = j ∧ (∃ f ∈ a.consumes, pyIdx m.features.d0 f = some r) ∧
        0 < m.features.get r s then 0 else m.features.get r s) ∧
      (∀ r, c r = if (∃ f ∈ a.consumes, pyIdx m.features.d0 f = some r) ∧ 0 < m.features.get r j
        then 1 else 0) := by
  unfold consume
  split_ifs with he
  · refine ⟨m.features.get, fun _ => 0, rfl, ?_, ?_⟩
    · intro r s; simp [he]
    · intro r; simp [he]
  · obtain ⟨g, c, h1, h2, h3⟩ := Mdp.consumeLoop_ok a.position j a.consumes m (fun _ => 0)
      (by rw [hs.d1]; exact hs.pos) hc
    unfold Mdp.consumeFeatures
    rw [h1]
    exact ⟨g, c, rfl, h2, fun r => by rw [h3 r, Nat.zero_add]⟩

theorem consume_fail {a : Agent K δ} {m : Mdp K} {j : Nat} (hs : a.Seated m j)
    (hc : ¬ ∀ f ∈ a.consumes, ∃ r, pyIdx m.features.d0 f = some r) :
    ∃ g, a.consume m = (m.withFeat g, a, .error .indexError) ∧
      ∀ r s, g r s = m.features.get r s ∨ (g r s = 0 ∧ s = j ∧ 0 < m.features.get r s ∧
        ∃ f ∈ a.consumes, pyIdx m.features.d0 f = some r) := by
  push Not at hc
  obtain ⟨f, hf, hn⟩ := hc
  have hn : pyIdx m.features.d0 f = none := by
    cases h : pyIdx m.features.d0 f with
    | none => rfl
    | some r => exact absurd h (hn r)
  obtain ⟨g, h1, h2⟩ := Mdp.consumeLoop_any a.position j a.consumes m (fun _ => 0)
    (by rw [hs.d1]; exact hs.pos)
  have h3 := Mdp.consumeLoop_fail a.position a.consumes m (fun _ => 0) f hf hn
  unfold consume
  rw [if_neg (by rintro h; simp [h] at hf)]
  refine ⟨g, ?_, h2⟩
  unfold Mdp.consumeFeatures
  have : Mdp.consumeLoop a.position a.consumes m (fun _ => 0) = (m.withFeat g, .error .indexError) :=
    Prod.ext h1 h3
  rw [this]

end Agent

namespace Env

/-- Row `r` of the feature table `f` belongs to an agent at state `j`: zero elsewhere, 0 or 1 there. -/
def RowAt (f : Nat → Nat → K) (n r j : Nat) : Prop :=
  (∀ s, s < n → s ≠ j → f r s = 0) ∧ (f r j = 0 ∨ f r j = 1)

/-- What holds of an environment after any history. -/
structure Ok (kind : GridKind) (W H : Nat) (selfT : Bool) (e : Env K δ) : Prop where
  reach : Mdp.GridReach kind W H selfT e.mdp
  nodup : (e.agents.map (·.name)).Nodup
  names : ∀ n, n ∈ e.agentNames ↔ n ∈ e.agents.map (·.name)
  idxs : (e.agents.map (·.idx)).Nodup
  le : e.mdp.nAgents ≤ e.mdp.features.d0
  idx : ∀ a ∈ e.agents, a.idx < e.mdp.nAgents
  pos : ∀ a ∈ e.agents, ∃ j, pyIdx e.mdp.nStates a.position = some j ∧
    RowAt e.mdp.features.get e.mdp.nStates (e.mdp.agentRow a.idx) j
  start : ∀ a ∈ e.agents, ∃ j, pyIdx e.mdp.nStates a.start = some j ∧
    ∀ s, e.mdp.originalFeatures.get (e.mdp.agentRow a.idx) s = if s = j then 1 else 0

variable {kind : GridKind} {W H : Nat} {selfT : Bool} {e : Env K δ}

theorem agent?_mem {n : String} {a : Agent K δ} (h : e.agent? n = some a) : a ∈ e.agents ∧ a.name = n := by
  unfold agent? at h
  refine ⟨List.mem_of_find?_eq_some h, by simpa using List.find?_some h⟩

theorem eq_of_name (h : (e.agents.map (·.name)).Nodup) {a b : Agent K δ} (ha : a ∈ e.agents)
    (hb : b ∈ e.agents) (hn : a.name = b.name) : a = b :=
  List.inj_on_of_nodup_map h ha hb hn

theorem agent?_eq (h : (e.agents.map (·.name)).Nodup) {n : String} {a : Agent K δ} :
    e.agent? n = some a ↔ a ∈ e.agents ∧ a.name = n := by
  refine ⟨agent?_mem, fun ⟨h1, h2⟩ => ?_⟩
  cases hf : e.agent? n with
  | none =>
    unfold agent? at hf
    rw [List.find?_eq_none] at hf
    exact absurd (by simpa using h2) (hf a h1)
  | some b =>
    obtain ⟨h3, h4⟩ := agent?_mem hf
    rw [eq_of_name h h3 h1 (h4.trans h2.symm)]

theorem lookup_ok (h : Ok kind W H selfT e) {n : String} {a : Agent K δ} :
    e.lookup n = .ok a ↔ a ∈ e.agents ∧ a.name = n := by
  unfold lookup
  by_cases hn : n ∉ e.agentNames
  · rw [if_pos hn]
    constructor
    · intro h; cases h
    · rintro ⟨h1, rfl⟩
      exact absurd ((h.names _).2 (List.mem_map_of_mem h1)) hn
  · rw [if_neg hn, ← agent?_eq h.nodup]
    cases e.agent? n <;> simp

theorem lookup_error (h : Ok kind W H selfT e) {n : String} {err : PyErr} (he : e.lookup n = .error err) :
    n ∉ e.agentNames ∧ err = .valueError := by
  unfold lookup at he
  by_cases hn : n ∉ e.agentNames
  · rw [if_pos hn] at he
    exact ⟨hn, by cases he; rfl⟩
  · exfalso
    rw [if_neg hn] at he
    push Not at hn
    obtain ⟨a, h1, h2⟩ := List.mem_map.1 ((h.names n).1 hn)
    rw [(agent?_eq h.nodup).2 ⟨h1, h2⟩] at he
    cases he

theorem mem_put {m : Mdp K} {a b : Agent K δ} (ha : a.name ∈ e.agents.map (·.name)) :
    b ∈ (e.put m a).agents ↔ b = a ∨ (b ∈ e.agents ∧ b.name ≠ a.name) := by
  unfold put
  simp only [List.mem_map] at ha ⊢
  constructor
  · rintro ⟨c, hc, rfl⟩
    split_ifs with h1
    · exact .inl rfl
    · exact .inr ⟨hc, h1⟩
  · rintro (rfl | ⟨h1, h2⟩)
    · obtain ⟨c, hc, hn⟩ := ha
      exact ⟨c, hc, by simp [hn]⟩
    · exact ⟨b, h1, by simp [h2]⟩

theorem names_put (m : Mdp K) (a : Agent K δ) : (e.put m a).agents.map (·.name) = e.agents.map (·.name) := by
  unfold put
  simp only [List.map_map]
  apply List.map_congr_left
  intro b _
  simp only [Function.comp]
  split_ifs with h
  · exact h.symm
  · rfl

theorem put_self (h : (e.agents.map (·.name)).Nodup) {a : Agent K δ} (ha : a ∈ e.agents) :
    e.put e.mdp a = e := by
  unfold put
  have : (e.agents.map fun b => if b.name = a.name then a else b) = e.agents := by
    conv_rhs => rw [← List.map_id e.agents]
    apply List.map_congr_left
    intro b hb
    split_ifs with hn
    · exact (eq_of_name h hb ha hn).symm
    · rfl
  rw [this]

theorem put_put (m m' : Mdp K) (a a' : Agent K δ) (h : a'.name = a.name) :
    (e.put m a).put m' a' = e.put m' a' := by
  unfold put
  congr 1
  simp only [List.map_map]
  apply List.map_congr_left
  intro b _
  simp only [Function.comp]
  by_cases hb : b.name = a.name <;> simp [hb, h]

theorem agent?_put_other (m : Mdp K) (a : Agent K δ) {n : String} (hn : n ≠ a.name) :
    (e.put m a).agent? n = e.agent? n := by
  unfold agent? put
  simp only
  induction e.agents with
  | nil => rfl
  | cons b l ih =>
    rw [List.map_cons, List.find?_cons, List.find?_cons, ih]
    by_cases hb : b.name = a.name
    · have h1 : ¬ b.name = n := fun h => hn (h.symm.trans hb)
      simp [hb, Ne.symm hn]
    · simp [hb]

/-- Replacing an agent by a state of itself, and features accordingly, keeps the invariant. -/
theorem Ok.put (h : Ok kind W H selfT e) {a a' : Agent K δ} (ha : a ∈ e.agents) (hn : a'.name = a.name)
    (hi : a'.idx = a.idx) (hs : a'.start = a.start) (g : Nat → Nat → K)
    (hr : Mdp.GridReach kind W H selfT (e.mdp.withFeat g)) (j : Nat)
    (hp : pyIdx e.mdp.nStates a'.position = some j)
    (hrow : RowAt g e.mdp.nStates (e.mdp.agentRow a.idx) j)
    (hother : ∀ b ∈ e.agents, b.idx ≠ a.idx → ∀ j, pyIdx e.mdp.nStates b.position = some j →
      RowAt g e.mdp.nStates (e.mdp.agentRow b.idx) j) (k : Nat) :
    Ok kind W H selfT { e.put (e.mdp.withFeat g) a' with nSteps := k } := by
  have hmem : ∀ b, b ∈ (e.put (e.mdp.withFeat g) a').agents ↔ b = a' ∨ (b ∈ e.agents ∧ b.name ≠ a.name) := by
    intro b
    rw [mem_put (by rw [hn]; exact List.mem_map_of_mem ha), hn]
  have hidx : (e.put (e.mdp.withFeat g) a').agents.map (·.idx) = e.agents.map (·.idx) := by
    unfold Env.put
    simp only [List.map_map]
    apply List.map_congr_left
    intro b hb
    simp only [Function.comp]
    split_ifs with hbn
    · rw [eq_of_name h.nodup hb ha (hbn.trans hn), hi]
    · rfl
  have hne : ∀ b ∈ e.agents, b.name ≠ a.name → b.idx ≠ a.idx := by
    intro b hb hbn hbi
    exact hbn (by rw [List.inj_on_of_nodup_map h.idxs hb ha hbi])
  constructor
  · exact hr
  · simp only [names_put]; exact h.nodup
  · intro n; simp only [names_put]; exact h.names n
  · rw [hidx]; exact h.idxs
  · exact h.le
  · intro b hb
    rcases (hmem b).1 hb with rfl | ⟨hb, -⟩
    · rw [hi]; exact h.idx a ha
    · exact h.idx b hb
  · intro b hb
    rcases (hmem b).1 hb with rfl | ⟨hb, hbn⟩
    · exact ⟨j, hp, by rw [hi]; exact hrow⟩
    · obtain ⟨jb, h1, h2⟩ := h.pos b hb
      exact ⟨jb, h1, hother b hb (hne b hb hbn) jb h1⟩
  · intro b hb
    rcases (hmem b).1 hb with rfl | ⟨hb, -⟩
    · rw [hs, hi]; exact h.start a ha
    · exact h.start b hb

theorem Ok.agentSeated (h : Ok kind W H selfT e) {a : Agent K δ} (ha : a ∈ e.agents) :
    ∃ j, a.Seated e.mdp j ∧ RowAt e.mdp.features.get e.mdp.nStates (e.mdp.agentRow a.idx) j := by
  obtain ⟨j, h1, h2⟩ := h.pos a ha
  exact ⟨j, ⟨h.le, h.idx a ha, by rw [h.reach.ok.featStates, h.reach.ok.nStates], h1⟩, h2⟩

theorem Ok.nStates_pos (h : Ok kind W H selfT e) : 0 < e.mdp.nStates := by
  rw [h.reach.ok.nStates]; exact h.reach.ok.pos

theorem Ok.setNSteps (h : Ok kind W H selfT e) (k : Nat) : Ok kind W H selfT { e with nSteps := k } :=
  ⟨h.reach, h.nodup, h.names, h.idxs, h.le, h.idx, h.pos, h.start⟩

/-- A change of policy, algorithm results and history only. -/
theorem Ok.same (h : Ok kind W H selfT e) {a a' : Agent K δ} (ha : a ∈ e.agents)
    (hs : Agent.SameBody a a') : Ok kind W H selfT (e.put e.mdp a') := by
  obtain ⟨j, h1, h2⟩ := h.pos a ha
  exact h.put ha hs.name hs.idx hs.start e.mdp.features.get h.reach j
    (by rw [hs.position]; exact h1) h2
    (fun b hb _ jb hjb => by
      obtain ⟨jb', h3, h4⟩ := h.pos b hb
      rw [h3] at hjb; cases hjb; exact h4) e.nSteps

theorem agentRow_inj {m : Mdp K} {i k : Nat} (h : m.agentRow i = m.agentRow k) : i = k := by
  unfold Mdp.agentRow at h; omega

theorem reach_update (h : Mdp.GridReach kind W H selfT e.mdp) {i : Nat} {p : Int} {j : Nat}
    (h1 : e.mdp.nAgents ≤ e.mdp.features.d0) (h2 : i < e.mdp.nAgents)
    (hp : pyIdx e.mdp.features.d1 p = some j) :
    Mdp.GridReach kind W H selfT (e.mdp.setRow (e.mdp.agentRow i) j) := by
  have := Mdp.GridReach.step (.updateAgentFeature i p) h (by simp)
  simp only [Mdp.apply, Mdp.update_ok h1 h2 hp] at this
  exact this

/-- Moving an agent. -/
theorem Ok.move (h : Ok kind W H selfT e) {a a' : Agent K δ} (ha : a ∈ e.agents) (hn : a'.name = a.name)
    (hi : a'.idx = a.idx) (hs : a'.start = a.start) {p : Int} {j : Nat}
    (hp : pyIdx e.mdp.nStates p = some j) (hpos : a'.position = p) (k : Nat) :
    Ok kind W H selfT { e.put (e.mdp.setRow (e.mdp.agentRow a.idx) j) a' with nSteps := k } := by
  refine h.put ha hn hi hs _ (reach_update h.reach h.le (h.idx a ha)
    (by rw [h.reach.ok.featStates, ← h.reach.ok.nStates]; exact hp)) j (by rw [hpos]; exact hp) ?_ ?_ k
  · constructor
    · intro s _ hsj; simp [hsj]
    · simp
  · intro b hb hbi jb hjb
    obtain ⟨jb', h3, h4⟩ := h.pos b hb
    rw [h3] at hjb; cases hjb
    have : e.mdp.agentRow b.idx ≠ e.mdp.agentRow a.idx := fun h => hbi (agentRow_inj h)
    unfold RowAt
    simp only [if_neg this]
    exact h4

/-- Turning entries into 0. -/
theorem RowAt.zero {f g : Nat → Nat → K} {n r j : Nat} (h : RowAt f n r j)
    (hg : ∀ s, g r s = f r s ∨ g r s = 0) : RowAt g n r j := by
  refine ⟨fun s hs hne => ?_, ?_⟩
  · rcases hg s with h' | h'
    · rw [h']; exact h.1 s hs hne
    · exact h'
  · rcases hg j with h' | h'
    · rw [h']; exact h.2
    · exact .inl h'

theorem Ok.zero (h : Ok kind W H selfT e) {a a' : Agent K δ} (ha : a ∈ e.agents) (hn : a'.name = a.name)
    (hi : a'.idx = a.idx) (hs : a'.start = a.start) (hp : a'.position = a.position) (g : Nat → Nat → K)
    (hr : Mdp.GridReach kind W H selfT (e.mdp.withFeat g))
    (hg : ∀ r s, g r s = e.mdp.features.get r s ∨ g r s = 0) (k : Nat) :
    Ok kind W H selfT { e.put (e.mdp.withFeat g) a' with nSteps := k } := by
  obtain ⟨j, h1, h2⟩ := h.pos a ha
  refine h.put ha hn hi hs g hr j (by rw [hp]; exact h1) (h2.zero (hg _)) ?_ k
  intro b hb _ jb hjb
  obtain ⟨jb', h3, h4⟩ := h.pos b hb
  rw [h3] at hjb; cases hjb
  exact h4.zero (hg _)

end Env

end MaMDP
