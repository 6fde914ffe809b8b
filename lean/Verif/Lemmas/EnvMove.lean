import Verif.Lemmas.EnvSteps
import Verif.Props.EnvironmentSteps
import Verif.Props.Mdp

/-! Steps that are known to go through, and fits with the `Null` planner. -/

set_option linter.unusedSectionVars false

namespace MaMDP

variable {K : Type} [Field K] [LinearOrder K] [IsStrictOrderedRing K] {δ : Type}
variable {kind : GridKind} {W H : Nat} {selfT : Bool} {e : Env K δ}

theorem Agent.consume_keeps (b : Agent K δ) (m : Mdp K) : (b.consume m).2.1.history = b.history ∧
    (b.consume m).2.1.name = b.name ∧ (b.consume m).2.1.position = b.position ∧
    (b.consume m).2.1.alg = b.alg ∧ (b.consume m).2.1.selector = b.selector ∧
    ((b.consume m).2.2 = .ok () ∨ b.consumes ≠ []) := by
  unfold Agent.consume
  split_ifs with h
  · exact ⟨rfl, rfl, rfl, rfl, rfl, .inl rfl⟩
  · split <;> exact ⟨rfl, rfl, rfl, rfl, rfl, .inr h⟩

/-- Whatever the consumed features do, the agent has moved. -/
theorem Env.step_moves (hok : Env.Ok kind W H selfT e) {a : Agent K δ} (ha : a ∈ e.agents)
    (hfit : a.alg.fitComplete = true) {q : Arr2 (Ext K)} (hq : a.alg.qValues = some q)
    {P : Arr2 (Ext K)} {d : Nat → δ} {p : Arr1 Int} (hP : a.selector.piP q = .ok P)
    (hp : a.selector.pi q d = .ok p) {j : Nat} (hj : pyIdx p.d0 a.position = some j) (h0 : 0 ≤ p.get j)
    {t : Nat} (hnext : e.mdp.getNextState a.position (p.get j) = .ok t) :
    (∃ a' ∈ (e.step a.name d).1.agents, a'.name = a.name ∧ a'.position = t ∧
      a'.history = a.history ++ [(t : Int)] ∧ a'.alg = a.alg ∧ a'.selector = a.selector) ∧
    (a.consumes = [] → (e.step a.name d).2 = .ok (t : Int)) := by
  obtain ⟨i, hseat, -⟩ := hok.agentSeated ha
  have hgp : a.getPolicy d = ({ a with piP := some P, pi := some p }, .ok ()) := by
    unfold Agent.getPolicy
    rw [hq]
    simp only
    rw [hP]
    simp only
    rw [hp]
  rcases Agent.step_cases hseat hok.nStates_pos d with ⟨a', err, e1, -⟩ | ⟨q', P', p', s', t', f1, f2, f3, f4, f5, f6, f7, f8, e1⟩
  · exfalso
    have ht : t < e.mdp.nStates := by
      unfold Mdp.getNextState at hnext
      rw [if_neg (by omega)] at hnext
      split at hnext
      · rename_i s' x' g1 g2
        split_ifs at hnext
        cases hnext
        exact npArgmax_lt _ (by have := hok.nStates_pos; omega)
      all_goals cases hnext
    have ht' : pyIdx e.mdp.nStates (t : Int) = some t := by simp [ht]
    unfold Agent.step at e1
    rw [if_neg (by simp [hfit]), hgp] at e1
    simp only [hj] at e1
    rw [if_neg (by omega), hnext] at e1
    simp only at e1
    rw [Agent.setPosition_ok (a := { a with piP := some P, pi := some p }) hseat.le hseat.idx hseat.d1 ht'] at e1
    simp only at e1
    rw [Mdp.update_ok (m := e.mdp.setRow (e.mdp.agentRow a.idx) t) (j := t) hseat.le hseat.idx
      (by have := hseat.d1; simp only [Mdp.setRow, Mdp.withFeat]; rw [this]; exact ht')] at e1
    simp at e1
  · rw [hq] at f2; cases f2
    rw [hp] at f4; cases f4
    rw [hj] at f5; cases f5
    rw [hnext] at f7; cases f7
    unfold Env.step
    rw [(Env.lookup_ok hok).2 ⟨ha, rfl⟩]
    simp only [e1]
    set b : Agent K δ :=
      { a with piP := some P', pi := some p, position := t, history := a.history ++ [(t : Int)] } with hb
    have hk := Agent.consume_keeps b (e.mdp.setRow (e.mdp.agentRow a.idx) t)
    rcases hc : b.consume (e.mdp.setRow (e.mdp.agentRow a.idx) t) with ⟨m3, b', r⟩
    rw [hc] at hk
    obtain ⟨k1, k2, k3, k4, k5, k6⟩ := hk
    have hmem : b'.name ∈ e.agents.map (·.name) := by
      simp only at k2
      rw [k2]; exact List.mem_map_of_mem (f := (·.name)) ha
    cases r with
    | ok u => exact ⟨⟨b', (Env.mem_put (m := m3) hmem).2 (.inl rfl), k2, k3, k1, k4, k5⟩, fun _ => by
        simp only at k3 ⊢; rw [k3]⟩
    | error err =>
      refine ⟨⟨b', (Env.mem_put (m := m3) hmem).2 (.inl rfl), k2, k3, k1, k4, k5⟩, fun hn => ?_⟩
      rcases k6 with k6 | k6
      · cases k6
      · exact absurd hn k6

/-- Fitting with a planner that returns tables of the right shape stores them, the agent otherwise as it was. -/
theorem Env.fit_table {e : Env K Nat} (hok : Env.Ok kind W H selfT e) {a : Agent K Nat} (ha : a ∈ e.agents)
    (hrd : a.reward.d0 = e.mdp.nFeatures) (hsel : a.selector = maxSelector) {out : FitOut K} {v : Nat → Ext K}
    {g : Nat → Nat → Ext K}
    (hout : out a.reward = .ok (.of1 ⟨e.mdp.nStates, v⟩, .of2 ⟨e.mdp.nStates, e.mdp.nActions, g⟩))
    (hne : ∃ s, s < e.mdp.nStates ∧ ¬ Spec.NoEstimate ⟨e.mdp.nStates, e.mdp.nActions, g⟩ s) (d : Nat → Nat) :
    (e.fit a.name out d).2 = .ok () ∧
    Env.Ok kind W H selfT (e.fit a.name out d).1 ∧
    (e.fit a.name out d).1.mdp = e.mdp ∧
    ∃ a1 ∈ (e.fit a.name out d).1.agents, a1.name = a.name ∧
      a1.alg.fitComplete = true ∧ a1.alg.qValues = some ⟨e.mdp.nStates, e.mdp.nActions, g⟩ ∧
      a1.position = a.position ∧
      a1.history = a.history ∧ a1.selector = maxSelector ∧ a1.consumes = a.consumes := by
  rcases Env.fit_cases hok a.name out d with ⟨h2, -⟩ | ⟨b, hb, hbn, h3⟩
  · exact absurd ((hok.names a.name).2 (List.mem_map_of_mem ha)) h2
  · have := Env.eq_of_name hok.nodup hb ha hbn
    subst this
    have halg : algFit out e.mdp.nFeatures e.mdp.nStates e.mdp.nActions
        (.of1 b.reward) b.alg =
          (⟨true, some ⟨e.mdp.nStates, v⟩, some ⟨e.mdp.nStates, e.mdp.nActions, g⟩⟩, .ok ()) := by
      unfold algFit
      have hw : checkReward e.mdp.nFeatures (.of1 b.reward) = .ok b.reward := by
        simp only [checkReward, PyArr.of1]
        rw [if_pos hrd]
        rfl
      rw [hw]
      simp only [hout, PyArr.of1, PyArr.of2, checkOutput, ne_eq, not_true_eq_false, if_false]
      rfl
    obtain ⟨P, hP, -⟩ := (C23_max_pi_p (⟨e.mdp.nStates, e.mdp.nActions, g⟩ : Arr2 (Ext K))).2 hne
    obtain ⟨p, hp, -⟩ := C24_max_pi (⟨e.mdp.nStates, e.mdp.nActions, g⟩ : Arr2 (Ext K)) d hne
    have hfit : b.fit e.mdp out d =
        ({ b with alg := ⟨true, some ⟨e.mdp.nStates, v⟩, some ⟨e.mdp.nStates, e.mdp.nActions, g⟩⟩,
                  piP := some P, pi := some p }, .ok ()) := by
      unfold Agent.fit
      rw [halg]
      simp only [Agent.getPolicy, hsel, hP, hp]
    have hsame := Agent.fit_same b e.mdp out d
    rw [h3]
    refine ⟨by rw [hfit], hok.same hb hsame.1, rfl, _, (Env.mem_put (by
      rw [hfit]; exact List.mem_map_of_mem (f := (·.name)) hb)).2 (.inl rfl), ?_⟩
    rw [hfit]
    exact ⟨rfl, rfl, rfl, rfl, rfl, hsel, rfl⟩

/-- All ones. -/
def onesFor (m : Mdp K) : Arr2 (Ext K) := ⟨m.nStates, m.nActions, fun _ _ => .fin 1⟩

/-- Fitting with `Null` stores ones, the agent otherwise as it was. -/
theorem Env.fit_null {e : Env K Nat} (hok : Env.Ok kind W H selfT e) {a : Agent K Nat} (ha : a ∈ e.agents)
    (hrd : a.reward.d0 = e.mdp.nFeatures) (hsel : a.selector = maxSelector) (d : Nat → Nat) :
    (e.fit a.name (nullFit e.mdp.nStates e.mdp.nActions) d).2 = .ok () ∧
    Env.Ok kind W H selfT (e.fit a.name (nullFit e.mdp.nStates e.mdp.nActions) d).1 ∧
    (e.fit a.name (nullFit e.mdp.nStates e.mdp.nActions) d).1.mdp = e.mdp ∧
    ∃ a1 ∈ (e.fit a.name (nullFit e.mdp.nStates e.mdp.nActions) d).1.agents, a1.name = a.name ∧
      a1.alg.fitComplete = true ∧ a1.alg.qValues = some (onesFor e.mdp) ∧ a1.position = a.position ∧
      a1.history = a.history ∧ a1.selector = maxSelector ∧ a1.consumes = a.consumes :=
  Env.fit_table hok ha hrd hsel (v := fun _ => .fin 1) (g := fun _ _ => .fin 1) rfl
    ⟨0, hok.nStates_pos, fun hn => by
      have := hn 0 (C27_grid kind W H selfT e.mdp hok.reach).2.2.1; simp at this⟩ d

/-- The action taken is a best one. -/
theorem Env.fit_step_among {e : Env K Nat} (hok : Env.Ok kind W H selfT e) {a : Agent K Nat} (ha : a ∈ e.agents)
    (hrd : a.reward.d0 = e.mdp.nFeatures) (hsel : a.selector = maxSelector) {out : FitOut K} {v : Nat → Ext K}
    {g : Nat → Nat → Ext K}
    (hout : out a.reward = .ok (.of1 ⟨e.mdp.nStates, v⟩, .of2 ⟨e.mdp.nStates, e.mdp.nActions, g⟩))
    {s : Nat} (hs : pyIdx e.mdp.nStates a.position = some s)
    (hest : Spec.HasEstimate ⟨e.mdp.nStates, e.mdp.nActions, g⟩ s) (d draws : Nat → Nat) :
    (e.fit a.name out d).2 = .ok () ∧
    ∃ x, Spec.IsBest ⟨e.mdp.nStates, e.mdp.nActions, g⟩ s x ∧ ∀ t : Nat, e.mdp.getNextState s x = .ok t →
    (∃ a' ∈ ((e.fit a.name out d).1.step a.name draws).1.agents, a'.name = a.name ∧ a'.position = t ∧
      a'.history = a.history ++ [(t : Int)]) ∧
    (a.consumes = [] → ((e.fit a.name out d).1.step a.name draws).2 = .ok (t : Int)) := by
  have hsn : s < e.mdp.nStates := pyIdx_lt hs
  have hne : ∃ s, s < e.mdp.nStates ∧ ¬ Spec.NoEstimate ⟨e.mdp.nStates, e.mdp.nActions, g⟩ s :=
    ⟨s, hsn, fun hn => by obtain ⟨⟨x, hx, hx'⟩, -⟩ := hest; exact hx' (hn x hx)⟩
  obtain ⟨h1, hok1, hm1, a1, ha1, hn1, hf1, hq1, hp1, hh1, hs1, hc1⟩ := Env.fit_table hok ha hrd hsel hout hne d
  obtain ⟨P, hP, -⟩ := (C23_max_pi_p (⟨e.mdp.nStates, e.mdp.nActions, g⟩ : Arr2 (Ext K))).2 hne
  obtain ⟨p, hp, hp0, hpall⟩ := C24_max_pi (⟨e.mdp.nStates, e.mdp.nActions, g⟩ : Arr2 (Ext K)) draws hne
  obtain ⟨x', hpx, hb, hbu⟩ := (hpall s hsn).2 hest
  refine ⟨h1, x', hb, fun t hnext => ?_⟩
  have hsame : e.mdp.getNextState a.position (x' : Int) = e.mdp.getNextState (s : Int) (x' : Int) := by
    unfold Mdp.getNextState
    rw [hs]
    simp only [pyIdx_nat, if_pos hsn]
  have hnext' : (e.fit a.name out d).1.mdp.getNextState a1.position (p.get s) = .ok t := by
    rw [hm1, hp1, hpx, hsame, hnext]
  have hmv := Env.step_moves hok1 ha1 hf1 hq1 (d := draws) (p := p) (P := P) (by rw [hs1]; exact hP)
    (by rw [hs1]; exact hp) (j := s) (by rw [hp0, hp1]; exact hs) (by rw [hpx]; omega) hnext'
  rw [hn1, hh1, hc1] at hmv
  obtain ⟨⟨a', ha', e1', e2', e3', -⟩, hres⟩ := hmv
  exact ⟨⟨a', ha', e1', e2', e3'⟩, hres⟩

/-- The one best action is the one taken. -/
theorem Env.fit_step_best {e : Env K Nat} (hok : Env.Ok kind W H selfT e) {a : Agent K Nat} (ha : a ∈ e.agents)
    (hrd : a.reward.d0 = e.mdp.nFeatures) (hsel : a.selector = maxSelector) {out : FitOut K} {v : Nat → Ext K}
    {g : Nat → Nat → Ext K}
    (hout : out a.reward = .ok (.of1 ⟨e.mdp.nStates, v⟩, .of2 ⟨e.mdp.nStates, e.mdp.nActions, g⟩))
    {s x : Nat} {y : K} (hs : pyIdx e.mdp.nStates a.position = some s) (hx : x < e.mdp.nActions)
    (hgx : g s x = .fin y)
    (hbest : ∀ b, b < e.mdp.nActions → b ≠ x → g s b = .nan ∨ ∃ z, g s b = .fin z ∧ z < y)
    {t : Nat} (hnext : e.mdp.getNextState s x = .ok t) (d draws : Nat → Nat) :
    (e.fit a.name out d).2 = .ok () ∧
    (∃ a' ∈ ((e.fit a.name out d).1.step a.name draws).1.agents, a'.name = a.name ∧ a'.position = t ∧
      a'.history = a.history ++ [(t : Int)]) ∧
    (a.consumes = [] → ((e.fit a.name out d).1.step a.name draws).2 = .ok (t : Int)) := by
  have hest : Spec.HasEstimate ⟨e.mdp.nStates, e.mdp.nActions, g⟩ s := by
    refine ⟨⟨x, hx, by change g s x ≠ .nan; rw [hgx]; simp⟩, fun ⟨⟨c, hc, hc'⟩, _⟩ => ?_⟩
    have hc' : g s c = .pinf := hc'
    by_cases hcx : c = x
    · rw [hcx, hgx] at hc'; cases hc'
    · rcases hbest c hc hcx with h | ⟨z, h, -⟩ <;> (rw [h] at hc'; cases hc')
  obtain ⟨h1, x', hb, hall⟩ := Env.fit_step_among hok ha hrd hsel hout hs hest d draws
  have hxx : x' = x := by
    by_contra hne'
    have h5 : Spec.NoBetter (g s x) (g s x') := hb.2 x hx
    rcases hbest x' hb.1 hne' with h | ⟨z, h, hz⟩
    · rw [hgx, h] at h5; exact h5
    · rw [hgx, h] at h5
      exact absurd (show y ≤ z from h5) (not_le.2 hz)
  subst hxx
  exact ⟨h1, hall t hnext⟩

/-- Every action is a best one among ones. -/
theorem isBest_ones (m : Mdp K) (s x : Nat) (hx : x < m.nActions) : Spec.IsBest (onesFor m) s x :=
  ⟨hx, fun b _ => by simp [onesFor, Spec.NoBetter]⟩

end MaMDP
