import Verif.Lemmas.Foreseen
import Verif.Props.Chance
import Verif.Props.IRL

/-! # C166: the visits a learner expects are those of an agent that walks -/

set_option linter.unusedSectionVars false

namespace MaMDP

open MeasureTheory

variable {kind : GridKind} {W H : Nat} {selfT : Bool} {m m' : Mdp ℝ} {specs : List (AgentSpec ℝ ℝ)} {e0 : Env ℝ ℝ}

/-- **C166**: for the probabilities that a softmax agent reports (`get_agent_pi_p`), `state_visitation_iterator` with `n`
passes, started from the agent's state, gives for each state the chances of the agent standing there after 0, 1, ...,
`n - 1` steps, added up: how often it is there on average. -/
theorem C166_visits (hm : Mdp.GridReach kind W H selfT m) (hinit : Env.init m specs = (m', .ok e0))
    (ops : List (EnvOp ℝ ℝ)) (e : Env ℝ ℝ) (he : e = e0.run ops) (a : Agent ℝ ℝ) (ha : a ∈ e.agents)
    (T : ℝ) (hT : 0 < T) (hsel : a.selector = softmaxSelector T) (hfit : a.alg.fitComplete = true) (q : Arr2 (Ext ℝ))
    (hq : a.alg.qValues = some q) (hmask : ∀ s, s < W * H → Spec.MaskedAt e.mdp.trans q s)
    (hfin : ∀ s x, s < W * H → x < e.mdp.nActions → q.get s x ≠ .pinf)
    (s : Nat) (hs : s = Spec.stateOf (W * H) a.position) (hlive : Spec.Live e.mdp.trans s)
    (P : Arr2 (Ext ℝ)) (hP : a.selector.piP q = .ok P) (π : Nat → Nat → ℝ)
    (hπ : ∀ u x, u < W * H → x < e.mdp.nActions → P.get u x = .fin (π u x)) (n t : Nat) (ht : t < W * H) :
    ENNReal.ofReal (visitation e.mdp.trans π (fun u => if u = s then 1 else 0) n t) =
      ∑ k ∈ Finset.range n, volume {ω : Spec.Outcome k (W * H) | Spec.Delivered ω ∧
        ∃ a' ∈ (Spec.stepped e a.name ω).agents, a'.name = a.name ∧ Spec.stateOf (W * H) a'.position = t} := by
  have hok : Env.Ok kind W H selfT e := by rw [he]; exact (Env.started hm hinit ops).1
  have hN : e.mdp.trans.nS = W * H := hok.reach.ok.nStates
  have hM := (C27_grid kind W H selfT e.mdp hok.reach).1
  have hsN : s < W * H := (drifts_start hm hinit ops e he a ha T hsel hfit q hq hmask hfin s hs hlive).2.1
  rw [hsel] at hP
  have hag : ∀ u x v, u < e.mdp.trans.nS → x < e.mdp.trans.nA → v < e.mdp.trans.nS →
      π u x * e.mdp.trans.p u x v = Spec.moveChance T q u x * e.mdp.trans.p u x v := by
    intro u x v hu hx hv
    rcases (hM.1 u x v hu hx hv).eq_or_lt with h0 | h0
    · rw [← h0, mul_zero, mul_zero]
    · have := piP_moveChance hT hP hu (hmask u (by rw [← hN]; exact hu)) (fun y hy => hfin u y (by rw [← hN]; exact hu) hy)
        ⟨x, hx, v, hv, h0⟩ hx
      rw [hπ u x (by rw [← hN]; exact hu) hx] at this
      rw [Ext.fin.inj this]
  rw [visitation_eq _ _ _ _ _ (by rw [hN]; exact ht), ENNReal.ofReal_sum_of_nonneg]
  · refine Finset.sum_congr rfl fun k _ => ?_
    rw [C132_position hm hinit ops e he a ha T hT hsel hfit q hq hmask hfin s hs hlive k t,
      stateDist_standing _ T q π hag k _ t (by rw [hN]; exact ht)]
    congr 1
    rw [Finset.sum_eq_single s]
    · simp
    · intro u _ hu
      rw [if_neg hu, zero_mul]
    · intro hc
      exact absurd (Finset.mem_range.2 (by rw [hN]; exact hsN)) hc
  · intro k _
    rw [stateDist_standing _ T q π hag k _ t (by rw [hN]; exact ht)]
    refine Finset.sum_nonneg fun u hu => mul_nonneg (by split_ifs <;> norm_num) (standing_nonneg hM T q k u t (Finset.mem_range.1 hu))

/-- **C166**, for the learner: what max-causal-entropy IRL (`soft=True`) expects of each feature for weights `θ` is what
a softmax agent with temperature 1 and the action values of soft value iteration for those weights meets of it on average
in the states it stands on after 0, 1, ..., `n - 1` steps, when it is put where a trajectory picked at random starts. -/
theorem C166_expected (hm : Mdp.GridReach kind W H selfT m) (hinit : Env.init m specs = (m', .ok e0))
    (ops : List (EnvOp ℝ ℝ)) (e : Env ℝ ℝ) (he : e = e0.run ops) (a : Agent ℝ ℝ) (ha : a ∈ e.agents)
    (hsel : a.selector = softmaxSelector 1) (hfit : a.alg.fitComplete = true)
    (θ : Nat → ℝ) (n : Nat) (hn : 0 < n) (γ tol : ℝ) (h0 : 0 < γ) (h1 : γ < 1) (v : Nat → ℝ) (q : Nat → Nat → Ext ℝ)
    (hsol : solveSoft e.mdp.trans (Spec.weighted e.mdp θ) n γ tol = .ok (v, q))
    (hq : a.alg.qValues = some ⟨e.mdp.nStates, e.mdp.nActions, q⟩) (ts : List (List Int))
    (hts : ∀ t ∈ ts, ∃ i l, t = i :: l ∧ Spec.InRange (W * H) i ∧ Spec.Live e.mdp.trans (Spec.stateOf (W * H) i)) :
    ∃ g, mceSoft e.mdp n γ tol ts θ = .ok g ∧ ∀ f, g f =
      ∑ s ∈ Finset.range (W * H), Spec.startShare (W * H) ts s * ∑ k ∈ Finset.range n, ∑ t ∈ Finset.range (W * H),
        (volume {ω : Spec.Outcome k (W * H) | Spec.Delivered ω ∧
          ∃ a' ∈ (Spec.stepped (e.setAgentPosition a.name s).1 a.name ω).agents,
            a'.name = a.name ∧ Spec.stateOf (W * H) a'.position = t}).toReal * e.mdp.features.get f t := by
  have hok : Env.Ok kind W H selfT e := by rw [he]; exact (Env.started hm hinit ops).1
  have hN : e.mdp.nStates = W * H := hok.reach.ok.nStates
  obtain ⟨hM, -, hA, hS⟩ := C27_grid kind W H selfT e.mdp hok.reach
  obtain ⟨j, -, -, -, -, e2⟩ := solveVI_spec (softBackup e.mdp.nActions) e.mdp.trans (Spec.weighted e.mdp θ) h0 h1 tol hn
  obtain ⟨q0, rfl⟩ : ∃ q0, q = maskQ e.mdp.trans q0 := by
    have := hsol.symm.trans e2
    exact ⟨_, (Prod.mk.inj (Except.ok.inj this)).2⟩
  obtain ⟨P, hP, -, -, -⟩ := softmaxPolicy e.mdp.trans hM hA hS 1 one_pos q0
  obtain ⟨g, h4, h5⟩ := mceExpected_ok e.mdp
    (fun θ => solveSoft e.mdp.trans (stateReward e.mdp.nFeatures θ e.mdp.features.get) n γ tol) (softmaxSelector 1) ts n θ _ _ P
    (fun t ht => by
      obtain ⟨i, l, r1, r2, -⟩ := hts t ht
      exact ⟨i, l, r1, by rw [hN]; exact r2⟩) hsol hP
  refine ⟨g, h4, fun f => ?_⟩
  have hmask : ∀ u, u < e.mdp.trans.nS → Spec.MaskedAt e.mdp.trans ⟨e.mdp.nStates, e.mdp.nActions, maskQ e.mdp.trans q0⟩ u :=
    fun u hu => maskQ_masked hM q0 u hu
  have hfin : ∀ u x, (maskQ e.mdp.trans q0) u x ≠ .pinf := fun u x => (maskQ_notPinf e.mdp.trans q0 u x).1
  have hag : ∀ u x w, u < e.mdp.trans.nS → x < e.mdp.trans.nA → w < e.mdp.trans.nS →
      (P.get u x).toK * e.mdp.trans.p u x w =
        Spec.moveChance 1 ⟨e.mdp.nStates, e.mdp.nActions, maskQ e.mdp.trans q0⟩ u x * e.mdp.trans.p u x w := by
    intro u x w hu hx hw
    rcases (hM.1 u x w hu hx hw).eq_or_lt with h0 | h0
    · rw [← h0, mul_zero, mul_zero]
    · have := piP_moveChance one_pos hP hu (hmask u hu) (fun y _ => hfin u y) ⟨x, hx, w, hw, h0⟩ hx
      rw [this]
      rfl
  have hstand : ∀ s, s < W * H → Spec.Live e.mdp.trans s → ∀ k t,
      volume {ω : Spec.Outcome k (W * H) | Spec.Delivered ω ∧
          ∃ a' ∈ (Spec.stepped (e.setAgentPosition a.name s).1 a.name ω).agents,
            a'.name = a.name ∧ Spec.stateOf (W * H) a'.position = t} =
        ENNReal.ofReal (Spec.standing e.mdp.trans 1 ⟨e.mdp.nStates, e.mdp.nActions, maskQ e.mdp.trans q0⟩ k s t) := by
    intro s hs hl k t
    have hs' : s < e.mdp.nStates := by rw [hN]; exact hs
    obtain ⟨h1, -⟩ | ⟨b, hb, hbn, hc⟩ := Env.setAgentPosition_cases hok a.name s
    · exact absurd ((hok.names a.name).2 (List.mem_map_of_mem (f := (·.name)) ha)) h1
    · have hba : b = a := Env.eq_of_name hok.nodup hb ha hbn
      subst hba
      rcases hc with ⟨j, hj, h1⟩ | ⟨h1, -⟩ | ⟨h1, -, -⟩
      · have hjs : j = s := by rw [pyIdx_nat, if_pos hs'] at hj; exact (Option.some.inj hj).symm
        subst hjs
        have hmem : ({ b with position := (j : Int) } : Agent ℝ ℝ) ∈ (e.setAgentPosition b.name j).1.agents := by
          rw [h1]
          exact (Env.mem_put (List.mem_map_of_mem (f := (·.name)) ha)).2 (.inl rfl)
        have htr : (e.setAgentPosition b.name j).1.mdp.trans = e.mdp.trans := by rw [h1]; rfl
        have := C132_position hm hinit (ops ++ [.setAgentPosition b.name j]) (e.setAgentPosition b.name j).1
          (by rw [Env.run_append, ← he]; rfl) _ hmem 1 one_pos hsel hfit _ hq
          (by rw [htr]; intro u hu; exact hmask u (by show u < e.mdp.nStates; rw [hN]; exact hu))
          (fun u x _ _ => hfin u x) j (by
            show j = Spec.stateOf (W * H) (j : Int)
            unfold Spec.stateOf
            simp) (by rw [htr]; exact hl) k t
        rw [htr] at this
        exact this
      · omega
      · omega
  rw [h5 f, hN]
  have hshare : ∀ s, s < W * H → Spec.startShare (K := ℝ) (W * H) ts s ≠ 0 → Spec.Live e.mdp.trans s := by
    intro s _ hne
    have hpos : 0 < (ts.map fun t => Spec.stateOf (W * H) (t.headD 0)).count s := by
      rcases Nat.eq_zero_or_pos ((ts.map fun t => Spec.stateOf (W * H) (t.headD 0)).count s) with h | h
      · exact absurd (by unfold Spec.startShare; rw [h]; simp) hne
      · exact h
    obtain ⟨t, ht, rfl⟩ := List.mem_map.1 (List.count_pos_iff.1 hpos)
    obtain ⟨i, l, rfl, -, hl⟩ := hts t ht
    exact hl
  have hlhs : ∀ t ∈ Finset.range (W * H), ∀ k ∈ Finset.range n,
      Spec.stateDist e.mdp.trans (fun s a => (P.get s a).toK) (Spec.startShare (W * H) ts) k t =
      ∑ s ∈ Finset.range (W * H), Spec.startShare (W * H) ts s *
        Spec.standing e.mdp.trans 1 ⟨e.mdp.nStates, e.mdp.nActions, maskQ e.mdp.trans q0⟩ k s t := by
    intro t ht k _
    have := stateDist_standing e.mdp.trans 1 _ _ hag k (Spec.startShare (W * H) ts) t (by
      show t < e.mdp.nStates; rw [hN]; exact Finset.mem_range.1 ht)
    rw [this]
    show ∑ s ∈ Finset.range e.mdp.nStates, _ = _
    rw [hN]
  rw [Finset.sum_congr rfl fun t ht => by rw [Finset.sum_congr rfl (hlhs t ht)]]
  have hrhs : ∀ s ∈ Finset.range (W * H), Spec.startShare (K := ℝ) (W * H) ts s * ∑ k ∈ Finset.range n, ∑ t ∈ Finset.range (W * H),
        (volume {ω : Spec.Outcome k (W * H) | Spec.Delivered ω ∧
          ∃ a' ∈ (Spec.stepped (e.setAgentPosition a.name s).1 a.name ω).agents,
            a'.name = a.name ∧ Spec.stateOf (W * H) a'.position = t}).toReal * e.mdp.features.get f t =
      Spec.startShare (K := ℝ) (W * H) ts s * ∑ k ∈ Finset.range n, ∑ t ∈ Finset.range (W * H),
        Spec.standing e.mdp.trans 1 ⟨e.mdp.nStates, e.mdp.nActions, maskQ e.mdp.trans q0⟩ k s t * e.mdp.features.get f t := by
    intro s hs
    by_cases hz : Spec.startShare (K := ℝ) (W * H) ts s = 0
    · rw [hz, zero_mul, zero_mul]
    · congr 1
      refine Finset.sum_congr rfl fun k _ => Finset.sum_congr rfl fun t _ => ?_
      rw [hstand s (Finset.mem_range.1 hs) (hshare s (Finset.mem_range.1 hs) hz) k t,
        ENNReal.toReal_ofReal (standing_nonneg hM _ _ k s t (by
          show s < e.mdp.nStates; rw [hN]; exact Finset.mem_range.1 hs))]
  rw [Finset.sum_congr rfl hrhs]
  simp only [Finset.mul_sum]
  rw [Finset.sum_congr rfl fun t _ => Finset.sum_comm, Finset.sum_comm]
  refine Finset.sum_congr rfl fun s _ => ?_
  rw [Finset.sum_comm]
  refine Finset.sum_congr rfl fun k _ => Finset.sum_congr rfl fun t _ => ?_
  ring

/-- A case of `C166_visits`: the fox in the middle of a corridor of three states is at its start half a time on average
within two states (its own and the next). -/
example : ∃ (m m' : Mdp ℝ) (e : Env ℝ ℝ) (a : Agent ℝ ℝ), Mdp.GridReach .square 1 3 false m ∧
    Env.init m exSoftWalker = (m', .ok e) ∧ a ∈ e.agents ∧
    ∑ k ∈ Finset.range 2, volume {ω : Spec.Outcome k (1 * 3) | Spec.Delivered ω ∧
      ∃ a' ∈ (Spec.stepped e a.name ω).agents, a'.name = a.name ∧ Spec.stateOf (1 * 3) a'.position = 0} =
    ENNReal.ofReal (1 / 2) := by
  obtain ⟨m, m', e, a, hm, hinit, ha, hsel, hfit, hq, hmask, hfin, hpos, hlive, ⟨hx, ht, hp, -⟩, -, -, -⟩ := exSoftWalk
  have hok : Env.Ok .square 1 3 false e := (Env.started hm hinit []).1
  have hN : e.mdp.trans.nS = 1 * 3 := hok.reach.ok.nStates
  have hA : e.mdp.trans.nA = 4 := hok.reach.ok.nActions
  have hg := C27_grid _ _ _ _ _ hok.reach
  obtain ⟨sel, P, g0, hP, -, -, hrow⟩ := C25_softmax_pi_p 1 one_pos exSoftWalkQ
    ⟨0, by decide, fun h => by have := h 0 (by decide); simp [exSoftWalkQ] at this⟩
  have hsel' : sel = softmaxSelector 1 := by
    unfold mkSoftmax at g0; rw [if_neg (not_le.2 one_pos)] at g0; exact (Except.ok.inj g0).symm
  subst hsel'
  have hfn : ∀ u x, u < 3 → x < 4 → ∃ y, P.get u x = .fin y := by
    intro u x hu hx
    have hnp : ∀ x, exSoftWalkQ.get u x ≠ .pinf := fun x => by unfold exSoftWalkQ; simp only; split_ifs <;> simp
    obtain ⟨p, hp, -⟩ := (hrow u hu).2 ⟨⟨0, by decide, by unfold exSoftWalkQ; simp only; split_ifs <;> simp⟩,
      fun ⟨⟨c, _, hc⟩, _⟩ => hnp c hc⟩ (fun c _ => hnp c)
    exact ⟨_, (hp x hx).1⟩
  have key := C166_visits hm hinit [] e rfl a ha 1 one_pos hsel hfit _ hq hmask hfin 1 hpos.symm hlive P (by rw [hsel]; exact hP)
    (fun u x => (P.get u x).toK) (fun u x hu hx => by
      obtain ⟨y, hy⟩ := hfn u x hu (by rw [← hA]; exact hx)
      rw [hy]; rfl) 2 0 (by decide)
  refine ⟨m, m', e, a, hm, hinit, ha, key.symm.trans ?_⟩
  congr 1
  rw [visitation_eq _ _ _ _ _ (by rw [hN]; decide), Finset.sum_range_succ, Finset.sum_range_one]
  show (if 0 = 1 then (1 : ℝ) else 0) + ∑ u ∈ Finset.range e.mdp.trans.nS, (if u = 1 then (1 : ℝ) else 0) *
    ∑ x ∈ Finset.range e.mdp.trans.nA, (P.get u x).toK * e.mdp.trans.p u x 0 = 1 / 2
  rw [Finset.sum_eq_single 1 (fun u _ hu => by rw [if_neg hu, zero_mul])
    (fun hc => absurd (Finset.mem_range.2 (by rw [hN]; decide)) hc), if_pos rfl, one_mul,
    Finset.sum_eq_single 2 (fun x hx' hne => ?_) (fun hc => absurd (Finset.mem_range.2 hx) hc), hp,
    piP_moveChance one_pos hP (by rw [hN]; decide) (hmask 1 (by decide)) (fun y hy => hfin 1 y (by decide) hy) hlive hx]
  · norm_num [Ext.toK, Spec.moveChance, exSoftWalkQ, Spec.weight, Finset.sum_range_succ]
  · rcases hg.2.1 1 x 0 (by rw [hN]; decide) (Finset.mem_range.1 hx') ht with h | h
    · rw [h, mul_zero]
    · exact absurd (grid_movesDiffer hok.reach 1 x 2 0 (by rw [hN]; decide) (Finset.mem_range.1 hx') hx ht
        (by rw [h]; exact one_pos) (by rw [hp]; exact one_pos)) hne

/-- A case of `C166_expected`: the fox is given the action values of soft value iteration for weights 3 and 1, and both
trajectories start in the middle. -/
example : ∃ (m m' : Mdp ℝ) (e : Env ℝ ℝ) (a : Agent ℝ ℝ), Mdp.GridReach .square 1 3 false m ∧
    Env.init m exSoftWalker = (m', .ok e) ∧ a ∈ e.agents ∧ ∃ (st : AlgState ℝ) (g : Nat → ℝ),
    mceSoft e.mdp 5 (1 / 2) (1 / 100) [[1, 2], [1, 0, 1]] (fun f => if f = 0 then 3 else 1) = .ok g ∧ ∀ f, g f =
      ∑ s ∈ Finset.range (1 * 3), Spec.startShare (1 * 3) [[1, 2], [1, 0, 1]] s * ∑ k ∈ Finset.range 5, ∑ t ∈ Finset.range (1 * 3),
        (volume {ω : Spec.Outcome k (1 * 3) | Spec.Delivered ω ∧
          ∃ a' ∈ (Spec.stepped ((e.setAlgorithm a.name st).1.setAgentPosition a.name s).1 a.name ω).agents,
            a'.name = a.name ∧ Spec.stateOf (1 * 3) a'.position = t}).toReal * e.mdp.features.get f t := by
  obtain ⟨m, m', e, a, hm, hinit, ha, hsel, -, -, -, -, -, hlive, -⟩ := exSoftWalk
  have hok : Env.Ok .square 1 3 false e := (Env.started hm hinit []).1
  obtain ⟨j, -, -, -, -, e2⟩ := solveVI_spec (softBackup e.mdp.nActions) e.mdp.trans
    (Spec.weighted e.mdp fun f => if f = 0 then 3 else 1) (γ := 1 / 2) (by norm_num) (by norm_num) (1 / 100) (k := 5) (by decide)
  generalize maskQ e.mdp.trans _ = q at e2
  refine ⟨m, m', e, a, hm, hinit, ha, ⟨true, none, some ⟨e.mdp.nStates, e.mdp.nActions, q⟩⟩, ?_⟩
  obtain ⟨h1, -⟩ | ⟨b, hb, hbn, h1⟩ := Env.setAlgorithm_cases hok a.name ⟨true, none, some ⟨e.mdp.nStates, e.mdp.nActions, q⟩⟩
  · exact absurd ((hok.names a.name).2 (List.mem_map_of_mem (f := (·.name)) ha)) h1
  · have hba : b = a := Env.eq_of_name hok.nodup hb ha hbn
    subst hba
    have hmem : ({ b with alg := ⟨true, none, some ⟨e.mdp.nStates, e.mdp.nActions, q⟩⟩ } : Agent ℝ ℝ) ∈
        (e.setAlgorithm b.name ⟨true, none, some ⟨e.mdp.nStates, e.mdp.nActions, q⟩⟩).1.agents := by
      rw [h1]
      exact (Env.mem_put (List.mem_map_of_mem (f := (·.name)) ha)).2 (.inl rfl)
    have hmdp : (e.setAlgorithm b.name ⟨true, none, some ⟨e.mdp.nStates, e.mdp.nActions, q⟩⟩).1.mdp = e.mdp := by rw [h1]; rfl
    have := C166_expected hm hinit [.setAlgorithm b.name ⟨true, none, some ⟨e.mdp.nStates, e.mdp.nActions, q⟩⟩]
      (e.setAlgorithm b.name ⟨true, none, some ⟨e.mdp.nStates, e.mdp.nActions, q⟩⟩).1 rfl _ hmem hsel rfl
      (fun f => if f = 0 then 3 else 1) 5 (by decide) (1 / 2) (1 / 100) (by norm_num) (by norm_num) _ q
      (by rw [hmdp]; exact e2) (by rw [hmdp]) [[1, 2], [1, 0, 1]] (by
        intro t ht
        simp only [List.mem_cons, List.not_mem_nil, or_false] at ht
        rcases ht with rfl | rfl
        · exact ⟨1, _, rfl, by unfold Spec.InRange; omega, by rw [hmdp]; exact hlive⟩
        · exact ⟨1, _, rfl, by unfold Spec.InRange; omega, by rw [hmdp]; exact hlive⟩)
    rw [hmdp] at this
    exact this

end MaMDP
