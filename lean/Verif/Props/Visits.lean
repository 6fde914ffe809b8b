import Verif.Lemmas.Visits
import Verif.Lemmas.EnvWalk
import Verif.Props.Chance
import Verif.Props.Exploring
import Verif.Props.EnvironmentSteps

/-! # C144: a softmax agent goes everywhere -/

set_option linter.unusedSectionVars false

namespace MaMDP

open MeasureTheory Filter

variable {kind : GridKind} {W H : Nat} {selfT : Bool} {m m' : Mdp ℝ} {specs : List (AgentSpec ℝ ℝ)} {e0 : Env ℝ ℝ}

theorem grid_canReturn {m : Mdp ℝ} (h : Mdp.GridReach kind W H selfT m) : CanReturn m.trans := by
  intro s x t hs hx ht hp
  obtain ⟨-, y, hy, hq⟩ := mem_nextStates.1 (grid_back h hs
    (mem_nextStates.2 ⟨ht, x, hx, by rw [hp]; exact one_ne_zero⟩))
  exact ⟨y, hy, ((C27_grid kind W H selfT m h).2.1 t y s ht hy hs).resolve_left hq⟩

/-- **C144**: the chance that a softmax agent has visited every state within its reach tends to 1 with the number of
its steps. -/
theorem C144_visits (hm : Mdp.GridReach kind W H selfT m) (hinit : Env.init m specs = (m', .ok e0))
    (ops : List (EnvOp ℝ ℝ)) (e : Env ℝ ℝ) (he : e = e0.run ops) (a : Agent ℝ ℝ) (ha : a ∈ e.agents)
    (T : ℝ) (hT : 0 < T) (hsel : a.selector = softmaxSelector T) (hfit : a.alg.fitComplete = true) (q : Arr2 (Ext ℝ))
    (hq : a.alg.qValues = some q) (hmask : ∀ s, s < W * H → Spec.MaskedAt e.mdp.trans q s)
    (hfin : ∀ s x, s < W * H → x < e.mdp.nActions → q.get s x ≠ .pinf)
    (s : Nat) (hs : s = Spec.stateOf (W * H) a.position) (hlive : Spec.Live e.mdp.trans s) :
    Tendsto (fun k => volume {ω : Spec.Outcome k (W * H) | Spec.Delivered ω ∧
      ∃ a' ∈ (Spec.stepped e a.name ω).agents, a'.name = a.name ∧ ∃ visited : List Int,
        a'.history = a.history ++ visited ∧ ∀ t j, Spec.Reaches e.mdp.trans s t j → (t : Int) ∈ visited})
      atTop (nhds 1) := by
  classical
  obtain ⟨hD, hsN, hN⟩ := drifts_start hm hinit ops e he a ha T hsel hfit q hq hmask hfin s hs hlive
  have hdiff := grid_movesDiffer hD.ok.reach
  have hR := hD.roams (grid_canReturn hD.ok.reach)
  rw [← hN] at hsN ⊢
  have hlim := ENNReal.tendsto_ofReal (hR.visit_all hsN hlive)
  rw [ENNReal.ofReal_one] at hlim
  refine hlim.congr fun k => ?_
  rw [← hD.event hT hsN hdiff hR k]
  congr 1
  ext ω
  simp only [Set.mem_ofPred_eq]
  refine and_congr_right fun hω => ?_
  obtain ⟨l, h1, h2, h3, h4, j', h5, -⟩ := hD.walk hT hdiff (Spec.drawAt ω) k 0 e s _ (Env.delivered_draw ω hω) hsN
  simp only [Nat.zero_add] at h5
  obtain ⟨b, hb, hbn, -, -, -, -, hbh⟩ := h5.agent
  have hcast : ∀ t : Nat, (t : Int) ∈ l.map (fun x => (x.2 : Int)) ↔ t ∈ l.map (·.2) := by
    intro t
    simp only [List.mem_map, Nat.cast_inj]
  constructor
  · rintro ⟨l', hl', hP, hM⟩
    obtain ⟨g1, g2⟩ := (Env.mem_walks k s l').1 hl'
    have := (h4 l' g1 g2).1 hM
    subst this
    exact ⟨b, hb, hbn, _, hbh, fun t j hr => (hcast t).2 (hP t j hr)⟩
  · rintro ⟨a', ha', hn, v, hv, hP⟩
    have : a' = b := Env.eq_of_name h5.ok.nodup ha' hb (hn.trans hbn.symm)
    subst this
    have hv' := List.append_cancel_left (hbh.symm.trans hv)
    subst hv'
    exact ⟨l, (Env.mem_walks k s l).2 ⟨h1, h2⟩, fun t j hr => (hcast t).1 (hP t j hr), h3⟩

/-- **C144**: and so does the chance that it has eaten everything it consumes there. -/
theorem C144_eats (hm : Mdp.GridReach kind W H selfT m) (hinit : Env.init m specs = (m', .ok e0))
    (ops : List (EnvOp ℝ ℝ)) (e : Env ℝ ℝ) (he : e = e0.run ops) (a : Agent ℝ ℝ) (ha : a ∈ e.agents)
    (T : ℝ) (hT : 0 < T) (hsel : a.selector = softmaxSelector T) (hfit : a.alg.fitComplete = true) (q : Arr2 (Ext ℝ))
    (hq : a.alg.qValues = some q) (hmask : ∀ s, s < W * H → Spec.MaskedAt e.mdp.trans q s)
    (hfin : ∀ s x, s < W * H → x < e.mdp.nActions → q.get s x ≠ .pinf)
    (s : Nat) (hs : s = Spec.stateOf (W * H) a.position) (hlive : Spec.Live e.mdp.trans s)
    (hrows : ∀ f ∈ a.consumes, -(e.mdp.features.d0 : Int) ≤ f ∧ f < e.mdp.features.d0) :
    Tendsto (fun k => volume {ω : Spec.Outcome k (W * H) | Spec.Delivered ω ∧
      ∀ t j, Spec.Reaches e.mdp.trans s t j → ∀ f, f < e.mdp.features.d0 → Spec.Feeds e.mdp.features.d0 a f →
        f ≠ e.mdp.features.d0 - e.mdp.nAgents + a.idx → (Spec.stepped e a.name ω).mdp.features.get f t ≤ 0})
      atTop (nhds 1) := by
  have hok : Env.Ok kind W H selfT e := by rw [he]; exact (Env.started hm hinit ops).1
  have hv : ∀ f ∈ a.consumes, ∃ r, pyIdx e.mdp.features.d0 f = some r := by
    intro f hf
    obtain ⟨h1, h2⟩ := hrows f hf
    by_cases h4 : 0 ≤ f
    · exact ⟨f.toNat, pyIdx_spec.2 ⟨by omega, .inl (by omega)⟩⟩
    · exact ⟨(f + e.mdp.features.d0).toNat, pyIdx_spec.2 ⟨by omega, .inr (by omega)⟩⟩
  refine tendsto_of_tendsto_of_tendsto_of_le_of_le
    (C144_visits hm hinit ops e he a ha T hT hsel hfit q hq hmask hfin s hs hlive) tendsto_const_nhds
    (fun k => measure_mono ?_) (fun k => ?_)
  · rintro ω ⟨hω, a', ha', hn, v, hvh, hall⟩
    refine ⟨hω, fun t j hr f hf hF hne => ?_⟩
    obtain ⟨hok', -, -, b, hb, hbn, -, -, l, hl, hle⟩ := Env.steps_eat hok ha hv (Spec.drawAt ω) k
    have : a' = b := Env.eq_of_name hok'.nodup ha' hb (hn.trans hbn.symm)
    subst this
    have hvl := List.append_cancel_left (hvh.symm.trans hl)
    subst hvl
    exact hle t (hall t j hr) f (Env.eats_feeds.2 ⟨hf, hF⟩) hne
  · rw [← C132_total k (W * H)]
    exact measure_mono fun ω hω => hω.1

/-- After a successful `fit` with value iteration a softmax agent drifts. -/
theorem soft_fit {e : Env ℝ ℝ} (hok : Env.Ok kind W H selfT e) (a : Agent ℝ ℝ) (ha : a ∈ e.agents)
    (maxIter : Nat) (γ tol : ℝ) (d : Nat → ℝ) (e1 : Env ℝ ℝ)
    (hfit : e.fit a.name (valueIterationFit e.mdp maxIter γ tol) d = (e1, .ok ())) :
    e1.mdp = e.mdp ∧ ∃ b ∈ e1.agents, Agent.SameBody a b ∧ b.history = a.history ∧ b.alg.fitComplete = true ∧
      ∃ q, b.alg.qValues = some q ∧ (∀ s, s < W * H → Spec.MaskedAt e.mdp.trans q s) ∧
      ∀ s x, s < W * H → x < e.mdp.nActions → q.get s x ≠ .pinf := by
  have hN : e.mdp.trans.nS = W * H := hok.reach.ok.nStates
  have hmo := C54_value_iteration hok.reach maxIter γ tol
  have hM := (C27_grid kind W H selfT e.mdp hok.reach).1
  rcases Env.fit_cases hok a.name (valueIterationFit e.mdp maxIter γ tol) d with ⟨-, h1⟩ | ⟨b, hb, hbn, h3⟩
  · rw [hfit] at h1; cases h1
  · have := Env.eq_of_name hok.nodup hb ha hbn
    subst this
    rw [hfit] at h3
    have hsame := Agent.fit_same b e.mdp (valueIterationFit e.mdp maxIter γ tol) d
    have e2 : e1 = e.put e.mdp (b.fit e.mdp (valueIterationFit e.mdp maxIter γ tol) d).1 := congrArg Prod.fst h3
    have e3 : (b.fit e.mdp (valueIterationFit e.mdp maxIter γ tol) d).2 = .ok () := (congrArg Prod.snd h3).symm
    set b1 := (b.fit e.mdp (valueIterationFit e.mdp maxIter γ tol) d).1 with hb1
    have halg : ∃ v q, solveHard e.mdp.trans (stateReward b.reward.d0 b.reward.get e.mdp.features.get) maxIter γ tol =
        .ok (v, q) ∧ b1.alg.fitComplete = true ∧ b1.alg.qValues = some ⟨e.mdp.nStates, e.mdp.nActions, q⟩ := by
      unfold Agent.fit at e3 hb1
      rcases hf : algFit (valueIterationFit e.mdp maxIter γ tol) e.mdp.nFeatures e.mdp.nStates e.mdp.nActions
        (.of1 b.reward) b.alg with ⟨st, x | x⟩
      · rw [hf] at e3; cases e3
      · rw [hf] at hb1
        simp only at hb1
        rw [hb1, (Agent.getPolicy_same { b with alg := st } d).2.2]
        unfold algFit at hf
        split at hf
        · cases hf
        · rename_i w hw
          have hw' : w = b.reward := by
            simp only [checkReward, PyArr.of1] at hw
            split_ifs at hw
            cases hw
            rfl
          subst hw'
          unfold valueIterationFit at hf
          split at hf
          · cases hf
          · rename_i v0 q0 hv0
            split at hv0
            · cases hv0
            · rename_i v q hsol
              cases hv0
              simp only [PyArr.of1, PyArr.of2, checkOutput, ne_eq, not_true_eq_false, if_false] at hf
              cases hf
              exact ⟨v, q, hsol, rfl, rfl⟩
    obtain ⟨v, q, hsol, hc, hq⟩ := halg
    rw [e2]
    refine ⟨rfl, b1, (Env.mem_put (by
      rw [hsame.1.name]; exact List.mem_map_of_mem (f := (·.name)) hb)).2 (.inl rfl), hsame.1, hsame.2, hc, _, hq, ?_, ?_⟩
    · intro t ht
      exact hmo b.reward (.of1 ⟨e.mdp.nStates, fun s => .fin (v s)⟩) (fun i => q (i.getD 0 0) (i.getD 1 0))
        (by simp only [valueIterationFit, hsol]; rfl) t (by rw [hN]; exact ht)
    · intro t x ht hx hc
      change q t x = .pinf at hc
      obtain ⟨y, hy⟩ := (C29_mask e.mdp.trans hM _ maxIter γ tol v q hsol t x (by rw [hN]; exact ht) hx).2
        (by rw [hc]; simp)
      rw [hy] at hc; cases hc

/-- Fitting a softmax agent with value iteration succeeds. -/
theorem soft_fit_succeeds (hm : Mdp.GridReach kind W H selfT m) (hinit : Env.init m specs = (m', .ok e0))
    (ops : List (EnvOp ℝ ℝ)) (e : Env ℝ ℝ) (he : e = e0.run ops) (a : Agent ℝ ℝ) (ha : a ∈ e.agents)
    (T : ℝ) (hsel : a.selector = softmaxSelector T) (s : Nat) (hs : s = Spec.stateOf (W * H) a.position)
    (hlive : Spec.Live e.mdp.trans s) (maxIter : Nat) (hk : 0 < maxIter) (γ tol : ℝ) (h0 : 0 < γ) (h1 : γ < 1)
    (d : Nat → ℝ) (hd : ∀ s, s < W * H → 0 ≤ d s ∧ d s < 1) :
    ∃ e1, e.fit a.name (valueIterationFit e.mdp maxIter γ tol) d = (e1, .ok ()) := by
  obtain ⟨hok, hlater⟩ := Env.started hm hinit ops
  rw [← he] at hok hlater
  obtain ⟨-, hok0, -, -, -, -, hd0, -, -, -, -, -, -, -, -, hag⟩ := Env.init_facts hm hinit
  obtain ⟨a0, ha0, -, -, -, -, -, -, hrew, -, -⟩ := hlater.back hok0 hok ha
  have hrd : a.reward.d0 = e.mdp.features.d0 := by
    obtain ⟨i, sp, p, r, -, -, -, rfl⟩ := hag a0 ha0
    rw [hrew, hlater.d0, hd0]; rfl
  have hN : e.mdp.nStates = W * H := hok.reach.ok.nStates
  obtain ⟨j, hj, -⟩ := hok.pos a ha
  have hsj := Env.stateOf_eq hj
  rw [hN, ← hs] at hsj
  subst hsj
  have hjn : j < e.mdp.nStates := pyIdx_lt hj
  rcases Env.fit_cases hok a.name (valueIterationFit e.mdp maxIter γ tol) d with ⟨h2, -⟩ | ⟨b, hb, hbn, h3⟩
  · exact absurd ((hok.names a.name).2 (List.mem_map_of_mem ha)) h2
  · have := Env.eq_of_name hok.nodup hb ha hbn
    subst this
    obtain ⟨hM, hdet, hA, -⟩ := C27_grid kind W H selfT e.mdp hok.reach
    obtain ⟨v, q, hsol⟩ := (C33_settings e.mdp.trans
      (stateReward b.reward.d0 b.reward.get e.mdp.features.get) maxIter γ tol).2.2 h0 h1 hk hA
    suffices hgoal : (b.fit e.mdp (valueIterationFit e.mdp maxIter γ tol) d).2 = .ok () from
      ⟨_, by rw [h3, hgoal]⟩
    have hw : checkReward e.mdp.nFeatures (.of1 b.reward) = .ok b.reward := by
      simp only [checkReward, PyArr.of1]
      rw [if_pos (show b.reward.d0 = e.mdp.nFeatures from hrd)]
      rfl
    obtain ⟨c, hc, t, ht, hp⟩ := hlive
    have h29 := C29_mask e.mdp.trans hM _ maxIter γ tol v q hsol
    obtain ⟨y, hy⟩ := (h29 j c hjn hc).2 fun hn => absurd ((h29 j c hjn hc).1.1 hn t ht) (ne_of_gt hp)
    have hne : ∃ s, s < (⟨e.mdp.nStates, e.mdp.nActions, q⟩ : Arr2 (Ext ℝ)).d0 ∧
        ¬ Spec.NoEstimate ⟨e.mdp.nStates, e.mdp.nActions, q⟩ s :=
      ⟨j, hjn, fun hn => by
        have h5 : q j c = .nan := hn c hc
        rw [hy] at h5; cases h5⟩
    obtain ⟨P, p, hP, hpp, -⟩ := C26_softmax_pi T _ hne (fun s x hs hx hc => by
        change q s x = .pinf at hc
        obtain ⟨z, hz⟩ := (h29 s x hs hx).2 (by rw [hc]; simp)
        rw [hz] at hc; cases hc) d (fun s hs => hd s (by rw [← hN]; exact hs))
    have hfin : ∀ st : AlgState ℝ, st.qValues = some ⟨e.mdp.nStates, e.mdp.nActions, q⟩ →
        (Agent.getPolicy { b with alg := st } d).2 = .ok () := by
      intro st hst
      unfold Agent.getPolicy
      simp only [hst, hsel, hP, hpp]
    unfold Agent.fit algFit
    rw [hw]
    simp only [valueIterationFit, hsol, PyArr.of1, PyArr.of2, checkOutput, ne_eq, not_true_eq_false, if_false]
    exact hfin _ rfl

/-- **C144**, for an agent fitted with value iteration, whatever the rewards, the discount and the tolerance: the
temperature makes it go everywhere. -/
theorem C144_fitted (hm : Mdp.GridReach kind W H selfT m) (hinit : Env.init m specs = (m', .ok e0))
    (ops : List (EnvOp ℝ ℝ)) (e : Env ℝ ℝ) (he : e = e0.run ops) (a : Agent ℝ ℝ) (ha : a ∈ e.agents)
    (T : ℝ) (hT : 0 < T) (hsel : a.selector = softmaxSelector T)
    (s : Nat) (hs : s = Spec.stateOf (W * H) a.position) (hlive : Spec.Live e.mdp.trans s)
    (maxIter : Nat) (hk : 0 < maxIter) (γ tol : ℝ) (h0 : 0 < γ) (h1 : γ < 1)
    (d : Nat → ℝ) (hd : ∀ s, s < W * H → 0 ≤ d s ∧ d s < 1) :
    ∃ e1, e.fit a.name (valueIterationFit e.mdp maxIter γ tol) d = (e1, .ok ()) ∧
    Tendsto (fun k => volume {ω : Spec.Outcome k (W * H) | Spec.Delivered ω ∧
      ∃ a' ∈ (Spec.stepped e1 a.name ω).agents, a'.name = a.name ∧ ∃ visited : List Int,
        a'.history = a.history ++ visited ∧ ∀ t j, Spec.Reaches e.mdp.trans s t j → (t : Int) ∈ visited})
      atTop (nhds 1) := by
  have hok : Env.Ok kind W H selfT e := by rw [he]; exact (Env.started hm hinit ops).1
  obtain ⟨e1, hfit⟩ := soft_fit_succeeds hm hinit ops e he a ha T hsel s hs hlive maxIter hk γ tol h0 h1 d hd
  obtain ⟨hmdp, b, hb, hsame, hhist, hc, q, hq, hmask, hfin⟩ := soft_fit hok a ha maxIter γ tol d e1 hfit
  refine ⟨e1, hfit, ?_⟩
  rw [← hsame.name, ← hhist, ← hmdp]
  exact C144_visits hm hinit (ops ++ [.fit a.name (valueIterationFit e.mdp maxIter γ tol) d]) e1
    (by rw [Env.run_append, ← he]; exact (congrArg Prod.fst hfit).symm) b hb T hT (hsame.selector.trans hsel) hc q hq
    (by rw [hmdp]; exact hmask) (by rw [hmdp]; exact hfin) s (by rw [hsame.position]; exact hs) (by rw [hmdp]; exact hlive)

/-- A case of the theorems: in a corridor of three states with food everywhere, the fox in the middle ends up having
been in both other states, and having eaten all. -/
example : ∃ (m m' : Mdp ℝ) (e : Env ℝ ℝ) (a : Agent ℝ ℝ), Mdp.GridReach .square 1 3 false m ∧
    Env.init m exSoftWalker = (m', .ok e) ∧ a ∈ e.agents ∧ (∀ t, e.mdp.features.get 0 t = 1) ∧
    Tendsto (fun k => volume {ω : Spec.Outcome k (1 * 3) | Spec.Delivered ω ∧
      ∃ a' ∈ (Spec.stepped e a.name ω).agents, a'.name = a.name ∧ ∃ visited : List Int,
        a'.history = a.history ++ visited ∧ 0 ∈ visited ∧ 1 ∈ visited ∧ 2 ∈ visited}) atTop (nhds 1) ∧
    Tendsto (fun k => volume {ω : Spec.Outcome k (1 * 3) | Spec.Delivered ω ∧
      (Spec.stepped e a.name ω).mdp.features.get 0 0 ≤ 0 ∧ (Spec.stepped e a.name ω).mdp.features.get 0 1 ≤ 0 ∧
      (Spec.stepped e a.name ω).mdp.features.get 0 2 ≤ 0}) atTop (nhds 1) ∧
    ∃ e1, e.fit a.name (valueIterationFit e.mdp 100 (9 / 10) (1 / 1000)) (fun _ => 1 / 2) = (e1, .ok ()) ∧
    Tendsto (fun k => volume {ω : Spec.Outcome k (1 * 3) | Spec.Delivered ω ∧
      ∃ a' ∈ (Spec.stepped e1 a.name ω).agents, a'.name = a.name ∧ ∃ visited : List Int,
        a'.history = a.history ++ visited ∧ ∀ t j, Spec.Reaches e.mdp.trans 1 t j → (t : Int) ∈ visited})
      atTop (nhds 1) := by
  obtain ⟨m, m', e, a, hm, hinit, ha, hsel, hfit, hq, hmask, hfin, hpos, hlive, hp1, -, hp2, hcons, hidx, hd0, hnA, hfeat⟩ :=
    exSoftWalk
  have r1 : Spec.Reaches e.mdp.trans 1 1 0 := reaches_zero.2 rfl
  have r2 : Spec.Reaches e.mdp.trans 1 2 1 := ⟨_, hp2, rfl, rfl⟩
  have r0 : Spec.Reaches e.mdp.trans 1 0 1 := by
    obtain ⟨h1, h2, h3, -⟩ := hp1
    exact ⟨[(2, 0)], ⟨h1, h2, h3, trivial⟩, rfl, rfl⟩
  refine ⟨m, m', e, a, hm, hinit, ha, hfeat, ?_, ?_, C144_fitted hm hinit [] e rfl a ha 1 one_pos hsel 1 hpos.symm hlive 100
    (by decide) _ _ (by norm_num) (by norm_num) _ fun _ _ => by norm_num⟩
  · refine tendsto_of_tendsto_of_tendsto_of_le_of_le (C144_visits hm hinit [] e rfl a ha 1 one_pos hsel hfit _ hq hmask
      hfin 1 hpos.symm hlive) tendsto_const_nhds (fun k => measure_mono ?_) (fun k => ?_)
    · rintro ω ⟨hω, a', h1, h2, v, h3, h4⟩
      exact ⟨hω, a', h1, h2, v, h3, h4 0 _ r0, h4 1 _ r1, h4 2 _ r2⟩
    · rw [← C132_total k (1 * 3)]
      exact measure_mono fun ω hω => hω.1
  · refine tendsto_of_tendsto_of_tendsto_of_le_of_le (C144_eats hm hinit [] e rfl a ha 1 one_pos hsel hfit _ hq hmask
      hfin 1 hpos.symm hlive (by rw [hcons, hd0]; simp)) tendsto_const_nhds (fun k => measure_mono ?_) (fun k => ?_)
    · rintro ω ⟨hω, h⟩
      have hF : Spec.Feeds e.mdp.features.d0 a 0 := ⟨0, by rw [hcons]; simp, .inl rfl⟩
      have hlt : 0 < e.mdp.features.d0 := by rw [hd0]; decide
      have hne : 0 ≠ e.mdp.features.d0 - e.mdp.nAgents + a.idx := by rw [hd0, hnA]; omega
      exact ⟨hω, h 0 _ r0 0 hlt hF hne, h 1 _ r1 0 hlt hF hne, h 2 _ r2 0 hlt hF hne⟩
    · rw [← C132_total k (1 * 3)]
      exact measure_mono fun ω hω => hω.1

/-- Action values for a corridor of three states: at 2 it is better than at 0. -/
def exGreedyQ : Arr2 (Ext ℚ) :=
  ⟨3, 4, fun s x => if x = 0 ∧ s < 2 ∨ x = 2 ∧ 1 < s then .fin 1 else if x = 2 ∧ s = 1 then .fin 0 else .ninf⟩

/-- An agent in the middle of it that takes best actions. -/
def exGreedyWalker : List (AgentSpec ℚ Nat) :=
  [⟨"fox", 1, maxSelector, ⟨true, none, some exGreedyQ⟩, some 1, .of1 ⟨2, fun _ => 1⟩, [0]⟩]

/-- Not so for an agent that takes best actions by the same kind of action values: it can stay away from a state next
to it forever. -/
theorem C144_greedy : ∃ (m m' : Mdp ℚ) (e : Env ℚ Nat) (a : Agent ℚ Nat), Mdp.GridReach .square 1 3 false m ∧
    Env.init m exGreedyWalker = (m', .ok e) ∧ a ∈ e.agents ∧ a.selector = maxSelector ∧ a.alg.fitComplete = true ∧
    a.alg.qValues = some exGreedyQ ∧ (∀ s, s < 1 * 3 → Spec.MaskedAt e.mdp.trans exGreedyQ s) ∧
    Spec.stateOf (1 * 3) a.position = 1 ∧ Spec.Live e.mdp.trans 1 ∧ Spec.Reaches e.mdp.trans 1 0 1 ∧
    ∀ (k : Nat) (draws : Nat → Nat → Nat), ∃ a' ∈ (e.run ((List.range k).map fun j => .step a.name (draws j))).agents,
      a'.name = a.name ∧ a'.history.length = k + 1 ∧ 0 ∉ a'.history := by
  obtain ⟨m, hi, -, hF, -, hN, hNA, -, hW⟩ := Mdp.initGrid_ok (K := ℚ) (kind := .square) (W := 1) (H := 3)
    (selfT := false) (f := ⟨1, 3, fun _ _ => 1⟩) (w := none) (by decide) rfl (by intro v hv; cases hv)
  have hm : Mdp.GridReach .square 1 3 false m := .init hi
  have hd : m.features.d0 - m.nAgents = 1 := by rw [hF, hN]; rfl
  obtain ⟨e, he⟩ := (C38_validated hm exGreedyWalker).2 (by
    intro sp hsp
    rw [exGreedyWalker, List.mem_singleton] at hsp
    subst hsp
    rw [hd]
    exact ⟨⟨_, rfl⟩, ⟨1, rfl, by decide, by decide⟩, by simp; decide⟩)
  have hinit : Env.init m exGreedyWalker = ((Env.init m exGreedyWalker).1, .ok e) := Prod.ext rfl he
  have hnames : (exGreedyWalker.map (·.name)).Nodup := by simp [exGreedyWalker]
  obtain ⟨hl, -, hag⟩ := C38_agents hm hinit hnames
  obtain ⟨-, -, -, -, -, -, hd0, hnA, -, -, -, hwl, hfe, -⟩ := Env.init_facts hm hinit
  have hl1 : e.agents.length = 1 := hl
  have hlt : 0 < e.agents.length := by omega
  obtain ⟨hname, hidx, hpos, -, hhist, hcons, -, -, hrd, -, hsel, halg, -⟩ := hag 0 e.agents[0] _
    (List.getElem?_eq_getElem hlt) rfl
  have hmem : e.agents[0] ∈ e.agents := List.getElem_mem hlt
  generalize e.agents[0] = a at *
  have hp0 : a.position = 1 := (Option.some.inj hpos).symm
  have g : Mdp.GridOk .square 1 3 false e.mdp := (Env.started hm hinit []).1.reach.ok
  have hw : ∀ s, e.mdp.walls.get s = 0 := by intro s; rw [hwl, hW]
  have hS : e.mdp.nStates = 3 := g.nStates
  have hA : e.mdp.nActions = 4 := g.nActions
  have hp : ∀ s x t, s < 3 → t < 3 → e.mdp.trans.p s x t = if GridKind.square.Move 3 false s x t then (1 : ℚ) else 0 := by
    intro s x t hs ht
    show e.mdp.sas s x t = _
    rw [g.sas s x t hs ht, hw, hw]
    simp
  have hpp : ∀ s x t, s < 3 → t < 3 → (0 < e.mdp.trans.p s x t ↔ GridKind.square.Move 3 false s x t) := by
    intro s x t hs ht
    rw [hp s x t hs ht]
    split_ifs with h
    · exact ⟨fun _ => h, fun _ => one_pos⟩
    · exact ⟨fun hc => absurd hc (lt_irrefl _), fun hc => absurd hc h⟩
  have hpos : ∀ s x, s < 3 → x < 4 → (Spec.Possible e.mdp.trans s x ↔ x = 0 ∧ s < 2 ∨ x = 2 ∧ 0 < s) := by
    intro s x hs hx
    have : Spec.Possible e.mdp.trans s x ↔ ∃ t : Fin 3, GridKind.square.Move 3 false s x t := by
      constructor
      · rintro ⟨t, ht, h⟩
        have ht' : t < 3 := by rw [← hS]; exact ht
        exact ⟨⟨t, ht'⟩, (hpp s x t hs ht').1 h⟩
      · rintro ⟨t, h⟩
        exact ⟨t, by show t.val < e.mdp.nStates; rw [hS]; exact t.2, (hpp s x t hs t.2).2 h⟩
    rw [this]
    interval_cases s <;> interval_cases x <;> decide
  have hlive : Spec.Live e.mdp.trans 1 :=
    ⟨2, by show 2 < e.mdp.nActions; rw [hA]; decide, (hpos 1 2 (by decide) (by decide)).2 (.inr ⟨rfl, by decide⟩)⟩
  have hmask : ∀ s, s < 1 * 3 → Spec.MaskedAt e.mdp.trans exGreedyQ s := by
    intro s hs
    refine ⟨hS.symm, hA.symm, fun x hx => ?_⟩
    have hx' : x < 4 := by rw [← hA]; exact hx
    rw [hpos s x hs hx']
    unfold exGreedyQ
    simp only
    split_ifs with h h'
    · exact ⟨fun hc => hc.elim, fun hc => absurd (by omega) hc⟩
    · exact ⟨fun hc => hc.elim, fun hc => absurd (by omega) hc⟩
    · exact ⟨fun _ => by omega, fun _ => trivial⟩
  have hfol : Env.Follows .square 1 3 false e.mdp.trans a.name exGreedyQ 1 [1] e :=
    ⟨(Env.started hm hinit []).1, rfl, fun s hs => hmask s (by
      have hs' : s < e.mdp.nStates := hs
      omega), fun s x _ _ => by
      unfold exGreedyQ
      simp only
      split_ifs <;> simp, hlive, a, hmem, rfl, hsel, by rw [halg], by rw [halg], by
        rw [hp0]; show pyIdx e.mdp.nStates 1 = _; rw [hS]; rfl, by rw [hhist, hp0]⟩
  have hkeep : ∀ (l : List (Nat × Nat)) (s : Nat), s = 1 ∨ s = 2 → Spec.Plays e.mdp.trans s l →
      Spec.Greedy e.mdp.trans.nA exGreedyQ.get s l → 0 ∉ l.map (·.2) := by
    intro l
    induction l with
    | nil => simp
    | cons y l ih =>
      obtain ⟨x, t⟩ := y
      rintro s hs ⟨h1, h2, h3, h4⟩ ⟨h5, h6⟩
      have h1' : x < 4 := by rw [← hA]; exact h1
      have h2' : t < 3 := by rw [← hS]; exact h2
      have hmv := (hpp s x t (by omega) h2').1 (by rw [h3]; exact one_pos)
      have h50 := h5 0 (by show 0 < e.mdp.nActions; rw [hA]; decide)
      have ht : t = 1 ∨ t = 2 := by
        rcases hs with rfl | rfl
        · have hx2 : x ≠ 2 := by
            rintro rfl
            simp [exGreedyQ, Spec.NoBetter] at h50
            exact absurd h50 (by norm_num)
          clear h5 h50 h3 h1
          revert hmv hx2
          interval_cases x <;> interval_cases t <;> decide
        · clear h5 h50 h3 h1
          revert hmv
          interval_cases x <;> interval_cases t <;> decide
      rw [List.map_cons, List.mem_cons, not_or]
      exact ⟨by rcases ht with h | h <;> simp [h], ih t ht h4 h6⟩
  refine ⟨m, _, e, a, hm, hinit, hmem, hsel, by rw [halg], by rw [halg], hmask, by rw [hp0]; rfl, hlive,
    ⟨[(2, 0)], ⟨by show 2 < e.mdp.nActions; rw [hA]; decide, by show 0 < e.mdp.nStates; rw [hS]; decide,
      by rw [hp 1 2 0 (by decide) (by decide), if_pos (by decide)], trivial⟩, rfl, rfl⟩, fun k draws => ?_⟩
  obtain ⟨l, l1, l2, l3, j', l4, -⟩ := hfol.walk draws k 0
  simp only [Nat.zero_add] at l4
  obtain ⟨b, hb, hbn, -, -, -, -, hbh⟩ := l4.agent
  refine ⟨b, hb, hbn, by rw [hbh]; simp [l1], ?_⟩
  rw [hbh, List.mem_append, not_or]
  refine ⟨by simp, fun hc => hkeep l 1 (.inl rfl) l2 l3 ?_⟩
  simpa using hc

end MaMDP
