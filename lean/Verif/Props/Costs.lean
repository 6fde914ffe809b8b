import Verif.Lemmas.Costs
import Verif.Props.Optimality

/-! # C109: plans that weigh costs

An impossible action counts as worth 0 when a state's value is computed, so in states where some action is impossible
(every edge of a grid) the planner believes it can stop paying. -/

set_option linter.unusedSectionVars false

namespace MaMDP

/-- **C109**, what does hold: rewards of either sign, but every state that can be left has a next state that costs
nothing. Then no sequence of actions collects more than a greedy walk on the planned action values does, but for
the discounted tail and the tolerance. -/
theorem C109_plan_partial (M : Trans ℝ) (hM : Spec.SubStochastic M) (hdet : Spec.Deterministic M) (hA : 0 < M.nA)
    (r : Nat → ℝ) (R : ℝ) (hR : 0 ≤ R) (hr : ∀ t, t < M.nS → r t ≤ R)
    (hfree : ∀ s, s < M.nS → Spec.Live M s → ∃ a t, a < M.nA ∧ t < M.nS ∧ M.p s a t = 1 ∧ 0 ≤ r t)
    (γ tol : ℝ) (h0 : 0 < γ) (h1 : γ < 1) (htol : 0 < tol) (maxIter : Nat)
    (hstop : ∃ i, i < maxIter ∧ ∀ s, s < M.nS → |Spec.sweeps M r γ (i + 1) s - Spec.sweeps M r γ i s| < tol)
    (v : Nat → ℝ) (q : Nat → Nat → Ext ℝ) (hsol : solveHard M r maxIter γ tol = .ok (v, q))
    (s : Nat) (hs : s < M.nS) (l : List (Nat × Nat)) (hl : Spec.Plays M s l) (hg : Spec.Greedy M.nA q s l)
    (other : List (Nat × Nat)) (ho : Spec.Plays M s other) :
    Spec.discounted r γ other ≤
      Spec.discounted r γ l + γ ^ l.length * (R / (1 - γ)) + 2 * tol * γ / (1 - γ) ^ 2 := by
  obtain ⟨V, hV, -⟩ := C27_converges M hM hA r γ h0 h1
  have h1g : 0 < 1 - γ := by linarith
  have h2 := greedy_return_of hM hdet h0 h1 (bellman_attained_free hM hdet h0 h1 hV hfree)
    (bellman_le hM h0 h1 hR hr hV)
    (plan_close hM hA h0 h1 htol hV hstop hsol) (div_nonneg (mul_nonneg htol.le h0.le) h1g.le) l s hs hl hg
  have h3 := walk_le hM hdet h0 hV (bellman_nonneg_free hM hdet h0 h1 hV hfree) other s hs ho
  have h4 : 2 * (tol * γ / (1 - γ)) / (1 - γ) = 2 * tol * γ / (1 - γ) ^ 2 := by field_simp
  linarith

/-- The hypotheses hold on the chain with a cost of 5 in one state and a reward of 1 in the other. -/
example : (∀ s, s < (chain2 ℝ).nS → Spec.Live (chain2 ℝ) s → ∃ a t, a < (chain2 ℝ).nA ∧ t < (chain2 ℝ).nS ∧
      (chain2 ℝ).p s a t = 1 ∧ 0 ≤ (fun t => if t = 0 then (-5 : ℝ) else 1) t) ∧
    ∃ k v q, (∃ i, i < k ∧ ∀ s, s < (chain2 ℝ).nS →
      |Spec.sweeps (chain2 ℝ) (fun t => if t = 0 then -5 else 1) (1 / 2) (i + 1) s -
        Spec.sweeps (chain2 ℝ) (fun t => if t = 0 then -5 else 1) (1 / 2) i s| < 1 / 100) ∧
    solveHard (chain2 ℝ) (fun t => if t = 0 then -5 else 1) k (1 / 2) (1 / 100) = .ok (v, q) ∧
    Spec.Plays (chain2 ℝ) 0 [(0, 1), (1, 0), (0, 1), (0, 1)] := by
  have h2 : 0 < (chain2 ℝ).nA := by simp [chain2]
  obtain ⟨N, hN⟩ := C103_limit (chain2 ℝ) chain2_ok.1 h2 (fun t => if t = 0 then -5 else 1)
    (1 / 2) (1 / 100) (by norm_num) (by norm_num) (by norm_num)
  obtain ⟨v, q, e⟩ := (C33_settings (chain2 ℝ) (fun t => if t = 0 then -5 else 1) (N + 1) (1 / 2) (1 / 100)).2.2
    (by norm_num) (by norm_num) (by omega) h2
  refine ⟨fun s hs _ => ⟨0, 1, h2, by simp [chain2], ?_, by norm_num⟩, N + 1, v, q, hN (N + 1) (by omega), e,
    by simp [Spec.Plays, chain2]⟩
  change s < 2 at hs
  have : s = 0 ∨ s = 1 := by omega
  rcases this with rfl | rfl <;> simp [chain2]

variable {kind : GridKind} {W H : Nat} {selfT : Bool} {m m' : Mdp ℝ} {specs : List (AgentSpec ℝ Nat)}
  {e0 : Env ℝ Nat}

/-- The same in an environment after any history. -/
theorem C109_partial (hm : Mdp.GridReach kind W H selfT m) (hinit : Env.init m specs = (m', .ok e0))
    (ops : List (EnvOp ℝ Nat)) (e : Env ℝ Nat) (he : e = e0.run ops) (a : Agent ℝ Nat) (ha : a ∈ e.agents)
    (hsel : a.selector = maxSelector) (s : Nat) (hs : s = Spec.stateOf (W * H) a.position)
    (hlive : Spec.Live e.mdp.trans s)
    (r : Nat → ℝ) (hr : r = fun t => ∑ f ∈ Finset.range a.reward.d0, a.reward.get f * e.mdp.features.get f t)
    (R : ℝ) (hR : 0 ≤ R) (hrR : ∀ t, t < W * H → r t ≤ R)
    (hfree : ∀ s, s < W * H → Spec.Live e.mdp.trans s → ∃ t, Spec.Successor e.mdp.trans s t ∧ 0 ≤ r t)
    (maxIter : Nat) (γ tol : ℝ) (h0 : 0 < γ) (h1 : γ < 1) (htol : 0 < tol)
    (hstop : ∃ i, i < maxIter ∧ ∀ s, s < W * H →
      |Spec.sweeps e.mdp.trans r γ (i + 1) s - Spec.sweeps e.mdp.trans r γ i s| < tol)
    (d : Nat → Nat) (n : Nat) (draws : Nat → Nat → Nat) :
    ∃ e1, e.fit a.name (valueIterationFit e.mdp maxIter γ tol) d = (e1, .ok ()) ∧
    ∃ a' ∈ (e1.run ((List.range n).map fun i => .step a.name (draws i))).agents, a'.name = a.name ∧
      ∃ ps : List Nat, ps.length = n ∧ a'.history = a.history ++ ps.map (fun p : Nat => (p : Int)) ∧
        ∀ other, Spec.Plays e.mdp.trans s other → Spec.discounted r γ other ≤
          Spec.visitReward r γ ps + γ ^ n * (R / (1 - γ)) + 2 * tol * γ / (1 - γ) ^ 2 := by
  obtain ⟨e1, hfit⟩ := fit_succeeds hm hinit ops e he a ha hsel s hs hlive maxIter
    (by obtain ⟨i, hi, -⟩ := hstop; omega) γ tol h0 h1 d
  refine ⟨e1, hfit, ?_⟩
  obtain ⟨hsn, v, q, hsol, hf⟩ := follows_fit hm hinit ops e he a ha hsel s hs hlive maxIter γ tol d e1 hfit
  have hok : Env.Ok kind W H selfT e := by rw [he]; exact (Env.started hm hinit ops).1
  have hN : e.mdp.trans.nS = W * H := hok.reach.ok.nStates
  obtain ⟨hM, hdet, hA, -⟩ := C27_grid kind W H selfT e.mdp hok.reach
  obtain ⟨l, l1, l2, l3, j', ⟨-, -, -, -, -, a', ha', hn', -, -, -, -, hh⟩, -⟩ := hf.walk draws n 0
  simp only [Nat.zero_add] at ha'
  have hr' : stateReward a.reward.d0 a.reward.get e.mdp.features.get = r := by rw [hr]; rfl
  rw [hr'] at hsol
  refine ⟨a', ha', hn', l.map (·.2), by simpa using l1, by rw [hh, List.map_map]; rfl, fun other ho => ?_⟩
  have := C109_plan_partial e.mdp.trans hM hdet hA r R hR (by rw [hN]; exact hrR) (fun u hu hlu => by
      obtain ⟨t, ⟨ht, b, hb, hp⟩, hrt⟩ := hfree u (by rw [← hN]; exact hu) hlu
      exact ⟨b, t, hb, ht, (hdet u b t hu hb ht).resolve_left (ne_of_gt hp), hrt⟩)
    γ tol h0 h1 htol maxIter (by rw [hN]; exact hstop) v q hsol s hsn l l2 l3 other ho
  rw [l1, discounted_visits r γ l] at this
  exact this

/-- A corridor of five states that cost 10, 1, 10, 2 and nothing, and an agent in the middle who minds. -/
noncomputable def exPayer : List (AgentSpec ℝ Nat) :=
  [⟨"cat", 1, maxSelector, .fresh, some 2, .of1 ⟨2, fun f => if f = 0 then -1 else 0⟩, []⟩]

noncomputable def exCost (s : Nat) : ℝ := if s = 0 then 10 else if s = 1 then 1 else if s = 2 then 10 else
  if s = 3 then 2 else 0

/-- The agent there. -/
theorem exPayer_start : ∃ (m m' : Mdp ℝ) (e : Env ℝ Nat) (a : Agent ℝ Nat),
    Mdp.GridReach .square 1 5 false m ∧ Env.init m exPayer = (m', .ok e) ∧ a ∈ e.agents ∧ a.name = "cat" ∧
    a.position = 2 ∧ a.selector = maxSelector ∧ a.history = [2] ∧ e.mdp.nStates = 5 ∧ e.mdp.nActions = 4 ∧
    (∀ s x t, s < 5 → t < 5 → e.mdp.sas s x t = if GridKind.square.Move 5 false s x t then (1 : ℝ) else 0) ∧
    ∀ t, (∑ f ∈ Finset.range a.reward.d0, a.reward.get f * e.mdp.features.get f t) = - exCost t := by
  obtain ⟨m, hi, -, hF, -, hN, hNA, -, hW⟩ := Mdp.initGrid_ok (K := ℝ) (kind := .square) (W := 1) (H := 5)
    (selfT := false) (f := ⟨1, 5, fun _ s => exCost s⟩)
    (w := none) (by decide) rfl (by intro v hv; cases hv)
  have hm : Mdp.GridReach .square 1 5 false m := .init hi
  have hd : m.features.d0 - m.nAgents = 1 := by rw [hF, hN]; rfl
  obtain ⟨e, he⟩ := (C38_validated hm exPayer).2 (by
    intro sp hsp
    rw [exPayer, List.mem_singleton] at hsp
    subst hsp
    rw [hd]
    exact ⟨⟨_, rfl⟩, ⟨2, rfl, by decide, by decide⟩, by simp⟩)
  have hinit : Env.init m exPayer = ((Env.init m exPayer).1, .ok e) := Prod.ext rfl he
  have hnames : (exPayer.map (·.name)).Nodup := by simp [exPayer]
  obtain ⟨hl, -, hag⟩ := C38_agents hm hinit hnames
  obtain ⟨-, -, -, -, -, -, -, -, -, -, -, hwl, hfe, -⟩ := Env.init_facts hm hinit
  have hl1 : e.agents.length = 1 := hl
  have hlt : 0 < e.agents.length := by omega
  obtain ⟨hname, -, hpos, -, hhist, -, -, -, hrd, ⟨get, hget, hrw⟩, hsel, -⟩ :=
    hag 0 e.agents[0] ⟨"cat", 1, maxSelector, .fresh, some 2, .of1 ⟨2, fun f => if f = 0 then -1 else 0⟩, []⟩
      (List.getElem?_eq_getElem hlt) rfl
  have hmem : e.agents[0] ∈ e.agents := List.getElem_mem hlt
  generalize e.agents[0] = a at *
  have hp0 : a.position = 2 := (Option.some.inj hpos).symm
  have g : Mdp.GridOk .square 1 5 false e.mdp := (Env.started hm hinit []).1.reach.ok
  have hw : ∀ s, e.mdp.walls.get s = 0 := by intro s; rw [hwl, hW]
  have hd2 : a.reward.d0 = 2 := by rw [hrd, hd]; rfl
  have hr0 : a.reward.get 0 = -1 ∧ a.reward.get 1 = 0 := by
    rw [hrw, hrw]
    simp only [PyArr.of1, PyArr.nd.injEq] at hget
    rw [← hget.2]
    simp
  refine ⟨m, _, e, a, hm, hinit, hmem, hname, hp0, hsel, by rw [hhist, hp0], g.nStates, g.nActions, ?_, ?_⟩
  · intro s x t hs ht
    rw [g.sas s x t hs ht, hw, hw]
    simp
  · intro t
    rw [hd2, Finset.sum_range_succ, Finset.sum_range_one, hr0.1, hr0.2, hfe 0 t (by rw [hd]; decide), hF]
    simp

/-- **C109 is false of the code**, for every tolerance and iteration limit: in the corridor with costs 10, 1, 10,
2, 0 the agent in the middle, with a discount of 1/2, pays 1 and then must pay 10. In `n + 2`
steps its discounted reward is at most -6, whatever the ties, while going the other way loses at most 8/3. -/
theorem C109_refuted : ∃ (m m' : Mdp ℝ) (e : Env ℝ Nat) (a : Agent ℝ Nat) (r : Nat → ℝ),
    Mdp.GridReach .square 1 5 false m ∧ Env.init m exPayer = (m', .ok e) ∧ a ∈ e.agents ∧ a.name = "cat" ∧
    a.position = 2 ∧ a.history = [2] ∧
    r = (fun t => ∑ f ∈ Finset.range a.reward.d0, a.reward.get f * e.mdp.features.get f t) ∧
    ∀ (tol : ℝ) (maxIter n : Nat) (d : Nat → Nat) (draws : Nat → Nat → Nat), 0 < maxIter →
      ∃ e1, e.fit "cat" (valueIterationFit e.mdp maxIter (1 / 2) tol) d = (e1, .ok ()) ∧
      ∃ a' ∈ (e1.run ((List.range (n + 2)).map fun i => .step "cat" (draws i))).agents, a'.name = "cat" ∧
        ∃ ps : List Nat, ps.length = n + 2 ∧ a'.history = 2 :: ps.map (fun p : Nat => (p : Int)) ∧
          Spec.visitReward r (1 / 2) ps ≤ -6 ∧
          ∃ other, Spec.Plays e.mdp.trans 2 other ∧ other.length = n + 2 ∧
            -(8 / 3) ≤ Spec.discounted r (1 / 2) other := by
  obtain ⟨m, m', e, a, hm, hinit, hmem, hname, hp0, hsel, hhist, hS, hA, hsas, hsum⟩ := exPayer_start
  refine ⟨m, m', e, a, _, hm, hinit, hmem, hname, hp0, hhist, rfl, fun tol maxIter n d draws hk => ?_⟩
  have hr : (fun t => ∑ f ∈ Finset.range a.reward.d0, a.reward.get f * e.mdp.features.get f t) =
      fun t => - exCost t := funext hsum
  rw [hr]
  have hst : 2 = Spec.stateOf (1 * 5) a.position := by rw [hp0]; rfl
  have hS' : e.mdp.trans.nS = 5 := hS
  have hA' : e.mdp.trans.nA = 4 := hA
  have hone : ∀ s x t, s < 5 → t < 5 → GridKind.square.Move 5 false s x t → e.mdp.trans.p s x t = 1 := by
    intro s x t hs ht h
    change e.mdp.sas s x t = 1
    rw [hsas s x t hs ht, if_pos h]
  have hmove : ∀ s x t, s < 5 → t < 5 → 0 < e.mdp.trans.p s x t → GridKind.square.Move 5 false s x t := by
    intro s x t hs ht h
    by_contra hc
    change 0 < e.mdp.sas s x t at h
    rw [hsas s x t hs ht, if_neg hc] at h
    exact lt_irrefl _ h
  have h23 : e.mdp.trans.p 2 0 3 = 1 := hone 2 0 3 (by decide) (by decide) (by decide +kernel)
  have hlive : Spec.Live e.mdp.trans 2 :=
    ⟨0, by rw [hA']; decide, 3, by rw [hS']; decide, by rw [h23]; exact one_pos⟩
  obtain ⟨e1, hfit⟩ := fit_succeeds hm hinit [] e rfl a hmem hsel 2 hst hlive maxIter hk (1 / 2) tol (by norm_num)
    (by norm_num) d
  obtain ⟨hsn, v, q, hsol, hf⟩ := follows_fit hm hinit [] e rfl a hmem hsel 2 hst hlive maxIter (1 / 2) tol d e1 hfit
  obtain ⟨hM, hdet, hA0, -⟩ := C27_grid .square 1 5 false e.mdp (Env.started hm hinit []).1.reach
  have hr' : stateReward a.reward.d0 a.reward.get e.mdp.features.get = fun t => - exCost t := hr
  rw [hr'] at hsol
  have hcost : ∀ t, 0 ≤ exCost t := by intro t; unfold exCost; split_ifs <;> norm_num
  have hq := (solve_costs hM hdet hA0 (fun t _ => neg_nonpos.2 (hcost t)) (by
    intro s hs
    rw [hS'] at hs
    refine ⟨1, by rw [hA']; decide, ?_⟩
    rintro ⟨t, ht, hp⟩
    rw [hS'] at ht
    have := hmove s 1 t hs ht hp
    revert this
    have : ∀ s t : Fin 5, ¬ GridKind.square.Move 5 false s 1 t := by decide +kernel
    exact this ⟨s, hs⟩ ⟨t, ht⟩) hsol).2
  obtain ⟨l, l1, l2, l3, j', ⟨-, -, -, -, -, a', ha', hn', -, -, -, -, hh⟩, -⟩ := hf.walk draws (n + 2) 0
  simp only [Nat.zero_add] at ha'
  rw [hname] at hfit ha' hn'
  refine ⟨e1, hfit, a', ha', hn', l.map (·.2), by simpa using l1, by rw [hh, hhist, List.map_map]; rfl, ?_, ?_⟩
  · rcases l with _ | ⟨⟨x1, t1⟩, _ | ⟨⟨x2, t2⟩, l⟩⟩
    · simp at l1
    · simp at l1
    obtain ⟨hx1, ht1, hp1, hx2, ht2, hp2, -⟩ := l2
    obtain ⟨hg, -⟩ := l3
    rw [hA'] at hx1 hx2
    rw [hS'] at ht1 ht2
    have hm1 := hmove 2 x1 t1 (by decide) ht1 (by rw [hp1]; exact one_pos)
    have hm2 := hmove t1 x2 t2 ht1 ht2 (by rw [hp2]; exact one_pos)
    have hb : Spec.NoBetter (q 2 2) (q 2 x1) := hg 2 (by rw [hA']; decide)
    rw [hq 2 2 1 (by rw [hS']; decide) (by rw [hA']; decide) (by rw [hS']; decide)
      (hone 2 2 1 (by decide) (by decide) (by decide +kernel)),
      hq 2 x1 t1 (by rw [hS']; decide) (by rw [hA']; exact hx1) (by rw [hS']; exact ht1) hp1] at hb
    have hb : - exCost 1 ≤ - exCost t1 := hb
    have k1 : ∀ (x : Fin 4) (t : Fin 5), GridKind.square.Move 5 false 2 x t → t.1 = 1 ∨ t.1 = 3 := by decide +kernel
    have k2 : ∀ (x : Fin 4) (t : Fin 5), GridKind.square.Move 5 false 1 x t → t.1 = 0 ∨ t.1 = 2 := by decide +kernel
    have ht1' : t1 = 1 := by
      rcases k1 ⟨x1, hx1⟩ ⟨t1, ht1⟩ hm1 with h | h
      · exact h
      · have h : t1 = 3 := h
        subst h
        norm_num [exCost] at hb
    subst ht1'
    have hc2 : exCost t2 = 10 := by
      rcases k2 ⟨x2, hx2⟩ ⟨t2, ht2⟩ hm2 with h | h <;>
        (have h : t2 = _ := h; subst h; norm_num [exCost])
    have hneg : ∀ ps : List Nat, Spec.visitReward (fun t => - exCost t) (1 / 2) ps ≤ 0 := by
      intro ps
      induction ps with
      | nil => exact le_refl _
      | cons t ps ih =>
        simp only [Spec.visitReward]
        have := hcost t
        linarith
    simp only [List.map_cons, Spec.visitReward, hc2]
    have := hneg (l.map (·.2))
    have h1c : exCost 1 = 1 := by norm_num [exCost]
    rw [h1c]
    linarith
  · have h34 : e.mdp.trans.p 3 0 4 = 1 := hone 3 0 4 (by decide) (by decide) (by decide +kernel)
    have h43 : e.mdp.trans.p 4 2 3 = 1 := hone 4 2 3 (by decide) (by decide) (by decide +kernel)
    have h3c : exCost 3 = 2 := by norm_num [exCost]
    have h4c : exCost 4 = 0 := by norm_num [exCost]
    have hwalk : ∀ k, (∃ w, Spec.Plays e.mdp.trans 3 w ∧ w.length = k ∧
          -(4 / 3) ≤ Spec.discounted (fun t => - exCost t) (1 / 2) w) ∧
        ∃ w, Spec.Plays e.mdp.trans 4 w ∧ w.length = k ∧
          -(8 / 3) ≤ Spec.discounted (fun t => - exCost t) (1 / 2) w := by
      intro k
      induction k with
      | zero => exact ⟨⟨[], trivial, rfl, by norm_num [Spec.discounted]⟩, [], trivial, rfl, by
          norm_num [Spec.discounted]⟩
      | succ k ih =>
        obtain ⟨⟨w3, a3, b3, c3⟩, w4, a4, b4, c4⟩ := ih
        refine ⟨⟨(0, 4) :: w4, ⟨by rw [hA']; decide, by rw [hS']; decide, h34, a4⟩, by simp [b4], ?_⟩,
          (2, 3) :: w3, ⟨by rw [hA']; decide, by rw [hS']; decide, h43, a3⟩, by simp [b3], ?_⟩
        · simp only [Spec.discounted, h4c]; linarith
        · simp only [Spec.discounted, h3c]; linarith
    obtain ⟨⟨w, w1, w2, w3⟩, -⟩ := hwalk (n + 1)
    refine ⟨(0, 3) :: w, ⟨by rw [hA']; decide, by rw [hS']; decide, h23, w1⟩, by simp [w2], ?_⟩
    simp only [Spec.discounted, h3c]
    linarith

end MaMDP
