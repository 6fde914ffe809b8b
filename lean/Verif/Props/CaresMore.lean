import Verif.Props.RewardErrors

/-! # C157: whoever cares more for a feature gets at least as much of it -/

set_option linter.unusedSectionVars false

namespace MaMDP

theorem visitReward_add (r g : Nat → ℝ) (δ γ : ℝ) : ∀ ps : List Nat,
    Spec.visitReward (fun t => r t + δ * g t) γ ps = Spec.visitReward r γ ps + δ * Spec.visitReward g γ ps
  | [] => by simp [Spec.visitReward]
  | t :: ps => by
    simp only [Spec.visitReward]
    rw [visitReward_add r g δ γ ps]
    ring

theorem visitReward_congr {nS : Nat} {r r' : Nat → ℝ} {γ : ℝ} (h : ∀ t, t < nS → r t = r' t) : ∀ ps : List Nat,
    (∀ t ∈ ps, t < nS) → Spec.visitReward r γ ps = Spec.visitReward r' γ ps
  | [], _ => rfl
  | t :: ps, hp => by
    simp only [Spec.visitReward]
    rw [h t (hp t List.mem_cons_self), visitReward_congr h ps fun u hu => hp u (List.mem_cons_of_mem _ hu)]

/-- Two walks, each at least about as good as the other by its own standard. -/
theorem more_from_best {M : Trans ℝ} {r r' g : Nat → ℝ} {δ γ E E' F F' : ℝ} (hδ : 0 < δ)
    (hrg : ∀ t, t < M.nS → r' t = r t + δ * g t) {s : Nat} {l l' : List (Nat × Nat)} (hl : Spec.Plays M s l)
    (hl' : Spec.Plays M s l') (e1 : Spec.discounted r γ l' ≤ Spec.discounted r γ l + E + 2 * F)
    (e2 : Spec.discounted r' γ l ≤ Spec.discounted r' γ l' + E' + 2 * F') :
    Spec.discounted g γ l ≤ Spec.discounted g γ l' + (E + E' + 2 * (F + F')) / δ := by
  rw [discounted_visits, discounted_visits] at e1 e2
  rw [visitReward_congr hrg _ (plays_lt l s hl), visitReward_congr hrg _ (plays_lt l' s hl'), visitReward_add,
    visitReward_add] at e2
  rw [discounted_visits, discounted_visits]
  have h6 : Spec.visitReward g γ (l.map (·.2)) - Spec.visitReward g γ (l'.map (·.2)) ≤ (E + E' + 2 * (F + F')) / δ := by
    rw [le_div_iff₀ hδ]
    linarith
  linarith

/-- **C157**: two plans for the same world, the second with rewards raised by `δ * g`. Whoever follows the second plan meets
at least as much of `g` (counted with the discount) as whoever follows the first from the same state, up to what the
tolerance and the ends of the walks leave open. -/
theorem C157_plan (M : Trans ℝ) (hM : Spec.SubStochastic M) (hdet : Spec.Deterministic M) (hA : 0 < M.nA)
    (r r' g : Nat → ℝ) (δ R R' : ℝ) (hδ : 0 < δ) (hrg : ∀ t, t < M.nS → r' t = r t + δ * g t)
    (hr : ∀ t, t < M.nS → 0 ≤ r t ∧ r t ≤ R) (hr' : ∀ t, t < M.nS → 0 ≤ r' t ∧ r' t ≤ R')
    (γ tol : ℝ) (h0 : 0 < γ) (h1 : γ < 1) (htol : 0 < tol) (k k' : Nat)
    (hstop : ∃ i, i < k ∧ ∀ s, s < M.nS → |Spec.sweeps M r γ (i + 1) s - Spec.sweeps M r γ i s| < tol)
    (hstop' : ∃ i, i < k' ∧ ∀ s, s < M.nS → |Spec.sweeps M r' γ (i + 1) s - Spec.sweeps M r' γ i s| < tol)
    (v v' : Nat → ℝ) (q q' : Nat → Nat → Ext ℝ) (hsol : solveHard M r k γ tol = .ok (v, q))
    (hsol' : solveHard M r' k' γ tol = .ok (v', q')) (s : Nat) (hs : s < M.nS) (l l' : List (Nat × Nat))
    (hl : Spec.Plays M s l) (hg : Spec.Greedy M.nA q s l) (hl' : Spec.Plays M s l') (hg' : Spec.Greedy M.nA q' s l') :
    Spec.discounted g γ l ≤ Spec.discounted g γ l' +
      (γ ^ l.length * (R / (1 - γ)) + γ ^ l'.length * (R' / (1 - γ)) + 4 * tol * γ / (1 - γ) ^ 2) / δ := by
  have e1 := C103_plan M hM hdet hA r R hr γ tol h0 h1 htol k hstop v q hsol s hs l hl hg l' hl'
  have e2 := C103_plan M hM hdet hA r' R' hr' γ tol h0 h1 htol k' hstop' v' q' hsol' s hs l' hl' hg' l hl
  refine (more_from_best hδ hrg hl hl' (E := γ ^ l.length * (R / (1 - γ))) (E' := γ ^ l'.length * (R' / (1 - γ)))
    (F := tol * γ / (1 - γ) ^ 2) (F' := tol * γ / (1 - γ) ^ 2)
    (e1.trans (le_of_eq (by ring))) (e2.trans (le_of_eq (by ring)))).trans (le_of_eq (by ring))

variable {kind : GridKind} {W H : Nat} {selfT : Bool} {m m' : Mdp ℝ} {specs : List (AgentSpec ℝ Nat)}
  {e0 : Env ℝ Nat}

/-- An agent that plans by value iteration, takes the best action and walks: what it walks is greedy in its plan. -/
theorem planned_walk (hm : Mdp.GridReach kind W H selfT m) (hinit : Env.init m specs = (m', .ok e0))
    (ops : List (EnvOp ℝ Nat)) (e : Env ℝ Nat) (he : e = e0.run ops) (a : Agent ℝ Nat) (ha : a ∈ e.agents)
    (hsel : a.selector = maxSelector) (s : Nat) (hs : s = Spec.stateOf (W * H) a.position)
    (hlive : Spec.Live e.mdp.trans s) (maxIter : Nat) (hk : 0 < maxIter) (γ tol : ℝ) (h0 : 0 < γ) (h1 : γ < 1)
    (d : Nat → Nat) (n : Nat) (draws : Nat → Nat → Nat) :
    s < e.mdp.trans.nS ∧ ∃ e1 v q, e.fit a.name (valueIterationFit e.mdp maxIter γ tol) d = (e1, .ok ()) ∧
    solveHard e.mdp.trans (stateReward a.reward.d0 a.reward.get e.mdp.features.get) maxIter γ tol = .ok (v, q) ∧
    ∃ a' ∈ (e1.run ((List.range n).map fun i => .step a.name (draws i))).agents, a'.name = a.name ∧
      ∃ l : List (Nat × Nat), l.length = n ∧ a'.history = a.history ++ (l.map (·.2)).map (fun p : Nat => (p : Int)) ∧
        Spec.Plays e.mdp.trans s l ∧ Spec.Greedy e.mdp.trans.nA q s l := by
  obtain ⟨e1, hfit⟩ := fit_succeeds hm hinit ops e he a ha hsel s hs hlive maxIter hk γ tol h0 h1 d
  obtain ⟨hsn, v, q, hsol, hf⟩ := follows_fit hm hinit ops e he a ha hsel s hs hlive maxIter γ tol d e1 hfit
  obtain ⟨l, l1, l2, l3, j', ⟨-, -, -, -, -, a', ha', hn', -, -, -, -, hh⟩, -⟩ := hf.walk draws n 0
  simp only [Nat.zero_add] at ha'
  exact ⟨hsn, e1, v, q, hfit, hsol, a', ha', hn', l, l1, by rw [hh, List.map_map]; rfl, l2, l3⟩

/-- **C157**, agents: two agents, of one environment or of two after any histories, stand on the same state of the same
grid with the same walls and features, and the second gives feature `f₀` a weight higher by `δ`. Both plan by value
iteration, take best actions and walk `n` steps. The second meets at least as much of the feature, counted with the
discount. -/
theorem C157_environment {m₂ m₂' : Mdp ℝ} {specs₂ : List (AgentSpec ℝ Nat)} {e₂0 : Env ℝ Nat}
    (hm : Mdp.GridReach kind W H selfT m) (hinit : Env.init m specs = (m', .ok e0))
    (ops : List (EnvOp ℝ Nat)) (e : Env ℝ Nat) (he : e = e0.run ops) (a : Agent ℝ Nat) (ha : a ∈ e.agents)
    (hm₂ : Mdp.GridReach kind W H selfT m₂) (hinit₂ : Env.init m₂ specs₂ = (m₂', .ok e₂0))
    (ops₂ : List (EnvOp ℝ Nat)) (e₂ : Env ℝ Nat) (he₂ : e₂ = e₂0.run ops₂) (b : Agent ℝ Nat) (hb : b ∈ e₂.agents)
    (hsel : a.selector = maxSelector) (hsel₂ : b.selector = maxSelector)
    (s : Nat) (hs : s = Spec.stateOf (W * H) a.position) (hs₂ : s = Spec.stateOf (W * H) b.position)
    (hwalls : ∀ t, t < W * H → e₂.mdp.walls.get t = e.mdp.walls.get t)
    (hfeat : ∀ f t, f < a.reward.d0 → t < W * H → e₂.mdp.features.get f t = e.mdp.features.get f t)
    (hlive : Spec.Live e.mdp.trans s)
    (f₀ : Nat) (hf₀ : f₀ < a.reward.d0) (δ : ℝ) (hδ : 0 < δ) (hd : b.reward.d0 = a.reward.d0)
    (hw : ∀ f, f < a.reward.d0 → b.reward.get f = a.reward.get f + if f = f₀ then δ else 0)
    (r r' : Nat → ℝ) (hr : r = fun t => ∑ f ∈ Finset.range a.reward.d0, a.reward.get f * e.mdp.features.get f t)
    (hr' : r' = fun t => ∑ f ∈ Finset.range b.reward.d0, b.reward.get f * e₂.mdp.features.get f t)
    (R R' : ℝ) (hrR : ∀ t, t < W * H → 0 ≤ r t ∧ r t ≤ R) (hrR' : ∀ t, t < W * H → 0 ≤ r' t ∧ r' t ≤ R')
    (k k' : Nat) (γ tol : ℝ) (h0 : 0 < γ) (h1 : γ < 1) (htol : 0 < tol)
    (hstop : ∃ i, i < k ∧ ∀ s, s < W * H →
      |Spec.sweeps e.mdp.trans r γ (i + 1) s - Spec.sweeps e.mdp.trans r γ i s| < tol)
    (hstop' : ∃ i, i < k' ∧ ∀ s, s < W * H →
      |Spec.sweeps e₂.mdp.trans r' γ (i + 1) s - Spec.sweeps e₂.mdp.trans r' γ i s| < tol)
    (d d' : Nat → Nat) (n : Nat) (draws draws' : Nat → Nat → Nat) :
    ∃ e1 e2, e.fit a.name (valueIterationFit e.mdp k γ tol) d = (e1, .ok ()) ∧
      e₂.fit b.name (valueIterationFit e₂.mdp k' γ tol) d' = (e2, .ok ()) ∧
    ∃ a' ∈ (e1.run ((List.range n).map fun i => .step a.name (draws i))).agents, a'.name = a.name ∧
    ∃ b' ∈ (e2.run ((List.range n).map fun i => .step b.name (draws' i))).agents, b'.name = b.name ∧
      ∃ ps ps' : List Nat, ps.length = n ∧ ps'.length = n ∧
        a'.history = a.history ++ ps.map (fun p : Nat => (p : Int)) ∧
        b'.history = b.history ++ ps'.map (fun p : Nat => (p : Int)) ∧
        Spec.visitReward (e.mdp.features.get f₀) γ ps ≤ Spec.visitReward (e.mdp.features.get f₀) γ ps' +
          (γ ^ n * ((R + R') / (1 - γ)) + 4 * tol * γ / (1 - γ) ^ 2) / δ := by
  have hok : Env.Ok kind W H selfT e := by rw [he]; exact (Env.started hm hinit ops).1
  have hok₂ : Env.Ok kind W H selfT e₂ := by rw [he₂]; exact (Env.started hm₂ hinit₂ ops₂).1
  have hN : e.mdp.trans.nS = W * H := hok.reach.ok.nStates
  have hN₂ : e₂.mdp.trans.nS = W * H := hok₂.reach.ok.nStates
  have hA₂ : e₂.mdp.trans.nA = e.mdp.trans.nA := hok₂.reach.ok.nActions.trans hok.reach.ok.nActions.symm
  have hp : ∀ s x t, s < W * H → t < W * H → e₂.mdp.trans.p s x t = e.mdp.trans.p s x t := by
    intro s x t hs ht
    change e₂.mdp.sas s x t = e.mdp.sas s x t
    rw [hok₂.reach.ok.sas s x t hs ht, hok.reach.ok.sas s x t hs ht, hwalls s hs, hwalls t ht]
  have hplays : ∀ (l : List (Nat × Nat)) (s : Nat), s < W * H →
      (Spec.Plays e₂.mdp.trans s l ↔ Spec.Plays e.mdp.trans s l) := by
    intro l
    induction l with
    | nil => exact fun s _ => Iff.rfl
    | cons x l ih =>
      intro s hs
      simp only [Spec.Plays, hN, hN₂, hA₂]
      constructor
      · rintro ⟨p1, p2, p3, p4⟩
        exact ⟨p1, p2, by rw [← hp s x.1 x.2 hs p2]; exact p3, (ih _ p2).1 p4⟩
      · rintro ⟨p1, p2, p3, p4⟩
        exact ⟨p1, p2, by rw [hp s x.1 x.2 hs p2]; exact p3, (ih _ p2).2 p4⟩
  obtain ⟨hsn, e1, v, q, hfit, hsol, a', ha', hn', l, hl, hh, hpl, hgr⟩ := planned_walk hm hinit ops e he a ha hsel s hs
    hlive k (by obtain ⟨i, hi, -⟩ := hstop; omega) γ tol h0 h1 d n draws
  have hsW : s < W * H := by rw [← hN]; exact hsn
  have hlive₂ : Spec.Live e₂.mdp.trans s := by
    obtain ⟨x, hx, t, ht, h⟩ := hlive
    rw [hN] at ht
    exact ⟨x, by rw [hA₂]; exact hx, t, by rw [hN₂]; exact ht, by rw [hp s x t hsW ht]; exact h⟩
  obtain ⟨hsn₂, e2, v₂, q₂, hfit₂, hsol₂, b', hb', hnb, l', hl', hh', hpl', hgr'⟩ := planned_walk hm₂ hinit₂ ops₂ e₂ he₂ b
    hb hsel₂ s hs₂ hlive₂ k' (by obtain ⟨i, hi, -⟩ := hstop'; omega) γ tol h0 h1 d' n draws'
  obtain ⟨hM, hdet, hA, -⟩ := C27_grid kind W H selfT e.mdp hok.reach
  obtain ⟨hM₂, hdet₂, hAp₂, -⟩ := C27_grid kind W H selfT e₂.mdp hok₂.reach
  have hr1 : stateReward a.reward.d0 a.reward.get e.mdp.features.get = r := by rw [hr]; rfl
  have hr2 : stateReward b.reward.d0 b.reward.get e₂.mdp.features.get = r' := by rw [hr']; rfl
  rw [hr1] at hsol
  rw [hr2] at hsol₂
  have hrg : ∀ t, t < e.mdp.trans.nS → r' t = r t + δ * e.mdp.features.get f₀ t := by
    intro t ht
    rw [hN] at ht
    rw [hr, hr', hd]
    have : ∀ f ∈ Finset.range a.reward.d0, b.reward.get f * e₂.mdp.features.get f t =
        a.reward.get f * e.mdp.features.get f t + if f = f₀ then δ * e.mdp.features.get f t else 0 := by
      intro f hf
      have hf := Finset.mem_range.1 hf
      rw [hw f hf, hfeat f t hf ht]
      split_ifs <;> ring
    simp only
    rw [Finset.sum_congr rfl this, Finset.sum_add_distrib, Finset.sum_ite_eq', if_pos (Finset.mem_range.2 hf₀)]
  have i1 := C103_plan e.mdp.trans hM hdet hA r R (by rw [hN]; exact hrR) γ tol h0 h1 htol k (by rw [hN]; exact hstop) v q
    hsol s hsn l hpl hgr l' ((hplays l' s hsW).1 hpl')
  have i2 := C103_plan e₂.mdp.trans hM₂ hdet₂ hAp₂ r' R' (by rw [hN₂]; exact hrR') γ tol h0 h1 htol k'
    (by rw [hN₂]; exact hstop') v₂ q₂ hsol₂ s hsn₂ l' hpl' hgr' l ((hplays l s hsW).2 hpl)
  refine ⟨e1, e2, hfit, hfit₂, a', ha', hn', b', hb', hnb, l.map (·.2), l'.map (·.2), by simpa using hl,
    by simpa using hl', hh, hh', ?_⟩
  have := more_from_best hδ hrg hpl ((hplays l' s hsW).1 hpl') (E := γ ^ l.length * (R / (1 - γ)))
    (E' := γ ^ l'.length * (R' / (1 - γ))) (F := tol * γ / (1 - γ) ^ 2) (F' := tol * γ / (1 - γ) ^ 2)
    (i1.trans (le_of_eq (by ring))) (i2.trans (le_of_eq (by ring)))
  rw [discounted_visits, discounted_visits, hl, hl'] at this
  exact this.trans (le_of_eq (by ring))

/-- A corridor with something to like at either end; two agents in the middle, the dog more fond of the right end. -/
noncomputable def exFond : List (AgentSpec ℝ Nat) :=
  [⟨"cat", 1, maxSelector, .fresh, some 2, .of1 ⟨4, fun f => if f = 0 then 3 else if f = 1 then 1 else 0⟩, []⟩,
    ⟨"dog", 1, maxSelector, .fresh, some 2, .of1 ⟨4, fun f => if f = 0 then 3 else if f = 1 then 7 else 0⟩, []⟩]

def exEitherEnd : Arr2 ℝ := ⟨2, 5, fun f s => if s = 4 * f then 1 else 0⟩

theorem exFond_start : ∃ (m m' : Mdp ℝ) (e : Env ℝ Nat) (a b : Agent ℝ Nat),
    Mdp.GridReach .square 1 5 false m ∧ Env.init m exFond = (m', .ok e) ∧ a ∈ e.agents ∧ b ∈ e.agents ∧
    a.position = 2 ∧ b.position = 2 ∧ a.selector = maxSelector ∧ b.selector = maxSelector ∧
    a.reward.d0 = 4 ∧ b.reward.d0 = 4 ∧ (∀ f, a.reward.get f = if f = 0 then 3 else if f = 1 then 1 else 0) ∧
    (∀ f, b.reward.get f = if f = 0 then 3 else if f = 1 then 7 else 0) ∧ Spec.Live e.mdp.trans 2 ∧
    ∀ f t, f < 2 → e.mdp.features.get f t = if t = 4 * f then 1 else 0 := by
  obtain ⟨m, hi, -, hF, -, hN, hNA, -, hW⟩ := Mdp.initGrid_ok (K := ℝ) (kind := .square) (W := 1) (H := 5)
    (selfT := false) (f := exEitherEnd) (w := none) (by decide) rfl (by intro v hv; cases hv)
  have hm : Mdp.GridReach .square 1 5 false m := .init hi
  have hd : m.features.d0 - m.nAgents = 2 := by rw [hF, hN]; rfl
  obtain ⟨e, he⟩ := (C38_validated hm exFond).2 (by
    intro sp hsp
    simp only [exFond, List.mem_cons, List.not_mem_nil, or_false] at hsp
    rw [hd]
    rcases hsp with rfl | rfl
    · exact ⟨⟨_, rfl⟩, ⟨2, rfl, by decide, by decide⟩, by simp⟩
    · exact ⟨⟨_, rfl⟩, ⟨2, rfl, by decide, by decide⟩, by simp⟩)
  have hinit : Env.init m exFond = ((Env.init m exFond).1, .ok e) := Prod.ext rfl he
  have hnames : (exFond.map (·.name)).Nodup := by simp [exFond]
  obtain ⟨hl, -, hag⟩ := C38_agents hm hinit hnames
  obtain ⟨-, -, -, -, -, -, -, -, -, -, -, hwl, hfe, -⟩ := Env.init_facts hm hinit
  have hl2 : e.agents.length = 2 := hl
  have hlt : 0 < e.agents.length := by omega
  have hlt1 : 1 < e.agents.length := by omega
  obtain ⟨-, -, hpos, -, -, -, -, -, hrd, ⟨get, hget, hrw⟩, hsel, -⟩ :=
    hag 0 e.agents[0] ⟨"cat", 1, maxSelector, .fresh, some 2,
      .of1 ⟨4, fun f => if f = 0 then 3 else if f = 1 then 1 else 0⟩, []⟩ (List.getElem?_eq_getElem hlt) rfl
  obtain ⟨-, -, hpos', -, -, -, -, -, hrd', ⟨get', hget', hrw'⟩, hsel', -⟩ :=
    hag 1 e.agents[1] ⟨"dog", 1, maxSelector, .fresh, some 2,
      .of1 ⟨4, fun f => if f = 0 then 3 else if f = 1 then 7 else 0⟩, []⟩ (List.getElem?_eq_getElem hlt1) rfl
  have g : Mdp.GridOk .square 1 5 false e.mdp := (Env.started hm hinit []).1.reach.ok
  have hw : ∀ s, e.mdp.walls.get s = 0 := by intro s; rw [hwl, hW]
  refine ⟨m, _, e, e.agents[0], e.agents[1], hm, hinit, List.getElem_mem hlt, List.getElem_mem hlt1,
    (Option.some.inj hpos).symm, (Option.some.inj hpos').symm, hsel, hsel', by rw [hrd, hd]; rfl, by rw [hrd', hd]; rfl,
    fun f => ?_, fun f => ?_, ?_, fun f t hf => ?_⟩
  · rw [hrw]
    simp only [PyArr.of1, PyArr.nd.injEq] at hget
    rw [← hget.2]
    simp
  · rw [hrw']
    simp only [PyArr.of1, PyArr.nd.injEq] at hget'
    rw [← hget'.2]
    simp
  · exact ⟨0, by change 0 < e.mdp.nActions; rw [g.nActions]; decide, 3, by change 3 < e.mdp.nStates; rw [g.nStates]; decide,
      (g.sas_pos (by decide) (by decide)).2 ⟨by simp [hw], by simp [hw], by decide⟩⟩
  · rw [hfe f t (by rw [hd]; exact hf), hF]
    rfl

example : ∃ (m m' : Mdp ℝ) (e : Env ℝ Nat) (a b : Agent ℝ Nat) (N : Nat),
    Mdp.GridReach .square 1 5 false m ∧ Env.init m exFond = (m', .ok e) ∧ a ∈ e.agents ∧ b ∈ e.agents ∧
    ∀ k, N ≤ k → ∀ (d d' : Nat → Nat) (n : Nat) (draws draws' : Nat → Nat → Nat),
    ∃ e1 e2, e.fit a.name (valueIterationFit e.mdp k (1 / 2) (1 / 100)) d = (e1, .ok ()) ∧
      e.fit b.name (valueIterationFit e.mdp k (1 / 2) (1 / 100)) d' = (e2, .ok ()) ∧
    ∃ a' ∈ (e1.run ((List.range n).map fun i => .step a.name (draws i))).agents, a'.name = a.name ∧
    ∃ b' ∈ (e2.run ((List.range n).map fun i => .step b.name (draws' i))).agents, b'.name = b.name ∧
      ∃ ps ps' : List Nat, ps.length = n ∧ ps'.length = n ∧
        a'.history = a.history ++ ps.map (fun p : Nat => (p : Int)) ∧
        b'.history = b.history ++ ps'.map (fun p : Nat => (p : Int)) ∧
        Spec.visitReward (e.mdp.features.get 1) (1 / 2) ps ≤ Spec.visitReward (e.mdp.features.get 1) (1 / 2) ps' +
          ((1 / 2) ^ n * ((3 + 7) / (1 - 1 / 2)) + 4 * (1 / 100) * (1 / 2) / (1 - 1 / 2) ^ 2) / 6 := by
  obtain ⟨m, m', e, a, b, hm, hinit, ha, hb, hp, hp', hsel, hsel', hd, hd', hw, hw', hlive, hf⟩ := exFond_start
  have hok : Env.Ok .square 1 5 false e := (Env.started hm hinit []).1
  have hN : e.mdp.trans.nS = 1 * 5 := hok.reach.ok.nStates
  obtain ⟨hM, -, hA, -⟩ := C27_grid .square 1 5 false e.mdp hok.reach
  obtain ⟨N, hN1⟩ := C103_limit e.mdp.trans hM hA
    (fun t => ∑ f ∈ Finset.range a.reward.d0, a.reward.get f * e.mdp.features.get f t) (1 / 2) (1 / 100) (by norm_num)
    (by norm_num) (by norm_num)
  obtain ⟨N', hN2⟩ := C103_limit e.mdp.trans hM hA
    (fun t => ∑ f ∈ Finset.range b.reward.d0, b.reward.get f * e.mdp.features.get f t) (1 / 2) (1 / 100) (by norm_num)
    (by norm_num) (by norm_num)
  rw [hN] at hN1 hN2
  refine ⟨m, m', e, a, b, N + N', hm, hinit, ha, hb, fun k hk d d' n draws draws' => ?_⟩
  refine C157_environment hm hinit [] e rfl a ha hm hinit [] e rfl b hb hsel hsel' 2 (by rw [hp]; rfl) (by rw [hp']; rfl)
    (fun _ _ => rfl) (fun _ _ _ _ => rfl) hlive 1 (by rw [hd]; decide) 6 (by norm_num) (by rw [hd, hd'])
    (fun f _ => by rw [hw, hw']; split_ifs <;> first | omega | norm_num) _ _ rfl rfl 3 7 (fun t _ => ?_) (fun t _ => ?_) k k
    (1 / 2) (1 / 100) (by norm_num) (by norm_num) (by norm_num) (hN1 k (by omega)) (hN2 k (by omega)) d d' n draws draws'
  · simp only [hd, hw, Finset.sum_range_succ, Finset.sum_range_zero, hf 0 t (by decide), hf 1 t (by decide)]
    norm_num
    constructor <;> split_ifs <;> first | omega | norm_num
  · simp only [hd', hw', Finset.sum_range_succ, Finset.sum_range_zero, hf 0 t (by decide), hf 1 t (by decide)]
    norm_num
    constructor <;> split_ifs <;> first | omega | norm_num

end MaMDP
