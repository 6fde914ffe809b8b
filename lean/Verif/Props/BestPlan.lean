import Verif.Lemmas.BestPlan

/-! # C162: with enough iterations, does a tree search find the best plan?

An agent plans alone, consumes nothing and has no interest in its own feature, so a walk brings the rewards of the states
it visits. Even then the search may stay away from the best plan for ever: the value of a state is the average over all
walks that ever led through it, at whatever depth and from wherever, and they are not forgotten. -/

set_option linter.unusedSectionVars false

namespace MaMDP

section
variable {K : Type} [Field K] [LinearOrder K] [IsStrictOrderedRing K]

/-- Where the first of two moves can lead, the second cannot, on a square grid without staying. -/
theorem square_two {W H : Nat} {m : Mdp K} (h : Mdp.GridReach .square W H false m) {s t u : Nat} (hs : s < m.nStates)
    (h1 : Spec.Successor m.trans s t) (h2 : Spec.Successor m.trans t u) : ¬ Spec.Successor m.trans s u := by
  have g := h.ok
  have key : ∀ {s t : Nat}, s < m.nStates → Spec.Successor m.trans s t →
      ∃ d : Int × Int, (d.1 + d.2) % 2 = 1 ∧ Spec.cell H t = ((Spec.cell H s).1 + d.1, (Spec.cell H s).2 + d.2) := by
    rintro s t hs ⟨ht, x, hx, hp⟩
    have ht' : t < W * H := by rw [← g.nStates]; exact ht
    obtain ⟨-, -, hm⟩ := (g.sas_ne_zero (by rw [← g.nStates]; exact hs) ht').1 (ne_of_gt hp)
    rcases hm with ⟨d, e1, e2⟩ | ⟨hc, -⟩
    · refine ⟨d, ?_, e2⟩
      have e1' : Spec.squareDir x = some d := e1
      unfold Spec.squareDir at e1'
      split at e1' <;> first | (cases e1'; rfl) | cases e1'
    · cases hc
  intro h3
  obtain ⟨d1, p1, c1⟩ := key hs h1
  obtain ⟨d2, p2, c2⟩ := key h1.1 h2
  obtain ⟨d3, p3, c3⟩ := key hs h3
  rw [c1, c3, Prod.mk.injEq] at c2
  dsimp only at c2
  omega

end

variable {W H : Nat} {m m' : Mdp ℝ} {specs : List (AgentSpec ℝ Nat)} {e0 : Env ℝ Nat}

/-- What the search is given of an agent that consumes nothing and plans alone. -/
theorem alone_info {e : Env ℝ Nat} {a : Agent ℝ Nat} (hcons : a.consumes = []) :
    ∃ A : SimAgents ℝ, extractInfo (e.agentInfos a false a.reward) = .ok A ∧
      A.nodes 0 = a.position ∧ A.featIdx[0]? = some a.featIdx ∧ (∀ f, A.consumesFeatures 0 f = false) ∧
      A.rewards 0 = a.reward.get := by
  have hinfo : e.agentInfos a false a.reward = [⟨a.position, a.nMoves, [], a.reward, a.featIdx⟩] := by
    unfold Env.agentInfos
    rw [hcons]
    rfl
  rw [hinfo]
  unfold extractInfo
  simp only [List.mapM_cons, List.mapM_nil, consumesRow, List.foldlM_nil, pure, Except.pure, bind, Except.bind,
    List.any_cons, List.any_nil, List.tail_cons, ne_eq, not_true_eq_false, decide_false, Bool.or_false,
    Bool.false_eq_true, if_false]
  exact ⟨_, rfl, rfl, rfl, fun _ => rfl, rfl⟩

/-- A greedy agent fitted by a search goes to a next state with the largest average. -/
theorem search_step {kind : GridKind} {selfT : Bool} (hm : Mdp.GridReach kind W H selfT m)
    (hinit : Env.init m specs = (m', .ok e0)) (ops : List (EnvOp ℝ Nat)) {e : Env ℝ Nat} (he : e = e0.run ops)
    {a : Agent ℝ Nat} (ha : a ∈ e.agents) (hcons : a.consumes = []) (hsel : a.selector = maxSelector) {s : Nat}
    (hj : pyIdx e.mdp.nStates a.position = some s) {o : MctsOpts ℝ} {A : SimAgents ℝ} {n : Nat}
    {plan : List (List Nat)} {cache : QCache ℝ} {draws : Nat → Nat → Draw ℝ} {fuel : Nat} {S : Search ℝ}
    (hA : extractInfo (e.agentInfos a o.interactive a.reward) = .ok A)
    (hS : (runMcts o e.mdp.trans A a.reward.d0 n e.mdp.features.get (some plan) cache draws fuel).2.2 = some (.ok S))
    {best : Nat} (hbest : Spec.Successor e.mdp.trans s best)
    (hbetter : ∀ t, Spec.Successor e.mdp.trans s t → t ≠ best → S.V t / (1 + S.N t) < S.V best / (1 + S.N best)) :
    ∃ out : FitOut ℝ, e.mctsFit a o n (some plan) cache draws fuel a.reward = some (out a.reward) ∧
      ∀ d d', (e.fit a.name out d).2 = .ok () ∧ ((e.fit a.name out d).1.step a.name d').2 = .ok (best : Int) := by
  obtain ⟨hok, hrd⟩ := reward_length hm hinit ops e he a ha
  obtain ⟨hsub, hdet, -⟩ := C27_grid kind W H selfT e.mdp hok.reach
  have hjn : s < e.mdp.nStates := pyIdx_lt hj
  have hfit : e.mctsFit a o n (some plan) cache draws fuel a.reward =
      some (.ok (.of1 ⟨e.mdp.nStates, fun t => .fin (S.V t)⟩,
        .of2 ⟨e.mdp.nStates, e.mdp.nActions, mctsQ e.mdp.trans S.V S.N s⟩)) := by
    unfold Env.mctsFit
    rw [hA]
    dsimp only
    rw [hS]
    dsimp only
    rw [hj]
  obtain ⟨A', S', here, g, q1, q2, q3, -, q5, -, q7, q8⟩ := C63_table e hdet hsub.le_one a o n
    _ cache draws fuel a.reward _ _ hfit
  rw [hA] at q1
  cases q1
  rw [hS] at q2
  cases q2
  rw [hj] at q3
  cases q3
  rw [q5] at hfit
  refine ⟨fun _ => _, hfit, fun d d' => ?_⟩
  have hcase : ∀ y, y < e.mdp.nActions → g s y = .nan ∨ ∃ t, Spec.Successor e.mdp.trans s t ∧ e.mdp.sas s y t = 1 ∧
      g s y = .fin (S.V t / (1 + S.N t)) := by
    intro y hy
    by_cases hp : Spec.Possible e.mdp.trans s y
    · obtain ⟨t, ht, hpt⟩ := hp
      have h1' : e.mdp.sas s y t = 1 := (hdet s y t hjn hy ht).resolve_left (ne_of_gt hpt)
      exact .inr ⟨t, ⟨ht, y, hy, hpt⟩, h1', q8 y t hy ht h1'⟩
    · exact .inl (q7 y hy hp)
  obtain ⟨b1, x, hx, hpx⟩ := hbest
  have hx1 : e.mdp.sas s x best = 1 := (hdet s x best hjn hx b1).resolve_left (ne_of_gt hpx)
  have hgx := q8 x best hx b1 hx1
  have hest : Spec.HasEstimate (⟨e.mdp.nStates, e.mdp.nActions, g⟩ : Arr2 (Ext ℝ)) s := by
    refine ⟨⟨x, hx, ?_⟩, fun ⟨⟨b, hb1, hb2⟩, _⟩ => ?_⟩
    · change g s x ≠ .nan
      rw [hgx]; simp
    · have hb2 : g s b = .pinf := hb2
      rcases hcase b hb1 with h | ⟨t, -, -, h⟩ <;> (rw [h] at hb2; cases hb2)
  obtain ⟨k1, y, hy, k2⟩ := Env.fit_step_among hok ha hrd hsel (out := fun _ => _) (g := g) rfl hj hest d d'
  have hfirst : Spec.NoBetter (g s x) (g s y) := hy.2 x hx
  rcases hcase y hy.1 with h | ⟨t, ht, hyt, h⟩
  · rw [hgx, h] at hfirst
    exact absurd hfirst (by simp [Spec.NoBetter])
  · have htb : t = best := by
      by_contra hne
      have h1 := hbetter t ht hne
      rw [hgx, h] at hfirst
      have hfirst : S.V best / (1 + S.N best) ≤ S.V t / (1 + S.N t) := hfirst
      linarith
    subst htb
    exact ⟨k1, (k2 t (C15_next_state kind W H selfT e.mdp hok.reach s y t hjn hy.1 b1
      (by rw [hyt]; exact one_pos))).2 hcons⟩

/-- What does hold of **C162**: on a square grid without staying, for plans of two moves, with any positive exploration
constant. If all plans that begin by going to `best` bring at least `lo`, and all others bring at most `hi < lo`, then
with enough iterations the agent goes to `best`. What is missing: the best plan is found whenever it is better than the
others, even if some plans that begin as it does are worse than some that do not. -/
theorem C162_partial (hm : Mdp.GridReach .square W H false m) (hinit : Env.init m specs = (m', .ok e0))
    (hrows : m.nNonAgent = m.features.d0 - m.nAgents)
    (hspecs : ∀ sp ∈ specs, ∀ f ∈ sp.consumes, -((m.features.d0 - m.nAgents + specs.length : Nat) : Int) ≤ f)
    (ops : List (EnvOp ℝ Nat)) (e : Env ℝ Nat) (he : e = e0.run ops) (a : Agent ℝ Nat) (ha : a ∈ e.agents)
    (hcons : a.consumes = []) (hsel : a.selector = maxSelector) (hown : a.reward.get a.featIdx = 0)
    (s : Nat) (hs : s = Spec.stateOf (W * H) a.position)
    (o : MctsOpts ℝ) (hint : o.interactive = false) (hb : o.bonus = ucbBonus) (hC : 0 < o.C)
    (k : Nat) (hk : 0 < k) (own : List Nat) (others : List (List Nat)) (h2 : 2 = k + own.sum + (others.map List.sum).sum)
    (fuel : Nat) (hf : 3 ≤ fuel) (cache : QCache ℝ) (draws : Nat → Nat → Draw ℝ)
    (r : Nat → ℝ) (hr : r = fun t => ∑ f ∈ Finset.range a.reward.d0, a.reward.get f * e.mdp.features.get f t)
    (best : Nat) (hbest : Spec.Successor e.mdp.trans s best) (lo hi : ℝ) (hlt : hi < lo)
    (hlo : ∀ u, Spec.Walk e.mdp.trans s [best, u] → lo ≤ r best + r u)
    (hhi : ∀ t u, t ≠ best → Spec.Walk e.mdp.trans s [t, u] → r t + r u ≤ hi) :
    ∃ n0, ∀ n, n0 ≤ n → ∃ out : FitOut ℝ,
      e.mctsFit a o n (some ((k :: own) :: others)) cache draws fuel a.reward = some (out a.reward) ∧
      ∀ d d', (e.fit a.name out d).2 = .ok () ∧ ((e.fit a.name out d).1.step a.name d').2 = .ok (best : Int) := by
  obtain ⟨hok, hrd⟩ := reward_length hm hinit ops e he a ha
  have hlive : Spec.Live e.mdp.trans s := by
    obtain ⟨h1, x, h3, h4⟩ := hbest
    exact ⟨x, h3, best, h1, h4⟩
  obtain ⟨hj, A, hA, S, hS, hgrow, -⟩ := explored hm hinit hrows hspecs ops he ha hs hlive o hint hb hC a.reward hrd
    (by rw [hcons]; simp) k hk own others (by omega) fuel (by omega) cache draws
  obtain ⟨A', hA', i1, i2, i3, i4⟩ := alone_info (e := e) hcons
  rw [hint, hA'] at hA
  cases hA
  have hsn : s < e.mdp.nStates := pyIdx_lt hj
  obtain ⟨-, hdet, -⟩ := C27_grid .square W H false e.mdp hok.reach
  have hnn : ∀ s x t, s < e.mdp.trans.nS → x < e.mdp.trans.nA → t < e.mdp.trans.nS → 0 ≤ e.mdp.trans.p s x t := by
    intro s x t h1 h2 h3
    rcases hdet s x t h1 h2 h3 with h | h <;> rw [h]
    exact zero_le_one
  have hnode : pyIdx e.mdp.trans.nS (A.nodes 0) = some s := by rw [i1]; exact hj
  have hr' : ∀ t, stateReward a.reward.d0 (A.rewards 0) e.mdp.features.get t = r t := by
    intro t
    rw [hr, i4]
    rfl
  -- the walks of the search
  have hwalk : ∀ V N cache' draws' st, (mctsIteration o e.mdp.trans A a.reward.d0 e.mdp.features.get A.nodes V N
      ((k :: own) :: others) cache' draws' fuel).2.2 = some (.ok st) →
      ∃ t u, st.visited = [t, u] ∧ Spec.Walk e.mdp.trans s [t, u] ∧ st.acc = r t + r u := by
    intro V N cache' draws' st h
    obtain ⟨p1, p2, p3⟩ := iteration_plain hint i2 (by rw [i4]; exact hown) i3 hnn hk h2 hf hnode h
    rcases hv : st.visited with _ | ⟨t, _ | ⟨u, _ | ⟨z, l⟩⟩⟩
    · rw [hv] at p1; simp at p1
    · rw [hv] at p1; simp at p1
    · rw [hv] at p2 p3
      refine ⟨t, u, rfl, p2, ?_⟩
      rw [p3]
      simp [hr']
    · rw [hv] at p1; simp at p1
  have hthrough : ∀ {z t u : Nat}, Spec.Successor e.mdp.trans s z → Spec.Walk e.mdp.trans s [t, u] → z ∈ [t, u] →
      z = t := by
    intro z t u hz hw hmem
    simp only [List.mem_cons, List.not_mem_nil, or_false] at hmem
    rcases hmem with h | rfl
    · exact h
    · exact absurd hz (square_two hok.reach hsn hw.1 hw.2.1)
  -- the walks through a state bring between some numbers
  have hmax : ∃ B : ℝ, ∀ t, t < e.mdp.nStates → |r t| ≤ B :=
    ⟨∑ t ∈ Finset.range e.mdp.nStates, |r t|, fun t ht =>
      Finset.single_le_sum (f := fun t => |r t|) (fun _ _ => abs_nonneg _) (Finset.mem_range.2 ht)⟩
  obtain ⟨B, hB⟩ := hmax
  have hB2 : ∀ t u, Spec.Walk e.mdp.trans s [t, u] → -(2 * B) ≤ r t + r u ∧ r t + r u ≤ 2 * B := by
    intro t u hw
    have b1 := abs_le.1 (hB t hw.1.1)
    have b2 := abs_le.1 (hB u hw.2.1.1)
    constructor <;> linarith [b1.1, b1.2, b2.1, b2.2]
  have hVbest : ∀ n, lo * (S n).N best ≤ (S n).V best := fun n =>
    (run_bounds hS (t := best) (lo := lo) (hi := 2 * B) (fun V N c' d' st h hmem => by
      obtain ⟨t, u, v1, v2, v3⟩ := hwalk V N c' d' st h
      rw [v1] at hmem
      have := hthrough hbest v2 hmem
      subst this
      rw [v3]
      exact ⟨hlo u v2, (hB2 _ _ v2).2⟩) n).1
  have hVother : ∀ n z, Spec.Successor e.mdp.trans s z → z ≠ best → (S n).V z ≤ hi * (S n).N z := fun n z hz hne =>
    (run_bounds hS (t := z) (lo := -(2 * B)) (hi := hi) (fun V N c' d' st h hmem => by
      obtain ⟨t, u, v1, v2, v3⟩ := hwalk V N c' d' st h
      rw [v1] at hmem
      have := hthrough hz v2 hmem
      subst this
      rw [v3]
      exact ⟨(hB2 _ _ v2).1, hhi z u hne v2⟩) n).2
  -- enough visits
  obtain ⟨X, hX⟩ := exists_nat_gt ((|lo| + |hi|) / ((lo - hi) / 2))
  have hall : ∃ n0, ∀ n, n0 ≤ n → ∀ t ∈ nextStates e.mdp.trans s, X ≤ (S n).N t := by
    refine all_from (P := fun t n => X ≤ (S n).N t) _ fun t ht => ?_
    obtain ⟨m1, x, m2, m3⟩ := mem_nextStates.1 ht
    exact hgrow t ⟨m1, x, m2, lt_of_le_of_ne (hnn _ _ _ hsn m2 m1) (Ne.symm m3)⟩ X
  obtain ⟨n0, hn0⟩ := hall
  refine ⟨n0, fun n hn => ?_⟩
  have hXn : ∀ t, Spec.Successor e.mdp.trans s t → (X : ℝ) ≤ (S n).N t := by
    rintro t ⟨m1, x, m2, m3⟩
    exact_mod_cast hn0 n hn t (mem_nextStates.2 ⟨m1, x, m2, ne_of_gt m3⟩)
  rw [div_lt_iff₀ (by linarith)] at hX
  -- close to the averages
  have hclose : ∀ t, Spec.Successor e.mdp.trans s t → ∀ z : ℝ, |z| ≤ |lo| + |hi| →
      z - (lo - hi) / 2 < z * (S n).N t / (1 + (S n).N t) ∧ z * (S n).N t / (1 + (S n).N t) < z + (lo - hi) / 2 := by
    intro t ht z hz
    have hNX := hXn t ht
    have hp : (0 : ℝ) < 1 + (S n).N t := by positivity
    have hz' := abs_le.1 hz
    have hd : 0 < (lo - hi) / 2 := by linarith
    have hm : (X : ℝ) * ((lo - hi) / 2) ≤ (S n).N t * ((lo - hi) / 2) := mul_le_mul_of_nonneg_right hNX hd.le
    rw [lt_div_iff₀ hp, div_lt_iff₀ hp]
    constructor <;> nlinarith [hz'.1, hz'.2]
  refine search_step hm hinit ops he ha hcons hsel hj (by rw [hint]; exact hA') (hS n) hbest fun t ht hne => ?_
  have c1 := (hclose best hbest lo (by have := abs_nonneg hi; linarith)).1
  have c2 := (hclose t ht hi (by have := abs_nonneg lo; linarith)).2
  have d1 : lo * (S n).N best / (1 + (S n).N best) ≤ (S n).V best / (1 + (S n).N best) :=
    div_le_div_of_nonneg_right (hVbest n) (by positivity)
  have d2 : (S n).V t / (1 + (S n).N t) ≤ hi * (S n).N t / (1 + (S n).N t) :=
    div_le_div_of_nonneg_right (hVother n t ht hne) (by positivity)
  linarith

/-- One agent in the middle of a corridor of five states, who cares for the first feature only. -/
noncomputable def exFive : List (AgentSpec ℝ Nat) :=
  [⟨"bee", 2, maxSelector, .fresh, some 2, .of1 ⟨2, fun f => if f = 0 then 1 else 0⟩, []⟩]

/-- The agent there, where it can go, and the worth of the states. -/
theorem exFive_start (φ : Nat → ℝ) : ∃ (m m' : Mdp ℝ) (e : Env ℝ Nat) (a : Agent ℝ Nat),
    Mdp.GridReach .square 1 5 false m ∧ Env.init m exFive = (m', .ok e) ∧
    m.nNonAgent = m.features.d0 - m.nAgents ∧ a ∈ e.agents ∧ a.name = "bee" ∧ a.position = 2 ∧ a.consumes = [] ∧
    a.selector = maxSelector ∧ a.reward.get a.featIdx = 0 ∧
    (∀ s, s < 5 → nextStates e.mdp.trans s = (if s + 1 < 5 then [s + 1] else []) ++ (if 0 < s then [s - 1] else [])) ∧
    ∀ t, (∑ f ∈ Finset.range a.reward.d0, a.reward.get f * e.mdp.features.get f t) = φ t := by
  obtain ⟨m, hi, -, hF, -, hN, hNA, -, hW⟩ := Mdp.initGrid_ok (K := ℝ) (kind := .square) (W := 1) (H := 5)
    (selfT := false) (f := ⟨1, 5, fun _ s => φ s⟩) (w := none) (by decide) rfl (by intro v hv; cases hv)
  have hm : Mdp.GridReach .square 1 5 false m := .init hi
  have hd : m.features.d0 - m.nAgents = 1 := by rw [hF, hN]; rfl
  have hrows : m.nNonAgent = m.features.d0 - m.nAgents := by rw [hNA, hF, hN]; rfl
  obtain ⟨e, he⟩ := (C38_validated hm exFive).2 (by
    intro sp hsp
    rw [exFive, List.mem_singleton] at hsp
    subst hsp
    rw [hd]
    exact ⟨⟨_, rfl⟩, ⟨2, rfl, by decide, by decide⟩, by simp⟩)
  have hinit : Env.init m exFive = ((Env.init m exFive).1, .ok e) := Prod.ext rfl he
  have hnames : (exFive.map (·.name)).Nodup := by simp [exFive]
  obtain ⟨hl, -, hag⟩ := C38_agents hm hinit hnames
  obtain ⟨-, -, -, -, -, -, -, -, -, -, -, hwl, hfe, -, -, hfacts⟩ := Env.init_facts hm hinit
  have hl1 : e.agents.length = 1 := hl
  have hlt : 0 < e.agents.length := by omega
  obtain ⟨hname, -, hpos, -, -, hcons, -, -, hrd, ⟨get, hget, hrw⟩, hsel, -⟩ :=
    hag 0 e.agents[0] ⟨"bee", 2, maxSelector, .fresh, some 2, .of1 ⟨2, fun f => if f = 0 then 1 else 0⟩, []⟩
      (List.getElem?_eq_getElem hlt) rfl
  have hmem : e.agents[0] ∈ e.agents := List.getElem_mem hlt
  generalize e.agents[0] = a at *
  have hp0 : a.position = 2 := (Option.some.inj hpos).symm
  have g : Mdp.GridOk .square 1 5 false e.mdp := (Env.started hm hinit []).1.reach.ok
  have hw : ∀ s, e.mdp.walls.get s = 0 := by intro s; rw [hwl, hW]
  have hA : e.mdp.nActions = 4 := g.nActions
  have hS : e.mdp.nStates = 5 := g.nStates
  have hd2 : a.reward.d0 = 2 := by rw [hrd, hd]; rfl
  have hr0 : a.reward.get 0 = 1 ∧ a.reward.get 1 = 0 := by
    rw [hrw, hrw]
    simp only [PyArr.of1, PyArr.nd.injEq] at hget
    rw [← hget.2]
    simp
  have hidx : a.featIdx = 1 := by
    obtain ⟨i, sp, q, r, h1, -, -, rfl⟩ := hfacts a hmem
    have hi' : i < exFive.length := (List.getElem?_eq_some_iff.1 h1).1
    have hi0 : i = 0 := by simpa [exFive] using hi'
    show i + m.nNonAgent = 1
    rw [hi0, hrows, hd]
  have hsum : ∀ t, (∑ f ∈ Finset.range a.reward.d0, a.reward.get f * e.mdp.features.get f t) = φ t := by
    intro t
    rw [hd2, Finset.sum_range_succ, Finset.sum_range_one, hr0.1, hr0.2, hfe 0 t (by rw [hd]; decide), hF]
    simp
  refine ⟨m, _, e, a, hm, hinit, hrows, hmem, hname, hp0, hcons, hsel, by rw [hidx]; exact hr0.2, ?_, hsum⟩
  intro s hs
  have hns : nextStates e.mdp.trans s = ((List.range 4).flatMap fun x =>
      (npWhere 5 fun t => decide (GridKind.square.Move 5 false s x t)).map fun t => (x, t)).map (·.2) := by
    unfold nextStates actionsStates
    rw [show e.mdp.trans.nA = 4 from hA, show e.mdp.trans.nS = 5 from hS]
    congr 1
    refine List.flatMap_congr fun x _ => ?_
    congr 1
    unfold npWhere
    refine List.filter_congr fun t ht => ?_
    have ht' : t < 5 := List.mem_range.1 ht
    have : e.mdp.trans.p s x t ≠ 0 ↔ GridKind.square.Move 5 false s x t := by
      show e.mdp.sas s x t ≠ 0 ↔ _
      rw [g.sas_ne_zero hs ht', hw, hw]
      simp
    simp only [this]
  rw [hns]
  have hdec : ∀ s : Fin 5, (((List.range 4).flatMap fun x =>
      (npWhere 5 fun t => decide (GridKind.square.Move 5 false s x t)).map fun t => (x, t)).map (·.2) : List Nat) =
      (if s.1 + 1 < 5 then [s.1 + 1] else []) ++ (if 0 < s.1 then [s.1 - 1] else []) := by decide +kernel
  exact hdec ⟨s, hs⟩

/-- The successors in the corridor. -/
theorem exFive_succ {e : Env ℝ Nat} (h : ∀ s, s < 5 → nextStates e.mdp.trans s =
      (if s + 1 < 5 then [s + 1] else []) ++ (if 0 < s then [s - 1] else []))
    (hnn : ∀ s x t, s < e.mdp.trans.nS → x < e.mdp.trans.nA → t < e.mdp.trans.nS → 0 ≤ e.mdp.trans.p s x t)
    (h5 : e.mdp.trans.nS = 5) {s t : Nat} (hs : s < 5) :
    Spec.Successor e.mdp.trans s t ↔ (t = s + 1 ∧ t < 5) ∨ (t + 1 = s) := by
  have : Spec.Successor e.mdp.trans s t ↔ t ∈ nextStates e.mdp.trans s := by
    rw [mem_nextStates]
    constructor
    · rintro ⟨m1, x, m2, m3⟩
      exact ⟨m1, x, m2, ne_of_gt m3⟩
    · rintro ⟨m1, x, m2, m3⟩
      exact ⟨m1, x, m2, lt_of_le_of_ne (hnn _ _ _ (by omega) m2 m1) (Ne.symm m3)⟩
  rw [this, h s hs, List.mem_append]
  split_ifs <;> simp <;> omega

theorem grid_nonneg {kind : GridKind} {selfT : Bool} {m : Mdp ℝ} (h : Mdp.GridReach kind W H selfT m) (s x t : Nat)
    (h1 : s < m.trans.nS) (h2 : x < m.trans.nA) (h3 : t < m.trans.nS) : 0 ≤ m.trans.p s x t := by
  obtain ⟨-, hdet, -⟩ := C27_grid kind W H selfT m h
  rcases hdet s x t h1 h2 h3 with h | h <;> rw [h]
  exact zero_le_one

/-- If all plans to the left bring more than all plans to the right, then with enough iterations the agent goes left:
here the states are worth 1, 5, 0, 0 and 2. -/
example : ∃ (m m' : Mdp ℝ) (e : Env ℝ Nat) (a : Agent ℝ Nat), Mdp.GridReach .square 1 5 false m ∧
    Env.init m exFive = (m', .ok e) ∧ a ∈ e.agents ∧ a.name = "bee" ∧ ∀ (o : MctsOpts ℝ), o.interactive = false →
    o.bonus = ucbBonus → 0 < o.C → ∀ (cache : QCache ℝ) (draws : Nat → Nat → Draw ℝ), ∃ n0, ∀ n, n0 ≤ n →
      ∃ out : FitOut ℝ, e.mctsFit a o n (some [[2]]) cache draws 3 a.reward = some (out a.reward) ∧
        ∀ d d', (e.fit "bee" out d).2 = .ok () ∧ ((e.fit "bee" out d).1.step "bee" d').2 = .ok 1 := by
  obtain ⟨m, m', e, a, hm, hinit, hrows, hmem, hname, hp, hcons, hsel, hown, hns, hsum⟩ :=
    exFive_start fun t => [1, 5, 0, 0, 2].getD t 0
  refine ⟨m, m', e, a, hm, hinit, hmem, hname, fun o hint hb hC cache draws => ?_⟩
  have hok : Env.Ok .square 1 5 false e := (Env.started hm hinit []).1
  have hsucc := fun {s t : Nat} => exFive_succ (e := e) hns (grid_nonneg hok.reach) hok.reach.ok.nStates (s := s) (t := t)
  have h := C162_partial hm hinit hrows (by simp [exFive]) [] e rfl a hmem hcons hsel hown 2 (by rw [hp]; rfl) o hint hb hC
    2 (by decide) [] [] (by simp) 3 le_rfl cache draws _ rfl 1 ((hsucc (by decide)).2 (by simp)) 5 2 (by norm_num)
    (fun u hw => by
      obtain ⟨-, hw, -⟩ := hw
      simp only [hsum]
      rcases (hsucc (by decide)).1 hw with ⟨rfl, -⟩ | h
      · norm_num
      · obtain rfl : u = 0 := by omega
        norm_num)
    (fun t u hne hw => by
      obtain ⟨h1, hw, -⟩ := hw
      rcases (hsucc (by decide)).1 h1 with ⟨rfl, -⟩ | h
      · simp only [hsum]
        rcases (hsucc (by decide)).1 hw with ⟨rfl, -⟩ | h
        · norm_num
        · obtain rfl : u = 2 := by omega
          norm_num
      · omega)
  rw [hname] at h
  exact h

/-- **C162 is false of the code**, with the exploration of the code and its constant up to the scale `ρ` of the rewards
(it is 1 if not given). In a corridor of five states, worth `-3ρ`, `6ρ`, 0, 0 and `5ρ`, the agent in the middle plans two
moves. The best plan is to go left and back, worth `6ρ`; no plan that begins to the right is worth more than `5ρ`. But if
the first iteration happens to go right twice, and the second to go left at its second move, then after any number of
iterations from 3 on, and whatever the generator does from then on, the agent goes right. -/
theorem C162_refuted (ρ : ℝ) (hρ : 0 < ρ) : ∃ (m m' : Mdp ℝ) (e : Env ℝ Nat) (a : Agent ℝ Nat) (r : Nat → ℝ),
    Mdp.GridReach .square 1 5 false m ∧ Env.init m exFive = (m', .ok e) ∧ a ∈ e.agents ∧ a.name = "bee" ∧
    a.position = 2 ∧ a.consumes = [] ∧ a.reward.get a.featIdx = 0 ∧
    (∀ t, r t = ∑ f ∈ Finset.range a.reward.d0, a.reward.get f * e.mdp.features.get f t) ∧
    Spec.Walk e.mdp.trans 2 [1, 2] ∧ r 1 + r 2 = 6 * ρ ∧
    (∀ t u, Spec.Walk e.mdp.trans 2 [t, u] → t ≠ 1 → r t + r u ≤ 5 * ρ) ∧
    ∀ (o : MctsOpts ℝ) (n k : Nat) (own : List Nat) (others : List (List Nat)) (cache : QCache ℝ)
      (draws : Nat → Nat → Draw ℝ) (fuel : Nat), o.interactive = false → o.bonus = ucbBonus → 0 < o.C → o.C ≤ ρ →
      0 < k → 2 = k + own.sum + (others.map List.sum).sum → 3 ≤ fuel → (draws 0 0).pick % 2 = 0 →
      (draws 0 1).pick % 2 = 0 → (draws 1 1).pick % 2 = 1 → 3 ≤ n →
      ∃ out : FitOut ℝ, e.mctsFit a o n (some ((k :: own) :: others)) cache draws fuel a.reward = some (out a.reward) ∧
        ∀ d d', (e.fit "bee" out d).2 = .ok () ∧ ((e.fit "bee" out d).1.step "bee" d').2 = .ok 3 := by
  obtain ⟨m, m', e, a, hm, hinit, hrows, hmem, hname, hp, hcons, hsel, hown, hns, hsum⟩ :=
    exFive_start fun t => ρ * [-3, 6, 0, 0, 5].getD t 0
  have hok : Env.Ok .square 1 5 false e := (Env.started hm hinit []).1
  have hnn := grid_nonneg hok.reach
  have hsucc := fun {s t : Nat} => exFive_succ (e := e) hns hnn hok.reach.ok.nStates (s := s) (t := t)
  obtain ⟨-, hrd⟩ := reward_length hm hinit [] e rfl a hmem
  refine ⟨m, m', e, a, _, hm, hinit, hmem, hname, hp, hcons, hown, fun t => (hsum t).symm,
    ⟨(hsucc (by decide)).2 (by simp), (hsucc (by decide)).2 (by simp), trivial⟩, by norm_num; ring, ?_, ?_⟩
  · rintro t u ⟨h1, h2, -⟩ hne
    rcases (hsucc (by decide)).1 h1 with ⟨rfl, -⟩ | h
    · rcases (hsucc (by decide)).1 h2 with ⟨rfl, -⟩ | h
      · norm_num
        linarith
      · obtain rfl : u = 2 := by omega
        norm_num
        linarith
    · omega
  · intro o n k own others cache draws fuel hint hb hC hCρ hk h2 hf hd0 hd1 hd2 hn
    have hbest : Spec.Successor e.mdp.trans 2 3 := (hsucc (by decide)).2 (by simp)
    have hlive : Spec.Live e.mdp.trans 2 := by
      obtain ⟨h1, x, h3, h4⟩ := hbest
      exact ⟨x, h3, 3, h1, h4⟩
    obtain ⟨hj, A, hA, S, hS, -⟩ := explored hm hinit hrows (by simp [exFive]) [] (e := e) rfl hmem (s := 2) (by rw [hp]; rfl) hlive
      o hint hb hC a.reward hrd (by rw [hcons]; simp) k hk own others (by omega) fuel (by omega) cache draws
    obtain ⟨A', hA', i1, i2, i3, i4⟩ := alone_info (e := e) hcons
    rw [hint, hA'] at hA
    cases hA
    obtain ⟨x, y, z, htrap⟩ := trapped_run hint hb hC.le hCρ hρ i2 (by rw [i4]; exact hown) i3 hnn hk h2 hf
      (by rw [i1]; exact hj) (hns 2 (by decide)) (hns 1 (by decide)) (hns 3 (by decide))
      (fun s _ => by
        rw [i4]
        exact hsum s) hd0 hd1 hd2 hS n hn
    have := search_step hm hinit [] (e := e) rfl hmem hcons hsel hj (by rw [hint]; exact hA') (hS n) hbest fun t ht hne => by
      rcases (hsucc (by decide)).1 ht with ⟨rfl, -⟩ | h
      · exact absurd rfl hne
      · obtain rfl : t = 1 := by omega
        exact htrap.less hρ
    rw [hname] at this
    exact this

end MaMDP
