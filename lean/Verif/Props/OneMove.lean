import Verif.Lemmas.OneMove
import Verif.Lemmas.EnvMove
import Verif.Props.NullPlanner

/-! # C108: does a tree search that looks one move ahead find the best next state?

It does not, however long it runs. The visits of the agent's own state are never counted, so once every next state
has been tried the exploration bonus is not a number and all further iterations go to the first of them; and a value
is divided by one more than its visits, so states tried once count half. -/

set_option linter.unusedSectionVars false

namespace MaMDP

variable {K : Type} [Field K] [LinearOrder K] [IsStrictOrderedRing K]
variable {kind : GridKind} {W H : Nat} {selfT : Bool} {m m' : Mdp K} {specs : List (AgentSpec K Nat)}
  {e0 : Env K Nat}

/-- The first of the next states is where the lowest possible action leads. -/
theorem nextStates_head {M : Trans K} {s x first : Nat} (hx : x < M.nA) (hf : first < M.nS) (hp : M.p s x first ≠ 0)
    (huniq : ∀ t, t < M.nS → M.p s x t ≠ 0 → t = first)
    (hlow : ∀ y, y < x → ∀ t, t < M.nS → M.p s y t = 0) : ∃ rest, nextStates M s = first :: rest := by
  have hsplit : List.range M.nA = List.range x ++ (List.range (M.nA - x)).map (x + ·) := by
    rw [← List.range_add, show x + (M.nA - x) = M.nA by omega]
  obtain ⟨k, hk⟩ : ∃ k, M.nA - x = k + 1 := ⟨M.nA - x - 1, by omega⟩
  have hempty : ∀ y, y < x → npWhere M.nS (fun t => decide (M.p s y t ≠ 0)) = [] := by
    intro y hy
    rw [List.eq_nil_iff_forall_not_mem]
    intro t ht
    rw [mem_npWhere] at ht
    exact (of_decide_eq_true ht.2) (hlow y hy t ht.1)
  have hpre : (List.range x).flatMap (fun a => (npWhere M.nS fun t => decide (M.p s a t ≠ 0)).map fun t => (a, t)) = [] := by
    rw [List.flatMap_eq_nil_iff]
    intro y hy
    rw [hempty y (List.mem_range.1 hy)]
    rfl
  obtain ⟨r, hr⟩ : ∃ r, npWhere M.nS (fun t => decide (M.p s x t ≠ 0)) = first :: r := by
    have hmem : first ∈ npWhere M.nS (fun t => decide (M.p s x t ≠ 0)) := mem_npWhere.2 ⟨hf, by simpa using hp⟩
    rcases hl : npWhere M.nS (fun t => decide (M.p s x t ≠ 0)) with _ | ⟨u, r⟩
    · rw [hl] at hmem; cases hmem
    · have : u ∈ npWhere M.nS (fun t => decide (M.p s x t ≠ 0)) := by rw [hl]; exact List.mem_cons_self
      rw [mem_npWhere] at this
      rw [huniq u this.1 (of_decide_eq_true this.2)]
      exact ⟨r, rfl⟩
  unfold nextStates actionsStates
  rw [hsplit, List.flatMap_append, hpre, List.nil_append, hk, List.range_succ_eq_map, List.map_cons, List.flatMap_cons,
    Nat.add_zero, hr]
  exact ⟨_, rfl⟩

/-- **C108**, what the search really computes, in an environment after any history. The agent plans alone, one move,
and consumes nothing; its state is not its own successor; there are at most as many successors `D` as iterations.
Then every successor but the first is tried once and the first gets all other iterations, whatever the rewards, the
exploration setting and the outcomes of the generator. A state tried `c` times, with reward `r`, has action value
`c / (c + 1) * r`. -/
theorem C108_exact (hm : Mdp.GridReach kind W H selfT m) (hinit : Env.init m specs = (m', .ok e0))
    (hrows : m.nNonAgent = m.features.d0 - m.nAgents)
    (ops : List (EnvOp K Nat)) (e : Env K Nat) (he : e = e0.run ops) (a : Agent K Nat) (ha : a ∈ e.agents)
    (hcons : a.consumes = []) (o : MctsOpts K) (hi : o.interactive = false) (hb : ∀ k, o.bonus 0 k = none)
    (s : Nat) (hs : s = Spec.stateOf (W * H) a.position) (hself : ¬ Spec.Successor e.mdp.trans s s)
    (D : Finset Nat) (hD : ∀ t, t ∈ D ↔ Spec.Successor e.mdp.trans s t)
    (x first : Nat) (hx : x < e.mdp.nActions) (hf : first < W * H) (hxf : e.mdp.sas s x first = 1)
    (hlow : ∀ y, y < x → ¬ Spec.Possible e.mdp.trans s y)
    (nIter : Nat) (hn : D.card ≤ nIter) (cache : QCache K) (draws : Nat → Nat → Draw K) (fuel : Nat) (hfuel : 2 ≤ fuel) :
    ∃ (v : Nat → Ext K) (g : Nat → Nat → Ext K),
      e.mctsFit a o nIter (some [[1]]) cache draws fuel a.reward =
        some (.ok (.of1 ⟨e.mdp.nStates, v⟩, .of2 ⟨e.mdp.nStates, e.mdp.nActions, g⟩)) ∧
      (∀ y, y < e.mdp.nActions → ¬ Spec.Possible e.mdp.trans s y → g s y = .nan) ∧
      ∀ y t, y < e.mdp.nActions → t < W * H → e.mdp.sas s y t = 1 →
        ∀ c : Nat, c = (if t = first then nIter - D.card + 1 else 1) →
          g s y = .fin ((c : K) / (c + 1) *
            ∑ f ∈ Finset.range a.reward.d0, a.reward.get f * e.mdp.features.get f t) := by
  obtain ⟨hok, hrd⟩ := reward_length hm hinit ops e he a ha
  obtain ⟨-, hok0, -, -, -, -, hd, hna, -, -, -, -, -, -, -, hag⟩ := Env.init_facts hm hinit
  have hl : _ := (Env.started hm hinit ops).2
  rw [← he] at hl
  obtain ⟨j, hj, -⟩ := hok.pos a ha
  have hsj := Env.stateOf_eq hj
  rw [hok.reach.ok.nStates, ← hs] at hsj
  subst hsj
  have hjn : j < e.mdp.nStates := pyIdx_lt hj
  have hN : e.mdp.nStates = W * H := hok.reach.ok.nStates
  obtain ⟨hsub, hdet, hA, -⟩ := C27_grid kind W H selfT e.mdp hok.reach
  have hle1 := hsub.le_one
  -- the agent's feature row
  have hfeat : a.featIdx = m.features.d0 - m.nAgents + a.idx ∧ a.featIdx < a.reward.d0 := by
    obtain ⟨b, hb', -, g1, -, -, g2, -, g3, -⟩ := hl.back hok0 hok ha
    rw [g1, g2, g3]
    obtain ⟨i, sp, q, r, h1, -, -, rfl⟩ := hag b hb'
    have hi' : i < specs.length := (List.getElem?_eq_some_iff.1 h1).1
    refine ⟨?_, ?_⟩
    · show i + m.nNonAgent = _ + i
      rw [hrows]; omega
    · show i + m.nNonAgent < m.features.d0 - m.nAgents + specs.length
      rw [hrows]; omega
  have hzero : ∀ t, t < W * H → t ≠ j → e.mdp.features.get a.featIdx t = 0 := by
    intro t ht htj
    have := (C41_zero_elsewhere hm hinit ops a (by rw [← he]; exact ha)).1 t ht (by rw [← hs]; exact htj)
    rw [← he] at this
    rw [hfeat.1]
    exact this
  -- what the search is given
  have hinfo : e.agentInfos a o.interactive a.reward = [⟨a.position, a.nMoves, [], a.reward, a.featIdx⟩] := by
    unfold Env.agentInfos
    rw [hi, hcons]
    rfl
  have hpos01 : ∀ y t, y < e.mdp.nActions → t < e.mdp.nStates → e.mdp.sas j y t ≠ 0 → e.mdp.sas j y t = 1 :=
    fun y t hy ht h => (hdet j y t hjn hy ht).resolve_left h
  have huniq : ∀ y t u, y < e.mdp.nActions → t < e.mdp.nStates → u < e.mdp.nStates → e.mdp.sas j y t = 1 →
      e.mdp.sas j y u = 1 → u = t := by
    intro y t u hy ht hu h1 h2
    by_contra hut
    have hsum := hle1 j y hjn hy
    have : e.mdp.sas j y u + e.mdp.sas j y t ≤ ∑ z ∈ Finset.range e.mdp.nStates, e.mdp.sas j y z := by
      rw [← Finset.sum_pair hut]
      refine Finset.sum_le_sum_of_subset_of_nonneg ?_ fun z hz _ => ?_
      · intro z hz
        rw [Finset.mem_insert, Finset.mem_singleton] at hz
        rw [Finset.mem_range]
        rcases hz with rfl | rfl
        · exact hu
        · exact ht
      · rcases hdet j y z hjn hy (Finset.mem_range.1 hz) with h0 | h0
        · exact le_of_eq h0.symm
        · exact le_of_lt (by rw [show e.mdp.sas j y z = 1 from h0]; exact one_pos)
    have hsum' : ∑ z ∈ Finset.range e.mdp.nStates, e.mdp.sas j y z ≤ 1 := hsum
    rw [h1, h2] at this
    linarith
  obtain ⟨rest, hhead⟩ := nextStates_head (M := e.mdp.trans) (s := j) (x := x) (first := first) hx
    (by rw [← hN] at hf; exact hf) (by change e.mdp.sas j x first ≠ 0; rw [hxf]; exact one_ne_zero)
    (fun t ht hp => huniq x first t hx (by rw [hN]; exact hf) ht hxf (hpos01 x t hx ht hp))
    (fun y hy t ht => by
      have hyA : y < e.mdp.nActions := by omega
      rcases hdet j y t hjn hyA ht with h0 | h0
      · exact h0
      · exact absurd ⟨t, ht, by rw [h0]; exact one_pos⟩ (hlow y hy))
  have hmemD : ∀ t, t ∈ succSet e.mdp.trans j ↔ t ∈ D := by
    intro t
    rw [hD]
    unfold succSet
    rw [List.mem_toFinset, mem_nextStates]
    constructor
    · rintro ⟨h1, y, hy, h2⟩
      refine ⟨h1, y, hy, ?_⟩
      have : e.mdp.sas j y t = 1 := hpos01 y t hy h1 h2
      change 0 < e.mdp.sas j y t
      rw [this]; exact one_pos
    · rintro ⟨h1, y, hy, h2⟩
      exact ⟨h1, y, hy, ne_of_gt h2⟩
  have hSD : succSet e.mdp.trans j = D := Finset.ext hmemD
  have hselfn : j ∉ nextStates e.mdp.trans j := by
    intro hc
    exact hself ((hD j).1 ((hmemD j).1 (by unfold succSet; rw [List.mem_toFinset]; exact hc)))
  obtain ⟨A, hA1, hA2, hA3, hA4, hA5⟩ : ∃ A : SimAgents K, extractInfo (e.agentInfos a o.interactive a.reward) = .ok A ∧
      A.nodes 0 = a.position ∧ A.featIdx[0]? = some a.featIdx ∧ (∀ f, A.consumesFeatures 0 f = false) ∧
      A.rewards 0 = a.reward.get := by
    rw [hinfo]
    unfold extractInfo
    simp only [List.mapM_cons, List.mapM_nil, consumesRow, List.foldlM_nil, pure, Except.pure, bind, Except.bind,
      List.any_cons, List.any_nil, List.tail_cons, ne_eq, not_true_eq_false, decide_false, Bool.or_false,
      Bool.false_eq_true, if_false]
    exact ⟨_, rfl, rfl, rfl, fun _ => rfl, rfl⟩
  have hfresh : OneMove (stateReward a.reward.d0 (A.rewards 0) (marked e.mdp.features.get a.featIdx j))
      (succSet e.mdp.trans j) first 0 (Search.fresh cache).V (Search.fresh cache).N := by
    have hpos : 0 < (succSet e.mdp.trans j).card := by
      rw [Finset.card_pos]
      exact ⟨first, by unfold succSet; rw [List.mem_toFinset, hhead]; exact List.mem_cons_self⟩
    refine ⟨fun t => by simp [Search.fresh], fun t _ => rfl, fun _ => ⟨fun t _ => Nat.zero_le _, ?_⟩, fun h => by omega⟩
    have hall : ∀ t ∈ succSet e.mdp.trans j, (Search.fresh cache).N t = 0 := fun t _ => rfl
    rw [Finset.filter_true_of_mem hall]
    rfl
  obtain ⟨S, hS1, hS2⟩ := oneMove_run (o := o) (M := e.mdp.trans) (A := A) (nF := a.reward.d0)
    (features := e.mdp.features.get) hi hb hA3 hfeat.2 (nodes := A.nodes) (by rw [hA2]; exact hj) hA4 hhead hselfn
    draws fuel hfuel nIter 0 (Search.fresh cache) hfresh
  rw [Nat.zero_add, hSD] at hS2
  have hfitE : e.mctsFit a o nIter (some [[1]]) cache draws fuel a.reward =
      some (.ok (.of1 ⟨e.mdp.nStates, fun t => .fin (S.V t)⟩,
        .of2 ⟨e.mdp.nStates, e.mdp.nActions, mctsQ e.mdp.trans S.V S.N j⟩)) := by
    unfold Env.mctsFit
    rw [hA1]
    simp only [runMcts, hS1, hj]
  obtain ⟨A', S', here, g, q1, q2, q3, -, q5, q6, q7, q8⟩ := C63_table e hdet hle1 a o nIter (some [[1]]) cache draws
    fuel a.reward _ _ hfitE
  have hhere : here = j := by rw [hj] at q3; exact (Option.some.inj q3).symm
  subst hhere
  have hAA : A' = A := by rw [hA1] at q1; cases q1; rfl
  subst hAA
  have hSS : S' = S := by
    have : (runMcts o e.mdp.trans A' a.reward.d0 nIter e.mdp.features.get (some [[1]]) cache draws fuel).2.2 =
        some (.ok S) := hS1
    rw [this] at q2
    cases q2
    rfl
  subst hSS
  refine ⟨_, g, by rw [hfitE, q5], q7, fun y t hy ht hyt c hc => ?_⟩
  have htS : t < e.mdp.nStates := by rw [hN]; exact ht
  rw [q8 y t hy htS hyt]
  have htD : t ∈ D := (hD t).2 ⟨htS, y, hy, by change 0 < e.mdp.sas here y t; rw [hyt]; exact one_pos⟩
  have htj : t ≠ here := fun hcc => hself ((hD _).1 (hcc ▸ htD))
  have hNt : S'.N t = c := by rw [hS2.late hn t htD, hc]
  have hr : stateReward a.reward.d0 (A'.rewards 0) (marked e.mdp.features.get a.featIdx here) t =
      ∑ f ∈ Finset.range a.reward.d0, a.reward.get f * e.mdp.features.get f t := by
    unfold stateReward npDot
    apply Finset.sum_congr rfl
    intro f _
    rw [hA5]
    unfold marked
    by_cases h1 : f = a.featIdx
    · simp [h1, htj, hzero t ht htj]
    · simp [h1]
  rw [hS2.val, hNt, hr, add_comm (1 : K)]
  congr 1
  ring

/-- So a greedy agent fitted by this search steps to a next state `t` with the highest `c / (c + 1) * r`, not with the
highest reward `r`: `c` is 1 for all but the first. `out` is the fit of the search. -/
theorem C108_choice (hm : Mdp.GridReach kind W H selfT m) (hinit : Env.init m specs = (m', .ok e0))
    (hrows : m.nNonAgent = m.features.d0 - m.nAgents)
    (ops : List (EnvOp K Nat)) (e : Env K Nat) (he : e = e0.run ops) (a : Agent K Nat) (ha : a ∈ e.agents)
    (hcons : a.consumes = []) (hsel : a.selector = maxSelector)
    (o : MctsOpts K) (hi : o.interactive = false) (hb : ∀ k, o.bonus 0 k = none)
    (s : Nat) (hs : s = Spec.stateOf (W * H) a.position) (hself : ¬ Spec.Successor e.mdp.trans s s)
    (D : Finset Nat) (hD : ∀ t, t ∈ D ↔ Spec.Successor e.mdp.trans s t)
    (x first : Nat) (hx : x < e.mdp.nActions) (hf : first < W * H) (hxf : e.mdp.sas s x first = 1)
    (hlow : ∀ y, y < x → ¬ Spec.Possible e.mdp.trans s y)
    (r : Nat → K) (hr : r = fun t => ∑ f ∈ Finset.range a.reward.d0, a.reward.get f * e.mdp.features.get f t)
    (nIter : Nat) (hn : D.card ≤ nIter) (c : Nat → Nat) (hc : c = fun t => if t = first then nIter - D.card + 1 else 1)
    (cache : QCache K) (draws : Nat → Nat → Draw K) (fuel : Nat) (hfuel : 2 ≤ fuel) (out : FitOut K)
    (hout : e.mctsFit a o nIter (some [[1]]) cache draws fuel a.reward = some (out a.reward))
    (d d' : Nat → Nat) :
    (e.fit a.name out d).2 = .ok () ∧
    ∃ t, t ∈ D ∧ ((e.fit a.name out d).1.step a.name d').2 = .ok (t : Int) ∧
      ∀ u, u ∈ D → (c u : K) / (c u + 1) * r u ≤ (c t : K) / (c t + 1) * r t := by
  obtain ⟨v, g, h1, h2, h3⟩ := C108_exact hm hinit hrows ops e he a ha hcons o hi hb s hs hself D hD x first hx hf hxf
    hlow nIter hn cache draws fuel hfuel
  obtain ⟨hok, hrd⟩ := reward_length hm hinit ops e he a ha
  obtain ⟨j, hj, -⟩ := hok.pos a ha
  have hsj := Env.stateOf_eq hj
  rw [hok.reach.ok.nStates, ← hs] at hsj
  rw [hsj] at hj
  have hjn : s < e.mdp.nStates := pyIdx_lt hj
  have hN : e.mdp.nStates = W * H := hok.reach.ok.nStates
  obtain ⟨hsub, hdet, hA, -⟩ := C27_grid kind W H selfT e.mdp hok.reach
  have hval : ∀ y t, y < e.mdp.nActions → t < W * H → e.mdp.sas s y t = 1 →
      g s y = .fin ((c t : K) / (c t + 1) * r t) := by
    intro y t hy ht hyt
    rw [h3 y t hy ht hyt (c t) (by rw [hc]), hr]
  have hcase : ∀ y, y < e.mdp.nActions → g s y = .nan ∨
      ∃ t, t < W * H ∧ e.mdp.sas s y t = 1 ∧ g s y = .fin ((c t : K) / (c t + 1) * r t) := by
    intro y hy
    by_cases hp : Spec.Possible e.mdp.trans s y
    · obtain ⟨t, ht, hpt⟩ := hp
      have ht' : t < W * H := by rw [← hN]; exact ht
      have h1' : e.mdp.sas s y t = 1 := (hdet s y t hjn hy ht).resolve_left (ne_of_gt hpt)
      exact .inr ⟨t, ht', h1', hval y t hy ht' h1'⟩
    · exact .inl (h2 y hy hp)
  have hest : Spec.HasEstimate (⟨e.mdp.nStates, e.mdp.nActions, g⟩ : Arr2 (Ext K)) s := by
    refine ⟨⟨x, hx, ?_⟩, fun ⟨⟨b, hb1, hb2⟩, _⟩ => ?_⟩
    · change g s x ≠ .nan
      rw [hval x first hx hf hxf]; simp
    · have hb2 : g s b = .pinf := hb2
      rcases hcase b hb1 with h | ⟨t, -, -, h⟩ <;> (rw [h] at hb2; cases hb2)
  rw [h1] at hout
  obtain ⟨k1, y, hy, k2⟩ := Env.fit_step_among hok ha hrd hsel (out := out) (v := v) (g := g) (Option.some.inj hout).symm hj
    hest d d'
  have hfirst : Spec.NoBetter (g s x) (g s y) := hy.2 x hx
  rcases hcase y hy.1 with h | ⟨t, ht, hyt, h⟩
  · rw [hval x first hx hf hxf, h] at hfirst
    exact absurd hfirst (by simp [Spec.NoBetter])
  · have htD : t ∈ D := (hD t).2 ⟨by rw [← hN] at ht; exact ht, y, hy.1, by
      change 0 < e.mdp.sas s y t; rw [hyt]; exact one_pos⟩
    refine ⟨k1, t, htD, (k2 t ?_).2 hcons, fun u hu => ?_⟩
    · exact C15_next_state kind W H selfT e.mdp hok.reach s y t hjn hy.1 (by rw [hN]; exact ht) (by rw [hyt]; exact one_pos)
    · obtain ⟨hu1, z, hz, hpz⟩ := (hD u).1 hu
      have hu1' : u < W * H := by rw [← hN]; exact hu1
      have hz1 : e.mdp.sas s z u = 1 := (hdet s z u hjn hz hu1).resolve_left (ne_of_gt hpz)
      have : Spec.NoBetter (g s z) (g s y) := hy.2 z hz
      rw [hval z u hz hu1' hz1, h] at this
      exact this

/-- What does hold: run with exactly one iteration per next state, the search finds a best one. -/
theorem C108_partial (hm : Mdp.GridReach kind W H selfT m) (hinit : Env.init m specs = (m', .ok e0))
    (hrows : m.nNonAgent = m.features.d0 - m.nAgents)
    (ops : List (EnvOp K Nat)) (e : Env K Nat) (he : e = e0.run ops) (a : Agent K Nat) (ha : a ∈ e.agents)
    (hcons : a.consumes = []) (hsel : a.selector = maxSelector)
    (o : MctsOpts K) (hi : o.interactive = false) (hb : ∀ k, o.bonus 0 k = none)
    (s : Nat) (hs : s = Spec.stateOf (W * H) a.position) (hself : ¬ Spec.Successor e.mdp.trans s s)
    (hlive : Spec.Live e.mdp.trans s)
    (D : Finset Nat) (hD : ∀ t, t ∈ D ↔ Spec.Successor e.mdp.trans s t)
    (r : Nat → K) (hr : r = fun t => ∑ f ∈ Finset.range a.reward.d0, a.reward.get f * e.mdp.features.get f t)
    (cache : QCache K) (draws : Nat → Nat → Draw K) (fuel : Nat) (hfuel : 2 ≤ fuel) (out : FitOut K)
    (hout : e.mctsFit a o D.card (some [[1]]) cache draws fuel a.reward = some (out a.reward))
    (d d' : Nat → Nat) :
    (e.fit a.name out d).2 = .ok () ∧
    ∃ t, t ∈ D ∧ ((e.fit a.name out d).1.step a.name d').2 = .ok (t : Int) ∧ ∀ u, u ∈ D → r u ≤ r t := by
  classical
  obtain ⟨hok, -⟩ := reward_length hm hinit ops e he a ha
  obtain ⟨j, hj, -⟩ := hok.pos a ha
  have hsj := Env.stateOf_eq hj
  rw [hok.reach.ok.nStates, ← hs] at hsj
  rw [hsj] at hj
  have hjn : s < e.mdp.nStates := pyIdx_lt hj
  have hN : e.mdp.nStates = W * H := hok.reach.ok.nStates
  obtain ⟨hsub, hdet, hA, -⟩ := C27_grid kind W H selfT e.mdp hok.reach
  have hex : ∃ x, x < e.mdp.nActions ∧ Spec.Possible e.mdp.trans s x := hlive
  obtain ⟨hx, first, hf, hp⟩ := Nat.find_spec hex
  obtain ⟨k1, t, k2, k3, k4⟩ := C108_choice hm hinit hrows ops e he a ha hcons hsel o hi hb s hs hself D hD
    (Nat.find hex) first hx (by rw [← hN]; exact hf)
    ((hdet s _ first hjn hx hf).resolve_left (ne_of_gt hp))
    (fun y hy hc => Nat.find_min hex hy ⟨by omega, hc⟩) r hr D.card le_rfl
    (fun _ => 1) (by funext t; simp) cache draws fuel hfuel out hout d d'
  refine ⟨k1, t, k2, k3, fun u hu => ?_⟩
  have := k4 u hu
  have h2 : (0 : K) < ((1 : Nat) : K) / (((1 : Nat) : K) + 1) := by
    rw [Nat.cast_one]; positivity
  exact le_of_mul_le_mul_left this h2

/-- One agent in the middle of a corridor of three states, who cares for the first feature only. -/
noncomputable def exMiddle : List (AgentSpec ℝ Nat) :=
  [⟨"bee", 1, maxSelector, .fresh, some 1, .of1 ⟨2, fun f => if f = 0 then 1 else 0⟩, []⟩]

/-- The agent there, and the worth of the states. -/
theorem exMiddle_start : ∃ (m m' : Mdp ℝ) (e : Env ℝ Nat) (a : Agent ℝ Nat),
    Mdp.GridReach .square 1 3 false m ∧ Env.init m exMiddle = (m', .ok e) ∧
    m.nNonAgent = m.features.d0 - m.nAgents ∧ a ∈ e.agents ∧ a.name = "bee" ∧ a.position = 1 ∧ a.consumes = [] ∧
    a.selector = maxSelector ∧ e.mdp.nActions = 4 ∧ (∀ t, Spec.Successor e.mdp.trans 1 t ↔ t = 0 ∨ t = 2) ∧
    e.mdp.sas 1 0 2 = 1 ∧
    ∀ t, (∑ f ∈ Finset.range a.reward.d0, a.reward.get f * e.mdp.features.get f t) =
      if t = 0 then 19 / 10 else if t = 2 then 1 else 0 := by
  obtain ⟨m, hi, -, hF, -, hN, hNA, -, hW⟩ := Mdp.initGrid_ok (K := ℝ) (kind := .square) (W := 1) (H := 3)
    (selfT := false) (f := ⟨1, 3, fun _ s => if s = 0 then 19 / 10 else if s = 2 then 1 else 0⟩)
    (w := none) (by decide) rfl (by intro v hv; cases hv)
  have hm : Mdp.GridReach .square 1 3 false m := .init hi
  have hd : m.features.d0 - m.nAgents = 1 := by rw [hF, hN]; rfl
  have hrows : m.nNonAgent = m.features.d0 - m.nAgents := by rw [hNA, hF, hN]; rfl
  obtain ⟨e, he⟩ := (C38_validated hm exMiddle).2 (by
    intro sp hsp
    rw [exMiddle, List.mem_singleton] at hsp
    subst hsp
    rw [hd]
    exact ⟨⟨_, rfl⟩, ⟨1, rfl, by decide, by decide⟩, by simp⟩)
  have hinit : Env.init m exMiddle = ((Env.init m exMiddle).1, .ok e) := Prod.ext rfl he
  have hnames : (exMiddle.map (·.name)).Nodup := by simp [exMiddle]
  obtain ⟨hl, -, hag⟩ := C38_agents hm hinit hnames
  obtain ⟨-, -, -, -, -, -, -, -, -, -, -, hwl, hfe, -⟩ := Env.init_facts hm hinit
  have hl1 : e.agents.length = 1 := hl
  have hlt : 0 < e.agents.length := by omega
  obtain ⟨hname, -, hpos, -, -, hcons, -, -, hrd, ⟨get, hget, hrw⟩, hsel, -⟩ :=
    hag 0 e.agents[0] ⟨"bee", 1, maxSelector, .fresh, some 1, .of1 ⟨2, fun f => if f = 0 then 1 else 0⟩, []⟩
      (List.getElem?_eq_getElem hlt) rfl
  have hmem : e.agents[0] ∈ e.agents := List.getElem_mem hlt
  generalize e.agents[0] = a at *
  have hp0 : a.position = 1 := (Option.some.inj hpos).symm
  have g : Mdp.GridOk .square 1 3 false e.mdp := (Env.started hm hinit []).1.reach.ok
  have hw : ∀ s, e.mdp.walls.get s = 0 := by intro s; rw [hwl, hW]
  have hA : e.mdp.nActions = 4 := g.nActions
  have hS : e.mdp.nStates = 3 := g.nStates
  have hd2 : a.reward.d0 = 2 := by rw [hrd, hd]; rfl
  have hr0 : a.reward.get 0 = 1 ∧ a.reward.get 1 = 0 := by
    rw [hrw, hrw]
    simp only [PyArr.of1, PyArr.nd.injEq] at hget
    rw [← hget.2]
    simp
  have hsum : ∀ t, (∑ f ∈ Finset.range a.reward.d0, a.reward.get f * e.mdp.features.get f t) =
      if t = 0 then 19 / 10 else if t = 2 then 1 else 0 := by
    intro t
    rw [hd2, Finset.sum_range_succ, Finset.sum_range_one, hr0.1, hr0.2, hfe 0 t (by rw [hd]; decide), hF]
    simp
  have hsas : ∀ x t, t < 3 → e.mdp.sas 1 x t = if GridKind.square.Move 3 false 1 x t then (1 : ℝ) else 0 := by
    intro x t ht
    rw [g.sas 1 x t (by decide) ht, hw, hw]
    simp
  have hsucc : ∀ t, Spec.Successor e.mdp.trans 1 t ↔ t = 0 ∨ t = 2 := by
    intro t
    constructor
    · rintro ⟨ht, x, hx, hp⟩
      have ht : t < 3 := by rw [← hS]; exact ht
      have hx : x < 4 := by rw [← hA]; exact hx
      have hp : 0 < e.mdp.sas 1 x t := hp
      rw [hsas x t ht] at hp
      have hmv : GridKind.square.Move 3 false 1 x t := by
        by_contra hc
        rw [if_neg hc] at hp
        exact lt_irrefl _ hp
      revert hmv
      have : ∀ (x : Fin 4) (t : Fin 3), GridKind.square.Move 3 false 1 x t → t.1 = 0 ∨ t.1 = 2 := by decide +kernel
      exact this ⟨x, hx⟩ ⟨t, ht⟩
    · rintro (rfl | rfl)
      · refine ⟨by change 0 < e.mdp.nStates; omega, 2, by change 2 < e.mdp.nActions; omega, ?_⟩
        change 0 < e.mdp.sas 1 2 0
        rw [hsas 2 0 (by decide), if_pos (by decide +kernel)]
        exact one_pos
      · refine ⟨by change 2 < e.mdp.nStates; omega, 0, by change 0 < e.mdp.nActions; omega, ?_⟩
        change 0 < e.mdp.sas 1 0 2
        rw [hsas 0 2 (by decide), if_pos (by decide +kernel)]
        exact one_pos
  exact ⟨m, _, e, a, hm, hinit, hrows, hmem, hname, hp0, hcons, hsel, hA, hsucc,
    by rw [hsas 0 2 (by decide), if_pos (by decide +kernel)], hsum⟩

example : ∃ (m m' : Mdp ℝ) (e : Env ℝ Nat) (a : Agent ℝ Nat), Mdp.GridReach .square 1 3 false m ∧
    Env.init m exMiddle = (m', .ok e) ∧ a ∈ e.agents ∧ a.name = "bee" ∧
    ∀ (o : MctsOpts ℝ) (cache : QCache ℝ) (draws : Nat → Nat → Draw ℝ) (d d' : Nat → Nat),
      o.interactive = false → o.bonus = ucbBonus →
      ∃ out : FitOut ℝ, e.mctsFit a o 2 (some [[1]]) cache draws 2 a.reward = some (out a.reward) ∧
        (e.fit "bee" out d).2 = .ok () ∧ ((e.fit "bee" out d).1.step "bee" d').2 = .ok 0 := by
  obtain ⟨m, m', e, a, hm, hinit, hrows, hmem, hname, hp0, hcons, hsel, hA, hsucc, hxf, hsum⟩ := exMiddle_start
  refine ⟨m, m', e, a, hm, hinit, hmem, hname, fun o cache draws d d' hoi hob => ?_⟩
  have hb : ∀ k, o.bonus 0 k = none := fun k => by rw [hob]; rfl
  have hst : 1 = Spec.stateOf (1 * 3) a.position := by rw [hp0]; rfl
  have hself : ¬ Spec.Successor e.mdp.trans 1 1 := by rw [hsucc]; decide
  have hD : ∀ t, t ∈ ({0, 2} : Finset Nat) ↔ Spec.Successor e.mdp.trans 1 t := by intro t; rw [hsucc]; simp
  obtain ⟨v, q, hq, -⟩ := C108_exact hm hinit hrows [] e rfl a hmem hcons o hoi hb 1 hst hself _ hD 0 2 (by omega)
    (by decide) hxf (fun y hy => by omega) 2 (by decide) cache draws 2 le_rfl
  obtain ⟨out, hout⟩ : ∃ out : FitOut ℝ, e.mctsFit a o 2 (some [[1]]) cache draws 2 a.reward =
      some (out a.reward) := ⟨fun _ => _, hq⟩
  obtain ⟨-, x, hx, hp⟩ := (hsucc 0).2 (.inl rfl)
  obtain ⟨k1, t, k2, k3, k4⟩ := C108_partial hm hinit hrows [] e rfl a hmem hcons hsel o hoi hb 1 hst hself
    ⟨x, hx, 0, ((hsucc 0).2 (.inl rfl)).1, hp⟩ _ hD _ rfl cache draws 2 le_rfl out hout d d'
  rw [hname] at k1 k3
  refine ⟨out, hout, k1, ?_⟩
  rw [k3]
  have h := k4 0 (by decide)
  rw [hsum, hsum] at h
  rw [Finset.mem_insert, Finset.mem_singleton] at k2
  rcases k2 with rfl | rfl
  · rfl
  · norm_num at h

/-- **C108 is false of the code**, with the exploration of the code, for every exploration constant, every
number of iterations from 21 on and all outcomes of the generator: on a corridor of three states the agent in the
middle goes to state 2, worth 1, and not to state 0, worth 19/10. -/
theorem C108_refuted : ∃ (m m' : Mdp ℝ) (e : Env ℝ Nat) (a : Agent ℝ Nat),
    Mdp.GridReach .square 1 3 false m ∧ Env.init m exMiddle = (m', .ok e) ∧ a ∈ e.agents ∧ a.name = "bee" ∧
    a.position = 1 ∧ Spec.Successor e.mdp.trans 1 0 ∧ Spec.Successor e.mdp.trans 1 2 ∧
    (∑ f ∈ Finset.range a.reward.d0, a.reward.get f * e.mdp.features.get f 0) = 19 / 10 ∧
    (∑ f ∈ Finset.range a.reward.d0, a.reward.get f * e.mdp.features.get f 2) = 1 ∧
    ∀ (o : MctsOpts ℝ) (nIter : Nat) (cache : QCache ℝ) (draws : Nat → Nat → Draw ℝ) (fuel : Nat)
      (d d' : Nat → Nat), o.interactive = false → o.bonus = ucbBonus → 21 ≤ nIter → 2 ≤ fuel →
      ∃ out : FitOut ℝ, e.mctsFit a o nIter (some [[1]]) cache draws fuel a.reward = some (out a.reward) ∧
        (e.fit "bee" out d).2 = .ok () ∧ ((e.fit "bee" out d).1.step "bee" d').2 = .ok 2 := by
  obtain ⟨m, m', e, a, hm, hinit, hrows, hmem, hname, hp0, hcons, hsel, hA, hsucc, hxf, hsum⟩ := exMiddle_start
  refine ⟨m, m', e, a, hm, hinit, hmem, hname, hp0, (hsucc 0).2 (.inl rfl), (hsucc 2).2 (.inr rfl), by rw [hsum]; simp,
    by rw [hsum]; simp, fun o nIter cache draws fuel d d' hoi hob hn hfuel => ?_⟩
  have hb : ∀ k, o.bonus 0 k = none := fun k => by rw [hob]; rfl
  have hst : 1 = Spec.stateOf (1 * 3) a.position := by rw [hp0]; rfl
  have hself : ¬ Spec.Successor e.mdp.trans 1 1 := by rw [hsucc]; decide
  have hD : ∀ t, t ∈ ({0, 2} : Finset Nat) ↔ Spec.Successor e.mdp.trans 1 t := by intro t; rw [hsucc]; simp
  have hcard : ({0, 2} : Finset Nat).card = 2 := by decide
  have hn2 : ({0, 2} : Finset Nat).card ≤ nIter := by rw [hcard]; omega
  obtain ⟨v, q, hq, -⟩ := C108_exact hm hinit hrows [] e rfl a hmem hcons o hoi hb 1 hst hself _ hD 0 2 (by omega)
    (by decide) hxf (fun y hy => by omega) nIter hn2 cache draws fuel hfuel
  obtain ⟨out, hout⟩ : ∃ out : FitOut ℝ, e.mctsFit a o nIter (some [[1]]) cache draws fuel a.reward =
      some (out a.reward) := ⟨fun _ => _, hq⟩
  refine ⟨out, hout, ?_⟩
  obtain ⟨k1, t, k2, k3, k4⟩ := C108_choice hm hinit hrows [] e rfl a hmem hcons hsel o hoi hb 1 hst hself _ hD 0 2
    (by omega) (by decide) hxf (fun y hy => by omega) _ rfl nIter hn2 _ rfl cache draws fuel hfuel _ hout d d'
  rw [hname] at k1 k3
  refine ⟨k1, ?_⟩
  rw [k3]
  rw [Finset.mem_insert, Finset.mem_singleton] at k2
  rcases k2 with rfl | rfl
  · exfalso
    have h := k4 2 (by decide)
    rw [hsum, hsum, hcard] at h
    simp only [if_true, if_neg (show (2 : Nat) ≠ 0 by decide), if_neg (show (0 : Nat) ≠ 2 by decide)] at h
    obtain ⟨n, rfl⟩ : ∃ n, nIter = n + 21 := ⟨nIter - 21, by omega⟩
    rw [show n + 21 - 2 + 1 = n + 20 by omega] at h
    push_cast at h
    have hpos : (0 : ℝ) < (n : ℝ) + 20 + 1 := by positivity
    rw [mul_one, div_le_iff₀ hpos] at h
    have : (0 : ℝ) ≤ n := Nat.cast_nonneg n
    norm_num at h
    linarith
  · rfl

end MaMDP
