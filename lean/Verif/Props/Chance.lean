import Verif.Lemmas.Chance
import Verif.Lemmas.EnvStart

/-! # C132: the chances of whole walks -/

set_option linter.unusedSectionVars false

namespace MaMDP

open MeasureTheory

variable {kind : GridKind} {W H : Nat} {selfT : Bool} {m m' : Mdp ℝ} {specs : List (AgentSpec ℝ ℝ)} {e0 : Env ℝ ℝ}

/-- What the generator delivers has total chance 1. -/
theorem C132_total (k n : Nat) : volume {ω : Spec.Outcome k n | Spec.Delivered ω} = 1 := by
  have : {ω : Spec.Outcome k n | Spec.Delivered ω} = Set.pi Set.univ fun _ => Set.Ico (0 : ℝ) 1 := by
    ext ω
    simp [Spec.Delivered]
  rw [this, Real.volume_pi_Ico]
  simp

/-- An agent as in the theorems below drifts. -/
theorem drifts_start (hm : Mdp.GridReach kind W H selfT m) (hinit : Env.init m specs = (m', .ok e0))
    (ops : List (EnvOp ℝ ℝ)) (e : Env ℝ ℝ) (he : e = e0.run ops) (a : Agent ℝ ℝ) (ha : a ∈ e.agents)
    (T : ℝ) (hsel : a.selector = softmaxSelector T) (hfit : a.alg.fitComplete = true) (q : Arr2 (Ext ℝ))
    (hq : a.alg.qValues = some q) (hmask : ∀ s, s < W * H → Spec.MaskedAt e.mdp.trans q s)
    (hfin : ∀ s x, s < W * H → x < e.mdp.nActions → q.get s x ≠ .pinf)
    (s : Nat) (hs : s = Spec.stateOf (W * H) a.position) (hlive : Spec.Live e.mdp.trans s) :
    Env.Drifts kind W H selfT e.mdp.trans T a.name q s a.history e ∧ s < W * H ∧ e.mdp.trans.nS = W * H := by
  have hok : Env.Ok kind W H selfT e := by rw [he]; exact (Env.started hm hinit ops).1
  have hN : e.mdp.trans.nS = W * H := hok.reach.ok.nStates
  obtain ⟨j, hj, -⟩ := hok.pos a ha
  have hsj := Env.stateOf_eq hj
  rw [hok.reach.ok.nStates, ← hs] at hsj
  subst hsj
  refine ⟨⟨hok, rfl, fun u hu => hmask u (by rw [← hN]; exact hu), fun u x hu hx => hfin u x (by rw [← hN]; exact hu) hx,
    hlive, a, ha, rfl, hsel, hfit, hq, hj, rfl⟩, ?_, hN⟩
  rw [← hN]
  exact pyIdx_lt hj

/-- **C132**: the chance that the next steps of a softmax agent make a given walk is the product of the chances of its
moves, each of them the action's share of `exp (q / T)` in the state it is made from. -/
theorem C132_walk (hm : Mdp.GridReach kind W H selfT m) (hinit : Env.init m specs = (m', .ok e0))
    (ops : List (EnvOp ℝ ℝ)) (e : Env ℝ ℝ) (he : e = e0.run ops) (a : Agent ℝ ℝ) (ha : a ∈ e.agents)
    (T : ℝ) (hT : 0 < T) (hsel : a.selector = softmaxSelector T) (hfit : a.alg.fitComplete = true) (q : Arr2 (Ext ℝ))
    (hq : a.alg.qValues = some q) (hmask : ∀ s, s < W * H → Spec.MaskedAt e.mdp.trans q s)
    (hfin : ∀ s x, s < W * H → x < e.mdp.nActions → q.get s x ≠ .pinf)
    (s : Nat) (hs : s = Spec.stateOf (W * H) a.position) (hlive : Spec.Live e.mdp.trans s)
    (l : List (Nat × Nat)) (hl : Spec.Plays e.mdp.trans s l) :
    volume {ω : Spec.Outcome l.length (W * H) | Spec.Delivered ω ∧ ∃ a' ∈ (Spec.stepped e a.name ω).agents,
      a'.name = a.name ∧ a'.history = a.history ++ l.map fun x => (x.2 : Int)} =
    ENNReal.ofReal (Spec.walkChance T q s l) := by
  obtain ⟨hD, hsN, hN⟩ := drifts_start hm hinit ops e he a ha T hsel hfit q hq hmask hfin s hs hlive
  have hdiff := grid_movesDiffer hD.ok.reach
  rw [← hN] at hsN ⊢
  obtain ⟨B, -, hB, hv⟩ := Env.makes_volume (T := T) hD.mask hD.fin hsN hl rfl
  rw [← hv]
  congr 1
  ext ω
  rw [hB, Set.mem_ofPred_eq]
  refine and_congr_right fun hω => ?_
  have hdr : ∀ i, i < 0 + l.length → ∀ u, u < e.mdp.trans.nS → 0 ≤ Spec.drawAt ω i u ∧ Spec.drawAt ω i u < 1 := by
    intro i hi u hu
    unfold Spec.drawAt
    rw [dif_pos ⟨by omega, hu⟩]
    exact hω _
  obtain ⟨l', h1, h2, h3, h4, j', h5, -⟩ := hD.walk hT hdiff (Spec.drawAt ω) l.length 0 e s _ hdr hsN
  simp only [Nat.zero_add] at h5
  rw [h4 l rfl hl]
  obtain ⟨b, hb, hbn, -, -, -, -, hbh⟩ := h5.agent
  constructor
  · rintro ⟨a', ha', hn, hh⟩
    have : a' = b := Env.eq_of_name h5.ok.nodup ha' hb (hn.trans hbn.symm)
    subst this
    rw [hbh] at hh
    have hmap := List.append_cancel_left hh
    refine Env.plays_inj hdiff l l' s hsN hl h2 ?_
    have := congrArg (List.map Int.toNat) hmap
    simpa [Function.comp_def] using this.symm
  · intro h
    exact ⟨b, hb, hbn, by rw [hbh, h]⟩

/-- **C132**: the chance of where the agent stands after `k` steps is that of the chain moving by the softmax rule. -/
theorem C132_position (hm : Mdp.GridReach kind W H selfT m) (hinit : Env.init m specs = (m', .ok e0))
    (ops : List (EnvOp ℝ ℝ)) (e : Env ℝ ℝ) (he : e = e0.run ops) (a : Agent ℝ ℝ) (ha : a ∈ e.agents)
    (T : ℝ) (hT : 0 < T) (hsel : a.selector = softmaxSelector T) (hfit : a.alg.fitComplete = true) (q : Arr2 (Ext ℝ))
    (hq : a.alg.qValues = some q) (hmask : ∀ s, s < W * H → Spec.MaskedAt e.mdp.trans q s)
    (hfin : ∀ s x, s < W * H → x < e.mdp.nActions → q.get s x ≠ .pinf)
    (s : Nat) (hs : s = Spec.stateOf (W * H) a.position) (hlive : Spec.Live e.mdp.trans s) (k t : Nat) :
    volume {ω : Spec.Outcome k (W * H) | Spec.Delivered ω ∧ ∃ a' ∈ (Spec.stepped e a.name ω).agents,
      a'.name = a.name ∧ Spec.stateOf (W * H) a'.position = t} =
    ENNReal.ofReal (Spec.standing e.mdp.trans T q k s t) := by
  classical
  obtain ⟨hD, hsN, hN⟩ := drifts_start hm hinit ops e he a ha T hsel hfit q hq hmask hfin s hs hlive
  have hdiff := grid_movesDiffer hD.ok.reach
  rw [← hN] at hsN ⊢
  have hbox : ∀ l : List (Nat × Nat), ∃ B : Set (Spec.Outcome k e.mdp.trans.nS),
      l ∈ (Env.walks e.mdp.trans k s) → (MeasurableSet B ∧
      (∀ ω, ω ∈ B ↔ Spec.Delivered ω ∧ Env.Makes T q 0 (Spec.drawAt ω) s l) ∧
      volume B = ENNReal.ofReal (Spec.walkChance T q s l)) := by
    intro l
    by_cases hl : l ∈ Env.walks e.mdp.trans k s
    · obtain ⟨h1, h2⟩ := (Env.mem_walks k s l).1 hl
      obtain ⟨B, hB⟩ := Env.makes_volume (T := T) hD.mask hD.fin hsN h2 h1
      exact ⟨B, fun _ => hB⟩
    · exact ⟨∅, fun h => absurd h hl⟩
  choose B hB using hbox
  have hdr : ∀ ω : Spec.Outcome k e.mdp.trans.nS, Spec.Delivered ω → ∀ i, i < 0 + k → ∀ u, u < e.mdp.trans.nS →
      0 ≤ Spec.drawAt ω i u ∧ Spec.drawAt ω i u < 1 := by
    intro ω hω i hi u hu
    unfold Spec.drawAt
    rw [dif_pos ⟨by omega, hu⟩]
    exact hω _
  set F := (Env.walks e.mdp.trans k s).filter fun l => (s :: l.map (·.2)).getLast? = some t with hF
  have hset : {ω : Spec.Outcome k e.mdp.trans.nS | Spec.Delivered ω ∧ ∃ a' ∈ (Spec.stepped e a.name ω).agents,
      a'.name = a.name ∧ Spec.stateOf e.mdp.trans.nS a'.position = t} = ⋃ l ∈ F, B l := by
    ext ω
    simp only [Set.mem_ofPred_eq, Set.mem_iUnion, exists_prop]
    constructor
    · rintro ⟨hω, a', ha', hn, hp⟩
      obtain ⟨l, h1, h2, h3, h4, j', h5, h6⟩ := hD.walk hT hdiff (Spec.drawAt ω) k 0 e s _ (hdr ω hω) hsN
      simp only [Nat.zero_add] at h5
      obtain ⟨b, hb, hbn, -, -, -, hbp, -⟩ := h5.agent
      have : a' = b := Env.eq_of_name h5.ok.nodup ha' hb (hn.trans hbn.symm)
      subst this
      have hj' := Env.stateOf_eq hbp
      have hmem := (Env.mem_walks k s l).2 ⟨h1, h2⟩
      refine ⟨l, Finset.mem_filter.2 ⟨hmem, ?_⟩, ((hB l hmem).2.1 ω).2 ⟨hω, h3⟩⟩
      rw [h6, ← hp, hj']
    · rintro ⟨l, hl, hω⟩
      obtain ⟨hmem, hlast⟩ := Finset.mem_filter.1 hl
      obtain ⟨hω, hmk⟩ := ((hB l hmem).2.1 ω).1 hω
      obtain ⟨l', h1, h2, h3, h4, j', h5, h6⟩ := hD.walk hT hdiff (Spec.drawAt ω) k 0 e s _ (hdr ω hω) hsN
      simp only [Nat.zero_add] at h5
      obtain ⟨g1, g2⟩ := (Env.mem_walks k s l).1 hmem
      have := (h4 l g1 g2).1 hmk
      subst this
      obtain ⟨b, hb, hbn, -, -, -, hbp, -⟩ := h5.agent
      refine ⟨hω, b, hb, hbn, ?_⟩
      rw [← Env.stateOf_eq hbp]
      rw [hlast] at h6
      exact (Option.some.inj h6).symm
  have hdet : ∀ s x u, s < e.mdp.trans.nS → x < e.mdp.trans.nA → u < e.mdp.trans.nS →
      e.mdp.trans.p s x u = 0 ∨ e.mdp.trans.p s x u = 1 := (C27_grid kind W H selfT e.mdp hD.ok.reach).2.1
  rw [hset, measure_biUnion_finset, ← Env.sum_walks hdet T q t k s hsN, ← Finset.sum_filter]
  · rw [ENNReal.ofReal_sum_of_nonneg]
    · exact Finset.sum_congr rfl fun l hl => (hB l (Finset.mem_filter.1 hl).1).2.2
    · intro l hl
      obtain ⟨g1, g2⟩ := (Env.mem_walks k s l).1 (Finset.mem_filter.1 hl).1
      rw [Env.walkChance_prod]
      refine Finset.prod_nonneg fun i hi => ?_
      obtain ⟨b1, b2, b3⟩ := Env.plays_before l s hsN g2 i (Finset.mem_range.1 hi)
      exact (Env.chance_row (T := T) (hD.mask _ b1) (fun x hx => hD.fin _ x b1 hx) ⟨_, b2, b3⟩).1 _
  · intro l hl l' hl' hne
    rw [Function.onFun, Set.disjoint_left]
    intro ω h1 h2
    have hm1 := (Finset.mem_filter.1 hl).1
    have hm2 := (Finset.mem_filter.1 hl').1
    obtain ⟨hω, k1⟩ := ((hB l hm1).2.1 ω).1 h1
    obtain ⟨-, k2⟩ := ((hB l' hm2).2.1 ω).1 h2
    obtain ⟨l0, -, -, -, h4, -⟩ := hD.walk hT hdiff (Spec.drawAt ω) k 0 e s _ (hdr ω hω) hsN
    obtain ⟨a1, a2⟩ := (Env.mem_walks k s l).1 hm1
    obtain ⟨b1, b2⟩ := (Env.mem_walks k s l').1 hm2
    exact hne (((h4 l a1 a2).1 k1).trans ((h4 l' b1 b2).1 k2).symm)
  · intro l hl
    exact (hB l (Finset.mem_filter.1 hl).1).1

/-- Action values for a corridor of three states: all possible moves are equally good. -/
noncomputable def exSoftWalkQ : Arr2 (Ext ℝ) :=
  ⟨3, 4, fun s x => if x = 0 ∧ s < 2 ∨ x = 2 ∧ 0 < s then .fin 0 else .ninf⟩

/-- A softmax agent in the middle of it, with an algorithm fitted before, that eats feature 0. -/
noncomputable def exSoftWalker : List (AgentSpec ℝ ℝ) :=
  [⟨"fox", 1, softmaxSelector 1, ⟨true, none, some exSoftWalkQ⟩, some 1, .of1 ⟨2, fun _ => 1⟩, [0]⟩]

/-- A case of the theorems: the chance of walking down and back up is one half. -/
theorem exSoftWalk : ∃ (m m' : Mdp ℝ) (e : Env ℝ ℝ) (a : Agent ℝ ℝ), Mdp.GridReach .square 1 3 false m ∧
    Env.init m exSoftWalker = (m', .ok e) ∧ a ∈ e.agents ∧ a.selector = softmaxSelector 1 ∧ a.alg.fitComplete = true ∧
    a.alg.qValues = some exSoftWalkQ ∧ (∀ s, s < 1 * 3 → Spec.MaskedAt e.mdp.trans exSoftWalkQ s) ∧
    (∀ s x, s < 1 * 3 → x < e.mdp.nActions → exSoftWalkQ.get s x ≠ .pinf) ∧ Spec.stateOf (1 * 3) a.position = 1 ∧
    Spec.Live e.mdp.trans 1 ∧ Spec.Plays e.mdp.trans 1 [(2, 0), (0, 1)] ∧
    Spec.walkChance 1 exSoftWalkQ 1 [(2, 0), (0, 1)] = 1 / 2 ∧ Spec.Plays e.mdp.trans 1 [(0, 2)] ∧
    a.consumes = [0] ∧ a.idx = 0 ∧ e.mdp.features.d0 = 2 ∧ e.mdp.nAgents = 1 ∧ ∀ t, e.mdp.features.get 0 t = 1 := by
  obtain ⟨m, hi, -, hF, -, hN, hNA, -, hW⟩ := Mdp.initGrid_ok (K := ℝ) (kind := .square) (W := 1) (H := 3)
    (selfT := false) (f := ⟨1, 3, fun _ _ => 1⟩) (w := none) (by decide) rfl (by intro v hv; cases hv)
  have hm : Mdp.GridReach .square 1 3 false m := .init hi
  have hd : m.features.d0 - m.nAgents = 1 := by rw [hF, hN]; rfl
  obtain ⟨e, he⟩ := (C38_validated hm exSoftWalker).2 (by
    intro sp hsp
    rw [exSoftWalker, List.mem_singleton] at hsp
    subst hsp
    rw [hd]
    exact ⟨⟨_, rfl⟩, ⟨1, rfl, by decide, by decide⟩, by simp; decide⟩)
  have hinit : Env.init m exSoftWalker = ((Env.init m exSoftWalker).1, .ok e) := Prod.ext rfl he
  have hnames : (exSoftWalker.map (·.name)).Nodup := by simp [exSoftWalker]
  obtain ⟨hl, -, hag⟩ := C38_agents hm hinit hnames
  obtain ⟨-, -, -, -, -, -, hd0, hnA, -, -, -, hwl, hfe, -⟩ := Env.init_facts hm hinit
  have hl1 : e.agents.length = 1 := hl
  have hlt : 0 < e.agents.length := by omega
  obtain ⟨hname, hidx, hpos, -, hhist, hcons, -, -, hrd, -, hsel, halg, -⟩ := hag 0 e.agents[0] _
    (List.getElem?_eq_getElem hlt) rfl
  have hmem : e.agents[0] ∈ e.agents := List.getElem_mem hlt
  generalize e.agents[0] = a at *
  have hp0 : a.position = 1 := (Option.some.inj hpos).symm
  have g : Mdp.GridOk .square 1 3 false e.mdp := (Env.started hm hinit []).1.reach.ok
  have hw : ∀ s, e.mdp.walls.get s = 0 := by intro s; rw [hwl, hW]
  have hS : e.mdp.nStates = 3 := g.nStates
  have hA : e.mdp.nActions = 4 := g.nActions
  have hp : ∀ s x t, s < 3 → t < 3 → e.mdp.trans.p s x t = if GridKind.square.Move 3 false s x t then (1 : ℝ) else 0 := by
    intro s x t hs ht
    show e.mdp.sas s x t = _
    rw [g.sas s x t hs ht, hw, hw]
    simp
  have hpp : ∀ s x t, s < 3 → t < 3 → (0 < e.mdp.trans.p s x t ↔ GridKind.square.Move 3 false s x t) := by
    intro s x t hs ht
    rw [hp s x t hs ht]
    split_ifs with h
    · exact ⟨fun _ => h, fun _ => one_pos⟩
    · exact ⟨fun hc => absurd hc (lt_irrefl _), fun hc => absurd hc h⟩
  have hpos : ∀ s x, s < 3 → x < 4 → (Spec.Possible e.mdp.trans s x ↔ x = 0 ∧ s < 2 ∨ x = 2 ∧ 0 < s) := by
    intro s x hs hx
    have : Spec.Possible e.mdp.trans s x ↔ ∃ t : Fin 3, GridKind.square.Move 3 false s x t := by
      constructor
      · rintro ⟨t, ht, h⟩
        have ht' : t < 3 := by rw [← hS]; exact ht
        exact ⟨⟨t, ht'⟩, (hpp s x t hs ht').1 h⟩
      · rintro ⟨t, h⟩
        exact ⟨t, by show t.val < e.mdp.nStates; rw [hS]; exact t.2, (hpp s x t hs t.2).2 h⟩
    rw [this]
    interval_cases s <;> interval_cases x <;> decide
  refine ⟨m, _, e, a, hm, hinit, hmem, hsel, by rw [halg], by rw [halg], ?_, ?_, by rw [hp0]; rfl, ?_, ?_, ?_,
    ?_, hcons, hidx, by rw [hd0, hd]; rfl, hnA, ?_⟩
  · intro s hs
    refine ⟨hS.symm, hA.symm, fun x hx => ?_⟩
    have hx' : x < 4 := by rw [← hA]; exact hx
    rw [hpos s x hs hx']
    unfold exSoftWalkQ
    simp only
    split_ifs with h
    · exact ⟨fun hc => hc.elim, fun hc => absurd h hc⟩
    · exact ⟨fun _ => h, fun _ => trivial⟩
  · intro s x _ _
    unfold exSoftWalkQ
    simp only
    split_ifs <;> simp
  · exact ⟨2, by show 2 < e.mdp.nActions; rw [hA]; decide, (hpos 1 2 (by decide) (by decide)).2 (.inr ⟨rfl, by decide⟩)⟩
  · refine ⟨by show 2 < e.mdp.nActions; rw [hA]; decide, by show 0 < e.mdp.nStates; rw [hS]; decide, ?_,
      by show 0 < e.mdp.nActions; rw [hA]; decide, by show 1 < e.mdp.nStates; rw [hS]; decide, ?_, trivial⟩
    · rw [hp 1 2 0 (by decide) (by decide), if_pos (by decide)]
    · rw [hp 0 0 1 (by decide) (by decide), if_pos (by decide)]
  · have h0 : Spec.moveChance 1 exSoftWalkQ 1 2 = 1 / 2 := by
      simp [Spec.moveChance, exSoftWalkQ, Spec.weight, Finset.sum_range_succ]
      norm_num
    have h1 : Spec.moveChance 1 exSoftWalkQ 0 0 = 1 := by
      simp [Spec.moveChance, exSoftWalkQ, Spec.weight, Finset.sum_range_succ]
    simp [Spec.walkChance, h0, h1]
  · exact ⟨by show 0 < e.mdp.nActions; rw [hA]; decide, by show 2 < e.mdp.nStates; rw [hS]; decide,
      by rw [hp 1 0 2 (by decide) (by decide), if_pos (by decide)], trivial⟩
  · intro t
    rw [hfe 0 t (by rw [hd]; decide), hF]

end MaMDP
