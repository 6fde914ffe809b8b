import Verif.Model.SearchGame
import Verif.Spec.SearchGame
import Verif.Props.SearchAgent
import Verif.Props.EnvironmentSteps
import Verif.Lemmas.World

/-! Lemmas for games played by tree search. -/

set_option linter.unusedSectionVars false

namespace MaMDP

variable {K : Type} [Field K] [LinearOrder K] [IsStrictOrderedRing K] {δ : Type}
  {kind : GridKind} {W H : Nat} {selfT : Bool} {m m' : Mdp K} {specs : List (AgentSpec K δ)} {e0 : Env K δ}

theorem decides_max : Spec.Decides (maxSelector (K := K)) fun _ => True := by
  intro q ⟨s, x, hs, hx, hne⟩ hfin
  have hex : ∃ s, s < q.d0 ∧ ¬ Spec.NoEstimate q s := ⟨s, hs, fun h => hne (h x hx)⟩
  obtain ⟨P, hP, -⟩ := (C23_max_pi_p q).2 hex
  refine ⟨⟨P, hP⟩, fun draws _ => ?_⟩
  obtain ⟨p, hp, hp0, hall⟩ := C24_max_pi q draws hex
  refine ⟨p, hp, hp0, fun s hs ⟨b, hb, hub⟩ => ?_⟩
  have hest : Spec.HasEstimate q s :=
    ⟨⟨b, hb, (not_unusable.1 hub).1⟩, fun ⟨⟨c, hc, hc'⟩, _⟩ => hfin s c hs hc hc'⟩
  obtain ⟨x, hpx, hbest, hxu⟩ := (hall s hs).2 hest
  have hbfin : ∃ y, q.get s b = .fin y := by
    have := hfin s b hs hb
    revert this hub
    cases q.get s b <;> simp [Spec.Unusable]
  obtain ⟨y, hy⟩ := hbfin
  exact ⟨x, hbest.1, hpx, not_unusable.2 (hxu ⟨b, y, hb, hy⟩)⟩

theorem decides_softmax (T : ℝ) (hT : 0 < T) : Spec.Decides (softmaxSelector T) fun u => 0 ≤ u ∧ u < 1 := by
  intro q ⟨s, x, hs, hx, hne⟩ hfin
  have hex : ∃ s, s < q.d0 ∧ ¬ Spec.NoEstimate q s := ⟨s, hs, fun h => hne (h x hx)⟩
  obtain ⟨P, -, hP, -⟩ := C26_softmax_pi T q hex hfin (fun _ => 0) (fun _ _ => ⟨le_refl _, by norm_num⟩)
  refine ⟨⟨P, hP⟩, fun u hu => ?_⟩
  obtain ⟨_, p, -, hp, hp0, hall⟩ := C26_softmax_pi T q hex hfin u (fun s _ => hu s)
  refine ⟨p, hp, hp0, fun s hs hb => ?_⟩
  obtain ⟨b, hb1, hub⟩ := hb
  have hest : Spec.HasEstimate q s :=
    ⟨⟨b, hb1, (not_unusable.1 hub).1⟩, fun ⟨⟨c, hc, hc'⟩, _⟩ => hfin s c hs hc hc'⟩
  rcases (safe_softmax T hT q u p hu hp).2 s hs ⟨b, hb1, hub⟩ with h | ⟨x, hx, h1, h2⟩
  · obtain ⟨-, -, i, hi, -⟩ := (hall s hs).2 hest
    rw [hi] at h
    omega
  · exact ⟨x, hx, h1, h2⟩

namespace Env

/-- A step from a masked table cannot fail. -/
theorem step_goes {e : Env K δ} (hok : Ok kind W H selfT e) {a : Agent K δ} (ha : a ∈ e.agents) {D : δ → Prop}
    (hdec : Spec.Decides a.selector D) (hfit : a.alg.fitComplete = true) {q : Arr2 (Ext K)}
    (hq : a.alg.qValues = some q) {j : Nat} (hj : pyIdx e.mdp.nStates a.position = some j)
    (hmask : Spec.MaskedAt e.mdp.trans q j) (hfin : ∀ s x, s < q.d0 → x < q.d1 → q.get s x ≠ .pinf)
    (hlive : Spec.Live e.mdp.trans j) (hcons : ∀ f ∈ a.consumes, ∃ r, pyIdx e.mdp.features.d0 f = some r)
    {d : Nat → δ} (hd : ∀ s, D (d s)) :
    ∃ (t : Nat) (e' : Env K δ) (a' : Agent K δ), e.step a.name d = (e', .ok (t : Int)) ∧
      Spec.Successor e.mdp.trans j t ∧ e'.mdp.trans = e.mdp.trans ∧ e'.agent? a.name = some a' ∧ a'.position = t ∧
      a'.history = a.history ++ [(t : Int)] ∧ ∀ n, n ≠ a.name → e'.agent? n = e.agent? n := by
  have hjn : j < e.mdp.nStates := pyIdx_lt hj
  obtain ⟨m1, m2, m3⟩ := hmask
  have m1' : q.d0 = e.mdp.nStates := m1
  have m2' : q.d1 = e.mdp.nActions := m2
  obtain ⟨b, hb, hpb⟩ := hlive
  have hub : ¬ Spec.Unusable (q.get j b) := fun hu => (m3 b hb).1 hu hpb
  obtain ⟨⟨P, hP⟩, hpi⟩ := hdec q ⟨j, b, by omega, by rw [m2]; exact hb, (not_unusable.1 hub).1⟩ hfin
  obtain ⟨p, hp, hp0, hpall⟩ := hpi d hd
  obtain ⟨x, hx, hpx, hxu⟩ := hpall j (by omega) ⟨b, by rw [m2]; exact hb, hub⟩
  have hxA : x < e.mdp.trans.nA := by rw [← m2]; exact hx
  have hpos : Spec.Possible e.mdp.trans j x := by
    by_contra hc
    exact hxu ((m3 x hxA).2 hc)
  obtain ⟨t, ht, hpt⟩ := hpos
  have htn : t < e.mdp.nStates := ht
  have h15 := C15_next_state kind W H selfT e.mdp hok.reach j x t hjn hxA ht hpt
  have hnext : e.mdp.getNextState a.position (p.get j) = .ok t := by
    have hsame : e.mdp.getNextState a.position (x : Int) = e.mdp.getNextState (j : Int) (x : Int) := by
      unfold Mdp.getNextState
      rw [hj]
      simp only [pyIdx_nat, if_pos hjn]
    rw [hpx, hsame, h15]
  have hgp : a.getPolicy d = ({ a with piP := some P, pi := some p }, .ok ()) := by
    unfold Agent.getPolicy
    rw [hq]
    simp only
    rw [hP]
    simp only
    rw [hp]
  have hidx : pyIdx p.d0 a.position = some j := by rw [hp0, m1']; exact hj
  obtain ⟨j', hseat, -⟩ := hok.agentSeated ha
  have ht' : pyIdx e.mdp.nStates (t : Int) = some t := by simp [htn]
  set a1 : Agent K δ :=
    { a with piP := some P, pi := some p, position := t, history := a.history ++ [(t : Int)] } with ha1
  have hstep : ∃ m1, a.step e.mdp d = (m1, a1, .ok ()) ∧ a1.Seated m1 t ∧ m1.trans = e.mdp.trans ∧
      m1.features.d0 = e.mdp.features.d0 := by
    refine ⟨(e.mdp.setRow (e.mdp.agentRow a.idx) t).setRow ((e.mdp.setRow (e.mdp.agentRow a.idx) t).agentRow a.idx) t,
      ?_, ⟨hseat.le, hseat.idx, hseat.d1, ht'⟩, rfl, rfl⟩
    · unfold Agent.step
      rw [if_neg (by simp [hfit]), hgp]
      simp only [hidx]
      rw [if_neg (by rw [hpx]; omega), hnext]
      simp only
      rw [Agent.setPosition_ok (a := { a with piP := some P, pi := some p }) hseat.le hseat.idx hseat.d1 ht']
      simp only
      rw [Mdp.update_ok (m := e.mdp.setRow (e.mdp.agentRow a.idx) t) (j := t) hseat.le hseat.idx
        (by have := hseat.d1; simp only [Mdp.setRow, Mdp.withFeat]; rw [this]; exact ht')]
  obtain ⟨m1, hstep, hs1, htr, hd0⟩ := hstep
  obtain ⟨g, c, g1, -, -⟩ := Agent.consume_ok hs1 (by rw [hd0]; exact hcons)
  refine ⟨t, { e.put (m1.withFeat g) { a1 with consumed := fun f => a1.consumed f + c f } with nSteps := e.nSteps + 1 },
    { a1 with consumed := fun f => a1.consumed f + c f }, ?_, ⟨ht, x, hxA, hpt⟩, ?_, ?_, rfl, rfl, ?_⟩
  · unfold Env.step
    rw [(lookup_ok hok).2 ⟨ha, rfl⟩]
    simp only [hstep, g1]
    rfl
  · exact htr
  · exact agent?_put_same (m := m1.withFeat g) (a' := { a1 with consumed := fun f => a1.consumed f + c f }) hok ha rfl
  · intro n hn
    exact agent?_put_other (m1.withFeat g) { a1 with consumed := fun f => a1.consumed f + c f } hn

end Env

/-- Every entry of the kept cache can be used. -/
def MctsObj.Usable (obj : MctsObj K) (M : Trans K) : Prop :=
  ∀ c, obj.cache = some c → ∀ b key q, c b key = some q → GoodEntry obj.opts M q

theorem MctsObj.usable_init (o : MctsOpts K) (nIter : Nat) (reset : Bool) (M : Trans K) :
    (MctsObj.init o nIter reset).Usable M := fun c h => by cases h

theorem MctsObj.prepare_cache (obj : MctsObj K) : obj.prepare.cache = none ∨ obj.prepare.cache = obj.cache := by
  unfold MctsObj.prepare
  split
  · exact .inl rfl
  · exact .inr rfl

/-- The consumed features exist. -/
theorem consumes_exist (hm : Mdp.GridReach kind W H selfT m) (hinit : Env.init m specs = (m', .ok e0))
    (hcons : ∀ sp ∈ specs, ∀ f ∈ sp.consumes, -((m.features.d0 - m.nAgents + specs.length : Nat) : Int) ≤ f)
    (ops : List (EnvOp K δ)) {e : Env K δ} (he : e = e0.run ops) {a : Agent K δ} (ha : a ∈ e.agents) :
    ∀ f ∈ a.consumes, ∃ r, pyIdx e.mdp.features.d0 f = some r := by
  obtain ⟨hok, hlater⟩ := Env.started hm hinit ops
  rw [← he] at hok hlater
  obtain ⟨-, hok0, hval, -, -, -, hd0, -, -, -, -, -, -, -, -, hag⟩ := Env.init_facts hm hinit
  obtain ⟨a0, ha0, -, -, -, hc, -⟩ := hlater.back hok0 hok ha
  obtain ⟨i, sp, p, r, hsp, -, -, rfl⟩ := hag a0 ha0
  intro f hf
  rw [hc] at hf
  have hmem := List.mem_of_getElem? hsp
  have h1 := hcons sp hmem f hf
  have h2 := hval sp hmem
  rw [hlater.d0, hd0]
  cases h : pyIdx (m.features.d0 - m.nAgents + specs.length) f with
  | some r => exact ⟨r, rfl⟩
  | none =>
    exfalso
    rcases pyIdx_eq_none.1 h with h | h
    · have := h2.2.2 f hf
      omega
    · omega

/-- With a good plan and a usable cache the search ends well. -/
theorem MctsObj.fit_goes {e : Env K δ} (hm : Mdp.GridReach kind W H selfT m) (hinit : Env.init m specs = (m', .ok e0))
    (hrows : m.nNonAgent = m.features.d0 - m.nAgents)
    (hcons : ∀ sp ∈ specs, ∀ f ∈ sp.consumes, -((m.features.d0 - m.nAgents + specs.length : Nat) : Int) ≤ f)
    (ops : List (EnvOp K δ)) (he : e = e0.run ops) {a : Agent K δ} (ha : a ∈ e.agents) {obj : MctsObj K}
    (hlive : ∀ b ∈ e.agents, Spec.Live e.mdp.trans (Spec.stateOf (W * H) b.position))
    (hcares : obj.opts.interactive = true → ∀ b ∈ e.agents, b.name ≠ a.name → ∃ f, f < e.mdp.nFeatures ∧ b.reward.get f ≠ 0)
    (hone : obj.opts.caching = true → ∀ b ∈ e.agents, ∀ f ∈ b.consumes, ∀ g ∈ b.consumes,
      pyIdx e.mdp.nFeatures f = pyIdx e.mdp.nFeatures g)
    {D : Draw K → Prop} (hpol : PolicyWorks obj.opts e.mdp.trans D) {draws : Nat → Nat → Draw K}
    (hd : ∀ i j, D (draws i j)) {T : Nat} {plan : List (List Nat)}
    (hplan : Spec.GoodPlan obj.opts.interactive e.agents.length T plan) {fuel : Nat}
    (hf : (plan.map List.sum).sum + e.agents.length * T + 1 ≤ fuel) (hcache : obj.Usable e.mdp.trans)
    (after : QCache K) {j : Nat} (hj : pyIdx e.mdp.nStates a.position = some j) :
    ∃ obj' v q, obj.fit ⟨some (e, a), e.mdp, .of1 a.reward, a.position, some plan, draws, fuel, after⟩ =
        some (obj', .ok ()) ∧ obj'.opts = obj.opts ∧ obj'.Usable e.mdp.trans ∧ obj'.st = ⟨true, some v, some q⟩ ∧
      Spec.MaskedAt e.mdp.trans q j ∧ ∀ s x, s < q.d0 → x < q.d1 → q.get s x ≠ .pinf := by
  have hok : Env.Ok kind W H selfT e := by rw [he]; exact (Env.started hm hinit ops).1
  have hw := Env.reward_features hm hinit ops e he a ha
  have hrew : (PyArr.of1 a.reward : PyArr K) = .nd [e.mdp.nFeatures] fun i => a.reward.get (i.getD 0 0) := by
    rw [← hw]; rfl
  obtain ⟨k1, k2, -⟩ := obj.prepare_keeps
  set w : Arr1 K := ⟨e.mdp.nFeatures, fun i => a.reward.get i⟩ with hwdef
  set cache := obj.prepare.cache.getD fun _ _ => none with hcdef
  have hgood : ∀ b key q, cache b key = some q → GoodEntry obj.opts e.mdp.trans q := by
    intro b key q h
    rcases obj.prepare_cache with h1 | h1
    · rw [hcdef, h1] at h; cases h
    · cases hc : obj.cache with
      | none => rw [hcdef, h1, hc] at h; cases h
      | some c => rw [hcdef, h1, hc] at h; exact hcache c hc b key q h
  obtain ⟨A, s, hA, hs, hgs⟩ := mctsRun_ok hm hinit hrows hcons ops he ha w rfl hlive hcares hone hpol hd hplan obj.nIter
    fuel hf cache hgood
  have hfit : e.mctsFit a obj.opts obj.nIter (some plan) cache draws fuel w =
      some (.ok (.of1 ⟨e.mdp.nStates, fun t => .fin (s.V t)⟩, .of2 ⟨e.mdp.nStates, e.mdp.nActions, mctsQ e.mdp.trans s.V s.N j⟩)) := by
    unfold Env.mctsFit
    rw [hA]
    dsimp only
    rw [hs]
    dsimp only
    rw [hj]
  have hgrid := C27_grid kind W H selfT e.mdp hok.reach
  obtain ⟨A', s', here, g, -, -, hhere, -, hq, g0, g1, g2⟩ := C63_table e hgrid.2.1 hgrid.1.le_one a obj.opts obj.nIter
    (some plan) cache draws fuel w _ _ hfit
  have hhj : here = j := by rw [hj] at hhere; cases hhere; rfl
  subst hhj
  have hget : ∀ s' x, mctsQ e.mdp.trans s.V s.N here s' x = g s' x := by
    intro s' x
    unfold PyArr.of2 at hq
    have := (PyArr.nd.inj hq).2
    exact congrFun this [s', x]
  have hjn : here < e.mdp.nStates := pyIdx_lt hj
  let o' : MctsObj K := { obj.prepare with V := some s.V, N := some s.N, cache := some s.cache }
  refine ⟨{ o' with st := ⟨true, some ⟨e.mdp.nStates, fun t => .fin (s.V t)⟩, some ⟨e.mdp.nStates, e.mdp.nActions,
    mctsQ e.mdp.trans s.V s.N here⟩⟩ }, _, _, ?_, k1, ?_, rfl, ?_, ?_⟩
  · unfold MctsObj.fit
    simp only [hrew, checkReward_ok]
    unfold MctsObj.search
    simp only [k1, k2]
    have hA' : extractInfo (e.agentInfos a obj.opts.interactive
        ⟨e.mdp.nFeatures, fun i => a.reward.get ([i].getD 0 0)⟩) = .ok A := hA
    rw [hA']
    dsimp only
    rw [show (runMcts obj.opts e.mdp.trans A e.mdp.nFeatures obj.nIter e.mdp.features.get (some plan)
      (obj.prepare.cache.getD fun _ _ => none) draws fuel).2.2 = some (.ok s) from hs]
    dsimp only
    rw [MctsObj.accept_some _ hj]
    simp only [o', k1, k2]
  · intro c hc b key q hbk
    cases hc
    have := hgs b key q hbk
    rw [← k1] at this
    exact this
  · refine ⟨rfl, rfl, fun x hx => ?_⟩
    change Spec.Unusable (mctsQ e.mdp.trans s.V s.N here here x) ↔ _
    rw [hget]
    by_cases hpos : Spec.Possible e.mdp.trans here x
    · obtain ⟨t, ht, h0⟩ := hpos
      have h1' : e.mdp.sas here x t = 1 := (hgrid.2.1 here x t hjn hx ht).resolve_left (ne_of_gt h0)
      rw [g2 x t hx ht h1']
      exact ⟨fun h => h.elim, fun h => absurd ⟨t, ht, h0⟩ h⟩
    · rw [g1 x hx hpos]
      exact ⟨fun _ => hpos, fun _ => trivial⟩
  · intro s' x hs' hx
    change mctsQ e.mdp.trans s.V s.N here s' x ≠ _
    rw [hget]
    by_cases hsh : s' = here
    · subst hsh
      by_cases hpos : Spec.Possible e.mdp.trans s' x
      · obtain ⟨t, ht, h0⟩ := hpos
        have h1' : e.mdp.sas s' x t = 1 := (hgrid.2.1 s' x t hjn hx ht).resolve_left (ne_of_gt h0)
        rw [g2 x t hx ht h1']
        simp
      · rw [g1 x hx hpos]; simp
    · rw [g0 s' x hsh]; simp

/-! ### Plans -/

theorem movesInTurn_le (first total n t : Nat) : Spec.movesInTurn first total n t ≤ n := by
  unfold Spec.movesInTurn
  exact (List.length_filter_le _ _).trans (by rw [List.length_range])

theorem planAt_facts {i nT B : Nat} (n k : Nat) (ns ks : List Nat) (hlen : ns.length = ks.length)
    (hB : ∀ x ∈ n :: ns, x ≤ B) :
    (Spec.planAt i nT (n :: ns) (k :: ks)).length = (n :: ns).length ∧
    (∀ l ∈ Spec.planAt i nT (n :: ns) (k :: ks), l.length = nT ∧ ∀ x ∈ l, x ≤ B) := by
  unfold Spec.planAt
  refine ⟨by simp [hlen], fun l hl => ?_⟩
  rcases List.mem_cons.1 hl with rfl | hl
  · refine ⟨by simp, fun x hx => ?_⟩
    obtain ⟨t, -, rfl⟩ := List.mem_map.1 hx
    exact (movesInTurn_le _ _ _ _).trans (hB n List.mem_cons_self)
  · obtain ⟨j, hj, rfl⟩ := List.mem_iff_getElem.1 hl
    rw [List.getElem_zipWith]
    refine ⟨by simp, fun x hx => ?_⟩
    obtain ⟨t, -, rfl⟩ := List.mem_map.1 hx
    exact (movesInTurn_le _ _ _ _).trans (hB _ (List.mem_cons_of_mem _ (List.getElem_mem _)))

theorem planAt_sum {i nT B : Nat} (n k : Nat) (ns ks : List Nat) (hlen : ns.length = ks.length)
    (hB : ∀ x ∈ n :: ns, x ≤ B) :
    ((Spec.planAt i nT (n :: ns) (k :: ks)).map List.sum).sum ≤ (n :: ns).length * (nT * B) := by
  obtain ⟨h1, h2⟩ := planAt_facts (i := i) (nT := nT) n k ns ks hlen hB
  have := List.sum_le_card_nsmul ((Spec.planAt i nT (n :: ns) (k :: ks)).map List.sum) (nT * B) (by
    intro x hx
    obtain ⟨l, hl, rfl⟩ := List.mem_map.1 hx
    have := List.sum_le_card_nsmul l B (h2 l hl).2
    rw [(h2 l hl).1, smul_eq_mul] at this
    exact this)
  rw [List.length_map, h1, smul_eq_mul] at this
  exact this

theorem planAt_good {i nT : Nat} (hT : 0 < nT) (n k : Nat) (ns ks : List Nat) (hlen : ns.length = ks.length)
    (hi : i < n) (hk : 0 < k) (interactive : Bool) :
    Spec.GoodPlan interactive (n :: ns).length nT (Spec.planAt i nT (n :: ns) (k :: ks)) := by
  obtain ⟨h1, h2⟩ := planAt_facts (i := i) (nT := nT) (B := (n :: ns).sum) n k ns ks hlen
    (fun x hx => List.le_sum_of_mem hx)
  unfold Spec.GoodPlan
  split
  · exact ⟨h1, fun l hl => (h2 l hl).1⟩
  · obtain ⟨T, rfl⟩ := Nat.exists_eq_succ_of_ne_zero hT.ne'
    unfold Spec.planAt
    rw [Nat.succ_eq_add_one, List.range_succ_eq_map]
    refine ⟨Spec.movesInTurn i k n 0, _, _, rfl, ?_⟩
    unfold Spec.movesInTurn
    apply List.length_pos_of_mem (a := i)
    simp [List.mem_filter, hi, hk]

/-! ### Rounds -/

theorem stateOf_nat {n t : Nat} (h : t < n) : Spec.stateOf n (t : Int) = t :=
  (Env.stateOf_eq (p := (t : Int)) (j := t) (by rw [pyIdx_nat, if_pos h])).symm

/-- One round of `step_multi`: a fit and a step. -/
theorem Env.round_goes {e : Env K δ} (hm : Mdp.GridReach kind W H selfT m) (hinit : Env.init m specs = (m', .ok e0))
    (hrows : m.nNonAgent = m.features.d0 - m.nAgents)
    (hcons : ∀ sp ∈ specs, ∀ f ∈ sp.consumes, -((m.features.d0 - m.nAgents + specs.length : Nat) : Int) ≤ f)
    (ops : List (EnvOp K δ)) (he : e = e0.run ops) {a : Agent K δ} (ha : a ∈ e.agents) {obj : MctsObj K}
    (hlive : ∀ b ∈ e.agents, Spec.Live e.mdp.trans (Spec.stateOf (W * H) b.position))
    (hcares : obj.opts.interactive = true → ∀ b ∈ e.agents, b.name ≠ a.name → ∃ f, f < e.mdp.nFeatures ∧ b.reward.get f ≠ 0)
    (hone : obj.opts.caching = true → ∀ b ∈ e.agents, ∀ f ∈ b.consumes, ∀ g ∈ b.consumes,
      pyIdx e.mdp.nFeatures f = pyIdx e.mdp.nFeatures g)
    {D : Draw K → Prop} (hpol : PolicyWorks obj.opts e.mdp.trans D) {Dsel : δ → Prop}
    (hdec : Spec.Decides a.selector Dsel) {draws : Nat → Nat → Draw K}
    (hd : ∀ i j, D (draws i j)) {T : Nat} {plan : List (List Nat)}
    (hplan : Spec.GoodPlan obj.opts.interactive e.agents.length T plan) {fuel : Nat}
    (hf : (plan.map List.sum).sum + e.agents.length * T + 1 ≤ fuel) (hcache : obj.Usable e.mdp.trans)
    (after : QCache K) {d1 d2 : Nat → δ} (hd1 : ∀ s, Dsel (d1 s)) (hd2 : ∀ s, Dsel (d2 s)) :
    ∃ (t : Nat) (e1 e2 : Env K δ) (obj' : MctsObj K) (a' : Agent K δ),
      e.fitSearch a.name obj ⟨some plan, draws, fuel, after⟩ d1 = some (e1, obj', .ok ()) ∧
      e1.step a.name d2 = (e2, .ok (t : Int)) ∧ obj'.opts = obj.opts ∧ obj'.Usable e2.mdp.trans ∧
      e2.mdp.trans = e.mdp.trans ∧ Spec.Successor e.mdp.trans (Spec.stateOf (W * H) a.position) t ∧
      e2.agent? a.name = some a' ∧ a'.position = t ∧ a'.history = a.history ++ [(t : Int)] ∧
      (∀ n, n ≠ a.name → e2.agent? n = e.agent? n) ∧
      (∀ b ∈ e2.agents, Spec.Live e2.mdp.trans (Spec.stateOf (W * H) b.position)) ∧
      ∃ ops', e2 = e.run ops' := by
  have hok : Env.Ok kind W H selfT e := by rw [he]; exact (Env.started hm hinit ops).1
  have hS : e.mdp.nStates = W * H := hok.reach.ok.nStates
  obtain ⟨j, hj, -⟩ := hok.pos a ha
  have hjs : j = Spec.stateOf (W * H) a.position := by rw [← hS]; exact Env.stateOf_eq hj
  obtain ⟨obj', v, q, f1, f2, f3, f4, f5, f6⟩ := MctsObj.fit_goes hm hinit hrows hcons ops he ha hlive hcares hone hpol hd
    hplan hf hcache after hj
  have hlj : Spec.Live e.mdp.trans j := by rw [hjs]; exact hlive a ha
  obtain ⟨b, hb, hpb⟩ := hlj
  have hjn := pyIdx_lt hj
  have hub : ¬ Spec.Unusable (q.get j b) := fun hu => (f5.2.2 b hb).1 hu hpb
  obtain ⟨⟨P, hP⟩, hpi⟩ := hdec q ⟨j, b, by rw [f5.1]; exact hjn, by rw [f5.2.1]; exact hb, (not_unusable.1 hub).1⟩ f6
  obtain ⟨p, hp, -⟩ := hpi d1 hd1
  set a1 : Agent K δ := { a with alg := obj'.st, piP := some P, pi := some p } with ha1
  have hfit : e.fitSearch a.name obj ⟨some plan, draws, fuel, after⟩ d1 = some (e.put e.mdp a1, obj', .ok ()) := by
    unfold Env.fitSearch
    rw [(Env.lookup_ok hok).2 ⟨ha, rfl⟩]
    simp only [f1]
    unfold Agent.getPolicy
    simp only [f4, hP, hp]
    rw [ha1, f4]
  obtain ⟨calls, -, hrun⟩ := C147_history hm hinit ops e he a.name obj obj' _ d1 _ _ hfit
  have hok1 : Env.Ok kind W H selfT (e.put e.mdp a1) := by rw [hrun]; exact (Env.started hm hinit _).1
  have hag1 : (e.put e.mdp a1).agent? a.name = some a1 := Env.agent?_put_same hok ha rfl
  have hmem1 : a1 ∈ (e.put e.mdp a1).agents := (Env.agent?_mem hag1).1
  obtain ⟨t, e2, a', g1, g2, g3, g4, g5, g6, g7⟩ := Env.step_goes hok1 hmem1 (D := Dsel) (q := q) (j := j) hdec
    (by rw [ha1, f4]) (by rw [ha1, f4]) hj f5 f6 ⟨b, hb, hpb⟩
    (consumes_exist hm hinit hcons (ops ++ calls) hrun hmem1) hd2
  have hrun2 : e2 = e0.run ((ops ++ calls) ++ [.step a.name d2]) := by
    rw [Env.run_append, ← hrun]
    exact (congrArg Prod.fst g1).symm
  have hok2 : Env.Ok kind W H selfT e2 := by rw [hrun2]; exact (Env.started hm hinit _).1
  have hother : ∀ n, n ≠ a.name → e2.agent? n = e.agent? n := by
    intro n hn
    rw [g7 n hn]
    exact Env.agent?_put_other _ _ hn
  refine ⟨t, _, e2, obj', a', hfit, g1, f2, by rw [g3]; exact f3, g3, by rw [← hjs]; exact g2, g4, g5, g6, hother, ?_,
    calls ++ [.step a.name d2], ?_⟩
  · intro c hc
    rw [g3]
    change Spec.Live e.mdp.trans _
    by_cases hcn : c.name = a.name
    · have h1 := (Env.agent?_eq hok2.nodup).2 ⟨hc, hcn⟩
      rw [show a.name = a1.name from rfl, g4] at h1
      cases h1
      rw [g5, stateOf_nat (by rw [← hS]; exact g2.1)]
      exact (Env.successor_facts hok hjn g2).2.2
    · have h1 := (Env.agent?_eq hok2.nodup).2 ⟨hc, rfl⟩
      rw [hother _ hcn] at h1
      exact hlive c (Env.agent?_mem h1).1
  · rw [hrun2, List.append_assoc, Env.run_append, ← he]

theorem Env.run_length (e : Env K δ) (ops : List (EnvOp K δ)) : (e.run ops).agents.length = e.agents.length := by
  induction ops generalizing e with
  | nil => rfl
  | cons op ops ih =>
    have : e.run (op :: ops) = (e.apply op).run ops := rfl
    rw [this, ih, Env.apply_length]

/-- What a number of rounds leads to: `path` are the states the agent called `n` went to, `k` the rounds asked for. -/
structure Played (W H : Nat) (n : String) (stop : Bool) (k : Nat) (e : Env K δ) (a : Agent K δ) (path : List Nat)
    (r : Option (List Int)) (acc : List Int) (e' : Env K δ) : Prop where
  walk : Spec.Walk e.mdp.trans (Spec.stateOf (W * H) a.position) path
  agent : ∃ a', e'.agent? n = some a' ∧ a'.history = a.history ++ path.map (fun (t : Nat) => (t : Int)) ∧
    a'.position = (path.getLast?.elim a.position fun t => (t : Int)) ∧
    ((r = some (acc ++ path.map fun (t : Nat) => (t : Int)) ∧ path.length = k ∧
        (stop = true → k ≠ 0 → e'.caught a' = false)) ∨
      (r = none ∧ path.length ≤ k ∧ path ≠ [] ∧ stop = true ∧ e'.caught a' = true))
  others : ∀ x, x ≠ n → e'.agent? x = e.agent? x
  trans : e'.mdp.trans = e.mdp.trans
  live : ∀ b ∈ e'.agents, Spec.Live e'.mdp.trans (Spec.stateOf (W * H) b.position)
  run : ∃ ops, e' = e.run ops

theorem Env.searchLoop_goes (hm : Mdp.GridReach kind W H selfT m) (hinit : Env.init m specs = (m', .ok e0))
    (hrows : m.nNonAgent = m.features.d0 - m.nAgents)
    (hcons : ∀ sp ∈ specs, ∀ f ∈ sp.consumes, -((m.features.d0 - m.nAgents + specs.length : Nat) : Int) ≤ f)
    {o : MctsOpts K} {D : Draw K → Prop} {Dsel : δ → Prop} {orc : Nat → SearchOracle K δ} {n0 k0 : Nat} {ns ks : List Nat}
    {nT B : Nat} (hT : 0 < nT) (hB : ∀ x ∈ n0 :: ns, x ≤ B) (hns : ∀ x ∈ ns, 0 < x) (hk0 : 0 < k0)
    (hlen : ns.length = ks.length) (name : String) (stop : Bool)
    (horc : ∀ i, i < n0 → (∀ x y, D ((orc i).search x y)) ∧ (∀ s, Dsel ((orc i).fitDraws s)) ∧ (∀ s, Dsel ((orc i).draws s)) ∧
      nT * (n0 :: ns).length * (B + 1) + 1 ≤ (orc i).fuel) :
    ∀ (k i : Nat) (ops : List (EnvOp K δ)) (e : Env K δ) (obj : MctsObj K) (acc : List Int) (a : Agent K δ),
      e = e0.run ops → i + k ≤ n0 → a ∈ e.agents → a.name = name → e.agents.length = (n0 :: ns).length →
      Spec.Decides a.selector Dsel →
      (∀ b ∈ e.agents, Spec.Live e.mdp.trans (Spec.stateOf (W * H) b.position)) →
      (o.interactive = true → ∀ b ∈ e.agents, b.name ≠ a.name → ∃ f, f < e.mdp.nFeatures ∧ b.reward.get f ≠ 0) →
      (o.caching = true → ∀ b ∈ e.agents, ∀ f ∈ b.consumes, ∀ g ∈ b.consumes,
        pyIdx e.mdp.nFeatures f = pyIdx e.mdp.nFeatures g) →
      PolicyWorks o e.mdp.trans D → obj.opts = o → obj.Usable e.mdp.trans →
      ∃ e' obj' r path, Env.searchLoop name (n0 :: ns) (k0 :: ks) nT stop orc k i e obj acc = some (e', obj', .ok r) ∧
        obj'.opts = o ∧ obj'.Usable e'.mdp.trans ∧ Played W H name stop k e a path r acc e' := by
  intro k
  induction k with
  | zero =>
    intro i ops e obj acc a he hik ha han hl hdec hlive hcares hone hpol ho hcache
    have hok : Env.Ok kind W H selfT e := by rw [he]; exact (Env.started hm hinit ops).1
    refine ⟨e, obj, some acc, [], rfl, ho, hcache, trivial, ⟨a, (Env.agent?_eq hok.nodup).2 ⟨ha, han⟩, by simp, rfl, .inl ⟨by simp, rfl,
      fun _ h => absurd rfl h⟩⟩, fun _ _ => rfl, rfl, hlive, [], rfl⟩
  | succ k ih =>
    intro i ops e obj acc a he hik ha han hl hdec hlive hcares hone hpol ho hcache
    subst ho
    have hok : Env.Ok kind W H selfT e := by rw [he]; exact (Env.started hm hinit ops).1
    obtain ⟨o1, o2, o3, o4⟩ := horc i (by omega)
    have hsum := planAt_sum (i := i) (nT := nT) n0 k0 ns ks hlen hB
    have hgood := planAt_good (i := i) hT n0 k0 ns ks hlen (by omega) hk0 obj.opts.interactive
    rw [← hl] at hgood hsum o4
    obtain ⟨t, e1, e2, obj1, a', h1, h2, h3, h4, h5, h6, h7, h8, h9, h10, h11, ops2, h12⟩ :=
      Env.round_goes hm hinit hrows hcons ops he ha hlive hcares hone hpol hdec o1 hgood (fuel := (orc i).fuel)
        (by
          have : nT * e.agents.length * (B + 1) = e.agents.length * (nT * B) + e.agents.length * nT := by ring
          omega) hcache (orc i).after o2 o3
    rw [han] at h1 h2 h7 h10
    have hrun2 : e2 = e0.run (ops ++ ops2) := by rw [Env.run_append, ← he]; exact h12
    have hok2 : Env.Ok kind W H selfT e2 := by rw [hrun2]; exact (Env.started hm hinit _).1
    have hlater : Env.Later e e2 := by rw [h12]; exact Env.later_run ops2 hok
    obtain ⟨hmem', hname'⟩ := Env.agent?_mem h7
    unfold Env.searchLoop
    rw [stepPlan_ok hT i n0 ns hns (by omega) k0 ks hlen]
    simp only [h1, h2]
    rw [(Env.lookup_ok hok2).2 ⟨hmem', hname'⟩]
    simp only
    by_cases hc : (e2.caught a' && stop) = true
    · rw [if_pos hc]
      rw [Bool.and_eq_true] at hc
      exact ⟨e2, obj1, none, [t], rfl, h3, h4, ⟨h6, trivial⟩, ⟨a', h7, by simpa using h9, h8, .inr ⟨rfl, by simp, by simp, hc.2, hc.1⟩⟩,
        h10, h5, h11, ops2, h12⟩
    · rw [if_neg hc]
      have hback : ∀ b ∈ e2.agents, ∃ c ∈ e.agents, b.name = c.name ∧ b.consumes = c.consumes ∧ b.reward = c.reward ∧
          b.selector = c.selector := by
        intro b hb
        obtain ⟨c, hc, c1, -, -, c2, -, -, c3, c4, -⟩ := hlater.back hok hok2 hb
        exact ⟨c, hc, c1, c2, c3, c4⟩
      have hnF : e2.mdp.nFeatures = e.mdp.nFeatures := hlater.d0
      have hlen2 : e2.agents.length = (n0 :: ns).length := by
        rw [← hl, h12, Env.run_length]
      obtain ⟨e', obj', r, path, p1, p2, p3, p4⟩ := ih (i + 1) (ops ++ ops2) e2 obj1 (acc ++ [a'.position]) a' hrun2 (by omega)
        hmem' hname' hlen2
        (by
          obtain ⟨c, hc, c1, -, -, c4⟩ := hback a' hmem'
          have := Env.eq_of_name hok.nodup hc ha (by rw [← c1, hname', han])
          subst this
          rw [c4]; exact hdec)
        h11
        (fun hi b hb hbn => by
          obtain ⟨c, hc, c1, -, c3, -⟩ := hback b hb
          rw [hnF, c3]
          exact hcares hi c hc (by rw [← c1, han, ← hname']; exact hbn))
        (fun hi b hb => by
          obtain ⟨c, hc, -, c2, -, -⟩ := hback b hb
          rw [hnF, c2]
          exact hone hi c hc)
        (by rw [h5]; exact hpol) h3 h4
      refine ⟨e', obj', r, t :: path, p1, p2, p3, ?_⟩
      obtain ⟨w1, ⟨b, b1, b2, b3, b4⟩, w3, w4, w5, ops3, w6⟩ := p4
      have hS : e.mdp.nStates = W * H := hok.reach.ok.nStates
      rw [h8, stateOf_nat (by rw [← hS]; exact h6.1), h5] at w1
      refine ⟨⟨h6, w1⟩, ⟨b, b1, ?_, ?_, ?_⟩, fun x hx => by rw [w3 x hx, h10 x hx], w4.trans h5, w5, ops2 ++ ops3, ?_⟩
      · rw [b2, h9]; simp
      · rw [b3, h8]
        cases path with
        | nil => rfl
        | cons u l =>
          rw [List.getLast?_cons_cons]
          cases hlast : (u :: l).getLast? with
          | none => simp at hlast
          | some v => rfl
      · rcases b4 with ⟨r1, r2, r3⟩ | ⟨r1, r2, r3, r4, r5⟩
        · refine .inl ⟨by rw [r1, h8]; simp, by simp [r2], fun hst _ => ?_⟩
          by_cases hk : k = 0
          · subst hk
            unfold Env.searchLoop at p1
            cases p1
            rw [h7] at b1
            cases b1
            simpa [hst] using hc
          · exact r3 hst hk
        · exact .inr ⟨r1, by simp; omega, by simp, r4, r5⟩
      · rw [w6, h12, Env.run_append]

/-- A whole call of `step_multi`. -/
theorem Env.stepMultiSearch_goes (hm : Mdp.GridReach kind W H selfT m) (hinit : Env.init m specs = (m', .ok e0))
    (hnd : (specs.map (·.name)).Nodup) (hrows : m.nNonAgent = m.features.d0 - m.nAgents)
    (hcons : ∀ sp ∈ specs, ∀ f ∈ sp.consumes, -((m.features.d0 - m.nAgents + specs.length : Nat) : Int) ≤ f)
    (ops : List (EnvOp K δ)) (e : Env K δ) (he : e = e0.run ops) (a : Agent K δ) (ha : a ∈ e.agents) (obj : MctsObj K)
    (hlive : ∀ b ∈ e.agents, Spec.Live e.mdp.trans (Spec.stateOf (W * H) b.position))
    (hcares : obj.opts.interactive = true → ∀ b ∈ e.agents, b.name ≠ a.name → ∃ f, f < e.mdp.nFeatures ∧ b.reward.get f ≠ 0)
    (hone : obj.opts.caching = true → ∀ b ∈ e.agents, ∀ f ∈ b.consumes, ∀ g ∈ b.consumes,
      pyIdx e.mdp.nFeatures f = pyIdx e.mdp.nFeatures g)
    {D : Draw K → Prop} (hpol : PolicyWorks obj.opts e.mdp.trans D) {Dsel : δ → Prop} (hdec : Spec.Decides a.selector Dsel)
    (hcache : obj.Usable e.mdp.trans) (nSteps : Env.StepsArg) (k : Nat) (hk : Spec.Asks nSteps a.nMoves k)
    (hle : k ≤ a.nMoves) (hmoves : ∀ b ∈ e.agents, 0 < b.nMoves) (plan : Option (List Nat))
    (hplan : ∀ l, plan = some l → l.length = e.agents.length ∧ ∀ x ∈ l, 0 < x)
    (nTurns : Nat) (hT : 0 < nTurns) (stop : Bool) (orc : Nat → SearchOracle K δ) (B : Nat)
    (hB : ∀ b ∈ e.agents, b.nMoves ≤ B)
    (horc : ∀ i, (∀ x y, D ((orc i).search x y)) ∧ (∀ s, Dsel ((orc i).fitDraws s)) ∧ (∀ s, Dsel ((orc i).draws s)) ∧
      nTurns * e.agents.length * (B + 1) + 1 ≤ (orc i).fuel) :
    ∃ e' obj' r path, e.stepMultiSearch a.name obj nSteps plan nTurns stop orc = some (e', obj', .ok r) ∧
        obj'.opts = obj.opts ∧ obj'.Usable e'.mdp.trans ∧ Played W H a.name stop k e a path r [] e' := by
  obtain ⟨hok, hl⟩ := Env.started hm hinit ops
  rw [← he] at hok hl
  have hnd' : e.agentNames.Nodup := by
    rw [hl.names, (Env.init_facts hm hinit).2.2.2.1]; exact hnd
  have hmem : a.name ∈ e.agentNames := (hok.names a.name).2 (List.mem_map_of_mem ha)
  obtain ⟨nas, h1, h2⟩ := Env.allSteps_ok hok hmem
  have hlen : nas.length = e.agents.length := by
    rw [← h2.length_eq]; exact Env.order_length hok hnd' hmem
  have hall : ∀ x ∈ nas, ∃ b ∈ e.agents, b.nMoves = x := by
    intro x hx
    obtain ⟨i, hi⟩ := List.mem_iff_getElem?.1 hx
    have hi' : i < nas.length := (List.getElem?_eq_some_iff.1 hi).1
    have hi2 : i < (a.name :: e.agentNames.filter fun m => m ≠ a.name).length := by
      rw [h2.length_eq]; exact hi'
    obtain ⟨b, hb, -, hbx⟩ := h2.get hi2 hi'
    have : nas.get ⟨i, hi'⟩ = x := by
      rw [List.get_eq_getElem]; exact (List.getElem?_eq_some_iff.1 hi).2
    exact ⟨b, hb, hbx.trans this⟩
  have hc : nSteps.count a.nMoves = .ok k := by
    rcases hk with ⟨rfl, rfl⟩ | rfl | ⟨l, rfl⟩ <;> rfl
  have hp : (plan.getD nas).length = e.agents.length ∧ ∀ x ∈ plan.getD nas, 0 < x := by
    cases plan with
    | none =>
      refine ⟨hlen, fun x hx => ?_⟩
      obtain ⟨b, hb, rfl⟩ := hall x hx
      exact hmoves b hb
    | some l => exact hplan l rfl
  have hred : e.stepMultiSearch a.name obj nSteps plan nTurns stop orc =
      Env.searchLoop a.name nas (plan.getD nas) nTurns stop orc k 0 e obj [] := by
    unfold Env.stepMultiSearch
    rw [(Env.lookup_ok hok).2 ⟨ha, rfl⟩]
    simp only [h1, hc]
    rw [if_neg (not_not_intro hp.1), if_neg (not_not_intro hp.2)]
  rw [hred]
  generalize plan.getD nas = pl at hp ⊢
  cases h2 with
  | cons hx hxs =>
    rename_i n0 ns
    obtain ⟨b, hb, hbn, hbx⟩ := hx
    have hab := Env.eq_of_name hok.nodup hb ha hbn
    subst hab
    cases pl with
    | nil => rw [List.length_nil, ← hlen, List.length_cons] at hp; omega
    | cons k0 ks =>
      exact Env.searchLoop_goes (n0 := n0) (ns := ns) (k0 := k0) (ks := ks) (B := B) (D := D) (Dsel := Dsel)
        (o := obj.opts) hm hinit hrows hcons hT
        (fun x hx => by obtain ⟨c, hc, rfl⟩ := hall x hx; exact hB c hc)
        (fun x hx => by obtain ⟨c, hc, rfl⟩ := hall x (List.mem_cons_of_mem _ hx); exact hmoves c hc)
        (hp.2 k0 List.mem_cons_self)
        (by have := hp.1; rw [← hlen] at this; simpa using this.symm) b.name stop
        (fun i _ => by rw [hlen]; exact horc i) k 0 ops e obj [] b he (by omega) ha rfl hlen.symm hdec hlive
        hcares hone hpol rfl hcache

/-- `k + l` rounds are `k` rounds and then `l` more. -/
theorem Env.searchLoop_add (name : String) (ns ks : List Nat) (nT : Nat) (stop : Bool) (orc : Nat → SearchOracle K δ) (l : Nat) :
    ∀ (k i : Nat) (e : Env K δ) (obj : MctsObj K) (acc : List Int),
      Env.searchLoop name ns ks nT stop orc (k + l) i e obj acc =
        match Env.searchLoop name ns ks nT stop orc k i e obj acc with
        | some (e', obj', .ok (some acc')) => Env.searchLoop name ns ks nT stop orc l (i + k) e' obj' acc'
        | r => r := by
  intro k
  induction k with
  | zero => intro i e obj acc; rw [Nat.zero_add]; rfl
  | succ k ih =>
    intro i e obj acc
    rw [Nat.succ_add, Env.searchLoop, Env.searchLoop]
    cases Env.stepPlan i nT ns 0 ks with
    | error err => rfl
    | ok plan =>
      simp only
      rcases e.fitSearch name obj ⟨some plan, (orc i).search, (orc i).fuel, (orc i).after⟩ (orc i).fitDraws with
        _ | ⟨e1, obj1, err | u⟩
      · rfl
      · rfl
      · simp only
        rcases e1.step name (orc i).draws with ⟨e2, err | u⟩
        · rfl
        · simp only
          cases e2.lookup name with
          | error err => rfl
          | ok a =>
            simp only
            by_cases hc : (e2.caught a && stop) = true
            · rw [if_pos hc, if_pos hc]
            · rw [if_neg hc, if_neg hc, ih, Nat.add_right_comm i 1 k, Nat.add_assoc i k 1]

/-- Asking for more steps than the agent has moves per turn: as asking for that many, and then an exception. -/
theorem Env.stepMultiSearch_more {e : Env K δ} (hok : Env.Ok kind W H selfT e) (a : Agent K δ) (ha : a ∈ e.agents)
    (obj : MctsObj K) (nSteps : Env.StepsArg) (k : Nat) (hk : Spec.Asks nSteps a.nMoves k) (hgt : a.nMoves < k)
    (plan : Option (List Nat)) (nTurns : Nat) (stop : Bool) (orc : Nat → SearchOracle K δ) (e' : Env K δ) (obj' : MctsObj K)
    (r : Option (List Int))
    (h : e.stepMultiSearch a.name obj .default plan nTurns stop orc = some (e', obj', .ok r)) :
    e.stepMultiSearch a.name obj nSteps plan nTurns stop orc =
      some (e', obj', r.elim (.ok none) fun _ => .error .valueError) := by
  have hmem : a.name ∈ e.agentNames := (hok.names a.name).2 (List.mem_map_of_mem ha)
  obtain ⟨nas, h1, h2⟩ := Env.allSteps_ok hok hmem
  have hc : nSteps.count a.nMoves = .ok k := by
    rcases hk with ⟨rfl, rfl⟩ | rfl | ⟨l, rfl⟩ <;> rfl
  unfold Env.stepMultiSearch at h ⊢
  rw [(Env.lookup_ok hok).2 ⟨ha, rfl⟩] at h ⊢
  simp only [h1, hc] at h ⊢
  simp only [Env.StepsArg.count] at h
  by_cases hp1 : (plan.getD nas).length ≠ e.agents.length
  · rw [if_pos hp1] at h; cases h
  by_cases hp2 : ¬ ∀ x ∈ plan.getD nas, 0 < x
  · rw [if_neg hp1, if_pos hp2] at h; cases h
  rw [if_neg hp1, if_neg hp2] at h ⊢
  obtain ⟨l, rfl⟩ : ∃ l, k = a.nMoves + (l + 1) := ⟨k - a.nMoves - 1, by omega⟩
  rw [Env.searchLoop_add, h]
  cases r with
  | none => rfl
  | some acc =>
    simp only [Nat.zero_add]
    unfold Env.searchLoop
    cases h2 with
    | cons hx hxs =>
      rename_i n0 ns
      obtain ⟨b, hb, hbn, hbx⟩ := hx
      have hab := Env.eq_of_name hok.nodup hb ha hbn
      subst hab
      generalize plan.getD (n0 :: ns) = pl at *
      cases pl with
      | nil =>
        rw [List.length_nil] at hp1
        have := List.length_pos_of_mem ha
        omega
      | cons k0 ks =>
        unfold Env.stepPlan
        simp only [List.getElem?_cons_zero, if_true]
        rw [(C37_errors b.nMoves nTurns n0 k0).1 hbx.ge]
        rfl

/-- What every agent of a game has done in the end: moved along a path of possible moves. -/
structure Went (W H : Nat) (e e' : Env K δ) : Prop where
  path : ∀ a ∈ e.agents, ∃ a' ∈ e'.agents, a'.name = a.name ∧ ∃ path : List Nat,
    Spec.Walk e.mdp.trans (Spec.stateOf (W * H) a.position) path ∧
    a'.history = a.history ++ path.map (fun (t : Nat) => (t : Int)) ∧
    a'.position = (path.getLast?.elim a.position fun t => (t : Int))
  trans : e'.mdp.trans = e.mdp.trans
  live : ∀ b ∈ e'.agents, Spec.Live e'.mdp.trans (Spec.stateOf (W * H) b.position)

theorem walk_join {M : Trans K} : ∀ {l l' : List Nat} {s : Nat}, Spec.Walk M s l →
    Spec.Walk M (l.getLast?.elim s id) l' → Spec.Walk M s (l ++ l')
  | [], _, _, _, h => h
  | t :: l, l', s, ⟨h1, h2⟩, h => by
    refine ⟨h1, walk_join h2 ?_⟩
    cases l with
    | nil => exact h
    | cons u l =>
      rw [List.getLast?_cons_cons] at h
      cases hlast : (u :: l).getLast? with
      | none => simp at hlast
      | some v => rw [hlast] at h; exact h

theorem walk_lt {M : Trans K} : ∀ {l : List Nat} {s : Nat}, Spec.Walk M s l → ∀ t ∈ l, t < M.nS
  | [], _, _, t, ht => by cases ht
  | u :: l, s, ⟨h1, h2⟩, t, ht => by
    rcases List.mem_cons.1 ht with rfl | ht
    · exact h1.1
    · exact walk_lt h2 t ht

/-- A whole game. -/
theorem Env.game_goes (hm : Mdp.GridReach kind W H selfT m) (hinit : Env.init m specs = (m', .ok e0))
    (hnd : (specs.map (·.name)).Nodup) (hrows : m.nNonAgent = m.features.d0 - m.nAgents)
    (hcons : ∀ sp ∈ specs, ∀ f ∈ sp.consumes, -((m.features.d0 - m.nAgents + specs.length : Nat) : Int) ≤ f)
    {D : Draw K → Prop} {Dsel : δ → Prop} (B : Nat) (orc : Nat → Nat → SearchOracle K δ) :
    ∀ (turns : List SearchTurn) (j : Nat) (ops : List (EnvOp K δ)) (e : Env K δ) (objs : String → MctsObj K),
      e = e0.run ops →
      (∀ b ∈ e.agents, Spec.Live e.mdp.trans (Spec.stateOf (W * H) b.position)) →
      (∀ b ∈ e.agents, 0 < b.nMoves ∧ b.nMoves ≤ B ∧ Spec.Decides b.selector Dsel) →
      (∀ a ∈ e.agents, (objs a.name).opts.interactive = true →
        ∀ b ∈ e.agents, b.name ≠ a.name → ∃ f, f < e.mdp.nFeatures ∧ b.reward.get f ≠ 0) →
      (∀ a ∈ e.agents, (objs a.name).opts.caching = true → ∀ b ∈ e.agents, ∀ f ∈ b.consumes, ∀ g ∈ b.consumes,
        pyIdx e.mdp.nFeatures f = pyIdx e.mdp.nFeatures g) →
      (∀ a ∈ e.agents, PolicyWorks (objs a.name).opts e.mdp.trans D) →
      (∀ a ∈ e.agents, (objs a.name).Usable e.mdp.trans) →
      (∀ t ∈ turns, (∃ a ∈ e.agents, a.name = t.name ∧ ∃ k, Spec.Asks t.nSteps a.nMoves k ∧ k ≤ a.nMoves) ∧
        (∀ l, t.nMovesPlan = some l → l.length = e.agents.length ∧ ∀ x ∈ l, 0 < x) ∧ 0 < t.nTurns ∧
        ∀ j i, t.nTurns * e.agents.length * (B + 1) + 1 ≤ (orc j i).fuel) →
      (∀ j i, (∀ x y, D ((orc j i).search x y)) ∧ (∀ s, Dsel ((orc j i).fitDraws s)) ∧ (∀ s, Dsel ((orc j i).draws s))) →
      ∃ e' objs' rs, Env.game orc turns j e objs = some (e', objs', rs) ∧
        List.Forall₂ (fun t r => (t.stop = true ∧ r = .ok none) ∨ ∃ l, r = .ok (some l) ∧
          ∃ a ∈ e.agents, a.name = t.name ∧ Spec.Asks t.nSteps a.nMoves l.length) turns rs ∧ Went W H e e' := by
  intro turns
  induction turns with
  | nil =>
    intro j ops e objs he hlive _ _ _ _ _ _ _
    exact ⟨e, objs, [], rfl, .nil, fun a ha => ⟨a, ha, rfl, [], trivial, by simp, rfl⟩, rfl, hlive⟩
  | cons t turns ih =>
    intro j ops e objs he hlive hag hcares hone hpol hus hturns horc
    have hok : Env.Ok kind W H selfT e := by rw [he]; exact (Env.started hm hinit ops).1
    obtain ⟨⟨a, ha, han, k, hk, hle⟩, hplan, hT, hfuel⟩ := hturns t List.mem_cons_self
    obtain ⟨e1, obj1, r, path, g1, g2, g3, g4⟩ := Env.stepMultiSearch_goes hm hinit hnd hrows hcons ops e he a ha (objs a.name)
      hlive (hcares a ha) (hone a ha) (hpol a ha) (hag a ha).2.2 (hus a ha) t.nSteps k hk hle (fun b hb => (hag b hb).1)
      t.nMovesPlan hplan t.nTurns hT t.stop (orc j) B (fun b hb => (hag b hb).2.1)
      (fun i => ⟨(horc j i).1, (horc j i).2.1, (horc j i).2.2, hfuel j i⟩)
    obtain ⟨w1, ⟨a1, w2, w3, w4, w5⟩, w6, w7, w8, ops1, w9⟩ := g4
    have hrun1 : e1 = e0.run (ops ++ ops1) := by rw [Env.run_append, ← he]; exact w9
    have hok1 : Env.Ok kind W H selfT e1 := by rw [hrun1]; exact (Env.started hm hinit _).1
    have hlater : Env.Later e e1 := by rw [w9]; exact Env.later_run ops1 hok
    have hnF : e1.mdp.nFeatures = e.mdp.nFeatures := hlater.d0
    have hback : ∀ b ∈ e1.agents, ∃ c ∈ e.agents, b.name = c.name ∧ b.consumes = c.consumes ∧ b.reward = c.reward ∧
        b.selector = c.selector ∧ b.nMoves = c.nMoves := by
      intro b hb
      obtain ⟨c, hc, c1, -, -, c2, -, c5, c3, c4, -⟩ := hlater.back hok hok1 hb
      exact ⟨c, hc, c1, c2, c3, c4, c5⟩
    set objs1 : String → MctsObj K := fun n => if n = t.name then obj1 else objs n with hobjs1
    have hopts : ∀ c ∈ e.agents, (objs1 c.name).opts = (objs c.name).opts := by
      intro c hc
      simp only [hobjs1]
      split_ifs with h
      · rw [g2, h, han]
      · rfl
    obtain ⟨e', objs', rs, p1, p2, p3, p4, p5⟩ := ih (j + 1) (ops ++ ops1) e1 objs1 hrun1 w8
      (fun b hb => by
        obtain ⟨c, hc, -, -, -, c4, c5⟩ := hback b hb
        rw [c4, c5]; exact hag c hc)
      (fun x hx hi b hb hbn => by
        obtain ⟨c, hc, c1, -, c3, -⟩ := hback b hb
        obtain ⟨y, hy, y1, -⟩ := hback x hx
        rw [y1, hopts y hy] at hi
        rw [hnF, c3]
        exact hcares y hy hi c hc (by rw [← c1, ← y1]; exact hbn))
      (fun x hx hi b hb => by
        obtain ⟨c, hc, -, c2, -⟩ := hback b hb
        obtain ⟨y, hy, y1, -⟩ := hback x hx
        rw [y1, hopts y hy] at hi
        rw [hnF, c2]
        exact hone y hy hi c hc)
      (fun x hx => by
        obtain ⟨y, hy, y1, -⟩ := hback x hx
        rw [y1, hopts y hy, w7]
        exact hpol y hy)
      (fun x hx => by
        obtain ⟨y, hy, y1, -⟩ := hback x hx
        rw [y1]
        simp only [hobjs1]
        split_ifs with h
        · exact g3
        · rw [w7]; exact hus y hy)
      (fun u hu => by
        obtain ⟨⟨y, hy, hyn, k', u1, u2⟩, u3, u4, u5⟩ := hturns u (List.mem_cons_of_mem _ hu)
        have hlen : e1.agents.length = e.agents.length := by rw [w9, Env.run_length]
        rw [hlen]
        obtain ⟨z, hz, z1, -, -, -, -, z2, -⟩ := hlater.agents y hy
        exact ⟨⟨z, hz, z1.trans hyn, k', by rw [z2]; exact u1, by rw [z2]; exact u2⟩, u3, u4, u5⟩)
      horc
    refine ⟨e', objs', .ok r :: rs, ?_, .cons ?_ ?_, ?_, p4.trans w7, p5⟩
    · unfold Env.game
      rw [← han, g1]
      simp only [han]
      rw [← hobjs1, p1]
    · rcases w5 with ⟨r1, r2, -⟩ | ⟨r1, -, -, r4, -⟩
      · refine .inr ⟨_, by rw [r1], a, ha, han, ?_⟩
        simpa [r2] using hk
      · exact .inl ⟨r4, by rw [r1]⟩
    · refine p2.imp fun t r h => ?_
      rcases h with h | ⟨l, h1, b, hb, hbn, hb'⟩
      · exact .inl h
      · obtain ⟨c, hc, c1, -, -, -, c5⟩ := hback b hb
        exact .inr ⟨l, h1, c, hc, c1.symm.trans hbn, by rw [← c5]; exact hb'⟩
    · intro b hb
      have hS : e.mdp.nStates = W * H := hok.reach.ok.nStates
      by_cases hba : b.name = a.name
      · have := Env.eq_of_name hok.nodup hb ha hba
        subst this
        obtain ⟨hm1, hn1⟩ := Env.agent?_mem w2
        obtain ⟨b', hb', q1, path', q2, q3, q4⟩ := p3 a1 hm1
        refine ⟨b', hb', q1.trans hn1, path ++ path', walk_join w1 ?_, by rw [q3, w3]; simp, ?_⟩
        · rw [← w7]
          convert q2 using 1
          rw [w4]
          cases hlast : path.getLast? with
          | none => rfl
          | some v =>
            exact (stateOf_nat (by rw [← hS]; exact walk_lt w1 v (List.mem_of_getLast? hlast))).symm
        · rw [q4, w4]
          cases hp' : path'.getLast? with
          | none =>
            rw [List.getLast?_eq_none_iff] at hp'
            subst hp'
            rw [List.append_nil]
            rfl
          | some v => rw [List.getLast?_append, hp']; rfl
      · have h1 := (Env.agent?_eq hok.nodup).2 ⟨hb, rfl⟩
        rw [← w6 b.name hba] at h1
        obtain ⟨b', hb', q1, path', q2, q3, q4⟩ := p3 b (Env.agent?_mem h1).1
        exact ⟨b', hb', q1, path', by rw [← w7]; exact q2, q3, q4⟩

end MaMDP
