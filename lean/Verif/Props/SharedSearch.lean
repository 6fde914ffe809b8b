import Verif.Spec.SharedSearch
import Verif.Props.SearchAgent
import Verif.Props.MCTSLoop
import Verif.Props.Credit

/-! # C173: a tree search plans for the environment it is asked in -/

set_option linter.unusedSectionVars false

namespace MaMDP

variable {K : Type} [Field K] [LinearOrder K] [IsStrictOrderedRing K] {δ : Type}
  {kind : GridKind} {W H : Nat} {selfT : Bool} {m m' : Mdp K} {specs : List (AgentSpec K δ)} {e0 : Env K δ}

/-- An agent that was added to no other environment since is fitted as described by `Env.fitSearch`. -/
theorem C173_own (e : Env K δ) (n : String) (a : Agent K δ) (ha : e.lookup n = .ok a) (obj : MctsObj K) (x : SearchArgs K)
    (d : Nat → δ) : e.fitShared e a n obj x d = e.fitSearch n obj x d := by
  unfold Env.fitShared Env.fitSearch
  rw [ha]
  rfl

/-- **C173**, what does hold: if the agent looks the same in the environment it was added to last (and so do the others there, if
they are simulated), then the fit in the first environment is as if the agent had not been added to another one. Missing: agents that
stand elsewhere there. -/
theorem C173_partial (e last : Env K δ) (n : String) (a b : Agent K δ) (ha : e.lookup n = .ok a) (obj : MctsObj K)
    (hab : Spec.LooksLike a b) (hothers : obj.opts.interactive = true → Spec.SameOthers e a last b) (x : SearchArgs K)
    (d : Nat → δ) : e.fitShared last b n obj x d = e.fitSearch n obj x d := by
  have hp : obj.prepare.opts = obj.opts := by unfold MctsObj.prepare; split <;> rfl
  have hinfo : ∀ w, last.agentInfos b obj.prepare.opts.interactive w = e.agentInfos a obj.prepare.opts.interactive w := by
    intro w
    unfold Env.agentInfos
    rw [hp, hab.position, hab.moves, hab.consumes, hab.feature]
    congr 1
    split_ifs with hi
    · have h := hothers hi
      unfold Spec.SameOthers at h
      generalize (e.agents.filter fun c => c.name ≠ a.name) = l at h
      generalize (last.agents.filter fun c => c.name ≠ b.name) = l' at h
      induction h with
      | nil => rfl
      | cons h1 _ ih =>
        rw [List.map_cons, List.map_cons, ih, h1.1.position, h1.1.moves, h1.1.consumes, h1.1.feature, h1.2]
    · rfl
  have hfit : obj.fit ⟨some (last, b), e.mdp, .of1 a.reward, a.position, x.plan, x.draws, x.fuel, x.after⟩ =
      obj.fit ⟨some (e, a), e.mdp, .of1 a.reward, a.position, x.plan, x.draws, x.fuel, x.after⟩ := by
    unfold MctsObj.fit MctsObj.search
    dsimp only
    rcases checkReward e.mdp.nFeatures (.of1 a.reward) with err | w
    · rfl
    · dsimp only
      rw [hinfo]
  unfold Env.fitShared Env.fitSearch
  rw [ha]
  dsimp only
  rw [hfit]
  rfl

/-- **C173**, what goes wrong: an agent plans alone, in environment `e` on a grid after any history, and was last added to another
environment, where it stands on `far`. If no walk from `far` of as many moves as are planned comes to a state next to the agent's
in `e`, then a fit in `e` gives each possible action the value 0: whatever the rewards, the number of iterations, the exploration
and the outcomes of the generator. -/
theorem C173_blind (hm : Mdp.GridReach kind W H selfT m) (hinit : Env.init m specs = (m', .ok e0))
    (ops : List (EnvOp K δ)) (e : Env K δ) (he : e = e0.run ops) (n : String) (a : Agent K δ) (ha : e.lookup n = .ok a)
    (last : Env K δ) (b : Agent K δ) (obj : MctsObj K) (hi : obj.opts.interactive = false) (k : Nat) (hk : 0 < k) (own : List Nat)
    (x : SearchArgs K) (hx : x.plan = some [k :: own]) (hfuel : (k :: own).sum + 1 ≤ x.fuel)
    (s far : Nat) (hs : s = Spec.stateOf (W * H) a.position) (hfar : b.position = far) (hlt : far < W * H)
    (haway : ∀ l, Spec.Walk e.mdp.trans far l → l.length = (k :: own).sum → ∀ t ∈ l, ¬ Spec.Successor e.mdp.trans s t)
    (d : Nat → δ) (e' : Env K δ) (obj' : MctsObj K) (h : e.fitShared last b n obj x d = some (e', obj', .ok ())) :
    ∃ q, e'.getQValues n = .ok (some q) ∧ ∀ y, y < e.mdp.nActions → Spec.Possible e.mdp.trans s y → q.get s y = .fin 0 := by
  obtain ⟨hok, -⟩ := Env.started hm hinit ops
  rw [← he] at hok
  obtain ⟨hmem, hn⟩ := (Env.lookup_ok hok).1 ha
  have hM := (C27_grid kind W H selfT e.mdp hok.reach).1.nonneg
  have hnS : e.mdp.trans.nS = W * H := hok.reach.ok.nStates
  have hp : obj.prepare.opts = obj.opts := by unfold MctsObj.prepare; split <;> rfl
  unfold Env.fitShared at h
  rw [ha] at h
  dsimp only at h
  rcases hf : obj.fit ⟨some (last, b), e.mdp, .of1 a.reward, a.position, x.plan, x.draws, x.fuel, x.after⟩ with _ | ⟨o1, err | ⟨⟩⟩
  · rw [hf] at h; cases h
  · rw [hf] at h; cases h
  rw [hf] at h
  simp only [Option.some.injEq, Prod.mk.injEq] at h
  obtain ⟨rfl, rfl, hpol⟩ := h
  -- the search
  unfold MctsObj.fit at hf
  dsimp only at hf
  rcases hw : checkReward e.mdp.nFeatures (.of1 a.reward) with err | w
  · rw [hw] at hf; cases hf
  rw [hw] at hf
  dsimp only at hf
  unfold MctsObj.search at hf
  rw [hp] at hf
  rcases hA : extractInfo (last.agentInfos b obj.opts.interactive w) with err | A
  · rw [hA] at hf; cases hf
  rw [hA] at hf
  dsimp only at hf
  have hnode : A.nodes 0 = b.position := by
    unfold extractInfo at hA
    split at hA
    · cases hA
    · unfold Env.agentInfos at hA
      dsimp only at hA
      split_ifs at hA
      all_goals rw [← Except.ok.inj hA]; rfl
  rcases hr : (runMcts obj.opts e.mdp.trans A w.d0 obj.prepare.nIter e.mdp.features.get x.plan
      (obj.prepare.cache.getD fun _ _ => none) x.draws x.fuel).2.2 with _ | err | srch
  · rw [hr] at hf; cases hf
  · rw [hr] at hf; cases hf
  rw [hr] at hf
  simp only [Option.some.injEq] at hf
  unfold MctsObj.accept at hf
  dsimp only at hf
  rcases hpos : pyIdx e.mdp.nStates a.position with _ | here
  · rw [hpos] at hf; cases hf
  rw [hpos] at hf
  dsimp only at hf
  have hhere : here = s := by
    rw [hs, Env.stateOf_eq hpos, hok.reach.ok.nStates]
  subst hhere
  simp only [checkOutput, PyArr.of1, PyArr.of2, ne_eq, not_true_eq_false, if_false, Prod.mk.injEq, and_true] at hf
  -- no visits
  have hvis : ∀ t, Spec.Successor e.mdp.trans here t → srch.N t = 0 ∧ srch.V t = 0 := by
    intro t ht
    rw [hx] at hr
    obtain ⟨outs, k1, k2, k3, k4, k5, k6⟩ := C58_tables _ _ _ _ _ _ _ _ _ _ _ hr
    have hN : srch.N t = 0 := by
      rw [k2]
      unfold Spec.visitsOf
      refine List.sum_eq_zero fun c hc => ?_
      obtain ⟨out, hout, rfl⟩ := List.mem_map.1 hc
      obtain ⟨i, hi', rfl⟩ := List.getElem_of_mem hout
      obtain ⟨cache, st, g1, g2⟩ := k6 i (by omega)
      rw [List.getElem?_eq_getElem hi'] at g2
      rw [Option.some.inj g2]
      refine List.count_eq_zero_of_not_mem fun hmem' => ?_
      have hwalk := (C56_walks hM _ _ _ _ _ g1).1 far (by
        rw [hnode, hfar]; exact pyIdx_natCast (by rw [hnS]; exact hlt))
      exact haway _ hwalk (C91_partial hi hk _ hfuel _ _ _ _ g1) t hmem' ht
    exact ⟨hN, k5 t hN⟩
  have hst : o1.st = ⟨true, some ⟨e.mdp.nStates, fun t => .fin (srch.V t)⟩,
      some ⟨e.mdp.nStates, e.mdp.nActions, mctsQ e.mdp.trans srch.V srch.N here⟩⟩ := by
    rw [← hf]; rfl
  have hsame := Agent.getPolicy_same { a with alg := o1.st } d
  have hok' : Env.Ok kind W H selfT (e.put e.mdp (Agent.getPolicy { a with alg := o1.st } d).1) :=
    hok.same hmem ⟨hsame.1.name, hsame.1.nMoves, hsame.1.reward, hsame.1.consumes, hsame.1.consumed, hsame.1.selector,
      hsame.1.idx, hsame.1.featIdx, hsame.1.start, hsame.1.position⟩
  have hag : (e.put e.mdp (Agent.getPolicy { a with alg := o1.st } d).1).agent? n =
      some (Agent.getPolicy { a with alg := o1.st } d).1 := by
    rw [← hn]; exact Env.agent?_put_same hok hmem hsame.1.name
  refine ⟨⟨e.mdp.nStates, e.mdp.nActions, mctsQ e.mdp.trans srch.V srch.N here⟩, ?_, fun y hy hposs => ?_⟩
  · unfold Env.getQValues
    rw [(Env.lookup_ok hok').2 (Env.agent?_mem hag)]
    have halg : (Agent.getPolicy { a with alg := o1.st } d).1.alg = o1.st := hsame.2.2
    show Except.ok (Agent.getPolicy { a with alg := o1.st } d).1.alg.qValues = _
    rw [halg, hst]
  · obtain ⟨t, ht, hpt⟩ := hposs
    obtain ⟨u, g1, g2, g3⟩ := (mctsQ_spec e.mdp.trans srch.V srch.N here).2.2 y hy ⟨t, ht, ne_of_gt hpt⟩
    have hu := hvis u ⟨g1, y, hy, lt_of_le_of_ne (hM _ _ _ (pyIdx_lt hpos) hy g1) (Ne.symm g2)⟩
    show mctsQ _ _ _ _ _ _ = _
    rw [g3, hu.1, hu.2]
    simp

/-- A fox in a corridor, fond of the feature. -/
def exRovingFox (start : Int) : List (AgentSpec Rat Nat) :=
  [⟨"fox", 1, maxSelector, .fresh, some start, .of1 ⟨2, fun f => if f = 0 then 1 else 0⟩, []⟩]

/-- They look two moves ahead. -/
def exTwoAhead : SearchArgs Rat := ⟨some [[2]], fun _ j => ⟨j, 0⟩, 9, fun _ _ => none⟩

/-- **C173 is false of the code**: in two corridors of six cells, each with its own MDP, the first cell is worth 1. In the
first corridor the fox stands next to it and, when fitted by a tree search of 4 walks of two moves, steps there,
however ties are broken. Then the fox is added to the second corridor, at its other end. Fitted in the first corridor in the same way, it may
now step the other way. No number of iterations helps: both possible actions always have the value 0. -/
theorem C173_refuted : ∃ (m1 m1' m2 m2' : Mdp Rat) (e last : Env Rat Nat) (a b : Agent Rat Nat),
    Mdp.GridReach .square 1 6 false m1 ∧ Env.init m1 (exRovingFox 1) = (m1', .ok e) ∧ e.lookup "fox" = .ok a ∧
    Mdp.GridReach .square 1 6 false m2 ∧ Env.init m2 (exRovingFox 5) = (m2', .ok last) ∧ last.lookup "fox" = .ok b ∧
    (∀ i < 3, ∃ e1 obj, e.fitSearch "fox" (.init exSolo 4 true) exTwoAhead (fun _ => i) = some (e1, obj, .ok ()) ∧
      ∀ i' < 3, (e1.step "fox" fun _ => i').2 = .ok 0) ∧
    (∃ e1 obj, e.fitShared last b "fox" (.init exSolo 4 true) exTwoAhead (fun _ => 0) = some (e1, obj, .ok ()) ∧
      (e1.step "fox" fun _ => 0).2 = .ok 2) ∧
    ∀ (obj : MctsObj Rat) (x : SearchArgs Rat), obj.opts.interactive = false → x.plan = some [[2]] → 3 ≤ x.fuel →
      ∀ d e1 obj', e.fitShared last b "fox" obj x d = some (e1, obj', .ok ()) →
        ∃ q, e1.getQValues "fox" = .ok (some q) ∧ ∀ y < 4, Spec.Possible e.mdp.trans 1 y → q.get 1 y = .fin 0 := by
  have key : ∀ (y1 y2 : Py (Mdp Rat)) (s1 s2 : List (AgentSpec Rat Nat)),
      Mdp.initGrid .square 1 6 false ⟨1, 6, fun _ s => if s = 0 then 1 else 0⟩ none = y1 →
      Mdp.initGrid .square 1 6 false ⟨1, 6, fun _ s => if s = 0 then 1 else 0⟩ none = y2 →
      (match y1, y2 with
        | .ok m1, .ok m2 => match (Env.init m1 s1).2, (Env.init m2 s2).2 with
          | .ok e, .ok last => match e.lookup "fox", last.lookup "fox" with
            | .ok a, .ok b => decide (a.position = 1 ∧ b.position = 5 ∧ e.mdp.trans.nS = 6 ∧ e.mdp.trans.nA = 4) &&
              ((List.range 3).all fun i =>
                match e.fitSearch "fox" (.init exSolo 4 true) exTwoAhead (fun _ => i) with
                | some (e1, _, .ok ()) => (List.range 3).all fun i' => decide ((e1.step "fox" fun _ => i').2 = .ok 0)
                | _ => false) &&
              (match e.fitShared last b "fox" (.init exSolo 4 true) exTwoAhead (fun _ => 0) with
                | some (e1, _, .ok ()) => decide ((e1.step "fox" fun _ => 0).2 = .ok 2)
                | _ => false) &&
              decide (∀ x y : Fin 6, (∃ c : Fin 4, 0 < e.mdp.trans.p 5 c.1 x.1) →
                (∃ c : Fin 4, 0 < e.mdp.trans.p x.1 c.1 y.1) →
                (∀ c : Fin 4, e.mdp.trans.p 1 c.1 x.1 ≤ 0) ∧ (∀ c : Fin 4, e.mdp.trans.p 1 c.1 y.1 ≤ 0))
            | _, _ => false
          | _, _ => false
        | _, _ => false) = true →
      ∃ (m1 m1' m2 m2' : Mdp Rat) (e last : Env Rat Nat) (a b : Agent Rat Nat),
        Mdp.GridReach .square 1 6 false m1 ∧ Env.init m1 s1 = (m1', .ok e) ∧ e.lookup "fox" = .ok a ∧
        Mdp.GridReach .square 1 6 false m2 ∧ Env.init m2 s2 = (m2', .ok last) ∧ last.lookup "fox" = .ok b ∧
        (∀ i < 3, ∃ e1 obj, e.fitSearch "fox" (.init exSolo 4 true) exTwoAhead (fun _ => i) = some (e1, obj, .ok ()) ∧
          ∀ i' < 3, (e1.step "fox" fun _ => i').2 = .ok 0) ∧
        (∃ e1 obj, e.fitShared last b "fox" (.init exSolo 4 true) exTwoAhead (fun _ => 0) = some (e1, obj, .ok ()) ∧
          (e1.step "fox" fun _ => 0).2 = .ok 2) ∧
        ∀ (obj : MctsObj Rat) (x : SearchArgs Rat), obj.opts.interactive = false → x.plan = some [[2]] → 3 ≤ x.fuel →
          ∀ d e1 obj', e.fitShared last b "fox" obj x d = some (e1, obj', .ok ()) →
            ∃ q, e1.getQValues "fox" = .ok (some q) ∧
              ∀ y < 4, Spec.Possible e.mdp.trans 1 y → q.get 1 y = .fin 0 := by
    intro y1 y2 s1 s2 hy1 hy2 h
    rcases y1 with err | m1
    · cases h
    rcases y2 with err | m2
    · cases h
    dsimp only at h
    rcases h1 : Env.init m1 s1 with ⟨m1', err | e⟩
    · rw [h1] at h; cases h
    rcases h2 : Env.init m2 s2 with ⟨m2', err | last⟩
    · rw [h1, h2] at h; cases h
    rw [h1, h2] at h
    dsimp only at h
    rcases ha : e.lookup "fox" with err | a
    · rw [ha] at h; cases h
    rcases hb : last.lookup "fox" with err | b
    · rw [ha, hb] at h; cases h
    rw [ha, hb] at h
    simp only [Bool.and_eq_true, decide_eq_true_eq, List.all_eq_true, List.mem_range] at h
    obtain ⟨⟨⟨⟨p1, p2, p3, p4⟩, c1⟩, c2⟩, c3⟩ := h
    refine ⟨m1, m1', m2, m2', e, last, a, b, .init hy1, h1, ha, .init hy2, h2, hb, fun i hi => ?_, ?_, ?_⟩
    · have := c1 i hi
      rcases hf : e.fitSearch "fox" (.init exSolo 4 true) exTwoAhead (fun _ => i) with _ | ⟨e1, obj, err | ⟨⟩⟩
      · rw [hf] at this; cases this
      · rw [hf] at this; cases this
      · rw [hf] at this
        simp only [List.all_eq_true, List.mem_range, decide_eq_true_eq] at this
        exact ⟨e1, obj, rfl, this⟩
    · rcases hf : e.fitShared last b "fox" (.init exSolo 4 true) exTwoAhead (fun _ => 0) with _ | ⟨e1, obj, err | ⟨⟩⟩
      · rw [hf] at c2; cases c2
      · rw [hf] at c2; cases c2
      · rw [hf] at c2
        exact ⟨e1, obj, rfl, of_decide_eq_true c2⟩
    · intro obj x hi hx hfuel d e1 obj' hf
      have hA : e.mdp.nActions = 4 := p4
      obtain ⟨q, hq, hz⟩ := C173_blind (.init hy1) h1 [] e rfl "fox" a ha last b obj hi 2 (by omega) [] x hx (by simpa using hfuel)
        1 5 (by rw [p1]; rfl) p2 (by omega) (by
          intro l hl hlen t ht
          have hlen' : l.length = 2 := by simpa using hlen
          obtain ⟨u, v, rfl⟩ := List.length_eq_two.1 hlen'
          obtain ⟨⟨b1, c1, d1, e1⟩, ⟨b2, c2, d2, e2⟩, -⟩ := hl
          rw [p3] at b1 b2
          rw [p4] at d1 d2
          obtain ⟨g1, g2⟩ := c3 ⟨u, b1⟩ ⟨v, b2⟩ ⟨⟨c1, d1⟩, e1⟩ ⟨⟨c2, d2⟩, e2⟩
          rintro ⟨-, c, hc, hpos⟩
          rw [p4] at hc
          simp only [List.mem_cons, List.not_mem_nil, or_false] at ht
          rcases ht with rfl | rfl
          · exact absurd hpos (not_lt.2 (g1 ⟨c, hc⟩))
          · exact absurd hpos (not_lt.2 (g2 ⟨c, hc⟩))) d e1 obj' hf
      exact ⟨q, hq, fun y hy => hz y (by rw [hA]; exact hy)⟩
  exact key _ _ _ _ rfl rfl (by decide +kernel)

/-- The fox was added last to a corridor whose far end is the one that is worth something, on the same cell: this does no harm in the
first corridor, where it steps to the near end. -/
example : ∃ (m1 m1' m2 m2' : Mdp Rat) (e last : Env Rat Nat) (a b : Agent Rat Nat),
    Mdp.GridReach .square 1 6 false m1 ∧ Env.init m1 (exRovingFox 1) = (m1', .ok e) ∧ e.lookup "fox" = .ok a ∧
    Mdp.GridReach .square 1 6 false m2 ∧ Env.init m2 (exRovingFox 1) = (m2', .ok last) ∧ last.lookup "fox" = .ok b ∧
    e.mdp.features.get 0 0 ≠ last.mdp.features.get 0 0 ∧ Spec.LooksLike a b ∧ Spec.SameOthers e a last b ∧
    ∃ e1 obj, e.fitShared last b "fox" (.init exSolo 4 true) exTwoAhead (fun _ => 0) = some (e1, obj, .ok ()) ∧
      (e1.step "fox" fun _ => 0).2 = .ok 0 := by
  have key : ∀ (y1 y2 : Py (Mdp Rat)) (s1 s2 : List (AgentSpec Rat Nat)),
      Mdp.initGrid .square 1 6 false ⟨1, 6, fun _ s => if s = 0 then 1 else 0⟩ none = y1 →
      Mdp.initGrid .square 1 6 false ⟨1, 6, fun _ s => if s = 5 then 1 else 0⟩ none = y2 →
      (match y1, y2 with
        | .ok m1, .ok m2 => match (Env.init m1 s1).2, (Env.init m2 s2).2 with
          | .ok e, .ok last => match e.lookup "fox", last.lookup "fox" with
            | .ok a, .ok b => decide (a.position = b.position ∧ a.nMoves = b.nMoves ∧ a.consumes = b.consumes ∧
                a.featIdx = b.featIdx ∧ e.mdp.features.get 0 0 ≠ last.mdp.features.get 0 0) &&
              ((e.agents.filter fun c => c.name ≠ a.name).isEmpty && (last.agents.filter fun c => c.name ≠ b.name).isEmpty) &&
              (match e.fitShared last b "fox" (.init exSolo 4 true) exTwoAhead (fun _ => 0) with
                | some (e1, _, .ok ()) => decide ((e1.step "fox" fun _ => 0).2 = .ok 0)
                | _ => false)
            | _, _ => false
          | _, _ => false
        | _, _ => false) = true →
      ∃ (m1 m1' m2 m2' : Mdp Rat) (e last : Env Rat Nat) (a b : Agent Rat Nat),
        Mdp.GridReach .square 1 6 false m1 ∧ Env.init m1 s1 = (m1', .ok e) ∧ e.lookup "fox" = .ok a ∧
        Mdp.GridReach .square 1 6 false m2 ∧ Env.init m2 s2 = (m2', .ok last) ∧ last.lookup "fox" = .ok b ∧
        e.mdp.features.get 0 0 ≠ last.mdp.features.get 0 0 ∧ Spec.LooksLike a b ∧ Spec.SameOthers e a last b ∧
        ∃ e1 obj, e.fitShared last b "fox" (.init exSolo 4 true) exTwoAhead (fun _ => 0) = some (e1, obj, .ok ()) ∧
          (e1.step "fox" fun _ => 0).2 = .ok 0 := by
    intro y1 y2 s1 s2 hy1 hy2 h
    rcases y1 with err | m1
    · cases h
    rcases y2 with err | m2
    · cases h
    dsimp only at h
    rcases h1 : Env.init m1 s1 with ⟨m1', err | e⟩
    · rw [h1] at h; cases h
    rcases h2 : Env.init m2 s2 with ⟨m2', err | last⟩
    · rw [h1, h2] at h; cases h
    rw [h1, h2] at h
    dsimp only at h
    rcases ha : e.lookup "fox" with err | a
    · rw [ha] at h; cases h
    rcases hb : last.lookup "fox" with err | b
    · rw [ha, hb] at h; cases h
    rw [ha, hb] at h
    simp only [Bool.and_eq_true, decide_eq_true_eq, List.isEmpty_iff] at h
    obtain ⟨⟨⟨p1, p2, p3, p4, p5⟩, n1, n2⟩, c⟩ := h
    refine ⟨m1, m1', m2, m2', e, last, a, b, .init hy1, h1, ha, .init hy2, h2, hb, p5, ⟨p1, p2, p3, p4⟩, ?_, ?_⟩
    · unfold Spec.SameOthers
      rw [n1, n2]
      exact .nil
    · rcases hf : e.fitShared last b "fox" (.init exSolo 4 true) exTwoAhead (fun _ => 0) with _ | ⟨e1, obj, err | ⟨⟩⟩
      · rw [hf] at c; cases c
      · rw [hf] at c; cases c
      · rw [hf] at c
        exact ⟨e1, obj, rfl, of_decide_eq_true c⟩
  exact key _ _ _ _ rfl rfl (by decide +kernel)

end MaMDP
