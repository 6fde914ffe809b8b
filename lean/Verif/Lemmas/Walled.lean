import Verif.Lemmas.WalledChoice
import Verif.Lemmas.EnvHistory

/-! Lemmas for C165: environments with states that can be neither entered nor left. -/

set_option linter.unusedSectionVars false

namespace MaMDP

variable {K δ : Type} [Field K] [LinearOrder K] [IsStrictOrderedRing K]
variable {M M' : Trans K} {σ : Nat → Nat} {can : δ → Prop}

/-- The same features. -/
structure FeatIn (n n' : Nat) (σ : Nat → Nat) (f f' : Arr2 K) : Prop where
  d0 : f'.d0 = f.d0
  d1 : f.d1 = n
  d1' : f'.d1 = n'
  get : ∀ i s, i < f.d0 → s < n → f'.get i (σ s) = f.get i s

/-- The same map with more states around it. -/
structure MdpIn (M M' : Trans K) (σ : Nat → Nat) (m m' : Mdp K) : Prop where
  trans : m.trans = M
  trans' : m'.trans = M'
  det : m.deterministic = true
  det' : m'.deterministic = true
  feat : FeatIn M.nS M'.nS σ m.features m'.features
  orig : FeatIn M.nS M'.nS σ m.originalFeatures m'.originalFeatures
  nAgents : m'.nAgents = m.nAgents
  nNonAgent : m'.nNonAgent = m.nNonAgent

namespace MdpIn

variable {m m' : Mdp K}

theorem nS (h : MdpIn M M' σ m m') : m.nStates = M.nS := congrArg Trans.nS h.trans
theorem nS' (h : MdpIn M M' σ m m') : m'.nStates = M'.nS := congrArg Trans.nS h.trans'
theorem nA (h : MdpIn M M' σ m m') : m.nActions = M.nA := congrArg Trans.nA h.trans
theorem nA' (h : MdpIn M M' σ m m') : m'.nActions = M'.nA := congrArg Trans.nA h.trans'

theorem feats (h : MdpIn M M' σ m m') {F F' : Arr2 K} (hF : FeatIn M.nS M'.nS σ F F') :
    MdpIn M M' σ { m with features := F } { m' with features := F' } :=
  ⟨h.trans, h.trans', h.det, h.det', hF, h.orig, h.nAgents, h.nNonAgent⟩

theorem update (hw : WorldIn M M' σ) (h : MdpIn M M' σ m m') (i : Int) {p : Nat} (hp : p < M.nS) :
    MdpIn M M' σ (m.updateAgentFeature i p).1 (m'.updateAgentFeature i (σ p : Nat)).1 ∧
    (m'.updateAgentFeature i (σ p : Nat)).2 = (m.updateAgentFeature i p).2 := by
  have key : pyIdx m'.features.d0 ((m'.features.d0 : Int) - m'.nAgents + i) =
      pyIdx m.features.d0 ((m.features.d0 : Int) - m.nAgents + i) := by rw [h.feat.d0, h.nAgents]
  unfold Mdp.updateAgentFeature Mdp.nFeatures
  rw [key]
  cases hr : pyIdx m.features.d0 ((m.features.d0 : Int) - m.nAgents + i) with
  | none => exact ⟨h, rfl⟩
  | some r =>
    simp only
    rw [pyIdx_nat, if_pos (by rw [h.feat.d1]; exact hp), pyIdx_nat, if_pos (by rw [h.feat.d1']; exact hw.emb.state p hp)]
    refine ⟨h.feats (F := ⟨m.features.d0, m.features.d1, _⟩) (F' := ⟨m'.features.d0, m'.features.d1, _⟩)
      ⟨h.feat.d0, h.feat.d1, h.feat.d1', fun j s hj hs => ?_⟩, rfl⟩
    simp only [upd2]
    have : σ s = σ p ↔ s = p := ⟨hw.emb.inj hs hp, fun e => by rw [e]⟩
    simp only [this, h.feat.get j s hj hs]

theorem consumeLoop (hw : WorldIn M M' σ) {p : Nat} (hp : p < M.nS) : ∀ (l : List Int) (m m' : Mdp K) (c : Nat → Nat),
    MdpIn M M' σ m m' →
    MdpIn M M' σ (Mdp.consumeLoop p l m c).1 (Mdp.consumeLoop (σ p : Nat) l m' c).1 ∧
    (Mdp.consumeLoop (σ p : Nat) l m' c).2 = (Mdp.consumeLoop p l m c).2 := by
  intro l
  induction l with
  | nil => exact fun m m' c h => ⟨h, rfl⟩
  | cons f l ih =>
    intro m m' c h
    unfold Mdp.consumeLoop
    rw [h.feat.d0, pyIdx_nat, if_pos (by rw [h.feat.d1]; exact hp), pyIdx_nat,
      if_pos (by rw [h.feat.d1']; exact hw.emb.state p hp)]
    cases hr : pyIdx m.features.d0 f with
    | none => exact ⟨h, rfl⟩
    | some r =>
      simp only
      rw [h.feat.get r p (pyIdx_lt hr) hp]
      by_cases h0 : 0 < m.features.get r p
      · rw [if_pos h0, if_pos h0]
        refine ih _ _ _ (h.feats ⟨h.feat.d0, h.feat.d1, h.feat.d1', fun j s hj hs => ?_⟩)
        simp only [upd2]
        have : σ s = σ p ↔ s = p := ⟨hw.emb.inj hs hp, fun e => by rw [e]⟩
        simp only [this, h.feat.get j s hj hs]
      · rw [if_neg h0, if_neg h0]
        exact ih _ _ _ h

theorem next (hw : WorldIn M M' σ) (h : MdpIn M M' σ m m') {s a : Nat} (hs : s < M.nS) (ha : a < M.nA)
    (hp : Spec.Possible M s a) :
    ∃ t, t < M.nS ∧ Spec.Live M t ∧ m.getNextState s a = .ok t ∧ m'.getNextState (σ s : Nat) a = .ok (σ t) := by
  have e : m.sas = M.p := congrArg Trans.p h.trans
  have e' : m'.sas = M'.p := congrArg Trans.p h.trans'
  refine ⟨npArgmax M.nS (M.p s a), npArgmax_lt _ hw.posS, ?_, ?_, ?_⟩
  · obtain ⟨t, ht, hpt⟩ := hp
    exact hw.back s a _ hs ha (npArgmax_lt _ hw.posS) (lt_of_lt_of_le hpt (le_npArgmax _ ht))
  · unfold Mdp.getNextState
    rw [if_neg (by omega), pyIdx_nat, pyIdx_nat, if_pos (by rw [h.nS]; exact hs), if_pos (by rw [h.nA]; exact ha)]
    simp only [h.det, if_true, h.nS, e]
  · unfold Mdp.getNextState
    rw [if_neg (by omega), pyIdx_nat, pyIdx_nat, if_pos (by rw [h.nS']; exact hw.emb.state s hs),
      if_pos (by rw [h.nA', hw.emb.nA]; exact ha)]
    simp only [h.det', if_true, h.nS', e']
    rw [hw.emb.argmax hs ha hp]

end MdpIn

/-- The same place, from where one can go on. -/
def AtIn (M : Trans K) (σ : Nat → Nat) (x x' : Int) : Prop :=
  ∃ p : Nat, p < M.nS ∧ Spec.Live M p ∧ x = p ∧ x' = (σ p : Nat)

/-- Both or neither. -/
def OptIn {α β : Type} (R : α → β → Prop) (x : Option α) (y : Option β) : Prop :=
  x = none ∧ y = none ∨ ∃ u v, x = some u ∧ y = some v ∧ R u v

/-- The same stored plan. -/
structure AlgIn (M M' : Trans K) (σ : Nat → Nat) (st st' : AlgState K) : Prop where
  complete : st'.fitComplete = st.fitComplete
  q : OptIn (QIn M M' σ) st.qValues st'.qValues
  v : OptIn (fun v v' : Arr1 (Ext K) => ∀ s, s < M.nS → v'.get (σ s) = v.get s) st.values st'.values

/-- The same agent. -/
structure AgIn (M M' : Trans K) (σ : Nat → Nat) (can : δ → Prop) (a a' : Agent K δ) : Prop where
  name : a'.name = a.name
  nMoves : a'.nMoves = a.nMoves
  reward : a'.reward = a.reward
  consumes : a'.consumes = a.consumes
  consumed : a'.consumed = a.consumed
  selector : a'.selector = a.selector
  idx : a'.idx = a.idx
  featIdx : a'.featIdx = a.featIdx
  alg : AlgIn M M' σ a.alg a'.alg
  row : RowWise M M' σ can a.selector
  start : AtIn M σ a.start a'.start
  position : AtIn M σ a.position a'.position
  history : List.Forall₂ (AtIn M σ) a.history a'.history
  pi : OptIn (PiIn M M' σ) a.pi a'.pi

namespace AgIn

variable {a a' : Agent K δ} {m m' : Mdp K}

theorem setPosition (hw : WorldIn M M' σ) (h : AgIn M M' σ can a a') (hm : MdpIn M M' σ m m') {x x' : Int} (hx : AtIn M σ x x') :
    MdpIn M M' σ (a.setPosition m x).1 (a'.setPosition m' x').1 ∧
    AgIn M M' σ can (a.setPosition m x).2.1 (a'.setPosition m' x').2.1 ∧
    (a'.setPosition m' x').2.2 = (a.setPosition m x).2.2 ∧
    ((a.setPosition m x).2.2 = .ok () → (a.setPosition m x).2.1 = { a with position := x } ∧
      (a'.setPosition m' x').2.1 = { a' with position := x' }) := by
  obtain ⟨p, hp, hl, rfl, rfl⟩ := hx
  have hu := hm.update hw a'.idx hp
  unfold Agent.setPosition
  rw [if_neg (by rw [hm.nS]; omega), if_neg (by rw [hm.nS']; have := hw.emb.state p hp; omega)]
  have hi : m.updateAgentFeature a.idx p = m.updateAgentFeature a'.idx p := by rw [h.idx]
  rw [hi]
  rcases h1 : m.updateAgentFeature a'.idx p with ⟨m1, r⟩
  rcases h2 : m'.updateAgentFeature a'.idx (σ p : Nat) with ⟨m2, r'⟩
  rw [h1, h2] at hu
  obtain ⟨hu1, hu2⟩ := hu
  simp only at hu1 hu2
  subst hu2
  cases r' with
  | error er => exact ⟨hu1, h, rfl, by simp⟩
  | ok u =>
    exact ⟨hu1, ⟨h.name, h.nMoves, h.reward, h.consumes, h.consumed, h.selector, h.idx, h.featIdx, h.alg, h.row, h.start,
      ⟨p, hp, hl, rfl, rfl⟩, h.history, h.pi⟩, rfl, fun _ => ⟨rfl, rfl⟩⟩

theorem getPolicy (h : AgIn M M' σ can a a') {d d' : Nat → δ} (hd : Spec.SameDraws M.nS M'.nS σ can d d') :
    AgIn M M' σ can (a.getPolicy d).1 (a'.getPolicy d').1 ∧ (a'.getPolicy d').2 = (a.getPolicy d).2 ∧
    ((a.getPolicy d).2 = .ok () → ∃ p p', (a.getPolicy d).1.pi = some p ∧ (a'.getPolicy d').1.pi = some p' ∧
      PiIn M M' σ p p') := by
  unfold Agent.getPolicy
  rcases h.alg.q with ⟨h1, h2⟩ | ⟨q, q', h1, h2, hq⟩
  · rw [h1, h2]
    exact ⟨h, rfl, by simp⟩
  · obtain ⟨P, P', p, p', e1, e2, e3, e4, hP, hp⟩ := h.row q q' hq d d' hd
    rw [← h.selector] at e2 e4
    rw [h1, h2]
    simp only [e1, e2, e3, e4]
    exact ⟨⟨h.name, h.nMoves, h.reward, h.consumes, h.consumed, h.selector, h.idx, h.featIdx, h.alg, h.row, h.start,
      h.position, h.history, .inr ⟨_, _, rfl, rfl, hp⟩⟩, trivial, fun _ => ⟨_, _, rfl, rfl, hp⟩⟩

theorem step (hw : WorldIn M M' σ) (h : AgIn M M' σ can a a') (hm : MdpIn M M' σ m m') {d d' : Nat → δ}
    (hd : Spec.SameDraws M.nS M'.nS σ can d d') :
    MdpIn M M' σ (a.step m d).1 (a'.step m' d').1 ∧
    AgIn M M' σ can (a.step m d).2.1 (a'.step m' d').2.1 ∧
    (a'.step m' d').2.2 = (a.step m d).2.2 := by
  unfold Agent.step
  rw [h.alg.complete]
  by_cases hf : a.alg.fitComplete = false
  · rw [if_pos hf, if_pos hf]
    exact ⟨hm, h, rfl⟩
  rw [if_neg hf, if_neg hf]
  have hg := h.getPolicy hd
  rcases h1 : a.getPolicy d with ⟨b, r⟩
  rcases h2 : a'.getPolicy d' with ⟨b', r'⟩
  rw [h1, h2] at hg
  obtain ⟨hb, hr, hpi⟩ := hg
  simp only at hb hr hpi
  subst hr
  cases r' with
  | error er => exact ⟨hm, hb, rfl⟩
  | ok u =>
    obtain ⟨p, p', e1, e2, hp⟩ := hpi rfl
    simp only [e1, e2]
    obtain ⟨s, hs, hl, x1, x2⟩ := hb.position
    rw [x1, x2, pyIdx_nat, if_pos (by rw [hp.d0]; exact hs), pyIdx_nat, if_pos (by rw [hp.d0']; exact hw.emb.state s hs)]
    obtain ⟨x, hx, hpx, hpos⟩ := hp.ok s hs hl
    simp only
    rw [hp.get s hs, hpx, if_neg (by omega), if_neg (by omega)]
    obtain ⟨t, ht, hlt, n1, n2⟩ := hm.next hw hs hx hpos
    rw [n1, n2]
    simp only
    have hset := hb.setPosition hw hm (x := (t : Nat)) (x' := (σ t : Nat)) ⟨t, ht, hlt, rfl, rfl⟩
    rcases g1 : b.setPosition m (t : Nat) with ⟨m1, c, r⟩
    rcases g2 : b'.setPosition m' (σ t : Nat) with ⟨m2, c', r'⟩
    rw [g1, g2] at hset
    obtain ⟨hm1, hc, hr, hcc⟩ := hset
    simp only at hm1 hc hr hcc
    subst hr
    cases r' with
    | error er => exact ⟨hm1, hc, rfl⟩
    | ok u =>
      obtain ⟨rfl, rfl⟩ := hcc rfl
      simp only
      have hu := hm1.update hw b.idx ht
      have hi : m2.updateAgentFeature b'.idx (σ t : Nat) = m2.updateAgentFeature b.idx (σ t : Nat) := by rw [hb.idx]
      rw [hi]
      have hfin : AgIn M M' σ can { b with position := (t : Nat), history := b.history ++ [((t : Nat) : Int)] }
          { b' with position := (σ t : Nat), history := b'.history ++ [((σ t : Nat) : Int)] } :=
        ⟨hb.name, hb.nMoves, hb.reward, hb.consumes, hb.consumed, hb.selector, hb.idx, hb.featIdx, hb.alg, hb.row, hb.start,
          ⟨t, ht, hlt, rfl, rfl⟩, List.rel_append hb.history (.cons ⟨t, ht, hlt, rfl, rfl⟩ .nil), hb.pi⟩
      rcases k1 : m1.updateAgentFeature b.idx (t : Nat) with ⟨m3, r⟩
      rcases k2 : m2.updateAgentFeature b.idx (σ t : Nat) with ⟨m4, r'⟩
      rw [k1, k2] at hu
      obtain ⟨hu1, hu2⟩ := hu
      simp only at hu1 hu2
      subst hu2
      cases r' with
      | error er => exact ⟨hu1, hfin, rfl⟩
      | ok u => exact ⟨hu1, hfin, rfl⟩

theorem consume (hw : WorldIn M M' σ) (h : AgIn M M' σ can a a') (hm : MdpIn M M' σ m m') :
    MdpIn M M' σ (a.consume m).1 (a'.consume m').1 ∧
    AgIn M M' σ can (a.consume m).2.1 (a'.consume m').2.1 ∧
    (a'.consume m').2.2 = (a.consume m).2.2 := by
  unfold Agent.consume Mdp.consumeFeatures
  rw [h.consumes]
  by_cases h0 : a.consumes = []
  · rw [if_pos h0, if_pos h0]
    exact ⟨hm, h, rfl⟩
  rw [if_neg h0, if_neg h0]
  obtain ⟨s, hs, hl, x1, x2⟩ := h.position
  have hc := MdpIn.consumeLoop hw hs a.consumes m m' (fun _ => 0) hm
  rw [x1, x2]
  rcases k1 : Mdp.consumeLoop (s : Nat) a.consumes m (fun _ => 0) with ⟨m3, r⟩
  rcases k2 : Mdp.consumeLoop (σ s : Nat) a.consumes m' (fun _ => 0) with ⟨m4, r'⟩
  rw [k1, k2] at hc
  obtain ⟨hu1, hu2⟩ := hc
  simp only at hu1 hu2
  subst hu2
  cases r' with
  | error er => exact ⟨hu1, h, rfl⟩
  | ok u =>
    refine ⟨hu1, ⟨h.name, h.nMoves, h.reward, rfl, ?_, h.selector, h.idx, h.featIdx, h.alg, h.row, h.start,
      ⟨s, hs, hl, rfl, rfl⟩, h.history, h.pi⟩, rfl⟩
    simp only [h.consumed]

theorem reset (hw : WorldIn M M' σ) (h : AgIn M M' σ can a a') (hm : MdpIn M M' σ m m') :
    MdpIn M M' σ (a.reset m).1 (a'.reset m').1 ∧
    AgIn M M' σ can (a.reset m).2.1 (a'.reset m').2.1 ∧
    (a'.reset m').2.2 = (a.reset m).2.2 := by
  unfold Agent.reset
  have hset := h.setPosition hw hm h.start
  rcases g1 : a.setPosition m a.start with ⟨m1, c, r⟩
  rcases g2 : a'.setPosition m' a'.start with ⟨m2, c', r'⟩
  rw [g1, g2] at hset
  obtain ⟨hm1, hc, hr, hcc⟩ := hset
  simp only at hm1 hc hr hcc
  subst hr
  cases r' with
  | error er => exact ⟨hm1, hc, rfl⟩
  | ok u =>
    exact ⟨hm1, ⟨hc.name, hc.nMoves, hc.reward, hc.consumes, hc.consumed, hc.selector, hc.idx, hc.featIdx, hc.alg, hc.row,
      hc.start, hc.position, .cons hc.start .nil, .inl ⟨rfl, rfl⟩⟩, rfl⟩

end AgIn

theorem WorldIn.solve (hw : WorldIn M M' σ) {r r' : Nat → K} (hr : ∀ t, t < M.nS → r' (σ t) = r t) (k : Nat) (γ tol : K) :
    (∃ er, solveHard M r k γ tol = .error er ∧ solveHard M' r' k γ tol = .error er) ∨
    ∃ v q v' q', solveHard M r k γ tol = .ok (v, q) ∧ solveHard M' r' k γ tol = .ok (v', q') ∧
      (∀ s, s < M.nS → v' (σ s) = v s) ∧ (∀ s, s < M'.nS → ¬ Spec.Among M.nS σ s → v' s = 0) ∧
      QIn M M' σ ⟨M.nS, M.nA, q⟩ ⟨M'.nS, M'.nA, q'⟩ := by
  have hA := hw.posA
  have hA' : M'.nA ≠ 0 := by rw [hw.emb.nA]; omega
  unfold solveHard
  rw [if_neg (fun h => absurd h.2.1 (by omega)), if_neg (fun h => hA' h.2.1)]
  unfold solveVI
  by_cases hg : ¬ (γ < 1 ∧ 0 < γ)
  · rw [if_pos hg, if_pos hg]
    exact .inl ⟨_, rfl, rfl⟩
  rw [if_neg hg, if_neg hg]
  obtain ⟨h1, h2, h3⟩ := hw.emb.viLoop_in hA hr γ tol k (fun _ => 0) (fun _ => 0) none none (fun _ _ => rfl)
    (fun _ _ _ => rfl) (.inl ⟨rfl, rfl⟩)
  rcases e1 : viLoop (hardBackup M.nA) M r γ tol k (fun _ => 0) none with ⟨v, q⟩
  rcases e2 : viLoop (hardBackup M'.nA) M' r' γ tol k (fun _ => 0) none with ⟨v', q'⟩
  rw [e1, e2] at h1 h3
  rw [e2] at h2
  simp only at h1 h2 h3
  rcases h3 with ⟨rfl, rfl⟩ | ⟨x, x', rfl, rfl, hx⟩
  · exact .inl ⟨_, rfl, rfl⟩
  · refine .inr ⟨_, _, _, _, rfl, rfl, h1, h2, ⟨rfl, rfl, rfl, hw.emb.nA, fun s a hs ha => ?_, fun s a hs ha hn => ?_,
      fun s a hs ha => ?_, fun s a hs ha => (maskQ_ninf hw.sub x hs ha).1⟩⟩
    · simp only [maskQ, hw.emb.npSum_in hs ha, hx s a hs ha]
    · simp only [maskQ, hw.emb.npSum_out hs hn ha, if_true]
    · simp only [maskQ]
      split_ifs
      · exact .inl rfl
      · exact .inr ⟨_, rfl⟩

theorem AgIn.fit {a a' : Agent K δ} {m m' : Mdp K} (hw : WorldIn M M' σ) (h : AgIn M M' σ can a a') (hm : MdpIn M M' σ m m')
    (k : Nat) (γ tol : K) {d d' : Nat → δ} (hd : Spec.SameDraws M.nS M'.nS σ can d d') :
    AgIn M M' σ can (a.fit m (valueIterationFit m k γ tol) d).1 (a'.fit m' (valueIterationFit m' k γ tol) d').1 ∧
    (a'.fit m' (valueIterationFit m' k γ tol) d').2 = (a.fit m (valueIterationFit m k γ tol) d).2 := by
  have key : (∃ er, algFit (valueIterationFit m k γ tol) m.nFeatures m.nStates m.nActions (.of1 a.reward) a.alg = (a.alg, .error er) ∧
      algFit (valueIterationFit m' k γ tol) m'.nFeatures m'.nStates m'.nActions (.of1 a'.reward) a'.alg = (a'.alg, .error er)) ∨
      ∃ st st', algFit (valueIterationFit m k γ tol) m.nFeatures m.nStates m.nActions (.of1 a.reward) a.alg = (st, .ok ()) ∧
      algFit (valueIterationFit m' k γ tol) m'.nFeatures m'.nStates m'.nActions (.of1 a'.reward) a'.alg = (st', .ok ()) ∧
      AlgIn M M' σ st st' := by
    have hnF : m'.nFeatures = m.nFeatures := hm.feat.d0
    unfold algFit checkReward PyArr.of1
    rw [hnF, h.reward]
    simp only
    by_cases hn : a.reward.d0 = m.nFeatures
    · rw [if_pos hn]
      simp only
      unfold valueIterationFit
      rw [hm.trans, hm.trans']
      simp only
      have hr : ∀ t, t < M.nS → stateReward a.reward.d0 (fun i => a.reward.get ([i].getD 0 0)) m'.features.get (σ t) =
          stateReward a.reward.d0 (fun i => a.reward.get ([i].getD 0 0)) m.features.get t := by
        intro t ht
        unfold stateReward npDot
        refine Finset.sum_congr rfl fun f hf => ?_
        have hf' : f < m.features.d0 := by
          have := Finset.mem_range.1 hf
          rw [hn] at this
          exact this
        show _ * m'.features.get f (σ t) = _ * m.features.get f t
        rw [hm.feat.get f t hf' ht]
      rcases hw.solve hr k γ tol with ⟨er, e1, e2⟩ | ⟨v, q, v', q', e1, e2, hv, -, hq⟩
      · rw [e1, e2]
        exact .inl ⟨_, rfl, rfl⟩
      · rw [e1, e2]
        simp only [PyArr.of1, PyArr.of2, checkOutput, ne_eq, not_true_eq_false, if_false]
        refine .inr ⟨_, _, rfl, rfl, rfl, .inr ⟨_, _, rfl, rfl, ?_⟩, .inr ⟨_, _, rfl, rfl, fun s hs => ?_⟩⟩
        · exact ⟨hm.nS, hm.nS', hm.nA, hm.nA'.trans hw.emb.nA, hq.get, hq.out, hq.fin, hq.mask⟩
        · exact congrArg Ext.fin (hv s hs)
    · rw [if_neg hn]
      exact .inl ⟨_, rfl, rfl⟩
  unfold Agent.fit
  rcases key with ⟨er, e1, e2⟩ | ⟨st, st', e1, e2, hst⟩
  · rw [e1, e2]
    exact ⟨⟨h.name, h.nMoves, h.reward, h.consumes, h.consumed, h.selector, h.idx, h.featIdx, h.alg, h.row, h.start,
      h.position, h.history, h.pi⟩, rfl⟩
  · rw [e1, e2]
    simp only
    have hb : AgIn M M' σ can { a with alg := st } { a' with alg := st' } :=
      ⟨h.name, h.nMoves, h.reward, h.consumes, h.consumed, h.selector, h.idx, h.featIdx, hst, h.row, h.start,
        h.position, h.history, h.pi⟩
    exact ⟨(hb.getPolicy hd).1, (hb.getPolicy hd).2.1⟩

/-- The same environment. -/
structure EnvIn (M M' : Trans K) (σ : Nat → Nat) (can : δ → Prop) (e e' : Env K δ) : Prop where
  mdp : MdpIn M M' σ e.mdp e'.mdp
  names : e'.agentNames = e.agentNames
  agents : List.Forall₂ (AgIn M M' σ can) e.agents e'.agents
  steps : e'.nSteps = e.nSteps

namespace EnvIn

variable {e e' : Env K δ} {m m' : Mdp K} {a a' : Agent K δ}

theorem find {l l' : List (Agent K δ)} (h : List.Forall₂ (AgIn M M' σ can) l l') (n : String) :
    OptIn (AgIn M M' σ can) (l.find? fun a => a.name = n) (l'.find? fun a => a.name = n) := by
  induction h with
  | nil => exact .inl ⟨rfl, rfl⟩
  | @cons a a' l l' ha _ ih =>
    by_cases hn : a.name = n
    · rw [List.find?_cons_of_pos (by simpa using hn), List.find?_cons_of_pos (by simpa [ha.name] using hn)]
      exact .inr ⟨_, _, rfl, rfl, ha⟩
    · rw [List.find?_cons_of_neg (by simpa using hn), List.find?_cons_of_neg (by simpa [ha.name] using hn)]
      exact ih

theorem lookup (h : EnvIn M M' σ can e e') (n : String) :
    (∃ er, e.lookup n = .error er ∧ e'.lookup n = .error er) ∨
    ∃ a a', e.lookup n = .ok a ∧ e'.lookup n = .ok a' ∧ AgIn M M' σ can a a' := by
  unfold Env.lookup Env.agent?
  rw [h.names]
  by_cases hn : n ∉ e.agentNames
  · rw [if_pos hn, if_pos hn]
    exact .inl ⟨_, rfl, rfl⟩
  rw [if_neg hn, if_neg hn]
  rcases find h.agents n with ⟨h1, h2⟩ | ⟨a, a', h1, h2, ha⟩
  · rw [h1, h2]
    exact .inl ⟨_, rfl, rfl⟩
  · rw [h1, h2]
    exact .inr ⟨_, _, rfl, rfl, ha⟩

theorem put (h : EnvIn M M' σ can e e') (hm : MdpIn M M' σ m m') (ha : AgIn M M' σ can a a') :
    EnvIn M M' σ can (e.put m a) (e'.put m' a') := by
  refine ⟨hm, h.names, ?_, h.steps⟩
  show List.Forall₂ _ (e.agents.map _) (e'.agents.map _)
  rw [List.forall₂_map_left_iff, List.forall₂_map_right_iff]
  refine h.agents.imp fun b b' hb => ?_
  rw [hb.name, ha.name]
  split_ifs
  · exact ha
  · exact hb

theorem bump (h : EnvIn M M' σ can e e') : EnvIn M M' σ can { e with nSteps := e.nSteps + 1 } { e' with nSteps := e'.nSteps + 1 } :=
  ⟨h.mdp, h.names, h.agents, congrArg (· + 1) h.steps⟩

theorem fit (hw : WorldIn M M' σ) (h : EnvIn M M' σ can e e') (n : String) (k : Nat) (γ tol : K) {d d' : Nat → δ}
    (hd : Spec.SameDraws M.nS M'.nS σ can d d') :
    EnvIn M M' σ can (e.fit n (valueIterationFit e.mdp k γ tol) d).1 (e'.fit n (valueIterationFit e'.mdp k γ tol) d').1 ∧
    (e'.fit n (valueIterationFit e'.mdp k γ tol) d').2 = (e.fit n (valueIterationFit e.mdp k γ tol) d).2 := by
  unfold Env.fit
  rcases h.lookup n with ⟨er, h1, h2⟩ | ⟨a, a', h1, h2, ha⟩
  · rw [h1, h2]
    exact ⟨h, rfl⟩
  · rw [h1, h2]
    have := ha.fit hw h.mdp k γ tol hd
    exact ⟨h.put h.mdp this.1, this.2⟩

/-- The same outcome of a step. -/
def StepIn (M : Trans K) (σ : Nat → Nat) (r r' : Py Int) : Prop :=
  (∃ er, r = .error er ∧ r' = .error er) ∨ ∃ x x', r = .ok x ∧ r' = .ok x' ∧ AtIn M σ x x'

theorem step (hw : WorldIn M M' σ) (h : EnvIn M M' σ can e e') (n : String) {d d' : Nat → δ}
    (hd : Spec.SameDraws M.nS M'.nS σ can d d') :
    EnvIn M M' σ can (e.step n d).1 (e'.step n d').1 ∧ StepIn M σ (e.step n d).2 (e'.step n d').2 := by
  unfold Env.step
  rcases h.lookup n with ⟨er, h1, h2⟩ | ⟨a, a', h1, h2, ha⟩
  · rw [h1, h2]
    exact ⟨h, .inl ⟨_, rfl, rfl⟩⟩
  rw [h1, h2]
  simp only
  have hst := ha.step hw h.mdp hd
  rcases g1 : a.step e.mdp d with ⟨m1, c, r⟩
  rcases g2 : a'.step e'.mdp d' with ⟨m2, c', r'⟩
  rw [g1, g2] at hst
  obtain ⟨hm1, hc, hr⟩ := hst
  simp only at hm1 hc hr
  subst hr
  cases r' with
  | error er => exact ⟨h.put hm1 hc, .inl ⟨_, rfl, rfl⟩⟩
  | ok u =>
    simp only
    have hst := hc.consume hw hm1
    rcases g1 : c.consume m1 with ⟨m3, f, r⟩
    rcases g2 : c'.consume m2 with ⟨m4, f', r'⟩
    rw [g1, g2] at hst
    obtain ⟨hm3, hf, hr⟩ := hst
    simp only at hm3 hf hr
    subst hr
    cases r' with
    | error er => exact ⟨h.put hm3 hf, .inl ⟨_, rfl, rfl⟩⟩
    | ok u => exact ⟨⟨hm3, h.names, (h.put hm3 hf).agents, congrArg (· + 1) h.steps⟩, .inr ⟨_, _, rfl, rfl, hf.position⟩⟩

theorem setAgentPosition (hw : WorldIn M M' σ) (h : EnvIn M M' σ can e e') (n : String) {x x' : Int} (hx : AtIn M σ x x') :
    EnvIn M M' σ can (e.setAgentPosition n x).1 (e'.setAgentPosition n x').1 ∧
    (e'.setAgentPosition n x').2 = (e.setAgentPosition n x).2 := by
  unfold Env.setAgentPosition
  rcases h.lookup n with ⟨er, h1, h2⟩ | ⟨a, a', h1, h2, ha⟩
  · rw [h1, h2]
    exact ⟨h, rfl⟩
  · rw [h1, h2]
    have := ha.setPosition hw h.mdp hx
    exact ⟨h.put this.1 this.2.1, this.2.2.1⟩

theorem resetLoop (hw : WorldIn M M' σ) : ∀ {l l' : List (Agent K δ)}, List.Forall₂ (AgIn M M' σ can) l l' →
    ∀ m m' : Mdp K, MdpIn M M' σ m m' →
    MdpIn M M' σ (Env.resetLoop l m).1 (Env.resetLoop l' m').1 ∧
    List.Forall₂ (AgIn M M' σ can) (Env.resetLoop l m).2.1 (Env.resetLoop l' m').2.1 ∧
    (Env.resetLoop l' m').2.2 = (Env.resetLoop l m).2.2 := by
  intro l l' h
  induction h with
  | nil => exact fun m m' hm => ⟨hm, .nil, rfl⟩
  | @cons a a' l l' ha hl ih =>
    intro m m' hm
    unfold Env.resetLoop
    have hst := ha.reset hw hm
    rcases g1 : a.reset m with ⟨m1, c, r⟩
    rcases g2 : a'.reset m' with ⟨m2, c', r'⟩
    rw [g1, g2] at hst
    obtain ⟨hm1, hc, hr⟩ := hst
    simp only at hm1 hc hr
    subst hr
    cases r' with
    | error er => exact ⟨hm1, .cons hc hl, rfl⟩
    | ok u =>
      obtain ⟨i1, i2, i3⟩ := ih m1 m2 hm1
      exact ⟨i1, .cons hc i2, i3⟩

theorem reset (hw : WorldIn M M' σ) (h : EnvIn M M' σ can e e') :
    EnvIn M M' σ can e.reset.1 e'.reset.1 ∧ e'.reset.2 = e.reset.2 := by
  unfold Env.reset
  obtain ⟨i1, i2, i3⟩ := resetLoop hw h.agents e.mdp e'.mdp h.mdp
  rcases g1 : Env.resetLoop e.agents e.mdp with ⟨m1, c, r⟩
  rcases g2 : Env.resetLoop e'.agents e'.mdp with ⟨m2, c', r'⟩
  rw [g1, g2] at i1 i2 i3
  simp only at i1 i2 i3
  subst i3
  cases r' with
  | error er => exact ⟨⟨i1, h.names, i2, h.steps⟩, rfl⟩
  | ok u =>
    simp only
    unfold Mdp.reset Mdp.setFeatures
    rw [if_neg (by rw [i1.orig.d1, i1.nS]; exact not_not.2 rfl), if_neg (by rw [i1.orig.d1', i1.nS']; exact not_not.2 rfl)]
    exact ⟨⟨⟨i1.trans, i1.trans', i1.det, i1.det', i1.orig, i1.orig, i1.nAgents, i1.nNonAgent⟩, h.names, i2, h.steps⟩, rfl⟩

theorem atIn_eq (hw : WorldIn M M' σ) {x x' y y' : Int} (hx : AtIn M σ x x') (hy : AtIn M σ y y') : x' = y' ↔ x = y := by
  obtain ⟨p, hp, -, rfl, rfl⟩ := hx
  obtain ⟨q, hq, -, rfl, rfl⟩ := hy
  rw [Nat.cast_inj, Nat.cast_inj]
  exact ⟨hw.emb.inj hp hq, fun h => by rw [h]⟩

theorem caught (hw : WorldIn M M' σ) (h : EnvIn M M' σ can e e') (ha : AgIn M M' σ can a a') : e'.caught a' = e.caught a := by
  unfold Env.caught
  rw [ha.consumes]
  congr 1
  funext f
  have : ∀ {l l' : List (Agent K δ)}, List.Forall₂ (AgIn M M' σ can) l l' →
      (l'.any fun b => decide ((b.featIdx : Int) = f) && decide (a'.position = b.position)) =
      l.any fun b => decide ((b.featIdx : Int) = f) && decide (a.position = b.position) := by
    intro l l' hl
    induction hl with
    | nil => rfl
    | @cons b b' l l' hb _ ih =>
      rw [List.any_cons, List.any_cons, ih, hb.featIdx]
      simp only [atIn_eq hw ha.position hb.position]
  exact this h.agents

/-- The same outcome of several steps. -/
def WalkIn (M : Trans K) (σ : Nat → Nat) (r r' : Py (Option (List Int))) : Prop :=
  (∃ er, r = .error er ∧ r' = .error er) ∨ (r = .ok none ∧ r' = .ok none) ∨
    ∃ l l', r = .ok (some l) ∧ r' = .ok (some l') ∧ List.Forall₂ (AtIn M σ) l l'

theorem stepLoop (hw : WorldIn M M' σ) (n : String) (P Q : List Nat) (t : Nat) (stop : Bool) (orc orc' : Nat → Env.StepOracle K δ)
    (horc : ∀ i, Spec.SameDraws M.nS M'.nS σ can (orc i).draws (orc' i).draws) :
    ∀ (k i : Nat) (e e' : Env K δ) (acc acc' : List Int), EnvIn M M' σ can e e' → List.Forall₂ (AtIn M σ) acc acc' →
    EnvIn M M' σ can (Env.stepLoop n P Q t false stop orc k i e acc).1 (Env.stepLoop n P Q t false stop orc' k i e' acc').1 ∧
    WalkIn M σ (Env.stepLoop n P Q t false stop orc k i e acc).2 (Env.stepLoop n P Q t false stop orc' k i e' acc').2 := by
  intro k
  induction k with
  | zero => exact fun i e e' acc acc' h ha => ⟨h, .inr (.inr ⟨_, _, rfl, rfl, ha⟩)⟩
  | succ k ih =>
    intro i e e' acc acc' h hacc
    unfold Env.stepLoop Env.refitFor
    simp only [Bool.false_eq_true, if_false]
    have hst := h.step hw n (horc i)
    rcases hx : e.step n (orc i).draws with ⟨x, r⟩
    rcases hy : e'.step n (orc' i).draws with ⟨x', r'⟩
    rw [hx, hy] at hst
    obtain ⟨s1, s2⟩ := hst
    simp only at s1 s2
    rcases s2 with ⟨er, rfl, rfl⟩ | ⟨u, u', rfl, rfl, -⟩
    · exact ⟨s1, .inl ⟨_, rfl, rfl⟩⟩
    simp only
    rcases s1.lookup n with ⟨er, h1, h2⟩ | ⟨a, a', h1, h2, ha⟩
    · rw [h1, h2]
      exact ⟨s1, .inl ⟨_, rfl, rfl⟩⟩
    rw [h1, h2]
    simp only
    rw [s1.caught hw ha]
    by_cases hc : (x.caught a && stop) = true
    · rw [if_pos hc, if_pos hc]
      exact ⟨s1, .inr (.inl ⟨rfl, rfl⟩)⟩
    · rw [if_neg hc, if_neg hc]
      exact ih _ _ _ _ _ s1 (List.rel_append hacc (.cons ha.position .nil))

theorem allSteps (h : EnvIn M M' σ can e e') (n : String) : e'.allSteps n = e.allSteps n := by
  unfold Env.allSteps
  rw [h.names]
  congr 1
  funext x
  unfold Env.agent?
  rcases find h.agents x with ⟨h1, h2⟩ | ⟨a, a', h1, h2, ha⟩
  · rw [h1, h2]
  · rw [h1, h2]
    simp only [ha.nMoves]

theorem stepMulti (hw : WorldIn M M' σ) (h : EnvIn M M' σ can e e') (n : String) (s : Env.StepsArg) (p : Option (List Nat)) (t : Nat)
    (stop : Bool) (orc orc' : Nat → Env.StepOracle K δ)
    (horc : ∀ i, Spec.SameDraws M.nS M'.nS σ can (orc i).draws (orc' i).draws) :
    EnvIn M M' σ can (e.stepMulti n s p t false stop orc).1 (e'.stepMulti n s p t false stop orc').1 ∧
    WalkIn M σ (e.stepMulti n s p t false stop orc).2 (e'.stepMulti n s p t false stop orc').2 := by
  unfold Env.stepMulti
  rcases h.lookup n with ⟨er, h1, h2⟩ | ⟨a, a', h1, h2, ha⟩
  · rw [h1, h2]
    exact ⟨h, .inl ⟨_, rfl, rfl⟩⟩
  rw [h1, h2, h.allSteps n]
  simp only
  cases e.allSteps n with
  | error er => exact ⟨h, .inl ⟨_, rfl, rfl⟩⟩
  | ok L =>
    simp only
    rw [ha.nMoves, h.agents.length_eq]
    by_cases hl : (p.getD L).length ≠ e'.agents.length
    · rw [if_pos hl, if_pos hl]
      exact ⟨h, .inl ⟨_, rfl, rfl⟩⟩
    rw [if_neg hl, if_neg hl]
    cases s.count a.nMoves with
    | error er => exact ⟨h, .inl ⟨_, rfl, rfl⟩⟩
    | ok k =>
      simp only
      by_cases hl2 : ¬ ∀ x ∈ p.getD L, 0 < x
      · rw [if_pos hl2, if_pos hl2]
        exact ⟨h, .inl ⟨_, rfl, rfl⟩⟩
      rw [if_neg hl2, if_neg hl2]
      exact stepLoop hw n _ _ t stop orc orc' horc k 0 e e' [] [] h .nil

theorem atIn_placed {x x' : Int} (h : AtIn M σ x x') : Spec.PlacedAt M.nS σ x x' := by
  obtain ⟨p, hp, -, h1, h2⟩ := h
  exact ⟨p, hp, h1, h2⟩

theorem call (hw : WorldIn M M' σ) (h : EnvIn M M' σ can e e') {c c' : Spec.PlayOp K δ} (hc : Spec.SameCall M M'.nS σ can c c') :
    EnvIn M M' σ can (e.apply (c.call e)) (e'.apply (c'.call e')) ∧
    Spec.SameAnswer M.nS σ (Spec.answer e (c.call e)) (Spec.answer e' (c'.call e')) := by
  cases hc with
  | plan n k γ tol hd =>
    have := h.fit hw n k γ tol hd
    refine ⟨this.1, ?_⟩
    show Spec.SameAnswer _ _ (.done _) (.done (e'.fit n (valueIterationFit e'.mdp k γ tol) _).2)
    rw [this.2]
    exact .done _
  | step n hd =>
    have := h.step hw n hd
    refine ⟨this.1, ?_⟩
    rcases this.2 with ⟨er, h1, h2⟩ | ⟨x, x', h1, h2, hx⟩
    · simp only [Spec.PlayOp.call, Spec.answer, h1, h2]
      exact .failed er
    · simp only [Spec.PlayOp.call, Spec.answer, h1, h2]
      exact .moved (atIn_placed hx)
  | put n p hp hl =>
    have := h.setAgentPosition hw n (x := (p : Nat)) (x' := (σ p : Nat)) ⟨p, hp, hl, rfl, rfl⟩
    refine ⟨this.1, ?_⟩
    show Spec.SameAnswer _ _ (.done _) (.done (e'.setAgentPosition n _).2)
    rw [this.2]
    exact .done _
  | walk n k plan stop hd =>
    rename_i d d'
    have := h.stepMulti hw n k plan 1 stop (fun i => ⟨fun _ => valueIterationFit e.mdp 0 0 0, d i, d i⟩)
      (fun i => ⟨fun _ => valueIterationFit e'.mdp 0 0 0, d' i, d' i⟩) hd
    refine ⟨this.1, ?_⟩
    rcases this.2 with ⟨er, h1, h2⟩ | ⟨h1, h2⟩ | ⟨x, x', h1, h2, hx⟩
    · simp only [Spec.PlayOp.call, Spec.answer, h1, h2]
      exact .broken er
    · simp only [Spec.PlayOp.call, Spec.answer, h1, h2]
      exact .caught
    · simp only [Spec.PlayOp.call, Spec.answer, h1, h2]
      exact .walked (hx.imp fun _ _ => atIn_placed)
  | again =>
    have := h.reset hw
    refine ⟨this.1, ?_⟩
    show Spec.SameAnswer _ _ (.done _) (.done e'.reset.2)
    rw [this.2]
    exact .done _

theorem play (hw : WorldIn M M' σ) : ∀ {l l' : List (Spec.PlayOp K δ)}, List.Forall₂ (Spec.SameCall M M'.nS σ can) l l' →
    ∀ {e e' : Env K δ}, EnvIn M M' σ can e e' → EnvIn M M' σ can (Spec.play e l) (Spec.play e' l') := by
  intro l l' hl
  induction hl with
  | nil => exact fun h => h
  | cons hc _ ih => exact fun h => ih (h.call hw hc).1

theorem game (h : EnvIn M M' σ can e e') : Spec.SameGame M.nS σ e e' := by
  refine ⟨h.names, h.steps, h.mdp.feat.d0, h.mdp.feat.get, h.agents.imp fun a a' ha => ⟨ha.name, atIn_placed ha.position,
    ha.history.imp fun _ _ => atIn_placed, ha.consumed, ha.alg.complete, fun v hv => ?_⟩⟩
  rcases ha.alg.v with ⟨h1, -⟩ | ⟨u, u', h1, h2, h3⟩
  · rw [h1] at hv
    cases hv
  · rw [h1] at hv
    cases hv
    exact ⟨u', h2, h3⟩

end EnvIn

theorem attach_in (hw : WorldIn M M' σ) {m m' : Mdp K} (h : MdpIn M M' σ m m') (n : Nat) {sp sp' : AgentSpec K δ}
    (hsel : RowWise M M' σ can sp.selector) (hnew : sp.alg = .fresh) {p : Nat} (hp : p < M.nS) (hl : Spec.Live M p) (r : Arr1 K)
    (hsp : sp' = { sp with position := some ((σ p : Nat) : Int) }) :
    MdpIn M M' σ (Env.attach m n sp p r).1 (Env.attach m' n sp' (σ p : Nat) r).1 ∧
    ((∃ er, (Env.attach m n sp p r).2 = .error er ∧ (Env.attach m' n sp' (σ p : Nat) r).2 = .error er) ∨
    ∃ a a', (Env.attach m n sp p r).2 = .ok a ∧ (Env.attach m' n sp' (σ p : Nat) r).2 = .ok a' ∧ AgIn M M' σ can a a') := by
  subst hsp
  have hadd : ∃ m1 m2, m.addAgentFeature p = (m1, .ok ()) ∧ m'.addAgentFeature (σ p : Nat) = (m2, .ok ()) ∧ MdpIn M M' σ m1 m2 := by
    unfold Mdp.addAgentFeature Mdp.setFeatures
    simp only
    rw [pyIdx_nat, if_pos (by rw [h.nS]; exact hp), pyIdx_nat, if_pos (by rw [h.nS']; exact hw.emb.state p hp)]
    simp only
    rw [if_neg (by rw [h.feat.d1, h.nS]; exact not_not.2 rfl), if_neg (by rw [h.feat.d1, h.nS]; exact not_not.2 rfl),
      if_neg (by rw [h.feat.d1', h.nS']; exact not_not.2 rfl), if_neg (by rw [h.feat.d1', h.nS']; exact not_not.2 rfl)]
    have hF : FeatIn M.nS M'.nS σ
        (⟨m.features.d0 + 1, m.features.d1, fun f s => if f = m.features.d0 then (if s = p then 1 else 0) else m.features.get f s⟩ :
          Arr2 K)
        ⟨m'.features.d0 + 1, m'.features.d1,
          fun f s => if f = m'.features.d0 then (if s = σ p then 1 else 0) else m'.features.get f s⟩ := by
      refine ⟨congrArg (· + 1) h.feat.d0, h.feat.d1, h.feat.d1', fun i s hi hs => ?_⟩
      simp only at hi ⊢
      have : σ s = σ p ↔ s = p := ⟨hw.emb.inj hs hp, fun e => by rw [e]⟩
      rw [h.feat.d0]
      simp only [this]
      by_cases hid : i = m.features.d0
      · rw [if_pos hid, if_pos hid]
      · rw [if_neg hid, if_neg hid, h.feat.get i s (by omega) hs]
    exact ⟨_, _, rfl, rfl, ⟨h.trans, h.trans', h.det, h.det', hF, hF, congrArg (· + 1) h.nAgents, h.nNonAgent⟩⟩
  obtain ⟨m1, m2, e1, e2, h12⟩ := hadd
  unfold Env.attach
  simp only
  rw [e1, e2]
  simp only
  have hat : AtIn M σ ((p : Nat) : Int) ((σ p : Nat) : Int) := ⟨p, hp, hl, rfl, rfl⟩
  have ha : AgIn M M' σ can
      ({ name := sp.name, nMoves := sp.nMoves, reward := r, consumes := sp.consumes, consumed := fun _ => 0,
         selector := sp.selector, idx := n, featIdx := n + m.nNonAgent, alg := sp.alg, start := (p : Nat), position := (p : Nat),
         history := [((p : Nat) : Int)], pi := none, piP := none } : Agent K δ)
      { name := sp.name, nMoves := sp.nMoves, reward := r, consumes := sp.consumes, consumed := fun _ => 0,
        selector := sp.selector, idx := n, featIdx := n + m'.nNonAgent, alg := sp.alg, start := (σ p : Nat),
        position := (σ p : Nat), history := [((σ p : Nat) : Int)], pi := none, piP := none } := by
    refine ⟨rfl, rfl, rfl, rfl, rfl, rfl, rfl, by simp only [h.nNonAgent], ?_, hsel, hat, hat, .cons hat .nil, .inl ⟨rfl, rfl⟩⟩
    simp only [hnew]
    exact ⟨rfl, .inl ⟨rfl, rfl⟩, .inl ⟨rfl, rfl⟩⟩
  have hset := ha.setPosition hw h12 hat
  rcases g1 : Agent.setPosition _ m1 ((p : Nat) : Int) with ⟨m3, c, r⟩
  rcases g2 : Agent.setPosition _ m2 ((σ p : Nat) : Int) with ⟨m4, c', r'⟩
  rw [g1, g2] at hset
  obtain ⟨hm1, hc, hr, -⟩ := hset
  simp only at hm1 hc hr
  subst hr
  cases r' with
  | error er => exact ⟨hm1, .inl ⟨_, rfl, rfl⟩⟩
  | ok u => exact ⟨hm1, .inr ⟨_, _, rfl, rfl, hc⟩⟩

theorem insert_in {l l' : List (Agent K δ)} (h : List.Forall₂ (AgIn M M' σ can) l l') {a a' : Agent K δ} (ha : AgIn M M' σ can a a') :
    List.Forall₂ (AgIn M M' σ can) (Env.insertAgent l a) (Env.insertAgent l' a') := by
  have hn : l'.map (·.name) = l.map (·.name) := by
    induction h with
    | nil => rfl
    | cons hb _ ih => simp only [List.map_cons, hb.name, ih]
  unfold Env.insertAgent
  rw [hn, ha.name]
  split_ifs
  · rw [List.forall₂_map_left_iff, List.forall₂_map_right_iff]
    refine h.imp fun b b' hb => ?_
    rw [hb.name]
    split_ifs
    · exact ha
    · exact hb
  · exact List.rel_append h (.cons ha .nil)

theorem attachLoop_in (hw : WorldIn M M' σ) (nF nAg : Nat) : ∀ {l l' : List (AgentSpec K δ)},
    List.Forall₂ (Spec.SameSpec M σ) l l' → (∀ sp ∈ l, RowWise M M' σ can sp.selector) →
    ∀ (n : Nat) (m m' : Mdp K) (as as' : List (Agent K δ)), MdpIn M M' σ m m' → List.Forall₂ (AgIn M M' σ can) as as' →
    MdpIn M M' σ (Env.attachLoop nF nAg n l m as).1 (Env.attachLoop nF nAg n l' m' as').1 ∧
    ((∃ er, (Env.attachLoop nF nAg n l m as).2 = .error er ∧ (Env.attachLoop nF nAg n l' m' as').2 = .error er) ∨
    ∃ x x', (Env.attachLoop nF nAg n l m as).2 = .ok x ∧ (Env.attachLoop nF nAg n l' m' as').2 = .ok x' ∧
      List.Forall₂ (AgIn M M' σ can) x x') := by
  intro l l' hl
  induction hl with
  | nil => exact fun _ n m m' as as' hm has => ⟨hm, .inr ⟨_, _, rfl, rfl, has⟩⟩
  | @cons sp sp' l l' hsp _ ih =>
    intro hsel n m m' as as' hm has
    obtain ⟨p, hp, hlv, hpos, hsp'⟩ := hsp.start
    unfold Env.attachLoop
    have hchk : (∃ er, Env.checkSpec nF nAg sp = .error er ∧ Env.checkSpec nF nAg sp' = .error er) ∨
        ∃ r, Env.checkSpec nF nAg sp = .ok ((p : Nat), r) ∧ Env.checkSpec nF nAg sp' = .ok ((σ p : Nat), r) := by
      subst hsp'
      unfold Env.checkSpec
      simp only [hpos]
      split
      · exact .inl ⟨_, rfl, rfl⟩
      · split
        · split_ifs
          · exact .inl ⟨_, rfl, rfl⟩
          · exact .inl ⟨_, rfl, rfl⟩
          · exact .inr ⟨_, rfl, rfl⟩
        · exact .inl ⟨_, rfl, rfl⟩
    rcases hchk with ⟨er, h1, h2⟩ | ⟨r, h1, h2⟩
    · rw [h1, h2]
      exact ⟨hm, .inl ⟨_, rfl, rfl⟩⟩
    rw [h1, h2]
    simp only
    have hat := attach_in hw hm n (hsel sp List.mem_cons_self) hsp.new hp hlv r hsp'
    rcases g1 : Env.attach m n sp (p : Nat) r with ⟨m1, x⟩
    rcases g2 : Env.attach m' n sp' (σ p : Nat) r with ⟨m2, x'⟩
    rw [g1, g2] at hat
    obtain ⟨hm1, hx⟩ := hat
    simp only at hm1 hx
    rcases hx with ⟨er, rfl, rfl⟩ | ⟨a, a', rfl, rfl, ha⟩
    · exact ⟨hm1, .inl ⟨_, rfl, rfl⟩⟩
    · exact ih (fun s hs => hsel s (List.mem_cons_of_mem _ hs)) _ _ _ _ _ hm1 (insert_in has ha)

theorem init_in (hw : WorldIn M M' σ) {m m' : Mdp K} (hm : MdpIn M M' σ m m') (h0 : m.nAgents = 0) {l l' : List (AgentSpec K δ)}
    (hl : List.Forall₂ (Spec.SameSpec M σ) l l') (hsel : ∀ sp ∈ l, RowWise M M' σ can sp.selector) :
    (∃ er, (Env.init m l).2 = .error er ∧ (Env.init m' l').2 = .error er) ∨
    ∃ e e', (Env.init m l).2 = .ok e ∧ (Env.init m' l').2 = .ok e' ∧ EnvIn M M' σ can e e' := by
  have hnames : l'.map (·.name) = l.map (·.name) := by
    clear hsel
    induction hl with
    | nil => rfl
    | cons hb _ ih =>
      obtain ⟨p, -, -, -, rfl⟩ := hb.start
      simp only [List.map_cons, ih]
  have hnF : m'.nFeatures = m.nFeatures := hm.feat.d0
  unfold Env.init
  rw [if_neg (by omega), if_neg (by rw [hm.nAgents]; omega)]
  simp only
  rw [hnF, ← hl.length_eq]
  have hat := attachLoop_in hw m.nFeatures l.length hl hsel 0 m m' [] [] hm .nil
  rcases g1 : Env.attachLoop m.nFeatures l.length 0 l m [] with ⟨m1, x⟩
  rcases g2 : Env.attachLoop m.nFeatures l.length 0 l' m' [] with ⟨m2, x'⟩
  rw [g1, g2] at hat
  obtain ⟨hm1, hx⟩ := hat
  simp only at hm1 hx
  rcases hx with ⟨er, rfl, rfl⟩ | ⟨a, a', rfl, rfl, ha⟩
  · exact .inl ⟨_, rfl, rfl⟩
  · exact .inr ⟨_, _, rfl, rfl, ⟨hm1, hnames, ha, rfl⟩⟩

end MaMDP
