import Verif.Lemmas.MCTSFit
import Verif.Props.MCTSLoop

/-! # Monte Carlo tree search, caching and fitting: C62, C64 -/

set_option linter.unusedSectionVars false

namespace MaMDP

variable {K : Type} [Field K] [LinearOrder K] [IsStrictOrderedRing K] {δ : Type}
variable {kind : GridKind} {W H : Nat} {selfT : Bool} {m m' : Mdp K} {specs : List (AgentSpec K δ)}
  {e0 : Env K δ}

/-! ## C62 caching -/

/-- Two agents on the line, both at state 1; the second likes to be where the first is (feature row 1). -/
def exFriends : List (AgentInfo Rat) :=
  [⟨1, 1, [], ⟨3, fun _ => 0⟩, 1⟩, ⟨1, 1, [], ⟨3, fun f => if f = 1 then 1 else 0⟩, 2⟩]

/-- The states of the second agent in an iteration with three turns, in which the first goes from 1 to 0, back to 1 and
then to 2 and back. -/
def exFollower (caching : Bool) : List Nat :=
  match extractInfo exFriends with
  | .error _ => []
  | .ok A => match (mctsIteration { exOpts with caching := caching } exLine A 3 (exFeatures 1 1) A.nodes (fun _ => 0)
      (fun _ => 0) [[2, 2, 2], [1, 1, 1]] (fun _ _ => none) (fun i => ⟨if i = 0 ∨ i = 3 then 1 else 0, 0⟩) 30).2.2 with
    | some (.ok st) => st.others 1
    | _ => []

/-- The claim is false: turning caching on changes what a simulated opponent does. The row of features that marks the
first agent still shows the state it came from when the second agent decides, but the key of the cache holds the state
it went to. -/
theorem C62_refuted : exFollower true ≠ exFollower false ∧ exFollower false ≠ [] := by
  decide +kernel

theorem extractInfo_out {l : List (AgentInfo K)} {A : SimAgents K} (h : extractInfo l = .ok A)
    (hc : ∀ i ∈ l, ∀ f ∈ i.consumes, ∃ x, pyIdx i.reward.d0 f = some x) {a : Nat} (ha : l.length ≤ a) :
    (∀ f, A.consumesFeatures a f = false) ∧ ∀ f, A.rewards a f = 0 := by
  obtain ⟨rows, h1, h2, -⟩ := rows_ok l hc
  unfold extractInfo at h
  rw [h1] at h
  dsimp only at h
  cases l with
  | nil => cases h
  | cons p os =>
    dsimp only at h
    split at h
    · cases h
    · split at h
      · cases h
      · cases h
        refine ⟨fun f => ?_, fun f => ?_⟩
        · dsimp only
          rw [List.getD_eq_getElem?_getD, List.getElem?_eq_none (by omega)]
          rfl
        · dsimp only
          rw [List.getElem?_eq_none ha]
          rfl

theorem npWhere_le_one {n : Nat} {p : Nat → Bool} (h : ∀ f g, f < n → g < n → p f = true → p g = true → f = g) :
    (npWhere n p).length ≤ 1 := by
  have hnd : (npWhere n p).Nodup := List.nodup_range.filter _
  rcases hl : npWhere n p with _ | ⟨f, _ | ⟨g, l⟩⟩
  · simp
  · simp
  · exfalso
    have hf : f ∈ npWhere n p := by rw [hl]; simp
    have hg : g ∈ npWhere n p := by rw [hl]; simp
    rw [mem_npWhere] at hf hg
    rw [hl] at hnd
    have := h f g hf.1 hg.1 hf.2 hg.2
    subst this
    simp at hnd

/-- The conditions of the proof of C62, from those on the agents. -/
theorem extract_harmless (p : AgentInfo K) (os : List (AgentInfo K)) (nF : Nat)
    (hlen : ∀ i ∈ p :: os, i.reward.d0 = nF) (hrow : ∀ i ∈ p :: os, i.featIdx < nF)
    (hcons : ∀ i ∈ p :: os, ∀ f ∈ i.consumes, ∃ x, pyIdx nF f = some x)
    (hdup : ((p :: os).map (·.featIdx)).Nodup)
    (hself : ∀ i ∈ os, ∀ j ∈ p :: os, i.reward.get j.featIdx = 0)
    (hone : ∀ i ∈ p :: os, ∀ f ∈ i.consumes, ∀ g ∈ i.consumes, pyIdx nF f = pyIdx nF g) :
    ∃ A, extractInfo (p :: os) = .ok A ∧ A.featIdx = (p :: os).map (·.featIdx) ∧
      (∀ a, a ≠ 0 → ∀ f ∈ preferences A nF a, f ∉ A.featIdx) ∧
      ∀ a, (npWhere nF (A.consumesFeatures a)).length ≤ 1 := by
  obtain ⟨A, hA, hn, hrows, hag⟩ := C65_relations p os nF hlen hrow hcons hdup
  have hout : ∀ a, (p :: os).length ≤ a → (∀ f, A.consumesFeatures a f = false) ∧ ∀ f, A.rewards a f = 0 :=
    fun a ha => extractInfo_out hA (fun i hi f hf => by rw [hlen i hi]; exact hcons i hi f hf) ha
  have havoid : ∀ a, a ≠ 0 → ∀ f ∈ preferences A nF a, f ∉ A.featIdx := by
    intro a ha f hf hmem
    unfold preferences at hf
    rw [mem_npWhere] at hf
    have hne := of_decide_eq_true hf.2
    rcases Nat.lt_or_ge a (p :: os).length with hlt | hge
    · have hi := List.getElem?_eq_getElem hlt
      rw [(hag a _ hi).2.1] at hne
      rw [hrows] at hmem
      obtain ⟨j, hj, rfl⟩ := List.mem_map.1 hmem
      obtain ⟨b, rfl⟩ := Nat.exists_eq_succ_of_ne_zero ha
      refine hne (hself _ ?_ j hj)
      rw [List.getElem_cons_succ]
      exact List.getElem_mem _
    · exact hne ((hout a hge).2 f)
  have hone' : ∀ a, (npWhere nF (A.consumesFeatures a)).length ≤ 1 := by
    intro a
    refine npWhere_le_one fun f g _ _ hf hg => ?_
    rcases Nat.lt_or_ge a (p :: os).length with hlt | hge
    · have hi := List.getElem?_eq_getElem hlt
      obtain ⟨x, hx, hx'⟩ := ((hag a _ hi).2.2.2.1 f).1 hf
      obtain ⟨y, hy, hy'⟩ := ((hag a _ hi).2.2.2.1 g).1 hg
      have := hone _ (List.getElem_mem hlt) x hx y hy
      rw [hx', hy'] at this
      exact Option.some.inj this
    · rw [(hout a hge).1 f] at hf
      cases hf
  exact ⟨A, hA, hrows, havoid, hone'⟩

/-- What is true, for any MDP: if no opponent's reward depends on where agents are, and nobody consumes more than one
feature, a search started with an empty cache gives the same values, visits and paths (or the same error) with caching
as without.

Missing from the full claim: opponents whose reward depends on the positions of agents, for which it is false
(`C62_refuted`), and agents consuming several features, with which caching fails. -/
theorem C62_partial (p : AgentInfo K) (os : List (AgentInfo K)) (nF : Nat)
    (hlen : ∀ i ∈ p :: os, i.reward.d0 = nF) (hrow : ∀ i ∈ p :: os, i.featIdx < nF)
    (hcons : ∀ i ∈ p :: os, ∀ f ∈ i.consumes, ∃ x, pyIdx nF f = some x)
    (hdup : ((p :: os).map (·.featIdx)).Nodup)
    (hself : ∀ i ∈ os, ∀ j ∈ p :: os, i.reward.get j.featIdx = 0)
    (hone : ∀ i ∈ p :: os, ∀ f ∈ i.consumes, ∀ g ∈ i.consumes, pyIdx nF f = pyIdx nF g)
    (o : MctsOpts K) (M : Trans K) (nIter : Nat) (features : Nat → Nat → K) (plan : Option (List (List Nat)))
    (draws : Nat → Nat → Draw K) (fuel : Nat) :
    ∃ A, extractInfo (p :: os) = .ok A ∧
      (runMcts { o with caching := true } M A nF nIter features plan (fun _ _ => none) draws fuel).2.2.map
        (Except.map fun s => (s.V, s.N, s.visited, s.others)) =
      (runMcts { o with caching := false } M A nF nIter features plan (fun _ _ => none) draws fuel).2.2.map
        (Except.map fun s => (s.V, s.N, s.visited, s.others)) := by
  obtain ⟨A, hA, -, havoid, hone'⟩ := extract_harmless p os nF hlen hrow hcons hdup hself hone
  refine ⟨A, hA, ?_⟩
  cases plan with
  | none => rfl
  | some plan =>
    exact runLoop_cached (plan := plan) (draws := draws) (fuel := fuel) havoid hone' nIter 0
      (Search.fresh fun _ _ => none) (Search.fresh fun _ _ => none) rfl (fun a key q _ h => by cases h)

/-- Hunter and hare meet the conditions: the hare only cares about feature 0. -/
example : ∃ p os, exHunt 0 2 = p :: os ∧ (∀ i ∈ p :: os, i.reward.d0 = 3) ∧ (∀ i ∈ p :: os, i.featIdx < 3) ∧
    (∀ i ∈ p :: os, ∀ f ∈ i.consumes, ∃ x, pyIdx 3 f = some x) ∧ ((p :: os).map (·.featIdx)).Nodup ∧
    (∀ i ∈ os, ∀ j ∈ p :: os, i.reward.get j.featIdx = 0) ∧
    (∀ i ∈ p :: os, ∀ f ∈ i.consumes, ∀ g ∈ i.consumes, pyIdx 3 f = pyIdx 3 g) ∧
    (∃ i ∈ os, i.reward.get 0 = 1) := by
  refine ⟨_, _, rfl, ?_, ?_, ?_, ?_, ?_, ?_, ?_⟩ <;> simp [pyIdx]

/-! ## C64 fitting -/

/-- The claim is false in every environment: without a plan, a fit with at least one iteration fails. -/
theorem C64_refuted (e : Env K δ) (a : Agent K δ) (o : MctsOpts K) (nIter : Nat) (hn : 0 < nIter) (cache : QCache K)
    (draws : Nat → Nat → Draw K) (fuel : Nat) (w : Arr1 K) :
    ∃ err, e.mctsFit a o nIter none cache draws fuel w = some (.error err) ∧
      ((∃ A, extractInfo (e.agentInfos a o.interactive w) = .ok A) → err = .typeError) := by
  unfold Env.mctsFit
  cases hA : extractInfo (e.agentInfos a o.interactive w) with
  | error err => exact ⟨err, rfl, fun h => by obtain ⟨A, h⟩ := h; cases h⟩
  | ok A =>
    refine ⟨.typeError, ?_, fun _ => rfl⟩
    have : (runMcts o e.mdp.trans A w.d0 nIter e.mdp.features.get none cache draws fuel).2.2 =
        some (.error .typeError) := by
      unfold runMcts
      dsimp only
      rw [if_neg (by omega)]
    dsimp only
    rw [this]

theorem length_others {l : List (Agent K δ)} (hnd : (l.map (·.name)).Nodup) {a : Agent K δ} (ha : a ∈ l) :
    (l.filter fun b => decide (b.name ≠ a.name)).length + 1 = l.length := by
  have h1 : (l.map (·.name)).count a.name = 1 := List.count_eq_one_of_mem hnd (List.mem_map.2 ⟨a, ha, rfl⟩)
  have h2 := List.length_eq_countP_add_countP (fun b : Agent K δ => decide (b.name ≠ a.name)) (l := l)
  rw [List.countP_eq_length_filter] at h2
  rw [h2]
  congr 1
  rw [List.count_eq_countP, List.countP_map] at h1
  rw [← h1]
  refine List.countP_congr fun b _ => ?_
  simp

/-- The search itself, beginning with any usable cache. -/
theorem mctsRun_ok {e : Env K δ} (hm : Mdp.GridReach kind W H selfT m) (hinit : Env.init m specs = (m', .ok e0))
    (hrows : m.nNonAgent = m.features.d0 - m.nAgents)
    (hcons : ∀ sp ∈ specs, ∀ f ∈ sp.consumes, -((m.features.d0 - m.nAgents + specs.length : Nat) : Int) ≤ f)
    (ops : List (EnvOp K δ)) (he : e = e0.run ops) {a : Agent K δ} (ha : a ∈ e.agents) {o : MctsOpts K}
    (w : Arr1 K) (hw : w.d0 = e.mdp.features.d0)
    (hlive : ∀ b ∈ e.agents, Spec.Live e.mdp.trans (Spec.stateOf (W * H) b.position))
    (hcares : o.interactive = true → ∀ b ∈ e.agents, b.name ≠ a.name → ∃ f, f < w.d0 ∧ b.reward.get f ≠ 0)
    (hone : o.caching = true → ∀ b ∈ e.agents, ∀ f ∈ b.consumes, ∀ g ∈ b.consumes, pyIdx w.d0 f = pyIdx w.d0 g)
    {D : Draw K → Prop} (hpol : PolicyWorks o e.mdp.trans D) {draws : Nat → Nat → Draw K}
    (hd : ∀ i j, D (draws i j)) {T : Nat} {plan : List (List Nat)}
    (hplan : Spec.GoodPlan o.interactive e.agents.length T plan) (nIter fuel : Nat)
    (hf : (plan.map List.sum).sum + e.agents.length * T + 1 ≤ fuel) (cache : QCache K)
    (hcache : ∀ b key q, cache b key = some q → GoodEntry o e.mdp.trans q) :
    ∃ A s, extractInfo (e.agentInfos a o.interactive w) = .ok A ∧
      (runMcts o e.mdp.trans A w.d0 nIter e.mdp.features.get (some plan) cache draws fuel).2.2 = some (.ok s) ∧
      ∀ b key q, s.cache b key = some q → GoodEntry o e.mdp.trans q := by
  obtain ⟨hok, -⟩ := Env.started hm hinit ops
  rw [← he] at hok
  obtain ⟨os, hinfos, g1, g2, g3, g4⟩ := C65_env hm hinit hrows hcons ops e he a ha o.interactive w hw
  rw [hinfos] at g1 g2 g3 g4
  obtain ⟨A, hA, hn, hfi, hag⟩ := C65_relations _ os w.d0 g1 g2 g3 g4
  have hos : os = if o.interactive then (e.agents.filter fun b => b.name ≠ a.name).map fun b =>
      ⟨b.position, b.nMoves, b.consumes, b.reward, b.featIdx⟩ else [] := by
    unfold Env.agentInfos at hinfos
    exact (List.cons.inj hinfos).2.symm
  -- every simulated agent is one of the environment
  have hof : ∀ x i, ((⟨a.position, a.nMoves, a.consumes, w, a.featIdx⟩ : AgentInfo K) :: os)[x]? = some i →
      ∃ b ∈ e.agents, i.position = b.position ∧ i.consumes = b.consumes ∧
        (x ≠ 0 → o.interactive = true ∧ b.name ≠ a.name ∧ i.reward = b.reward) := by
    intro x i hx
    cases x with
    | zero => cases hx; exact ⟨a, ha, rfl, rfl, fun h => absurd rfl h⟩
    | succ x =>
      have hi : i ∈ os := List.mem_of_getElem? hx
      rw [hos] at hi
      cases hint : o.interactive with
      | false => rw [hint] at hi; simp at hi
      | true =>
        rw [hint] at hi
        simp only [if_true, List.mem_map, List.mem_filter] at hi
        obtain ⟨b, ⟨hb, hbn⟩, rfl⟩ := hi
        exact ⟨b, hb, rfl, rfl, fun _ => ⟨rfl, by simpa using hbn, rfl⟩⟩
  have hget : ∀ x, x < A.n → ∃ i, ((⟨a.position, a.nMoves, a.consumes, w, a.featIdx⟩ : AgentInfo K) :: os)[x]? = some i :=
    fun x hx => ⟨_, List.getElem?_eq_getElem (by rw [List.length_cons]; omega)⟩
  have hsim : SimOk o e.mdp.trans A w.d0 D := by
    refine ⟨(C27_grid kind W H selfT e.mdp hok.reach).1, fun s t hs ht => (Env.successor_facts hok hs ht).2.2, hpol,
      fun x hx => ?_, fun x hx h0 hnil => ?_, fun x hx hc => ?_⟩
    · obtain ⟨i, hi⟩ := hget x hx
      refine ⟨i.featIdx, ?_, g2 i (List.mem_of_getElem? hi)⟩
      rw [hfi, List.getElem?_map, hi]
      rfl
    · obtain ⟨i, hi⟩ := hget x hx
      obtain ⟨b, hb, -, -, h1⟩ := hof x i hi
      obtain ⟨h1, h2, h3⟩ := h1 h0
      obtain ⟨f, hf, hne⟩ := hcares h1 b hb h2
      have : f ∈ preferences A w.d0 x := by
        unfold preferences
        rw [mem_npWhere]
        refine ⟨hf, decide_eq_true ?_⟩
        rw [(hag x i hi).2.1, h3]
        exact hne
      rw [hnil] at this
      cases this
    · obtain ⟨i, hi⟩ := hget x hx
      obtain ⟨b, hb, -, h2, -⟩ := hof x i hi
      refine npWhere_le_one fun f g _ _ hf hg => ?_
      obtain ⟨y, hy, hy'⟩ := ((hag x i hi).2.2.2.1 f).1 hf
      obtain ⟨z, hz, hz'⟩ := ((hag x i hi).2.2.2.1 g).1 hg
      rw [h2] at hy hz
      have := hone hc b hb y hy z hz
      rw [hy', hz'] at this
      exact Option.some.inj this
  have hnodes : ∀ x, x < A.n → ∃ s, pyIdx e.mdp.trans.nS (A.nodes x) = some s ∧ Spec.Live e.mdp.trans s := by
    intro x hx
    obtain ⟨i, hi⟩ := hget x hx
    obtain ⟨b, hb, h1, -⟩ := hof x i hi
    obtain ⟨j, hj, -⟩ := hok.pos b hb
    rw [(hag x i hi).1, h1]
    refine ⟨j, hj, ?_⟩
    have hl := hlive b hb
    have hS : e.mdp.nStates = W * H := hok.reach.ok.nStates
    rw [hS] at hj
    rw [Env.stateOf_eq hj]
    exact hl
  have hiter : ∀ V N cache i, (∀ b key q, cache b key = some q → GoodEntry o e.mdp.trans q) → ∃ st,
      simLoop o e.mdp.trans A w.d0 V N plan (draws i) fuel .start (Sim.start A.nodes e.mdp.features.get cache) =
        some (.ok st) ∧ ∀ b key q, st.cache b key = some q → GoodEntry o e.mdp.trans q := by
    intro V N cache i hcache
    have hloop : ∃ l : List Nat, (∀ x ∈ l, x < A.n) ∧
        simLoop o e.mdp.trans A w.d0 V N plan (draws i) fuel .start (Sim.start A.nodes e.mdp.features.get cache) =
        some (Spec.outcome (Spec.follow (fun j x st => simMove o e.mdp.trans A w.d0 V N x (draws i j) st) 0 l
          (Sim.start A.nodes e.mdp.features.get cache))) := by
      unfold Spec.GoodPlan at hplan
      cases hint : o.interactive with
      | true =>
        rw [hint, if_pos rfl] at hplan
        have hlen : A.n = e.agents.length := by
          rw [hn, hos, hint, if_pos rfl, List.length_map]
          exact length_others hok.nodup ha
        refine ⟨Spec.schedule plan T, fun x hx => ?_, simLoop_schedule hint (by omega) (by rw [hlen]; exact hplan.1)
          hplan.2 fuel (by rw [hlen]; exact hf) _⟩
        have := mem_schedule hx
        rw [hplan.1] at this
        omega
      | false =>
        rw [hint, if_neg (by simp)] at hplan
        obtain ⟨k, own, others, rfl, hk⟩ := hplan
        refine ⟨List.replicate (k + own.sum + (others.map List.sum).sum) 0, fun x hx => ?_,
          simLoop_alone hint hk rfl _ fuel .start _ rfl rfl (by simp [Clock.start]) ?_⟩
        · rw [(List.mem_replicate.1 hx).2]; omega
        · simp only [List.map_cons, List.sum_cons] at hf
          omega
    obtain ⟨l, hl, he⟩ := hloop
    obtain ⟨st, c, h1, h2⟩ := follow_ok (V := V) (N := N) hsim (hd i) l 0
      (Sim.start A.nodes e.mdp.features.get cache) hl ⟨hnodes, hcache⟩
    rw [he, h1]
    exact ⟨st, rfl, h2.2⟩
  obtain ⟨s, hs, hgood⟩ := runLoop_ok (o := o) (M := e.mdp.trans) (A := A) (nF := w.d0) (plan := plan) (draws := draws)
    (fuel := fuel) (features := e.mdp.features.get) (nodes := A.nodes)
    (fun cache => ∀ b key q, cache b key = some q → GoodEntry o e.mdp.trans q) hiter nIter 0
    (Search.fresh cache) hcache
  exact ⟨A, s, by rw [hinfos, hA], hs, hgood⟩

theorem mctsFit_ok {e : Env K δ} (hm : Mdp.GridReach kind W H selfT m) (hinit : Env.init m specs = (m', .ok e0))
    (hrows : m.nNonAgent = m.features.d0 - m.nAgents)
    (hcons : ∀ sp ∈ specs, ∀ f ∈ sp.consumes, -((m.features.d0 - m.nAgents + specs.length : Nat) : Int) ≤ f)
    (ops : List (EnvOp K δ)) (he : e = e0.run ops) {a : Agent K δ} (ha : a ∈ e.agents) {o : MctsOpts K}
    (w : Arr1 K) (hw : w.d0 = e.mdp.features.d0)
    (hlive : ∀ b ∈ e.agents, Spec.Live e.mdp.trans (Spec.stateOf (W * H) b.position))
    (hcares : o.interactive = true → ∀ b ∈ e.agents, b.name ≠ a.name → ∃ f, f < w.d0 ∧ b.reward.get f ≠ 0)
    (hone : o.caching = true → ∀ b ∈ e.agents, ∀ f ∈ b.consumes, ∀ g ∈ b.consumes, pyIdx w.d0 f = pyIdx w.d0 g)
    {D : Draw K → Prop} (hpol : PolicyWorks o e.mdp.trans D) {draws : Nat → Nat → Draw K}
    (hd : ∀ i j, D (draws i j)) {T : Nat} {plan : List (List Nat)}
    (hplan : Spec.GoodPlan o.interactive e.agents.length T plan) (nIter fuel : Nat)
    (hf : (plan.map List.sum).sum + e.agents.length * T + 1 ≤ fuel) :
    ∃ v q, e.mctsFit a o nIter (some plan) (fun _ _ => none) draws fuel w = some (.ok (v, q)) := by
  obtain ⟨A, s, hA, hs, -⟩ := mctsRun_ok hm hinit hrows hcons ops he ha w hw hlive hcares hone hpol hd hplan nIter fuel hf
    (fun _ _ => none) (fun b key q h => by cases h)
  obtain ⟨hok, -⟩ := Env.started hm hinit ops
  rw [← he] at hok
  obtain ⟨j, hj, -⟩ := hok.pos a ha
  unfold Env.mctsFit
  rw [hA]
  dsimp only
  rw [hs]
  dsimp only
  rw [hj]
  exact ⟨_, _, rfl⟩

/-- What is true: with an explicit plan, in an environment on a grid, after any operations that left every agent on a
state with some possible action, a fit with any number of iterations and any draws succeeds if every other agent has
some reward weight, and with caching nobody consumes more than one feature. Here opponents move at random or choose best
actions after value iteration.

Missing from the full claim: fitting without a plan, which fails (`C64_refuted`). -/
theorem C64_partial (hm : Mdp.GridReach kind W H selfT m) (hinit : Env.init m specs = (m', .ok e0))
    (hrows : m.nNonAgent = m.features.d0 - m.nAgents)
    (hcons : ∀ sp ∈ specs, ∀ f ∈ sp.consumes, -((m.features.d0 - m.nAgents + specs.length : Nat) : Int) ≤ f)
    (ops : List (EnvOp K δ)) (e : Env K δ) (he : e = e0.run ops) (a : Agent K δ) (ha : a ∈ e.agents) (o : MctsOpts K)
    (w : Arr1 K) (hw : w.d0 = e.mdp.features.d0)
    (hlive : ∀ b ∈ e.agents, Spec.Live e.mdp.trans (Spec.stateOf (W * H) b.position))
    (hcares : o.interactive = true → ∀ b ∈ e.agents, b.name ≠ a.name → ∃ f, f < w.d0 ∧ b.reward.get f ≠ 0)
    (hone : o.caching = true → ∀ b ∈ e.agents, ∀ f ∈ b.consumes, ∀ g ∈ b.consumes, pyIdx w.d0 f = pyIdx w.d0 g)
    (hpol : o.policy = .random ∨ (o.policy = .solve ∧ o.algorithm = .valueIteration ∧ 0 < o.viDiscount ∧
      o.viDiscount < 1 ∧ 0 < o.viMaxIter ∧ (o.selection = .max ∨ o.temperature = 0)))
    (draws : Nat → Nat → Draw K) (T : Nat) (plan : List (List Nat))
    (hplan : Spec.GoodPlan o.interactive e.agents.length T plan) (nIter fuel : Nat)
    (hf : (plan.map List.sum).sum + e.agents.length * T + 1 ≤ fuel) :
    ∃ v q, e.mctsFit a o nIter (some plan) (fun _ _ => none) draws fuel w = some (.ok (v, q)) :=
  mctsFit_ok hm hinit hrows hcons ops he ha w hw hlive hcares hone (D := fun _ => True)
    (hpol.imp id fun ⟨h1, h2, h3, h4, h5, h6⟩ => ⟨h1, h2, h3, h4, h5, choiceWorks_max h6 _⟩) (fun _ _ => trivial)
    hplan nIter fuel hf

/-- The same over the reals when opponents choose by softmax, at any temperature. -/
theorem C64_softmax_partial {m m' : Mdp ℝ} {specs : List (AgentSpec ℝ δ)} {e0 : Env ℝ δ}
    (hm : Mdp.GridReach kind W H selfT m) (hinit : Env.init m specs = (m', .ok e0))
    (hrows : m.nNonAgent = m.features.d0 - m.nAgents)
    (hcons : ∀ sp ∈ specs, ∀ f ∈ sp.consumes, -((m.features.d0 - m.nAgents + specs.length : Nat) : Int) ≤ f)
    (ops : List (EnvOp ℝ δ)) (e : Env ℝ δ) (he : e = e0.run ops) (a : Agent ℝ δ) (ha : a ∈ e.agents) (o : MctsOpts ℝ)
    (w : Arr1 ℝ) (hw : w.d0 = e.mdp.features.d0)
    (hlive : ∀ b ∈ e.agents, Spec.Live e.mdp.trans (Spec.stateOf (W * H) b.position))
    (hcares : o.interactive = true → ∀ b ∈ e.agents, b.name ≠ a.name → ∃ f, f < w.d0 ∧ b.reward.get f ≠ 0)
    (hone : o.caching = true → ∀ b ∈ e.agents, ∀ f ∈ b.consumes, ∀ g ∈ b.consumes, pyIdx w.d0 f = pyIdx w.d0 g)
    (hpol : o.policy = .solve ∧ o.algorithm = .valueIteration ∧ 0 < o.viDiscount ∧
      o.viDiscount < 1 ∧ 0 < o.viMaxIter ∧ o.selection = .softmax ∧ o.soft = softmax)
    (draws : Nat → Nat → Draw ℝ) (hd : ∀ i j, 0 ≤ (draws i j).u ∧ (draws i j).u < 1) (T : Nat)
    (plan : List (List Nat)) (hplan : Spec.GoodPlan o.interactive e.agents.length T plan) (nIter fuel : Nat)
    (hf : (plan.map List.sum).sum + e.agents.length * T + 1 ≤ fuel) :
    ∃ v q, e.mctsFit a o nIter (some plan) (fun _ _ => none) draws fuel w = some (.ok (v, q)) := by
  obtain ⟨h1, h2, h3, h4, h5, h6, h7⟩ := hpol
  exact mctsFit_ok hm hinit hrows hcons ops he ha w hw hlive hcares hone
    (.inr ⟨h1, h2, h3, h4, h5, choiceWorks_softmax h6 h7⟩) hd hplan nIter fuel hf

/-- Fox and hen in the corridor meet the conditions, with two turns planned and opponents that solve the MDP. -/
example : ∃ (m m' : Mdp Rat) (e : Env Rat Nat), Mdp.GridReach .square 1 3 false m ∧
    Env.init m exSpecs = (m', .ok e) ∧ m.nNonAgent = m.features.d0 - m.nAgents ∧
    (∀ sp ∈ exSpecs, ∀ f ∈ sp.consumes, -((m.features.d0 - m.nAgents + exSpecs.length : Nat) : Int) ≤ f) ∧
    e.agents.length = 2 ∧ (∀ b ∈ e.agents, Spec.Live e.mdp.trans (Spec.stateOf (1 * 3) b.position)) ∧
    (∀ b ∈ e.agents, ∃ f, f < e.mdp.features.d0 ∧ b.reward.get f ≠ 0) ∧
    Spec.GoodPlan exOpts.interactive 2 2 [[2, 2], [1, 1]] ∧
    ∀ a ∈ e.agents, ∃ v q, e.mctsFit a exOpts 5 (some [[2, 2], [1, 1]]) (fun _ _ => none) (fun _ _ => ⟨0, 0⟩) 11
      ⟨e.mdp.features.d0, a.reward.get⟩ = some (.ok (v, q)) := by
  have hplan : Spec.GoodPlan exOpts.interactive 2 2 [[2, 2], [1, 1]] := by
    unfold Spec.GoodPlan
    rw [if_pos (show exOpts.interactive = true from rfl)]
    decide
  cases hx : exMdp with
  | error err => exact absurd hx (by intro h; have : (match exMdp with | .ok _ => true | .error _ => false) = true := by
                                      decide +kernel
                                     rw [h] at this; cases this)
  | ok m =>
    have hq : (match exMdp with
        | .ok m => decide (m.nNonAgent = 1 ∧ m.features.d0 = 1 ∧ m.nAgents = 0)
        | .error _ => false) = true := by decide +kernel
    rw [hx] at hq
    have hq' := of_decide_eq_true hq
    have hv : (match exEnv with
        | .ok e => decide (e.agents.length = 2) && e.agents.all (fun b =>
            ((List.range e.mdp.trans.nA).any fun x => (List.range e.mdp.trans.nS).any fun t =>
              decide (0 < e.mdp.trans.p (Spec.stateOf (1 * 3) b.position) x t)) &&
            (List.range e.mdp.features.d0).any fun f => decide (b.reward.get f ≠ 0))
        | .error _ => false) = true := by decide +kernel
    unfold exEnv at hv
    rw [hx] at hv
    dsimp only at hv
    rcases hi : Env.init m exSpecs with ⟨m', err | e⟩
    · rw [hi] at hv; cases hv
    · rw [hi] at hv
      simp only [Bool.and_eq_true, List.all_eq_true, List.any_eq_true, List.mem_range, decide_eq_true_eq] at hv
      obtain ⟨h1, h2⟩ := hv
      have hlive : ∀ b ∈ e.agents, Spec.Live e.mdp.trans (Spec.stateOf (1 * 3) b.position) := fun b hb => by
        obtain ⟨⟨x, hx, t, ht, hp⟩, -⟩ := h2 b hb
        exact ⟨x, hx, t, ht, hp⟩
      have hr : m.nNonAgent = m.features.d0 - m.nAgents := by omega
      have hc : ∀ sp ∈ exSpecs, ∀ f ∈ sp.consumes,
          -((m.features.d0 - m.nAgents + exSpecs.length : Nat) : Int) ≤ f := by
        rw [hq'.2.1, hq'.2.2]
        simp [exSpecs]
      refine ⟨m, m', e, .init hx, hi, hr, hc, h1, hlive, fun b hb => (h2 b hb).2, hplan, fun a ha => ?_⟩
      exact C64_partial (.init hx) hi hr hc [] e rfl a ha exOpts _ rfl hlive (fun _ b hb _ => (h2 b hb).2)
        (fun h => by cases h) (.inr ⟨rfl, rfl, by norm_num [exOpts], by norm_num [exOpts], by norm_num [exOpts], .inl rfl⟩)
        _ 2 _ (by rw [h1]; exact hplan) 5 11 (by rw [h1]; decide)

end MaMDP
