import Verif.Lemmas.MCTSObject
import Verif.Props.MCTSCache
import Verif.Spec.MCTSObject

/-! # The tree search object: failing fits, fitting without environment, fits one after the other (C94-C96) -/

set_option linter.unusedSectionVars false

namespace MaMDP

variable {K : Type} [Field K] [LinearOrder K] [IsStrictOrderedRing K] {δ : Type}

theorem checkReward_of {nF : Nat} {reward : PyArr K} {w : Arr1 K} (h : checkReward nF reward = .ok w) :
    ∃ get, reward = .nd [nF] get ∧ w = ⟨nF, fun i => get [i]⟩ := by
  unfold checkReward at h
  split at h
  · cases h
  · split_ifs at h with hn
    cases h
    subst hn
    exact ⟨_, rfl, rfl⟩
  · cases h

theorem checkReward_ok {nF : Nat} (get : List Nat → K) : checkReward nF (.nd [nF] get) = .ok ⟨nF, fun i => get [i]⟩ := by
  unfold checkReward
  dsimp only
  rw [if_pos rfl]

theorem checkReward_bad {nF : Nat} {reward : PyArr K} (h : ¬ ∃ get, reward = .nd [nF] get) :
    ∃ err, checkReward nF reward = .error err := by
  cases hc : checkReward nF reward with
  | error err => exact ⟨err, rfl⟩
  | ok w => obtain ⟨get, hg, -⟩ := checkReward_of hc; exact absurd ⟨get, hg⟩ h

theorem MctsObj.accept_some (obj : MctsObj K) {m : Mdp K} {p : Int} {here : Nat} (h : pyIdx m.nStates p = some here)
    (s : Search K) : obj.accept m p s = ({ obj with st := ⟨true, some ⟨m.nStates, fun t => .fin (s.V t)⟩,
      some ⟨m.nStates, m.nActions, mctsQ m.trans s.V s.N here⟩⟩ }, .ok ()) := by
  unfold MctsObj.accept checkOutput PyArr.of1 PyArr.of2
  rw [h]
  simp

theorem MctsObj.accept_none (obj : MctsObj K) {m : Mdp K} {p : Int} (h : pyIdx m.nStates p = none)
    (s : Search K) : obj.accept m p s = (obj, .error .indexError) := by
  unfold MctsObj.accept
  rw [h]

theorem MctsObj.prepare_st (obj : MctsObj K) : obj.prepare.st = .fresh := by
  unfold MctsObj.prepare
  split <;> rfl

theorem MctsObj.accept_st {obj obj' : MctsObj K} {m : Mdp K} {p : Int} {s : Search K} {err : PyErr}
    (h : obj.accept m p s = (obj', .error err)) : obj'.st = obj.st := by
  cases hp : pyIdx m.nStates p with
  | none => rw [accept_none obj hp] at h; cases h; rfl
  | some here => rw [accept_some obj hp] at h; cases h

theorem MctsObj.search_st {obj obj' : MctsObj K} {e : Env K δ} {a : Agent K δ} {c : FitCall K δ} {w : Arr1 K}
    {err : PyErr} (h : obj.search e a c w = some (obj', .error err)) : obj'.st = obj.st := by
  unfold MctsObj.search at h
  split at h
  · cases h; rfl
  · split at h
    · cases h
    · cases h; rfl
    · exact (accept_st (Option.some.inj h) : _)

/-! ## C94 failing fits -/

/-- What holds when `fit` of a tree search raises. If the reward is not a vector with one entry per feature, or the
object is meant to be interactive and was never attached, the object is as before. After any other failure it is not
fitted and holds no values: it is never left with values that do not belong together.

Missing from the full claim: that the earlier values survive. They do not, see `C94_refuted`. -/
theorem C94_partial (obj obj' : MctsObj K) (c : FitCall K δ) (err : PyErr) (h : obj.fit c = some (obj', .error err)) :
    ((¬ ∃ get, c.reward = .nd [c.mdp.nFeatures] get) ∨ (c.link = none ∧ obj.opts.interactive = true) → obj' = obj) ∧
    (¬ ((¬ ∃ get, c.reward = .nd [c.mdp.nFeatures] get) ∨ (c.link = none ∧ obj.opts.interactive = true)) →
      obj'.st.fitComplete = false ∧ obj'.st.values = none ∧ obj'.st.qValues = none) := by
  unfold MctsObj.fit at h
  cases hr : checkReward c.mdp.nFeatures c.reward with
  | error e =>
    rw [hr] at h
    cases h
    refine ⟨fun _ => rfl, fun hno => absurd (Or.inl fun ⟨get, hg⟩ => ?_) hno⟩
    rw [hg, checkReward_ok] at hr
    cases hr
  | ok w =>
    obtain ⟨get, hg, -⟩ := checkReward_of hr
    rw [hr] at h
    dsimp only at h
    cases hl : c.link with
    | none =>
      rw [hl] at h
      dsimp only at h
      by_cases hi : obj.opts.interactive = true
      · rw [if_pos hi] at h
        cases h
        exact ⟨fun _ => rfl, fun hno => absurd (Or.inr ⟨rfl, hi⟩) hno⟩
      · rw [if_neg hi] at h
        cases h
        refine ⟨fun hor => ?_, fun _ => by rw [obj.prepare_st]; exact ⟨rfl, rfl, rfl⟩⟩
        rcases hor with hor | hor
        · exact absurd ⟨get, hg⟩ hor
        · exact absurd hor.2 hi
    | some p =>
      obtain ⟨e, a⟩ := p
      rw [hl] at h
      dsimp only at h
      refine ⟨fun hor => ?_, fun _ => by rw [MctsObj.search_st h, obj.prepare_st]; exact ⟨rfl, rfl, rfl⟩⟩
      rcases hor with hor | hor
      · exact absurd ⟨get, hg⟩ hor
      · cases hor.1

/-- After a successful fit the object is fitted and holds one value per state and one entry per state and action. -/
theorem C94_success (obj obj' : MctsObj K) (c : FitCall K δ) (h : obj.fit c = some (obj', .ok ())) :
    obj'.st.fitComplete = true ∧ ∃ v q, obj'.st.values = some v ∧ obj'.st.qValues = some q ∧
      v.d0 = c.mdp.nStates ∧ q.d0 = c.mdp.nStates ∧ q.d1 = c.mdp.nActions := by
  unfold MctsObj.fit at h
  split at h
  · cases h
  · split at h
    · split_ifs at h <;> cases h
    · unfold MctsObj.search at h
      split at h
      · cases h
      · split at h
        · cases h
        · cases h
        · rename_i s _
          cases hp : pyIdx c.mdp.nStates c.position with
          | none => rw [MctsObj.accept_none _ hp] at h; cases h
          | some here =>
            rw [MctsObj.accept_some _ hp] at h
            cases h
            exact ⟨rfl, _, _, rfl, rfl, rfl, rfl, rfl⟩

/-- A new object on which `fit` raises is as good as new, cache included, if the position given exists. -/
theorem C94_new (opts : MctsOpts K) (nIter : Nat) (resetCache : Bool) (obj : MctsObj K) (c : FitCall K δ) (err : PyErr)
    (h : (MctsObj.init opts nIter resetCache).fit c = some (obj, .error err)) (hp0 : 0 ≤ c.position)
    (hp1 : c.position < c.mdp.nStates) : obj = MctsObj.init opts nIter resetCache := by
  have hprep : (MctsObj.init opts nIter resetCache).prepare = MctsObj.init opts nIter resetCache := by
    cases resetCache <;> rfl
  unfold MctsObj.fit at h
  rw [hprep] at h
  split at h
  · cases h; rfl
  · split at h
    · split_ifs at h <;> cases h <;> rfl
    · unfold MctsObj.search at h
      split at h
      · cases h; rfl
      · split at h
        · cases h
        · cases h; rfl
        · rename_i s _
          cases hp : pyIdx c.mdp.nStates c.position with
          | none =>
            unfold pyIdx at hp
            split_ifs at hp
          | some here =>
            rw [MctsObj.accept_some _ hp] at h
            cases h

/-- The claim is false for every attached object that was fitted before: calling `fit` again without a plan fails and
the earlier values are gone. -/
theorem C94_refuted (obj : MctsObj K) (v : Arr1 (Ext K)) (q : Arr2 (Ext K)) (hst : obj.st = ⟨true, some v, some q⟩)
    (hn : 0 < obj.nIter) (c : FitCall K δ) (get : List Nat → K) (hr : c.reward = .nd [c.mdp.nFeatures] get)
    (hl : c.link ≠ none) (hp : c.plan = none) :
    ∃ obj' err, obj.fit c = some (obj', .error err) ∧ obj'.st ≠ obj.st ∧ obj'.st = .fresh := by
  have hne : (AlgState.fresh : AlgState K) ≠ obj.st := by rw [hst]; intro h; cases h
  unfold MctsObj.fit
  rw [hr, checkReward_ok]
  cases hl' : c.link with
  | none => exact absurd hl' hl
  | some p =>
    obtain ⟨e, a⟩ := p
    dsimp only
    unfold MctsObj.search
    cases hA : extractInfo (e.agentInfos a obj.prepare.opts.interactive ⟨c.mdp.nFeatures, fun i => get [i]⟩) with
    | error err => exact ⟨_, err, rfl, by rw [obj.prepare_st]; exact hne, obj.prepare_st⟩
    | ok A =>
      dsimp only
      have hn' : obj.prepare.nIter = obj.nIter := by unfold MctsObj.prepare; split <;> rfl
      have hrun : (runMcts obj.prepare.opts c.mdp.trans A c.mdp.nFeatures obj.prepare.nIter c.mdp.features.get c.plan
          (obj.prepare.cache.getD fun _ _ => none) c.draws c.fuel).2.2 = some (.error .typeError) := by
        unfold runMcts
        rw [hp]
        dsimp only
        rw [if_neg (by omega)]
      rw [hrun]
      exact ⟨_, _, rfl, by dsimp only; rw [obj.prepare_st]; exact hne, obj.prepare_st⟩

/-! ## C95 planning without an environment -/

/-- The claim is false for every MDP and reward: a search that does not look at other agents still raises
`AttributeError` unless it was attached to an environment. -/
theorem C95_refuted (obj : MctsObj K) (hi : obj.opts.interactive = false) (c : FitCall K δ) (hl : c.link = none)
    (get : List Nat → K) (hr : c.reward = .nd [c.mdp.nFeatures] get) :
    obj.fit c = some (obj.prepare, .error .attributeError) := by
  unfold MctsObj.fit
  rw [hr, checkReward_ok, hl]
  dsimp only
  rw [if_neg (by rw [hi]; simp)]

/-- What holds: of the environment only the agent itself matters. Two environments in which the agent has the same
position, feature row and consumed features, whoever else is there, lead to the same result. -/
theorem C95_partial (obj : MctsObj K) (hi : obj.opts.interactive = false) (c : FitCall K δ) (e1 e2 : Env K δ)
    (a1 a2 : Agent K δ) (hpos : a1.position = a2.position) (hcons : a1.consumes = a2.consumes)
    (hrow : a1.featIdx = a2.featIdx) (hmoves : a1.nMoves = a2.nMoves) :
    obj.fit { c with link := some (e1, a1) } = obj.fit { c with link := some (e2, a2) } := by
  have hi' : obj.prepare.opts.interactive = false := by unfold MctsObj.prepare; split <;> exact hi
  have h : ∀ w, e1.agentInfos a1 obj.prepare.opts.interactive w = e2.agentInfos a2 obj.prepare.opts.interactive w := by
    intro w
    unfold Env.agentInfos
    rw [hi', hpos, hcons, hrow, hmoves]
    rfl
  unfold MctsObj.fit MctsObj.search
  dsimp only
  cases checkReward c.mdp.nFeatures c.reward with
  | error err => rfl
  | ok w =>
    dsimp only
    rw [h w]

/-! ## C96 fits one after the other -/

theorem MctsObj.prepare_keeps (obj : MctsObj K) : obj.prepare.opts = obj.opts ∧ obj.prepare.nIter = obj.nIter ∧
    obj.prepare.resetCache = obj.resetCache ∧ obj.prepare.st = .fresh ∧ obj.prepare.V = none ∧ obj.prepare.N = none := by
  unfold MctsObj.prepare
  split <;> exact ⟨rfl, rfl, rfl, rfl, rfl, rfl⟩

theorem MctsObj.accept_keeps (obj : MctsObj K) (m : Mdp K) (p : Int) (s : Search K) :
    (obj.accept m p s).1.opts = obj.opts ∧ (obj.accept m p s).1.nIter = obj.nIter ∧
      (obj.accept m p s).1.resetCache = obj.resetCache ∧ (obj.accept m p s).1.cache = obj.cache := by
  cases hp : pyIdx m.nStates p with
  | none => rw [accept_none obj hp]; exact ⟨rfl, rfl, rfl, rfl⟩
  | some here => rw [accept_some obj hp]; exact ⟨rfl, rfl, rfl, rfl⟩

theorem MctsObj.fit_keeps {obj obj' : MctsObj K} {c : FitCall K δ} {r : Py Unit} (h : obj.fit c = some (obj', r)) :
    obj'.opts = obj.opts ∧ obj'.nIter = obj.nIter ∧ obj'.resetCache = obj.resetCache := by
  obtain ⟨p1, p2, p3, -⟩ := obj.prepare_keeps
  unfold MctsObj.fit at h
  split at h
  · cases h; exact ⟨rfl, rfl, rfl⟩
  · split at h
    · split_ifs at h
      · cases h; exact ⟨rfl, rfl, rfl⟩
      · cases h; exact ⟨p1, p2, p3⟩
    · unfold MctsObj.search at h
      split at h
      · cases h; exact ⟨p1, p2, p3⟩
      · split at h
        · cases h
        · cases h; exact ⟨p1, p2, p3⟩
        · rename_i s _
          obtain ⟨q1, q2, q3, -⟩ := MctsObj.accept_keeps
            ({ obj.prepare with V := some s.V, N := some s.N, cache := some s.cache } : MctsObj K) c.mdp c.position s
          rw [Option.some.inj h] at q1 q2 q3
          exact ⟨q1.trans p1, q2.trans p2, q3.trans p3⟩

theorem MctsObj.run_keeps (ops : List (MctsOp K δ)) : ∀ {obj obj' : MctsObj K}, obj.run ops = some obj' →
    obj'.opts = obj.opts ∧ obj'.nIter = obj.nIter ∧ obj'.resetCache = obj.resetCache := by
  induction ops with
  | nil => intro obj obj' h; cases h; exact ⟨rfl, rfl, rfl⟩
  | cons op ops ih =>
    intro obj obj' h
    unfold MctsObj.run at h
    cases ho : obj.apply op with
    | none => rw [ho] at h; cases h
    | some x =>
      rw [ho] at h
      obtain ⟨h1, h2, h3⟩ := ih h
      have : x.opts = obj.opts ∧ x.nIter = obj.nIter ∧ x.resetCache = obj.resetCache := by
        cases op with
        | fit c =>
          change (obj.fit c).map (·.1) = some x at ho
          cases hf : obj.fit c with
          | none => rw [hf] at ho; cases ho
          | some p =>
            rw [hf] at ho
            cases ho
            exact fit_keeps hf
        | reset => cases ho; exact ⟨rfl, rfl, rfl⟩
        | clearCache => cases ho; exact ⟨rfl, rfl, rfl⟩
      exact ⟨h1.trans this.1, h2.trans this.2.1, h3.trans this.2.2⟩

/-- What the user can read off an object after a fit. -/
def MctsObj.results (obj : MctsObj K) : AlgState K × Option (Nat → K) × Option (Nat → Nat) := (obj.st, obj.V, obj.N)

/-- The part of `fit` that depends on the object: its settings and, through the search, its cache. -/
theorem MctsObj.search_results {obj obj' : MctsObj K} (ho : obj'.opts = obj.opts) (hn : obj'.nIter = obj.nIter)
    (hst : obj'.results = obj.results) (e : Env K δ) (a : Agent K δ) (c : FitCall K δ) (w : Arr1 K)
    (hrun : ∀ A, extractInfo (e.agentInfos a obj.opts.interactive w) = .ok A →
      (runMcts obj.opts c.mdp.trans A w.d0 obj.nIter c.mdp.features.get c.plan (obj'.cache.getD fun _ _ => none)
        c.draws c.fuel).2.2.map (Except.map Search.shown) =
      (runMcts obj.opts c.mdp.trans A w.d0 obj.nIter c.mdp.features.get c.plan (obj.cache.getD fun _ _ => none)
        c.draws c.fuel).2.2.map (Except.map Search.shown)) :
    (obj'.search e a c w).map (fun x => (x.1.results, x.2)) = (obj.search e a c w).map (fun x => (x.1.results, x.2)) := by
  unfold MctsObj.search
  rw [ho, hn]
  cases hA : extractInfo (e.agentInfos a obj.opts.interactive w) with
  | error err => dsimp only [Option.map]; rw [hst]
  | ok A =>
    have h := hrun A hA
    dsimp only
    generalize (runMcts obj.opts c.mdp.trans A w.d0 obj.nIter c.mdp.features.get c.plan
      (obj'.cache.getD fun _ _ => none) c.draws c.fuel).2.2 = r' at h ⊢
    generalize (runMcts obj.opts c.mdp.trans A w.d0 obj.nIter c.mdp.features.get c.plan
      (obj.cache.getD fun _ _ => none) c.draws c.fuel).2.2 = r at h ⊢
    obtain ⟨h1, h2⟩ := Prod.mk.inj hst
    rcases r' with _ | err' | s' <;> rcases r with _ | err | s <;> simp only [Option.map, Except.map] at h <;>
      try cases h
    · rfl
    · obtain ⟨h2, h3⟩ := Prod.mk.inj h2
      unfold MctsObj.results
      dsimp only [Option.map]
      rw [h1, h2, h3]
    · have hs : s'.shown = s.shown := Except.ok.inj (Option.some.inj h)
      obtain ⟨hV, hs⟩ := Prod.mk.inj hs
      obtain ⟨hN, -⟩ := Prod.mk.inj hs
      dsimp only [Option.map]
      cases hp : pyIdx c.mdp.nStates c.position with
      | none =>
        rw [accept_none _ hp, accept_none _ hp]
        unfold MctsObj.results
        dsimp only
        rw [hV, hN, h1]
      | some here =>
        rw [accept_some _ hp, accept_some _ hp]
        unfold MctsObj.results
        dsimp only
        rw [hV, hN]

theorem MctsObj.fit_results {obj obj' : MctsObj K} (ho : obj'.opts = obj.opts) (hn : obj'.nIter = obj.nIter)
    (c : FitCall K δ)
    (hrun : ∀ e a get A, c.link = some (e, a) → c.reward = .nd [c.mdp.nFeatures] get →
      extractInfo (e.agentInfos a obj.opts.interactive ⟨c.mdp.nFeatures, fun i => get [i]⟩) = .ok A →
      (runMcts obj.opts c.mdp.trans A c.mdp.nFeatures obj.nIter c.mdp.features.get c.plan
        (obj'.prepare.cache.getD fun _ _ => none) c.draws c.fuel).2.2.map (Except.map Search.shown) =
      (runMcts obj.opts c.mdp.trans A c.mdp.nFeatures obj.nIter c.mdp.features.get c.plan
        (obj.prepare.cache.getD fun _ _ => none) c.draws c.fuel).2.2.map (Except.map Search.shown)) :
    (obj'.fit c).map (·.2) = (obj.fit c).map (·.2) ∧
    ∀ x, obj'.fit c = some (x, .ok ()) → ∃ y, obj.fit c = some (y, .ok ()) ∧ y.st = x.st ∧ y.V = x.V ∧ y.N = x.N := by
  unfold MctsObj.fit
  rw [ho]
  cases hr : checkReward c.mdp.nFeatures c.reward with
  | error err => exact ⟨rfl, fun x h => by cases h⟩
  | ok w =>
    dsimp only
    cases hl : c.link with
    | none =>
      dsimp only
      by_cases hi : obj.opts.interactive = true
      · rw [if_pos hi, if_pos hi]
        exact ⟨rfl, fun x h => by cases h⟩
      · rw [if_neg hi, if_neg hi]
        exact ⟨rfl, fun x h => by cases h⟩
    | some p =>
      obtain ⟨e, a⟩ := p
      dsimp only
      obtain ⟨get, hg, rfl⟩ := checkReward_of hr
      obtain ⟨p1, p2, -, p4, p5, p6⟩ := obj.prepare_keeps
      obtain ⟨q1, q2, -, q4, q5, q6⟩ := obj'.prepare_keeps
      have h := MctsObj.search_results (obj := obj.prepare) (obj' := obj'.prepare) (by rw [p1, q1, ho])
        (by rw [p2, q2, hn]) (by unfold MctsObj.results; rw [p4, p5, p6, q4, q5, q6]) e a c
        ⟨c.mdp.nFeatures, fun i => get [i]⟩ (by rw [p1, p2]; exact fun A hA => hrun e a get A hl hg hA)
      generalize obj'.prepare.search e a c ⟨c.mdp.nFeatures, fun i => get [i]⟩ = r' at h ⊢
      generalize obj.prepare.search e a c ⟨c.mdp.nFeatures, fun i => get [i]⟩ = r at h ⊢
      rcases r' with _ | ⟨x, o⟩ <;> rcases r with _ | ⟨y, o2⟩
      · exact ⟨rfl, fun x h => by cases h⟩
      · cases h
      · cases h
      · obtain ⟨h1, h2⟩ := Prod.mk.inj (Option.some.inj h)
        dsimp only at h2
        subst h2
        obtain ⟨g1, g2⟩ := Prod.mk.inj h1
        obtain ⟨g2, g3⟩ := Prod.mk.inj g2
        refine ⟨rfl, fun z hz => ?_⟩
        obtain ⟨rfl, rfl⟩ := Prod.mk.inj (Option.some.inj hz)
        exact ⟨y, rfl, g1.symm, g2.symm, g3.symm⟩

/-- What holds: with `reset_cache=True`, or without caching, the history of an object does not matter. After any calls
of `fit`, `reset` and `clear_cache`, failing ones included, `fit` ends as it would on a new object, and when it succeeds
the values, action values and tables are those of a new object.

Missing from the full claim: caches that are kept, for which it is false (`C96_refuted`); see also
`C96_kept_partial`. -/
theorem C96_partial (opts : MctsOpts K) (nIter : Nat) (resetCache : Bool) (h : resetCache = true ∨ opts.caching = false)
    (ops : List (MctsOp K δ)) (obj : MctsObj K) (hrun : (MctsObj.init opts nIter resetCache).run ops = some obj)
    (c : FitCall K δ) :
    (obj.fit c).map (·.2) = ((MctsObj.init opts nIter resetCache).fit c).map (·.2) ∧
    ∀ x, obj.fit c = some (x, .ok ()) → ∃ y, (MctsObj.init opts nIter resetCache).fit c = some (y, .ok ()) ∧
      y.st = x.st ∧ y.V = x.V ∧ y.N = x.N := by
  obtain ⟨h1, h2, h3⟩ := MctsObj.run_keeps ops hrun
  refine MctsObj.fit_results h1 h2 c fun e a get A _ _ hA => ?_
  rcases h with h | h
  · have hc : ∀ x : MctsObj K, x.resetCache = true → x.prepare.cache = none := by
      intro x hx
      unfold MctsObj.prepare
      rw [hx, if_pos rfl]
      rfl
    rw [hc obj (h3.trans h), hc _ h]
  · unfold runMcts
    cases c.plan with
    | none =>
      dsimp only
      by_cases h0 : (MctsObj.init opts nIter resetCache).nIter = 0
      · rw [if_pos h0, if_pos h0]; rfl
      · rw [if_neg h0, if_neg h0]
    | some plan =>
      exact runLoop_uncached h _ _ _ _ rfl

theorem extractInfo_rewards {l : List (AgentInfo K)} {A : SimAgents K} (h : extractInfo l = .ok A) (a : Nat) :
    A.rewards a = (l[a]?.map (·.reward.get)).getD fun _ => 0 := by
  unfold extractInfo at h
  split at h
  · cases h
  · split at h
    · cases h
    · split_ifs at h
      cases h
      rfl

/-- Cached entries are right in a given world. -/
def RightCache (o : MctsOpts K) (M : Trans K) (base : Nat → Nat → K) (nF : Nat) (tastes : List (Nat → K))
    (cache : QCache K) : Prop :=
  ∀ A : SimAgents K, (∀ b, A.rewards (b + 1) = (tastes[b]?).getD fun _ => 0) → CacheOk o M A nF base cache

theorem InWorld.facts {M : Trans K} {base : Nat → Nat → K} {nF : Nat} {rows : List Nat} {tastes : List (Nat → K)}
    {interactive : Bool} {c : FitCall K δ} (h : Spec.InWorld M base nF rows tastes interactive c) :
    ∃ e a get A, c.link = some (e, a) ∧ c.mdp.nFeatures = nF ∧ c.reward = .nd [nF] get ∧ c.mdp.trans = M ∧
      extractInfo (e.agentInfos a interactive ⟨nF, fun i => get [i]⟩) = .ok A ∧
      (∀ a, a ≠ 0 → ∀ f ∈ preferences A nF a, f ∉ A.featIdx) ∧
      (∀ a, (npWhere nF (A.consumesFeatures a)).length ≤ 1) ∧
      (∀ b, A.rewards (b + 1) = (tastes[b]?).getD fun _ => 0) ∧
      ∀ a, a ≠ 0 → ∀ f ∈ preferences A nF a, ∀ s, c.mdp.features.get f s = base f s := by
  obtain ⟨e, a, get, p, os, h1, h2, h3, h4, h5, h6, h7, h8, h9, h10, h11, h12, h13, h14⟩ := h
  obtain ⟨A, hA, hrows, havoid, hone⟩ := extract_harmless p os nF h9 h10 h11 (by rw [h7]; exact h12) h13 h14
  refine ⟨e, a, get, A, h1, h2, h3, h4, by rw [h6]; exact hA, havoid, hone, fun b => ?_, fun a ha f hf s => ?_⟩
  · rw [extractInfo_rewards hA, ← h8, List.getElem?_cons_succ, List.getElem?_map]
  · have := havoid a ha f hf
    rw [hrows, h7] at this
    exact h5 f (mem_preferences.1 hf).1 this s

theorem withCaching {o : MctsOpts K} (h : o.caching = true) : { o with caching := true } = o := by
  cases o
  simp only at h
  subst h
  rfl

theorem RightCache.empty (o : MctsOpts K) (M : Trans K) (base : Nat → Nat → K) (nF : Nat) (tastes : List (Nat → K)) :
    RightCache o M base nF tastes fun _ _ => none := fun _ _ a key q _ h => by cases h

theorem RightCache.of_ok {o : MctsOpts K} {M : Trans K} {base base' : Nat → Nat → K} {nF : Nat}
    {tastes : List (Nat → K)} {cache : QCache K} {A : SimAgents K}
    (hr : ∀ b, A.rewards (b + 1) = (tastes[b]?).getD fun _ => 0)
    (hb : ∀ a, a ≠ 0 → ∀ f ∈ preferences A nF a, ∀ s, base' f s = base f s)
    (h : CacheOk o M A nF base' cache) : RightCache o M base nF tastes cache := by
  intro A' hA'
  refine h.transfer (fun a ha => ?_) fun a ha f hf s => (hb a ha f hf s).symm
  obtain ⟨b, rfl⟩ := Nat.exists_eq_succ_of_ne_zero ha
  exact (hA' b).trans (hr b).symm

/-- A successful fit in the world keeps a right cache right. -/
theorem MctsObj.fit_rightCache {obj obj' : MctsObj K} (hc : obj.opts.caching = true) {M : Trans K}
    {base : Nat → Nat → K} {nF : Nat} {rows : List Nat} {tastes : List (Nat → K)} {c : FitCall K δ}
    (hw : Spec.InWorld M base nF rows tastes obj.opts.interactive c)
    (hcache : RightCache obj.opts M base nF tastes (obj.prepare.cache.getD fun _ _ => none))
    (h : obj.fit c = some (obj', .ok ())) :
    RightCache obj.opts M base nF tastes (obj'.prepare.cache.getD fun _ _ => none) := by
  obtain ⟨e, a, get, A, h1, h2, h3, h4, h5, h6, h7, h8, h9⟩ := InWorld.facts hw
  obtain ⟨p1, p2, p3, -⟩ := obj.prepare_keeps
  have hk := MctsObj.fit_keeps h
  unfold MctsObj.fit at h
  rw [h2, h3, checkReward_ok, h1] at h
  dsimp only at h
  unfold MctsObj.search at h
  rw [p1, h5] at h
  dsimp only at h
  rw [p2, h4] at h
  cases hr : (runMcts obj.opts M A nF obj.nIter c.mdp.features.get c.plan (obj.prepare.cache.getD fun _ _ => none)
      c.draws c.fuel).2.2 with
  | none => rw [hr] at h; cases h
  | some r =>
    rw [hr] at h
    cases r with
    | error err => cases h
    | ok s =>
      dsimp only at h
      have hacc := (MctsObj.accept_keeps ⟨obj.opts, obj.nIter, obj.prepare.resetCache, obj.prepare.st, some s.V,
        some s.N, some s.cache⟩ c.mdp c.position s).2.2.2
      rw [Option.some.inj h] at hacc
      dsimp only at hacc
      have hs : RightCache obj.opts M base nF tastes s.cache := by
        refine .of_ok h8 h9 ?_
        have hok : CacheOk obj.opts M A nF c.mdp.features.get (obj.prepare.cache.getD fun _ _ => none) :=
          (hcache A h8).transfer (fun _ _ => rfl) h9
        unfold runMcts at hr
        cases hp : c.plan with
        | none =>
          rw [hp] at hr
          dsimp only at hr
          split_ifs at hr
          · cases hr
            exact hok
          · cases hr
        | some plan =>
          rw [hp] at hr
          dsimp only at hr
          have := runLoop_cacheOk (o := obj.opts) (M := M) (plan := plan) (draws := c.draws) (fuel := c.fuel)
            (nodes := A.nodes) (base := c.mdp.features.get) h6 h7 obj.nIter 0 (Search.fresh _) s hok
          rw [withCaching hc] at this
          exact this hr
      unfold MctsObj.prepare
      split
      · exact RightCache.empty _ _ _ _ _
      · show RightCache _ _ _ _ _ (obj'.cache.getD fun _ _ => none)
        rw [hacc]
        exact hs

/-- What also holds: a kept cache is harmless as long as the world stays the same. After successful fits, each with the
same transitions, the same features outside the agents' rows and the same tastes of the opponents, under the conditions
of `C62_partial`, another fit in this world gives what a new object gives. (Agents may have moved in between.) -/
theorem C96_kept_partial (opts : MctsOpts K) (nIter : Nat) (resetCache : Bool) (M : Trans K) (base : Nat → Nat → K)
    (nF : Nat) (rows : List Nat) (tastes : List (Nat → K)) (cs : List (FitCall K δ)) (obj : MctsObj K)
    (hfit : Spec.AllFit (MctsObj.init opts nIter resetCache) cs obj)
    (hworld : ∀ c ∈ cs, Spec.InWorld M base nF rows tastes opts.interactive c) (c : FitCall K δ)
    (hc : Spec.InWorld M base nF rows tastes opts.interactive c) :
    (obj.fit c).map (·.2) = ((MctsObj.init opts nIter resetCache).fit c).map (·.2) ∧
    ∀ x, obj.fit c = some (x, .ok ()) → ∃ y, (MctsObj.init opts nIter resetCache).fit c = some (y, .ok ()) ∧
      y.st = x.st ∧ y.V = x.V ∧ y.N = x.N := by
  have hinit : ∀ x : MctsObj K, x.cache = none → x.prepare.cache = none := by
    intro x hx
    unfold MctsObj.prepare
    split
    · rfl
    · exact hx
  have key : ∀ (cs : List (FitCall K δ)) (start obj : MctsObj K), start.opts = opts → start.nIter = nIter →
      (opts.caching = true → RightCache opts M base nF tastes (start.prepare.cache.getD fun _ _ => none)) →
      Spec.AllFit start cs obj → (∀ c ∈ cs, Spec.InWorld M base nF rows tastes opts.interactive c) →
      obj.opts = opts ∧ obj.nIter = nIter ∧
        (opts.caching = true → RightCache opts M base nF tastes (obj.prepare.cache.getD fun _ _ => none)) := by
    intro cs
    induction cs with
    | nil => intro start obj h1 h2 h3 h4 _; cases h4; exact ⟨h1, h2, h3⟩
    | cons c cs ih =>
      intro start obj h1 h2 h3 ⟨y, hy, h4⟩ h5
      obtain ⟨k1, k2, -⟩ := MctsObj.fit_keeps hy
      refine ih y obj (k1.trans h1) (k2.trans h2) (fun hcach => ?_) h4 fun c hc => h5 c (List.mem_cons_of_mem _ hc)
      have := MctsObj.fit_rightCache (obj := start) (obj' := y) (by rw [h1]; exact hcach) (c := c)
        (by rw [h1]; exact h5 c (by simp)) (by rw [h1]; exact h3 hcach) hy
      rw [h1] at this
      exact this
  obtain ⟨k1, k2, k3⟩ := key cs _ obj rfl rfl (fun _ => by
    rw [hinit _ rfl]; exact RightCache.empty _ _ _ _ _) hfit hworld
  refine MctsObj.fit_results k1 k2 c fun e a get A hl hr hA => ?_
  obtain ⟨e', a', get', A', h1, h2, h3, h4, h5, h6, h7, h8, h9⟩ := InWorld.facts hc
  rw [h1] at hl
  cases hl
  rw [h3, h2] at hr
  have hg : (fun i => get' [i]) = fun i => get [i] := by
    have := hr
    simp only [PyArr.nd.injEq, true_and] at this
    rw [this]
  rw [h2, ← hg] at hA
  have hAA : A' = A := by
    have : Except.ok A' = (Except.ok A : Py (SimAgents K)) := h5.symm.trans hA
    exact Except.ok.inj this
  subst hAA
  rw [h2, h4, hinit (MctsObj.init opts nIter resetCache) rfl]
  unfold runMcts
  cases c.plan with
  | none =>
    dsimp only
    by_cases h0 : (MctsObj.init opts nIter resetCache).nIter = 0
    · rw [if_pos h0, if_pos h0]; rfl
    · rw [if_neg h0, if_neg h0]
  | some plan =>
    dsimp only [Option.getD]
    cases hcach : opts.caching with
    | false => exact runLoop_uncached hcach _ _ _ _ rfl
    | true =>
      have e1 := runLoop_cached (o := opts) (M := M) (plan := plan) (draws := c.draws) (fuel := c.fuel)
        (nodes := A'.nodes) (base := c.mdp.features.get) h6 h7 nIter 0
        (Search.fresh (obj.prepare.cache.getD fun _ _ => none)) (Search.fresh fun _ _ => none) rfl
        ((k3 hcach A' h8).transfer (fun _ _ => rfl) h9)
      have e2 := runLoop_cached (o := opts) (M := M) (plan := plan) (draws := c.draws) (fuel := c.fuel)
        (nodes := A'.nodes) (base := c.mdp.features.get) h6 h7 nIter 0
        (Search.fresh fun _ _ => none) (Search.fresh fun _ _ => none) rfl
        (fun a key q _ h => by cases h)
      have := e1.trans e2.symm
      rw [withCaching hcach] at this
      exact this

/-- A corridor of four states; the first feature is at its last state, the second at its first. -/
def exWorld : Py (Mdp Rat) :=
  Mdp.initGrid .square 1 4 false ⟨2, 4, fun f s => if (f = 0 ∧ s = 3) ∨ (f = 1 ∧ s = 0) then 1 else 0⟩ none

/-- A hen at the end and a fox in the middle. The hen plans; the fox eats the hen (row 2) and likes the first feature
more than the second. -/
def exPair : List (AgentSpec Rat Nat) :=
  [⟨"hen", 1, maxSelector, .fresh, some 3, .of1 ⟨4, fun _ => 0⟩, []⟩,
   ⟨"fox", 1, maxSelector, .fresh, some 1, .of1 ⟨4, fun f => if f = 0 then 8 else if f = 1 then 1 else 0⟩, [2]⟩]

/-- A search by the agent at the head of the list, with two turns planned. -/
def exCall (e : Env Rat Nat) : FitCall Rat Nat :=
  ⟨e.agents.head?.map fun a => (e, a), e.mdp, .nd [4] fun _ => 0, 3, some [[1, 1], [1, 1]], fun _ _ => ⟨0, 0⟩, 9,
    fun _ _ => none⟩

/-- The environment after the first feature was consumed at the last state. -/
def exEaten (e : Env Rat Nat) : Env Rat Nat := { e with mdp := (e.mdp.consumeFeatures [0] 3).1 }

/-- The action value of going down from the end, if the fit succeeded. -/
def exDown (r : Option (MctsObj Rat × Py Unit)) : Option (Ext Rat) := match r with
  | some (obj, .ok ()) => obj.st.qValues.map fun q => q.get 3 2
  | _ => none

theorem exWorldStart (p : Env Rat Nat → Bool)
    (h : (match exWorld with
      | .ok m => match (Env.init m exPair).2 with
        | .ok e => p e
        | .error _ => false
      | .error _ => false) = true) :
    ∃ m m' e, Mdp.GridReach .square 1 4 false m ∧ Env.init m exPair = (m', .ok e) ∧ p e = true := by
  cases hm : exWorld with
  | error e => rw [hm] at h; cases h
  | ok m =>
    rw [hm] at h
    dsimp only at h
    rcases hi : Env.init m exPair with ⟨m', err | e⟩
    · rw [hi] at h; cases h
    · rw [hi] at h
      exact ⟨m, m', e, .init hm, hi, h⟩

/-- The claim is false with `caching=True` and `reset_cache=False`. A search is run, then the feature that attracts the
fox to the last state is consumed. In a new object the hen knows that the fox now goes the other way, and going down
is worth 0; in the old one the fox still comes up, and the hen expects to be caught: -50 / 2. -/
theorem C96_refuted : ∃ (m m' : Mdp Rat) (e : Env Rat Nat), Mdp.GridReach .square 1 4 false m ∧
    Env.init m exPair = (m', .ok e) ∧
    ∃ obj, (MctsObj.init { exOpts with caching := true } 1 false).fit (exCall e) = some (obj, .ok ()) ∧
      exDown (obj.fit (exCall (exEaten e))) = some (.fin (-25)) ∧
      exDown ((MctsObj.init { exOpts with caching := true } 1 false).fit (exCall (exEaten e))) = some (.fin 0) := by
  obtain ⟨m, m', e, h1, h2, h3⟩ := exWorldStart (fun e =>
    match (MctsObj.init { exOpts with caching := true } 1 false).fit (exCall e) with
    | some (obj, .ok ()) => decide (exDown (obj.fit (exCall (exEaten e))) = some (.fin (-25)) ∧
        exDown ((MctsObj.init { exOpts with caching := true } 1 false).fit (exCall (exEaten e))) = some (.fin 0))
    | _ => false) (by decide +kernel)
  refine ⟨m, m', e, h1, h2, ?_⟩
  rcases hf : (MctsObj.init { exOpts with caching := true } 1 false).fit (exCall e) with _ | ⟨obj, err | ⟨⟩⟩
  · rw [hf] at h3; cases h3
  · rw [hf] at h3; cases h3
  · rw [hf] at h3
    exact ⟨obj, rfl, of_decide_eq_true h3⟩

/-- An object that was fitted, and then fails, as in `C94_refuted`. -/
example : ∃ (m m' : Mdp Rat) (e : Env Rat Nat), Mdp.GridReach .square 1 4 false m ∧
    Env.init m exPair = (m', .ok e) ∧ ∃ obj v q, (MctsObj.init exOpts 1 true).fit (exCall e) = some (obj, .ok ()) ∧
      obj.st = ⟨true, some v, some q⟩ ∧ 0 < obj.nIter ∧ (exCall e).link ≠ none ∧
      (exCall e).reward = .nd [(exCall e).mdp.nFeatures] (fun _ => 0) := by
  obtain ⟨m, m', e, h1, h2, h3⟩ := exWorldStart (fun e =>
    decide (e.mdp.nFeatures = 4) && decide (0 < e.agents.length) &&
    match (MctsObj.init exOpts 1 true).fit (exCall e) with
    | some (_, .ok ()) => true
    | _ => false) (by decide +kernel)
  simp only [Bool.and_eq_true, decide_eq_true_eq] at h3
  obtain ⟨⟨h3, h4⟩, h5⟩ := h3
  rcases hf : (MctsObj.init exOpts 1 true).fit (exCall e) with _ | ⟨obj, err | ⟨⟩⟩
  · rw [hf] at h5; cases h5
  · rw [hf] at h5; cases h5
  · obtain ⟨k1, v, q, k2, k3, -⟩ := C94_success _ _ _ hf
    refine ⟨m, m', e, h1, h2, obj, v, q, hf, ?_, ?_, ?_, ?_⟩
    · rcases hst : obj.st with ⟨x, y, z⟩
      rw [hst] at k1 k2 k3
      dsimp only at k1 k2 k3
      rw [k1, k2, k3]
    · rw [(MctsObj.fit_keeps hf).2.1]; decide
    · unfold exCall
      cases hag : e.agents with
      | nil => rw [hag] at h4; cases h4
      | cons a l => simp
    · show PyArr.nd [4] _ = PyArr.nd [e.mdp.nFeatures] _
      rw [h3]

/-- A first fit that fails, as in `C94_new`: no plan was made. -/
example : ∃ (m m' : Mdp Rat) (e : Env Rat Nat), Mdp.GridReach .square 1 4 false m ∧ Env.init m exPair = (m', .ok e) ∧
    ∃ obj err, (MctsObj.init exOpts 1 true).fit { exCall e with plan := none } = some (obj, .error err) ∧
      (exCall e).position < (exCall e).mdp.nStates := by
  obtain ⟨m, m', e, h1, h2, h3⟩ := exWorldStart (fun e =>
    decide (e.mdp.nStates = 4) && match (MctsObj.init exOpts 1 true).fit { exCall e with plan := none } with
    | some (_, .error _) => true
    | _ => false) (by decide +kernel)
  simp only [Bool.and_eq_true, decide_eq_true_eq] at h3
  obtain ⟨h3, h4⟩ := h3
  rcases hf : (MctsObj.init exOpts 1 true).fit { exCall e with plan := none } with _ | ⟨obj, err | ⟨⟩⟩
  · rw [hf] at h4; cases h4
  · refine ⟨m, m', e, h1, h2, obj, err, hf, ?_⟩
    show (3 : Int) < e.mdp.nStates
    omega
  · rw [hf] at h4; cases h4

/-- Hen and fox meet the conditions of `C96_kept_partial`, with the features as they are. -/
example : ∃ (m m' : Mdp Rat) (e : Env Rat Nat) (taste : Nat → Rat), Mdp.GridReach .square 1 4 false m ∧
    Env.init m exPair = (m', .ok e) ∧ taste 0 = 8 ∧
    Spec.InWorld e.mdp.trans e.mdp.features.get 4 [2, 3] [taste] true (exCall e) := by
  obtain ⟨m, m', e, h1, h2, h3⟩ := exWorldStart (fun e => match e.agents with
    | [a, b] => decide (e.mdp.nFeatures = 4 ∧ a.name ≠ b.name ∧ a.featIdx = 2 ∧ b.featIdx = 3 ∧ a.consumes = [] ∧
        b.consumes = [2] ∧ b.reward.d0 = 4 ∧ b.reward.get 0 = 8 ∧ b.reward.get 2 = 0 ∧ b.reward.get 3 = 0)
    | _ => false) (by decide +kernel)
  rcases hag : e.agents with _ | ⟨a, _ | ⟨b, _ | ⟨c, l⟩⟩⟩
  · rw [hag] at h3; cases h3
  · rw [hag] at h3; cases h3
  · rw [hag] at h3
    obtain ⟨k1, k2, k3, k4, k5, k6, k7, k8, k9, k10⟩ := of_decide_eq_true h3
    refine ⟨m, m', e, b.reward.get, h1, h2, k8, e, a, fun _ => 0, ⟨a.position, a.nMoves, a.consumes, ⟨4, fun _ => 0⟩,
      a.featIdx⟩, [⟨b.position, b.nMoves, b.consumes, b.reward, b.featIdx⟩], ?_, k1, rfl, rfl, fun _ _ _ _ => rfl, ?_,
      ?_, rfl, ?_, ?_, ?_, by decide, ?_, ?_⟩
    · unfold exCall; rw [hag]; rfl
    · unfold Env.agentInfos
      rw [hag, if_pos rfl]
      simp [k2.symm]
    · simp [k3, k4]
    · simp [k7]
    · simp [k3, k4]
    · simp [k5, k6, pyIdx]
    · simp [k3, k4, k9, k10]
    · simp [k5, k6]
  · rw [hag] at h3; cases h3

end MaMDP
