import Verif.Spec.Replay
import Verif.Lemmas.EnvStart
import Verif.Lemmas.EnvIO

/-! # Environments that differ only in counters and in plans out of date -/

set_option linter.unusedSectionVars false

namespace MaMDP

variable {K δ : Type} [Field K] [LinearOrder K] [IsStrictOrderedRing K]
variable {kind : GridKind} {W H : Nat} {selfT : Bool}

namespace Agent

theorem getPolicy_counter (a : Agent K δ) (c : Nat → Nat) (d : Nat → δ) :
    ({ a with consumed := c } : Agent K δ).getPolicy d =
      ({ (a.getPolicy d).1 with consumed := c }, (a.getPolicy d).2) := by
  unfold getPolicy
  cases a.alg.qValues with
  | none => rfl
  | some q =>
    simp only
    cases a.selector.piP q with
    | error e => rfl
    | ok P =>
      simp only
      cases a.selector.pi q d with
      | error e => rfl
      | ok p => rfl

theorem setPosition_counter (a : Agent K δ) (c : Nat → Nat) (al : AlgState K) (m : Mdp K) (p : Int) :
    ({ a with consumed := c, alg := al } : Agent K δ).setPosition m p =
      ((a.setPosition m p).1, { (a.setPosition m p).2.1 with consumed := c, alg := al }, (a.setPosition m p).2.2) := by
  unfold setPosition
  by_cases hp : (m.nStates : Int) ≤ p
  · rw [if_pos hp, if_pos hp]
  · rw [if_neg hp, if_neg hp]
    rcases h : m.updateAgentFeature a.idx p with ⟨x, _ | _⟩ <;> rfl

theorem setPosition_kept (a : Agent K δ) (m : Mdp K) (p : Int) :
    (a.setPosition m p).2.1.consumed = a.consumed ∧ (a.setPosition m p).2.1.alg = a.alg ∧
    (a.setPosition m p).2.1.name = a.name := by
  unfold setPosition
  by_cases hp : (m.nStates : Int) ≤ p
  · rw [if_pos hp]; exact ⟨rfl, rfl, rfl⟩
  · rw [if_neg hp]
    rcases h : m.updateAgentFeature a.idx p with ⟨x, _ | _⟩ <;> exact ⟨rfl, rfl, rfl⟩

theorem step_counter (a : Agent K δ) (c : Nat → Nat) (m : Mdp K) (d : Nat → δ) :
    ({ a with consumed := c } : Agent K δ).step m d =
      ((a.step m d).1, { (a.step m d).2.1 with consumed := c }, (a.step m d).2.2) ∧
    (a.step m d).2.1.consumed = a.consumed ∧ (a.step m d).2.1.alg = a.alg := by
  have hsame := getPolicy_same a d
  unfold step
  by_cases hf : a.alg.fitComplete = false
  · rw [if_pos hf, if_pos hf]; exact ⟨rfl, rfl, rfl⟩
  rw [if_neg hf, if_neg hf, getPolicy_counter]
  rcases hg : a.getPolicy d with ⟨b, _ | _⟩
  · rw [hg] at hsame; exact ⟨rfl, hsame.1.consumed, hsame.2.2⟩
  rw [hg] at hsame
  have hc : b.consumed = a.consumed := hsame.1.consumed
  have ha : b.alg = a.alg := hsame.2.2
  have e3 : ∀ t, ({ b with consumed := c } : Agent K δ).setPosition m t = _ := fun t => setPosition_counter b c b.alg m t
  simp only
  generalize hb2 : ({ b with consumed := c } : Agent K δ) = b2
  have hb2 := hb2.symm
  change b2 = { b with consumed := c } at hb2
  simp only [← hb2] at e3
  cases b.pi with
  | none => exact ⟨by rw [hb2], hc, ha⟩
  | some pi =>
    simp only
    cases pyIdx pi.d0 b.position with
    | none => exact ⟨by rw [hb2], hc, ha⟩
    | some s =>
      simp only
      by_cases hs : pi.get s < 0
      · rw [if_pos hs, if_pos hs]; exact ⟨by rw [hb2], hc, ha⟩
      rw [if_neg hs, if_neg hs]
      cases m.getNextState b.position (pi.get s) with
      | error e => exact ⟨by rw [hb2], hc, ha⟩
      | ok t =>
        simp only
        have hk := setPosition_kept b m t
        rw [e3]
        rcases hp : b.setPosition m t with ⟨x, b1, _ | _⟩
        · rw [hp] at hk
          obtain ⟨k1, k2, -⟩ := hk
          simp only at k1 k2 ⊢
          exact ⟨by rw [← k2], k1.trans hc, k2.trans ha⟩
        · rw [hp] at hk
          obtain ⟨k1, k2, -⟩ := hk
          simp only at k1 k2 ⊢
          rcases hu : x.updateAgentFeature b1.idx b1.position with ⟨y, _ | _⟩ <;>
            exact ⟨by simp only [← k2], k1.trans hc, k2.trans ha⟩

theorem stepProba_counter (a : Agent K δ) (c : Nat → Nat) (m : Mdp K) (p : Option (Arr1 K)) (d : Nat → δ) :
    ({ a with consumed := c } : Agent K δ).stepProba m p d =
      ({ (a.stepProba m p d).1 with consumed := c }, (a.stepProba m p d).2) := by
  unfold stepProba
  have hst : ({ a with consumed := c } : Agent K δ).probaStart m p = a.probaStart m p := rfl
  rw [hst]
  cases a.probaStart m p with
  | error e => rfl
  | ok q =>
    simp only
    by_cases h1 : q.d0 ≠ m.nStates
    · rw [if_pos h1, if_pos h1]
    rw [if_neg h1, if_neg h1]
    by_cases h2 : a.alg.fitComplete = false
    · rw [if_pos h2, if_pos h2]
    rw [if_neg h2, if_neg h2, getPolicy_counter]
    rcases a.getPolicy d with ⟨b, _ | _⟩
    · rfl
    simp only
    generalize hb2 : ({ b with consumed := c } : Agent K δ) = b2
    have hb2 := hb2.symm
    change b2 = { b with consumed := c } at hb2
    cases b.piP with
    | none => rw [hb2]
    | some P =>
      simp only
      cases probaLoop m P (normalise q) ((npWhere m.nStates fun s => Ext.isPos (normalise q s)).flatMap fun s =>
            (List.range P.d1).map fun x => (s, x)) (fun _ => .fin 0) with
      | error e => rw [hb2]
      | ok out => rw [hb2]

/-- A fit whose algorithm succeeds forgets what the algorithm knew before; one whose algorithm raises keeps it. -/
theorem fit_counter (a : Agent K δ) (c : Nat → Nat) (al : AlgState K) (m : Mdp K) (o : FitOut K) (d : Nat → δ) :
    (({ a with consumed := c, alg := al } : Agent K δ).fit m o d =
      ({ (a.fit m o d).1 with consumed := c }, (a.fit m o d).2)) ∨
    (({ a with consumed := c, alg := al } : Agent K δ).fit m o d =
      ({ (a.fit m o d).1 with consumed := c, alg := al }, (a.fit m o d).2) ∧
      (a.fit m o d).1 = a ∧ ∃ e, (a.fit m o d).2 = .error e) := by
  unfold fit algFit
  cases checkReward m.nFeatures (.of1 a.reward) with
  | error e => exact .inr ⟨rfl, rfl, e, rfl⟩
  | ok w =>
    simp only
    rcases o w with e | ⟨v, q⟩
    · exact .inr ⟨rfl, rfl, e, rfl⟩
    simp only
    rcases checkOutput m.nStates m.nActions v q with e | ⟨v, q⟩
    · exact .inr ⟨rfl, rfl, e, rfl⟩
    · exact .inl (getPolicy_counter { a with alg := ⟨true, some v, some q⟩ } c d)

theorem consume_counter (a : Agent K δ) (k : Nat → Nat) (m : Mdp K) :
    ({ a with consumed := fun f => k f + a.consumed f } : Agent K δ).consume m =
      ((a.consume m).1, { (a.consume m).2.1 with consumed := fun f => k f + (a.consume m).2.1.consumed f },
        (a.consume m).2.2) ∧ (a.consume m).2.1.alg = a.alg := by
  unfold consume
  by_cases h : a.consumes = []
  · rw [if_pos h, if_pos h]; exact ⟨rfl, rfl⟩
  rw [if_neg h, if_neg h]
  simp only
  rcases m.consumeFeatures a.consumes a.position with ⟨x, _ | c⟩
  · exact ⟨rfl, rfl⟩
  · refine ⟨?_, rfl⟩
    simp only [Nat.add_assoc]

/-- The agent with other counters, and with a plan of another time if `G` has one for it. -/
def ghost (k : String → Nat → Nat) (G : String → Option (AlgState K)) (a : Agent K δ) : Agent K δ :=
  { a with consumed := fun f => k a.name f + a.consumed f, alg := (G a.name).getD a.alg }

end Agent

namespace Env

variable {N : Nat} {k : String → Nat → Nat} {G : String → Option (AlgState K)} {e : Env K δ}

/-- The environment with other counters, and with plans of another time. -/
def ghost (N : Nat) (k : String → Nat → Nat) (G : String → Option (AlgState K)) (e : Env K δ) : Env K δ :=
  { e with agents := e.agents.map (Agent.ghost k G), nSteps := N + e.nSteps }

/-- Agent `n` has been planned for. -/
def freshen (G : String → Option (AlgState K)) (n : String) : String → Option (AlgState K) :=
  fun n' => if n' = n then none else G n'

theorem agent?_ghost (n : String) : (e.ghost N k G).agent? n = (e.agent? n).map (Agent.ghost k G) := by
  unfold agent? ghost
  simp only [List.find?_map]
  rfl

theorem lookup_ghost (n : String) : (e.ghost N k G).lookup n = (e.lookup n).map (Agent.ghost k G) := by
  unfold lookup
  rw [agent?_ghost]
  have hn : (e.ghost N k G).agentNames = e.agentNames := rfl
  rw [hn]
  by_cases h : n ∉ e.agentNames
  · rw [if_pos h, if_pos h]; rfl
  · rw [if_neg h, if_neg h]
    cases e.agent? n <;> rfl

theorem put_ghost {G' : String → Option (AlgState K)} (m : Mdp K) (a : Agent K δ)
    (hG : ∀ n, n ≠ a.name → G' n = G n) :
    (e.ghost N k G).put m (Agent.ghost k G' a) = (e.put m a).ghost N k G' := by
  unfold put ghost
  simp only [List.map_map, Env.mk.injEq, true_and, and_true]
  apply List.map_congr_left
  intro b _
  simp only [Function.comp]
  have h1 : (Agent.ghost k G b).name = b.name := rfl
  have h2 : (Agent.ghost k G' a).name = a.name := rfl
  rw [h1, h2]
  by_cases h : b.name = a.name
  · rw [if_pos h, if_pos h]
  · rw [if_neg h, if_neg h]
    unfold Agent.ghost
    rw [hG _ h]

theorem ghost_of_none {a : Agent K δ} (h : G a.name = none) :
    Agent.ghost k G a = { a with consumed := fun f => k a.name f + a.consumed f } := by
  unfold Agent.ghost
  rw [h]; rfl

theorem fit_ghost (n : String) (o : FitOut K) (d : Nat → δ) :
    ((e.ghost N k G).fit n o d).2 = (e.fit n o d).2 ∧ ∃ G', (G' = freshen G n ∨ G' = G) ∧
    ((e.fit n o d).2 = .ok () → G' = freshen G n) ∧
    ((e.ghost N k G).fit n o d).1 = (e.fit n o d).1.ghost N k G' := by
  unfold fit
  rw [lookup_ghost]
  cases hl : e.lookup n with
  | error err => exact ⟨rfl, G, .inr rfl, fun h => (by cases h), rfl⟩
  | ok a =>
    have hn := lookup_name hl
    have hs := Agent.fit_same a e.mdp o d
    have hm : (e.ghost N k G).mdp = e.mdp := rfl
    simp only [Except.map, hm]
    rcases Agent.fit_counter a (fun f => k a.name f + a.consumed f) ((G a.name).getD a.alg) e.mdp o d with h | ⟨h, h1, er, h2⟩
    · have h' : (Agent.ghost k G a).fit e.mdp o d = _ := h
      rw [h']
      refine ⟨rfl, freshen G n, .inl rfl, fun _ => rfl, ?_⟩
      simp only
      rw [← put_ghost (N := N) (k := k) (G := G) (G' := freshen G n)]
      · congr 1
        rw [ghost_of_none (by unfold freshen; rw [hs.1.name, if_pos hn]), hs.1.name, hs.1.consumed]
      · intro n' hn'
        unfold freshen
        rw [if_neg (fun h => hn' (by rw [hs.1.name, hn]; exact h))]
    · have h' : (Agent.ghost k G a).fit e.mdp o d = _ := h
      rw [h']
      refine ⟨rfl, G, .inr rfl, fun h => ?_, ?_⟩
      · rw [h2] at h; cases h
      · simp only
        rw [← put_ghost (N := N) (k := k) (G := G) (G' := G) _ _ (fun _ _ => rfl), h1]
        rfl

theorem step_ghost {n : String} (hG : G n = none) (d : Nat → δ) :
    (e.ghost N k G).step n d = ((e.step n d).1.ghost N k G, (e.step n d).2) := by
  unfold step
  rw [lookup_ghost]
  cases hl : e.lookup n with
  | error err => rfl
  | ok a =>
    have hn := lookup_name hl
    have hm : (e.ghost N k G).mdp = e.mdp := rfl
    simp only [Except.map, hm]
    rw [ghost_of_none (by rw [hn]; exact hG)]
    obtain ⟨h1, h2, h3⟩ := Agent.step_counter a (fun f => k a.name f + a.consumed f) e.mdp d
    have h4 := step_name a e.mdp d
    rw [h1]
    rcases hs : a.step e.mdp d with ⟨x, b, _ | _⟩
    · rw [hs] at h2 h4
      simp only at h2 h4 ⊢
      rw [← put_ghost (N := N) (k := k) (G := G) (G' := G) _ _ (fun _ _ => rfl),
        ghost_of_none (by rw [h4, hn]; exact hG), h4, h2]
    · rw [hs] at h2 h4
      simp only at h2 h4 ⊢
      have h5 := Agent.consume_counter b (k a.name) x
      rw [h2] at h5
      rw [h5.1]
      have h6 := consume_name b x
      rcases hc : b.consume x with ⟨y, b', _ | _⟩
      · rw [hc] at h6
        simp only at h6 ⊢
        rw [← put_ghost (N := N) (k := k) (G := G) (G' := G) _ _ (fun _ _ => rfl),
          ghost_of_none (by rw [h6, h4, hn]; exact hG), h6, h4]
      · rw [hc] at h6
        simp only at h6 ⊢
        have h7 := put_ghost (e := e) (N := N) (k := k) (G := G) (G' := G) y b' (fun _ _ => rfl)
        rw [ghost_of_none (by rw [h6, h4, hn]; exact hG)] at h7
        have hkn : k a.name = k b'.name := by rw [h6, h4]
        rw [hkn, h7]
        rfl

theorem stepProba_ghost {n : String} (hG : G n = none) (p : Option (Arr1 K)) (d : Nat → δ) :
    (e.ghost N k G).stepProba n p d = ((e.stepProba n p d).1.ghost N k G, (e.stepProba n p d).2) := by
  unfold stepProba
  rw [lookup_ghost]
  cases hl : e.lookup n with
  | error err => rfl
  | ok a =>
    have hn := lookup_name hl
    have hm : (e.ghost N k G).mdp = e.mdp := rfl
    simp only [Except.map, hm]
    rw [ghost_of_none (by rw [hn]; exact hG), Agent.stepProba_counter]
    have h0 := Agent.stepProba_same a e.mdp p d
    rcases hs : a.stepProba e.mdp p d with ⟨b, _ | x⟩
    all_goals
      rw [hs] at h0
      simp only at h0 ⊢
      have h7 := put_ghost (e := e) (N := N) (k := k) (G := G) (G' := G) e.mdp b (fun _ _ => rfl)
      rw [ghost_of_none (by rw [h0.1.name, hn]; exact hG)] at h7
      have hkn : (fun f => k a.name f + a.consumed f) = fun f => k b.name f + b.consumed f := by
        rw [h0.1.name, h0.1.consumed]
      rw [hkn, h7]
      try rfl

theorem setAgentPosition_ghost (n : String) (p : Int) :
    (e.ghost N k G).setAgentPosition n p = ((e.setAgentPosition n p).1.ghost N k G, (e.setAgentPosition n p).2) := by
  unfold setAgentPosition
  rw [lookup_ghost]
  cases hl : e.lookup n with
  | error err => rfl
  | ok a =>
    have hm : (e.ghost N k G).mdp = e.mdp := rfl
    simp only [Except.map, hm]
    obtain ⟨h1, h2, h3⟩ := Agent.setPosition_kept a e.mdp p
    have h4 : (Agent.ghost k G a).setPosition e.mdp p = _ := Agent.setPosition_counter a _ _ e.mdp p
    rw [h4]
    simp only
    rw [← put_ghost (N := N) (k := k) (G := G) (G' := G) _ _ (fun _ _ => rfl)]
    unfold Agent.ghost
    rw [h1, h2, h3]

theorem setAlgorithm_ghost (n : String) (st : AlgState K) :
    ((e.ghost N k G).setAlgorithm n st).2 = (e.setAlgorithm n st).2 ∧
    ∃ G', (G' = freshen G n ∨ G' = G) ∧ ((e.ghost N k G).setAlgorithm n st).1 = (e.setAlgorithm n st).1.ghost N k G' := by
  unfold setAlgorithm
  rw [agent?_ghost]
  cases hl : e.agent? n with
  | none => exact ⟨rfl, G, .inr rfl, rfl⟩
  | some a =>
    have hn : a.name = n := by
      unfold agent? at hl
      have := List.find?_some hl
      simpa using this
    refine ⟨rfl, freshen G n, .inl rfl, ?_⟩
    have hm : (e.ghost N k G).mdp = e.mdp := rfl
    simp only [Option.map, hm]
    rw [← put_ghost (N := N) (k := k) (G := G) (G' := freshen G n)]
    · congr 1
      have hf : freshen G n a.name = none := by unfold freshen; rw [if_pos hn]
      unfold Agent.ghost
      simp only [hf, Option.getD_none]
    · intro n' hn'
      unfold freshen
      rw [if_neg (fun h => hn' (h.trans hn.symm))]

theorem resetLoop_ghost : ∀ (as : List (Agent K δ)) (m : Mdp K),
    resetLoop (as.map (Agent.ghost k G)) m =
      ((resetLoop as m).1, (resetLoop as m).2.1.map (Agent.ghost k G), (resetLoop as m).2.2) := by
  intro as
  induction as with
  | nil => intro m; rfl
  | cons a as ih =>
    intro m
    simp only [List.map_cons]
    unfold resetLoop Agent.reset
    obtain ⟨h1, h2, h3⟩ := Agent.setPosition_kept a m a.start
    have h4 : (Agent.ghost k G a).setPosition m a.start = _ := Agent.setPosition_counter a _ _ m a.start
    have h5 : (Agent.ghost k G a).start = a.start := rfl
    rw [h5, h4]
    rcases hs : a.setPosition m a.start with ⟨x, b, _ | _⟩
    · rw [hs] at h1 h2 h3
      simp only at h1 h2 h3 ⊢
      simp only [List.map_cons, Agent.ghost, h1, h2, h3]
    · rw [hs] at h1 h2 h3
      simp only at h1 h2 h3 ⊢
      rw [ih]
      simp only [List.map_cons, Agent.ghost, h1, h2, h3]

theorem reset_ghost : (e.ghost N k G).reset = (e.reset.1.ghost N k G, e.reset.2) := by
  unfold reset
  have h : resetLoop (e.ghost N k G).agents (e.ghost N k G).mdp = _ := resetLoop_ghost (k := k) (G := G) e.agents e.mdp
  rw [h]
  rcases resetLoop e.agents e.mdp with ⟨m, as, _ | _⟩ <;> rfl

theorem caught_ghost (a : Agent K δ) : (e.ghost N k G).caught (Agent.ghost k G a) = e.caught a := by
  unfold caught ghost
  simp only [List.any_map]
  rfl

theorem allSteps_ghost (n : String) : (e.ghost N k G).allSteps n = e.allSteps n := by
  unfold allSteps
  congr 1
  funext n'
  rw [agent?_ghost]
  cases e.agent? n' <;> rfl

theorem freshen_freshen {n : String} : freshen (freshen G n) n = freshen G n := by
  funext n'
  unfold freshen
  split_ifs <;> rfl

theorem freshen_none {n : String} (h : G n = none) : freshen G n = G := by
  funext n'
  unfold freshen
  split_ifs with hn
  · rw [hn, h]
  · rfl

theorem stepLoop_ghost {n : String} (ns mp : List Nat) (nT : Nat) (refit stop : Bool) (orc : Nat → StepOracle K δ) :
    ∀ (j i : Nat) (e : Env K δ) (acc : List Int) (G : String → Option (AlgState K)),
    (refit = false → G n = none) →
    (stepLoop n ns mp nT refit stop orc j i (e.ghost N k G) acc).2 = (stepLoop n ns mp nT refit stop orc j i e acc).2 ∧
    ∃ G', (G' = freshen G n ∨ G' = G) ∧
      (stepLoop n ns mp nT refit stop orc j i (e.ghost N k G) acc).1 =
        (stepLoop n ns mp nT refit stop orc j i e acc).1.ghost N k G' := by
  intro j
  induction j with
  | zero => intro i e acc G _; exact ⟨rfl, G, .inr rfl, rfl⟩
  | succ j ih =>
    intro i e acc G hG
    have hr : ((e.ghost N k G).refitFor n ns mp nT refit (orc i) i).2 = (e.refitFor n ns mp nT refit (orc i) i).2 ∧
        ∃ G', (G' = freshen G n ∨ G' = G) ∧
        ((e.refitFor n ns mp nT refit (orc i) i).2 = .ok () → G' = freshen G n) ∧
        ((e.ghost N k G).refitFor n ns mp nT refit (orc i) i).1 =
          (e.refitFor n ns mp nT refit (orc i) i).1.ghost N k G' := by
      unfold refitFor
      cases refit with
      | false => exact ⟨rfl, G, .inr rfl, fun _ => (freshen_none (hG rfl)).symm, rfl⟩
      | true =>
        simp only [if_true]
        cases stepPlan i nT ns 0 mp with
        | error err => exact ⟨rfl, G, .inr rfl, fun h => (by cases h), rfl⟩
        | ok plan => exact fit_ghost n _ _
    unfold stepLoop
    obtain ⟨h1, G', h2, h3, h4⟩ := hr
    rcases hx : e.refitFor n ns mp nT refit (orc i) i with ⟨e1, _ | _⟩
    · rcases hy : (e.ghost N k G).refitFor n ns mp nT refit (orc i) i with ⟨e2, r2⟩
      rw [hx, hy] at h1 h4
      simp only at h1 h4 ⊢
      subst h1 h4
      exact ⟨rfl, G', h2, rfl⟩
    · rcases hy : (e.ghost N k G).refitFor n ns mp nT refit (orc i) i with ⟨e2, r2⟩
      rw [hx] at h3
      rw [hx, hy] at h1 h4
      simp only at h1 h3 h4 ⊢
      subst h1 h4
      simp only
      have h5 : G' = freshen G n := h3 (by trivial)
      have h6 : G' n = none := by rw [h5]; unfold freshen; rw [if_pos rfl]
      rw [step_ghost h6]
      rcases e1.step n (orc i).draws with ⟨e3, _ | _⟩
      · exact ⟨rfl, G', h2, rfl⟩
      simp only
      rw [lookup_ghost]
      cases e3.lookup n with
      | error err => exact ⟨rfl, G', h2, rfl⟩
      | ok a =>
        simp only [Except.map]
        rw [caught_ghost]
        by_cases hc : (e3.caught a && stop) = true
        · rw [if_pos hc, if_pos hc]; exact ⟨rfl, G', h2, rfl⟩
        · rw [if_neg hc, if_neg hc]
          obtain ⟨i1, G'', i2, i3⟩ := ih (i + 1) e3 (acc ++ [a.position]) G' (fun _ => h6)
          refine ⟨i1, G'', ?_, i3⟩
          rw [freshen_none h6] at i2
          rcases i2 with rfl | rfl <;> exact h2

theorem stepMulti_ghost {n : String} (s : StepsArg) (mp : Option (List Nat)) (nT : Nat) (refit stop : Bool)
    (orc : Nat → StepOracle K δ) (hG : refit = false → G n = none) :
    ((e.ghost N k G).stepMulti n s mp nT refit stop orc).2 = (e.stepMulti n s mp nT refit stop orc).2 ∧
    ∃ G', (G' = freshen G n ∨ G' = G) ∧
      ((e.ghost N k G).stepMulti n s mp nT refit stop orc).1 = (e.stepMulti n s mp nT refit stop orc).1.ghost N k G' := by
  unfold stepMulti
  rw [lookup_ghost, allSteps_ghost]
  cases e.lookup n with
  | error err => exact ⟨rfl, G, .inr rfl, rfl⟩
  | ok a =>
    simp only [Except.map]
    cases e.allSteps n with
    | error err => exact ⟨rfl, G, .inr rfl, rfl⟩
    | ok ns =>
      simp only
      have hlen : (e.ghost N k G).agents.length = e.agents.length := by unfold ghost; simp
      rw [hlen]
      by_cases h1 : (mp.getD ns).length ≠ e.agents.length
      · rw [if_pos h1, if_pos h1]; exact ⟨rfl, G, .inr rfl, rfl⟩
      rw [if_neg h1, if_neg h1]
      have hmv : (Agent.ghost k G a).nMoves = a.nMoves := rfl
      rw [hmv]
      cases s.count a.nMoves with
      | error err => exact ⟨rfl, G, .inr rfl, rfl⟩
      | ok j =>
        simp only
        by_cases h2 : ¬ ∀ x ∈ mp.getD ns, 0 < x
        · rw [if_pos h2, if_pos h2]; exact ⟨rfl, G, .inr rfl, rfl⟩
        rw [if_neg h2, if_neg h2]
        exact stepLoop_ghost _ _ _ _ _ _ _ _ _ _ _ hG

/-- One call. -/
theorem apply_ghost (op : EnvOp K δ) (hop : ∀ n, Spec.UsesPlan n op → G n = none) :
    Spec.answer (e.ghost N k G) op = Spec.answer e op ∧
    ∃ G', (∀ n, G n = none → G' n = none) ∧
      (∀ n o d, op = .fit n o d → (e.fit n o d).2 = .ok () → G' n = none) ∧
      (e.ghost N k G).apply op = (e.apply op).ghost N k G' := by
  have hfr : ∀ {n : String} {G' : String → Option (AlgState K)}, (G' = freshen G n ∨ G' = G) →
      ∀ n', G n' = none → G' n' = none := by
    intro n G' h n' hn'
    rcases h with rfl | rfl
    · unfold freshen; split_ifs
      · rfl
      · exact hn'
    · exact hn'
  cases op with
  | fit n o d =>
    obtain ⟨h1, G', h2, h3, h4⟩ := fit_ghost (e := e) (N := N) (k := k) (G := G) n o d
    refine ⟨congrArg Spec.EnvAnswer.done h1, G', hfr h2, fun n' o' d' h h' => ?_, h4⟩
    cases h
    rw [h3 h']; unfold freshen; rw [if_pos rfl]
  | step n d =>
    have h := step_ghost (e := e) (N := N) (k := k) (hop n rfl) d
    refine ⟨?_, G, fun _ h => h, fun _ _ _ h => (by cases h), congrArg Prod.fst h⟩
    change Spec.EnvAnswer.moved _ = .moved _
    rw [h]
  | stepProba n p d =>
    have h := stepProba_ghost (e := e) (N := N) (k := k) (hop n rfl) p d
    refine ⟨?_, G, fun _ h => h, fun _ _ _ h => (by cases h), congrArg Prod.fst h⟩
    change Spec.EnvAnswer.spread _ = .spread _
    rw [h]
  | stepMulti n s p t r c o =>
    obtain ⟨h1, G', h2, h3⟩ := stepMulti_ghost (e := e) (N := N) (k := k) (G := G) s p t r c o
      (fun h => hop n ⟨rfl, h⟩)
    exact ⟨congrArg Spec.EnvAnswer.walked h1, G', hfr h2, fun _ _ _ h => (by cases h), h3⟩
  | stepMultiInteractive n m =>
    have h : (e.ghost N k G).stepMultiInteractive n m =
        ((e.stepMultiInteractive n m).1.ghost N k G, (e.stepMultiInteractive n m).2) := by
      unfold stepMultiInteractive
      have ha : (e.ghost N k G).agentNames = e.agentNames := rfl
      rw [ha]
      rcases m with _ | _ | ⟨n0, l⟩
      · rfl
      · rfl
      · simp only
        split_ifs
        · rfl
        · split <;> rfl
    refine ⟨?_, G, fun _ h => h, fun _ _ _ h => (by cases h), congrArg Prod.fst h⟩
    change Spec.EnvAnswer.done _ = .done _
    rw [h]
  | reset =>
    have h := reset_ghost (e := e) (N := N) (k := k) (G := G)
    refine ⟨?_, G, fun _ h => h, fun _ _ _ h => (by cases h), congrArg Prod.fst h⟩
    change Spec.EnvAnswer.done _ = .done _
    rw [h]
  | setAgentPosition n p =>
    have h := setAgentPosition_ghost (e := e) (N := N) (k := k) (G := G) n p
    refine ⟨?_, G, fun _ h => h, fun _ _ _ h => (by cases h), congrArg Prod.fst h⟩
    change Spec.EnvAnswer.done _ = .done _
    rw [h]
  | setAlgorithm n st =>
    obtain ⟨h1, G', h2, h3⟩ := setAlgorithm_ghost (e := e) (N := N) (k := k) (G := G) n st
    exact ⟨congrArg Spec.EnvAnswer.done h1, G', hfr h2, fun _ _ _ h => (by cases h), h3⟩
  | setWalls w => exact ⟨rfl, G, fun _ h => h, fun _ _ _ h => (by cases h), rfl⟩
  | addWallXY x y => exact ⟨rfl, G, fun _ h => h, fun _ _ _ h => (by cases h), rfl⟩
  | resetWalls => exact ⟨rfl, G, fun _ h => h, fun _ _ _ h => (by cases h), rfl⟩

/-- Any number of calls in which no plan of another time is used. -/
theorem run_ghost : ∀ (l : List (EnvOp K δ)) (e : Env K δ) (G : String → Option (AlgState K)),
    (∀ n l1 op l2, l = l1 ++ op :: l2 → Spec.UsesPlan n op → G n = none ∨ Spec.Planned e n l1) →
    (∀ l1 op l2, l = l1 ++ op :: l2 →
      Spec.answer ((e.ghost N k G).run l1) op = Spec.answer (e.run l1) op) ∧
    ∃ G', (∀ n, G n = none ∨ Spec.Planned e n l → G' n = none) ∧
      (e.ghost N k G).run l = (e.run l).ghost N k G' := by
  intro l
  induction l with
  | nil =>
    intro e G _
    refine ⟨fun l1 op l2 h => (by simp at h), G, fun n hn => ?_, rfl⟩
    rcases hn with hn | ⟨l1, o, d, l2, h, -⟩
    · exact hn
    · simp at h
  | cons op l ih =>
    intro e G hl
    have hop : ∀ n, Spec.UsesPlan n op → G n = none := by
      intro n hn
      rcases hl n [] op l rfl hn with h | ⟨l1, o, d, l2, h, -⟩
      · exact h
      · simp at h
    obtain ⟨h1, G1, h2, h3, h4⟩ := apply_ghost (e := e) (N := N) (k := k) op hop
    have hplan : ∀ n l1, Spec.Planned e n (op :: l1) → G1 n = none ∨ Spec.Planned (e.apply op) n l1 := by
      rintro n l1 ⟨x1, o, d, x2, hx, hok⟩
      cases x1 with
      | nil =>
        simp only [List.nil_append, List.cons.injEq] at hx
        exact .inl (h3 n o d hx.1 hok)
      | cons y x1 =>
        simp only [List.cons_append, List.cons.injEq] at hx
        obtain ⟨rfl, rfl⟩ := hx
        exact .inr ⟨x1, o, d, x2, rfl, hok⟩
    obtain ⟨i1, G2, i2, i3⟩ := ih (e.apply op) G1 (by
      intro n l1 op' l2 hl1 hu
      rcases hl n (op :: l1) op' l2 (by rw [hl1]; rfl) hu with h | h
      · exact .inl (h2 n h)
      · exact hplan n l1 h)
    refine ⟨?_, G2, ?_, ?_⟩
    · intro l1 op' l2 hl1
      cases l1 with
      | nil =>
        simp only [List.nil_append, List.cons.injEq] at hl1
        rw [← hl1.1]; exact h1
      | cons y l1 =>
        simp only [List.cons_append, List.cons.injEq] at hl1
        obtain ⟨rfl, hl1⟩ := hl1
        have := i1 l1 op' l2 hl1
        rw [← h4] at this
        exact this
    · intro n hn
      rcases hn with hn | hn
      · exact i2 n (.inl (h2 n hn))
      · exact i2 n (hplan n l hn)
    · change (((e.ghost N k G).apply op).run l) = _
      rw [h4, i3]
      rfl

/-- Calls that leave the walls alone change only the features. -/
theorem keeps_run (ops : List (EnvOp K δ)) (hw : ∀ op ∈ ops, Spec.KeepsWalls op) (e : Env K δ) (h : Ok kind W H selfT e) :
    ∃ F ns, (e.run ops).mdp = { e.mdp with features := F, featureNames := ns } := by
  have hfit : ∀ (e1 : Env K δ) (n : String) (o : FitOut K) (d : Nat → δ),
      Ok kind W H selfT e1 ∧ (∃ F ns, e1.mdp = { e.mdp with features := F, featureNames := ns }) →
      Ok kind W H selfT (e1.fit n o d).1 ∧
        ∃ F ns, (e1.fit n o d).1.mdp = { e.mdp with features := F, featureNames := ns } := by
    rintro e' n o d ⟨h1, h2⟩
    refine ⟨h1.fit n o d, ?_⟩
    rcases fit_cases h1 n o d with ⟨-, h3⟩ | ⟨a, -, -, h3⟩ <;> rw [h3] <;> exact h2
  have hstep : ∀ (e1 : Env K δ) (n : String) (d : Nat → δ),
      Ok kind W H selfT e1 ∧ (∃ F ns, e1.mdp = { e.mdp with features := F, featureNames := ns }) →
      Ok kind W H selfT (e1.step n d).1 ∧
        ∃ F ns, (e1.step n d).1.mdp = { e.mdp with features := F, featureNames := ns } := by
    rintro e' n d ⟨h1, h2⟩
    refine ⟨h1.step n d, ?_⟩
    obtain ⟨F, ns, h2⟩ := h2
    rcases step_cases h1 n d with ⟨-, h3⟩ | ⟨a, a', err, -, -, -, -, -, -, h3⟩ |
      ⟨a, a1, j, t, g, c, -, hm, -, -, -, h3, -⟩ | ⟨a, a1, j, t, g, -, hm, -, -, h3, -⟩
    · rw [h3]; exact ⟨F, ns, h2⟩
    · rw [h3]; exact ⟨F, ns, h2⟩
    · rw [h3]; exact ⟨{ F with get := g }, ns, by
        change e'.mdp.withFeat g = _
        rw [h2]; rfl⟩
    · rw [h3]; exact ⟨{ F with get := g }, ns, by
        change e'.mdp.withFeat g = _
        rw [h2]; rfl⟩
  suffices hs : ∀ (ops : List (EnvOp K δ)) (e1 : Env K δ), (∀ op ∈ ops, Spec.KeepsWalls op) →
      (Ok kind W H selfT e1 ∧ ∃ F ns, e1.mdp = { e.mdp with features := F, featureNames := ns }) →
      ∃ F ns, (e1.run ops).mdp = { e.mdp with features := F, featureNames := ns } from
    hs ops e hw ⟨h, e.mdp.features, e.mdp.featureNames, rfl⟩
  intro ops
  induction ops with
  | nil => intro e1 _ h1; exact h1.2
  | cons op ops ih =>
    intro e1 hw h1
    refine ih (e1.apply op) (fun op' h' => hw op' (List.mem_cons_of_mem _ h')) ?_
    have hk := hw op List.mem_cons_self
    cases op with
    | fit n o d => exact hfit e1 n o d h1
    | step n d => exact hstep e1 n d h1
    | stepProba n p d =>
      refine ⟨h1.1.stepProba n p d, ?_⟩
      change ∃ F ns, (e1.stepProba n p d).1.mdp = _
      rcases stepProba_cases h1.1 n p d with ⟨-, h3⟩ | ⟨a, -, -, ⟨err, -, h3⟩ | ⟨x, -, h3⟩⟩ <;>
        rw [h3] <;> exact h1.2
    | stepMulti n s p t r c o =>
      exact stepMulti_induct (fun e1 => Ok kind W H selfT e1 ∧
        ∃ F ns, e1.mdp = { e.mdp with features := F, featureNames := ns }) (fun e1 o d => hfit e1 n o d)
        (fun e1 d => hstep e1 n d) e1 s p t r c o h1
    | stepMultiInteractive n m =>
      have : (e1.stepMultiInteractive n m).1 = e1 := by
        unfold stepMultiInteractive
        split
        · rfl
        · rfl
        · simp only
          split_ifs
          · rfl
          · split <;> rfl
      change Ok kind W H selfT (e1.stepMultiInteractive n m).1 ∧ ∃ F ns, (e1.stepMultiInteractive n m).1.mdp = _
      rw [this]; exact h1
    | reset =>
      obtain ⟨h1, F, ns, h2⟩ := h1
      change Ok kind W H selfT e1.reset.1 ∧ ∃ F ns, e1.reset.1.mdp = _
      rw [(reset_eq h1).1]
      refine ⟨(reset_eq h1).2, e.mdp.originalFeatures, Mdp.defaultNames e.mdp.originalFeatures.d0, ?_⟩
      unfold resetEnv
      simp only
      rw [h2]
    | setAgentPosition n p =>
      obtain ⟨h1, F, ns, h2⟩ := h1
      refine ⟨h1.setAgentPosition n p, ?_⟩
      change ∃ F ns, (e1.setAgentPosition n p).1.mdp = _
      rcases setAgentPosition_cases h1 n p with ⟨-, h3⟩ | ⟨a, -, -, ⟨j, -, h3⟩ | ⟨-, h3⟩ | ⟨-, h3, h4⟩⟩
      · rw [h3]; exact ⟨F, ns, h2⟩
      · rw [h3]
        refine ⟨(e1.mdp.setRow (e1.mdp.agentRow a.idx) j).features, ns, ?_⟩
        change e1.mdp.setRow (e1.mdp.agentRow a.idx) j = _
        rw [h2]; rfl
      · rw [h3]; exact ⟨F, ns, h2⟩
      · rw [h3]
        refine ⟨(e1.mdp.withFeat
          (fun f s => if f = e1.mdp.agentRow a.idx then 0 else e1.mdp.features.get f s)).features, ns, ?_⟩
        change e1.mdp.withFeat (fun f s => if f = e1.mdp.agentRow a.idx then 0 else e1.mdp.features.get f s) = _
        rw [h2]; rfl
    | setAlgorithm n st =>
      refine ⟨h1.1.setAlgorithm n st, ?_⟩
      change ∃ F ns, (e1.setAlgorithm n st).1.mdp = _
      rcases setAlgorithm_cases h1.1 n st with ⟨-, h3⟩ | ⟨a, -, -, h3⟩ <;> rw [h3] <;> exact h1.2
    | setWalls w => exact hk.elim
    | addWallXY x y => exact hk.elim
    | resetWalls => exact hk.elim

/-- Attaching an agent gives the features their default names. -/
theorem attach_names {m m1 : Mdp K} {n : Nat} {sp : AgentSpec K δ} {p : Int} {r : Arr1 K} {a : Agent K δ}
    (h : attach m n sp p r = (m1, .ok a)) : m1.featureNames = Mdp.defaultNames m1.features.d0 := by
  unfold attach at h
  have hadd : ∀ m2, m.addAgentFeature p = (m2, .ok ()) → m2.featureNames = Mdp.defaultNames m2.features.d0 := by
    intro m2 h2
    unfold Mdp.addAgentFeature Mdp.setFeatures at h2
    simp only at h2
    split at h2
    · cases h2
    · split_ifs at h2
      all_goals cases h2
      all_goals rfl
  rcases ha : m.addAgentFeature p with ⟨m2, _ | _⟩
  · rw [ha] at h; simp at h
  · have hn := hadd m2 ha
    rw [ha] at h
    simp only at h
    unfold Agent.setPosition at h
    by_cases hp : (m2.nStates : Int) ≤ p
    · simp [hp] at h
    · simp only [if_neg hp] at h
      unfold Mdp.updateAgentFeature at h
      split at h
      · rename_i heq
        simp at h
      · rename_i heq
        simp only [Prod.mk.injEq] at h
        split at heq
        · cases heq
        · rename_i heq2
          split at heq2
          · cases heq2
          · simp only at heq2
            split at heq2
            · cases heq2
            · cases heq2; cases heq
              rw [← h.1]; exact hn

theorem attachLoop_names {nF nA : Nat} : ∀ (sps : List (AgentSpec K δ)) (n : Nat) (m m1 : Mdp K) (as as' : List (Agent K δ)),
    attachLoop nF nA n sps m as = (m1, .ok as') → sps ≠ [] ∨ m.featureNames = Mdp.defaultNames m.features.d0 →
    m1.featureNames = Mdp.defaultNames m1.features.d0 := by
  intro sps
  induction sps with
  | nil =>
    intro n m m1 as as' h h0
    unfold attachLoop at h
    cases h
    rcases h0 with h0 | h0
    · exact absurd rfl h0
    · exact h0
  | cons sp sps ih =>
    intro n m m1 as as' h _
    unfold attachLoop at h
    rcases hc : checkSpec nF nA sp with er | ⟨p, r⟩
    · rw [hc] at h; simp at h
    · rw [hc] at h
      simp only at h
      rcases ha : attach m n sp p r with ⟨m2, _ | a⟩
      · rw [ha] at h; simp at h
      · rw [ha] at h
        simp only at h
        exact ih _ _ _ _ _ h (.inr (attach_names ha))

/-- The features of a new environment have their default names. -/
theorem init_names {m m' : Mdp K} {specs : List (AgentSpec K δ)} (h : init m specs = (m', .ok e)) (hne : specs ≠ []) :
    e.mdp.featureNames = Mdp.defaultNames e.mdp.features.d0 := by
  unfold init at h
  simp only at h
  split at h
  · simp at h
  · rename_i m1 _
    rcases hl : attachLoop m1.nFeatures specs.length 0 specs m1 [] with ⟨m2, _ | as⟩
    · rw [hl] at h; simp at h
    · rw [hl] at h
      simp only [Prod.mk.injEq, Except.ok.injEq] at h
      rw [← h.2]
      exact attachLoop_names specs 0 m1 m2 [] as hl (.inl hne)

end Env

end MaMDP
