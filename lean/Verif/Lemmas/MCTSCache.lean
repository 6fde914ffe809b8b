import Verif.Lemmas.MCTSLoop
import Verif.Lemmas.DynamicProgramming

/-! Lemmas for tree search: cached action values. -/

set_option linter.unusedSectionVars false

namespace MaMDP

variable {K : Type} [Field K] [LinearOrder K] [IsStrictOrderedRing K]
variable {o : MctsOpts K} {M : Trans K} {A : SimAgents K} {nF : Nat} {V : Nat → K} {N : Nat → Nat}
  {plan : List (List Nat)}

theorem opponentNext_congr {w : Nat → K} {f f' : Nat → Nat → K} {s : Nat} {q : Option (QTable K)} {d : Draw K}
    (h : stateReward nF w f = stateReward nF w f') :
    opponentNext o M nF w f s q d = opponentNext o M nF w f' s q d := by
  unfold opponentNext opponentQ
  rw [h]

theorem opponentNext_again {w : Nat → K} {f : Nat → Nat → K} {s s' t : Nat} {q : Option (QTable K)} {d d' : Draw K}
    (h : opponentNext o M nF w f s none d = .ok (t, q)) :
    opponentNext o M nF w f s' q d' = opponentNext o M nF w f s' none d' := by
  unfold opponentNext at h
  cases hp : o.policy with
  | random =>
    rw [hp] at h
    dsimp only at h
    cases hr : rngChoice (nextStates M s) d.pick with
    | error e => rw [hr] at h; cases h
    | ok t' =>
      rw [hr] at h
      dsimp only at h
      split at h
      · cases h; rfl
      · cases h
  | solve =>
    rw [hp] at h
    dsimp only at h
    cases hq : opponentQ o M nF w f none with
    | error e => rw [hq] at h; cases h
    | ok Q =>
      rw [hq] at h
      dsimp only at h
      cases hr : opponentAction o M Q s d with
      | error e => rw [hr] at h; cases h
      | ok a =>
        rw [hr] at h
        dsimp only at h
        split at h
        · cases h
          unfold opponentNext
          rw [hp]
          dsimp only
          rw [hq]
          rfl
        · cases h
  | other => rw [hp] at h; cases h

/-- Rows that no agent marks are those of the start, with the recorded cells set to 0. -/
def Recorded (A : SimAgents K) (nF : Nat) (base : Nat → Nat → K) (st : Sim K) : Prop :=
  ∀ f, f < nF → f ∉ A.featIdx → ∀ s, st.features f s = if (s : Int) ∈ st.consumed f then 0 else base f s

/-- Every cached entry of another agent leads to the moves that solving anew would. -/
def CacheOk (o : MctsOpts K) (M : Trans K) (A : SimAgents K) (nF : Nat) (base : Nat → Nat → K) (cache : QCache K) :
    Prop :=
  ∀ a key q, a ≠ 0 → cache a key = some q → ∀ (rec : Nat → List Int) (features : Nat → Nat → K),
    key.2 = (preferences A nF a).map rec →
    (∀ f, f ∈ preferences A nF a → ∀ s, features f s = if (s : Int) ∈ rec f then 0 else base f s) →
    ∀ s d, opponentNext o M nF (A.rewards a) features s q d = opponentNext o M nF (A.rewards a) features s none d

/-- The two runs are at the same point. -/
structure SameBut (st st' : Sim K) : Prop where
  expand : st'.expand = st.expand
  acc : st'.acc = st.acc
  visited : st'.visited = st.visited
  nodes : st'.nodes = st.nodes
  features : st'.features = st.features
  others : st'.others = st.others
  active : st'.active = st.active

theorem stateReward_congr {w : Nat → K} {f f' : Nat → Nat → K}
    (h : ∀ i, i < nF → w i ≠ 0 → ∀ s, f i s = f' i s) : stateReward nF w f = stateReward nF w f' := by
  funext s
  unfold stateReward
  unfold npDot
  refine Finset.sum_congr rfl fun i hi => ?_
  by_cases hw : w i = 0
  · rw [hw, zero_mul, zero_mul]
  · dsimp only
    rw [h i (Finset.mem_range.1 hi) hw s]

theorem mem_preferences {a f : Nat} : f ∈ preferences A nF a ↔ f < nF ∧ A.rewards a f ≠ 0 := by
  unfold preferences
  rw [mem_npWhere, decide_eq_true_eq]

theorem opponentMove_cached {base : Nat → Nat → K} (havoid : ∀ a, a ≠ 0 → ∀ f ∈ preferences A nF a, f ∉ A.featIdx)
    {a : Nat} (ha : a ≠ 0) {d : Draw K} {st st' : Sim K} {here : Nat} (hs : SameBut st st')
    (hrec : Recorded A nF base st) (hcache : CacheOk o M A nF base st.cache) :
    (∃ e, opponentMove { o with caching := true } M A nF a d st here = .error e ∧
      opponentMove { o with caching := false } M A nF a d st' here = .error e) ∨
    ∃ t cache, opponentMove { o with caching := true } M A nF a d st here = .ok (t, cache) ∧
      opponentMove { o with caching := false } M A nF a d st' here = .ok (t, st'.cache) ∧
      CacheOk o M A nF base cache := by
  unfold opponentMove cacheKey
  rw [hs.nodes, hs.features]
  by_cases hpref : preferences A nF a = []
  · rw [if_pos hpref, if_pos hpref]
    exact .inl ⟨_, rfl, rfl⟩
  · rw [if_neg hpref, if_neg hpref]
    dsimp only
    simp only [if_true, if_false, Bool.false_eq_true]
    have hopt : ∀ b s q, opponentNext { o with caching := b } M nF (A.rewards a) st.features s q d =
        opponentNext o M nF (A.rewards a) st.features s q d := fun _ _ _ => rfl
    set key : CacheKey := (((List.range A.n).filter fun b => b ≠ a).map st.nodes, (preferences A nF a).map st.consumed)
      with hkey
    have hfeat : ∀ f, f ∈ preferences A nF a → ∀ s,
        st.features f s = if (s : Int) ∈ st.consumed f then 0 else base f s :=
      fun f hf => hrec f (mem_preferences.1 hf).1 (havoid a ha f hf)
    cases hc : st.cache a key with
    | some q =>
      dsimp only
      have heq := hcache a key q ha hc st.consumed st.features rfl hfeat here d
      rw [hopt true, hopt false, heq]
      cases hn : opponentNext o M nF (A.rewards a) st.features here none d with
      | error e => exact .inl ⟨e, rfl, rfl⟩
      | ok p => exact .inr ⟨p.1, st.cache, rfl, rfl, hcache⟩
    | none =>
      dsimp only
      rw [hopt true, hopt false]
      cases hn : opponentNext o M nF (A.rewards a) st.features here none d with
      | error e => exact .inl ⟨e, rfl, rfl⟩
      | ok p =>
        obtain ⟨t, q⟩ := p
        refine .inr ⟨t, _, rfl, rfl, ?_⟩
        intro b k q' hb hq rec features hk hf s d'
        dsimp only at hq
        by_cases hbk : b = a ∧ k = key
        · rw [if_pos hbk] at hq
          cases hq
          obtain ⟨rfl, rfl⟩ := hbk
          have hmap : (preferences A nF b).map st.consumed = (preferences A nF b).map rec := hk
          have hsame : stateReward nF (A.rewards b) features = stateReward nF (A.rewards b) st.features := by
            refine stateReward_congr fun i hi hw s => ?_
            have hmem := mem_preferences.2 ⟨hi, hw⟩
            have hr : st.consumed i = rec i := List.map_inj_left.1 hmap i hmem
            rw [hf i hmem s, hfeat i hmem s, hr]
          rw [opponentNext_congr hsame, opponentNext_congr hsame]
          exact opponentNext_again hn
        · rw [if_neg hbk] at hq
          exact hcache b k q' hb hq rec features hk hf s d'

theorem consumeAt_cached {base : Nat → Nat → K} {a : Nat} (hone : (npWhere nF (A.consumesFeatures a)).length ≤ 1)
    {st st' : Sim K} {t : Nat} (hs : SameBut st st') (hrec : Recorded A nF base st) :
    ∃ s1 s1', consumeAt true A nF a st t = .ok s1 ∧ consumeAt false A nF a st' t = .ok s1' ∧ SameBut s1 s1' ∧
      Recorded A nF base s1 ∧ s1.cache = st.cache := by
  have hF : consumeAt false A nF a st' t =
      .ok { st' with features := fun f s => if A.consumesFeatures a f = true ∧ s = t then 0 else st'.features f s } := rfl
  rw [hF]
  have hsame : ∀ c, SameBut { st with
      features := fun f s => if A.consumesFeatures a f = true ∧ s = t then 0 else st.features f s, consumed := c }
      { st' with features := fun f s => if A.consumesFeatures a f = true ∧ s = t then 0 else st'.features f s } := by
    intro c
    exact ⟨hs.expand, hs.acc, hs.visited, hs.nodes, by dsimp only; rw [hs.features], hs.others, hs.active⟩
  unfold consumeAt
  rw [if_pos rfl]
  rcases hl : npWhere nF (A.consumesFeatures a) with _ | ⟨f, _ | ⟨g, l⟩⟩
  · refine ⟨_, _, rfl, rfl, hsame _, ?_, rfl⟩
    intro f hf hfr s
    have : A.consumesFeatures a f ≠ true := fun h => by
      have := mem_npWhere.2 ⟨hf, h⟩
      rw [hl] at this
      cases this
    show (if _ then _ else _) = _
    rw [if_neg (fun h => this h.1)]
    exact hrec f hf hfr s
  · refine ⟨_, _, rfl, rfl, hsame _, ?_, rfl⟩
    intro f' hf hfr s
    show (if A.consumesFeatures a f' = true ∧ s = t then (0 : K) else st.features f' s) =
      if (s : Int) ∈ (if st.features f t ≠ 0 then upd1 st.consumed f (st.consumed f ++ [(t : Int)]) else st.consumed) f'
        then 0 else base f' s
    have hiff : A.consumesFeatures a f' = true ↔ f' = f := by
      have : f' ∈ npWhere nF (A.consumesFeatures a) ↔ f' = f := by rw [hl]; simp
      rw [mem_npWhere] at this
      exact ⟨fun h => this.1 ⟨hf, h⟩, fun h => (this.2 h).2⟩
    have hold := hrec f' hf hfr s
    by_cases hff : f' = f
    · subst hff
      by_cases hst : s = t
      · subst hst
        rw [if_pos ⟨hiff.2 rfl, rfl⟩]
        by_cases hz : st.features f' s = 0
        · rw [if_neg (show ¬ (st.features f' s ≠ 0) from not_not.2 hz), ← hold, hz]
        · rw [if_pos hz]
          unfold upd1
          rw [if_pos rfl, if_pos (by simp)]
      · rw [if_neg (fun h => hst h.2), hold]
        by_cases hz : st.features f' t = 0
        · rw [if_neg (show ¬ (st.features f' t ≠ 0) from not_not.2 hz)]
        · rw [if_pos hz]
          unfold upd1
          rw [if_pos rfl]
          have hst' : (s : Int) ≠ t := fun h => hst (by exact_mod_cast h)
          simp [hst']
    · rw [if_neg (fun h => hff (hiff.1 h.1)), hold]
      by_cases hz : st.features f t = 0
      · rw [if_neg (show ¬ (st.features f t ≠ 0) from not_not.2 hz)]
      · rw [if_pos hz]
        unfold upd1
        rw [if_neg hff]
  · rw [hl] at hone
    simp at hone

theorem checkResult_caching {b : Bool} {st st' : Sim K} (hs : SameBut st st') :
    checkResult { o with caching := b } A st' = checkResult o A st := by
  unfold checkResult
  rw [hs.nodes, hs.active]

/-- One move of the run with caching and of the run without. -/
theorem simMove_cached {base : Nat → Nat → K} (havoid : ∀ a, a ≠ 0 → ∀ f ∈ preferences A nF a, f ∉ A.featIdx)
    (hone : ∀ a, (npWhere nF (A.consumesFeatures a)).length ≤ 1) {a : Nat} {d : Draw K} {st st' : Sim K}
    (hs : SameBut st st') (hrec : Recorded A nF base st) (hcache : CacheOk o M A nF base st.cache) :
    (∃ e, simMove { o with caching := true } M A nF V N a d st = .error e ∧
      simMove { o with caching := false } M A nF V N a d st' = .error e) ∨
    ∃ s1 s1' c, simMove { o with caching := true } M A nF V N a d st = .ok (s1, c) ∧
      simMove { o with caching := false } M A nF V N a d st' = .ok (s1', c) ∧ SameBut s1 s1' ∧
      Recorded A nF base s1 ∧ CacheOk o M A nF base s1.cache := by
  unfold simMove
  rw [show pyIdx M.nS (st'.nodes a) = pyIdx M.nS (st.nodes a) by rw [hs.nodes]]
  cases hrow : A.featIdx[a]? with
  | none => exact .inl ⟨_, rfl, rfl⟩
  | some row =>
    cases hhere : pyIdx M.nS (st.nodes a) with
    | none => exact .inl ⟨_, rfl, rfl⟩
    | some here =>
      dsimp only
      by_cases hlt : nF ≤ row
      · rw [if_pos hlt, if_pos hlt]
        exact .inl ⟨_, rfl, rfl⟩
      · rw [if_neg hlt, if_neg hlt, checkResult_caching hs,
          checkResult_caching (st' := st) ⟨rfl, rfl, rfl, rfl, rfl, rfl, rfl⟩]
        generalize checkResult o A st = r
        have hmem : row ∈ A.featIdx := List.mem_of_getElem? hrow
        set x : Sim K := { st with
          features := fun f s => if f = row then (if s = here then 1 else 0) else st.features f s
          acc := st.acc + r.1, active := r.2.1 } with hx
        set x' : Sim K := { st' with
          features := fun f s => if f = row then (if s = here then 1 else 0) else st'.features f s
          acc := st'.acc + r.1, active := r.2.1 } with hx'
        have hsx : SameBut x x' :=
          ⟨hs.expand, by rw [hx, hx']; dsimp only; rw [hs.acc], hs.visited, hs.nodes,
            by rw [hx, hx']; dsimp only; rw [hs.features], hs.others, rfl⟩
        have hrx : Recorded A nF base x := by
          intro f hf hfr s
          have hne : f ≠ row := fun h => hfr (h ▸ hmem)
          show (if f = row then _ else st.features f s) = _
          rw [if_neg hne]
          exact hrec f hf hfr s
        have hcx : CacheOk o M A nF base x.cache := hcache
        clear_value x x'
        by_cases hc : r.2.2 = true
        · rw [if_pos hc, if_pos hc]
          exact .inr ⟨x, x', true, rfl, rfl, hsx, hrx, hcx⟩
        · rw [if_neg hc, if_neg hc]
          by_cases ha : a = 0
          · rw [if_pos ha, if_pos ha]
            unfold primaryMove
            dsimp only
            rw [hsx.expand]
            cases hn : nextNode o.bonus x.expand V N (nextStates M here) o.C here d.pick with
            | error e => exact .inl ⟨e, rfl, rfl⟩
            | ok p =>
              obtain ⟨t, ex⟩ := p
              dsimp only
              have hsy : SameBut
                  ({ x with
                    expand := ex, nodes := upd1 x.nodes 0 (t : Int), visited := x.visited ++ [t]
                    acc := x.acc + stateReward nF (A.rewards 0) x.features t } : Sim K)
                  ({ x' with
                    expand := ex, nodes := upd1 x'.nodes 0 (t : Int), visited := x'.visited ++ [t]
                    acc := x'.acc + stateReward nF (A.rewards 0) x'.features t } : Sim K) :=
                ⟨rfl, by dsimp only; rw [hsx.acc, hsx.features], by dsimp only; rw [hsx.visited],
                  by dsimp only; rw [hsx.nodes], hsx.features, hsx.others, hsx.active⟩
              have hact : x'.active 0 = x.active 0 := by rw [hsx.active]
              rw [hact]
              by_cases h0 : x.active 0 = true
              · rw [if_pos h0, if_pos h0]
                obtain ⟨s1, s1', g1, g2, g3, g4, g5⟩ := consumeAt_cached (t := t) (hone 0) hsy hrx
                refine .inr ⟨s1, s1', false, ?_, ?_, g3, g4, by rw [g5]; exact hcx⟩
                · rw [g1]
                · rw [g2]
              · rw [if_neg h0, if_neg h0]
                exact .inr ⟨_, _, false, rfl, rfl, hsy, hrx, hcx⟩
          · rw [if_neg ha, if_neg ha]
            unfold otherMove
            dsimp only
            have hact : x'.active a = x.active a := by rw [hsx.active]
            rw [hact]
            by_cases h0 : x.active a = true
            · rw [if_pos h0, if_pos h0]
              rcases opponentMove_cached (here := here) (d := d) havoid ha hsx hrx hcx with
                ⟨e, g1, g2⟩ | ⟨t, cache, g1, g2, g3⟩
              · rw [g1, g2]
                exact .inl ⟨e, rfl, rfl⟩
              · rw [g1, g2]
                dsimp only
                have hsy : SameBut
                    ({ x with
                      nodes := upd1 x.nodes a (t : Int), cache := cache
                      others := if o.returnOthers then upd1 x.others a (x.others a ++ [t]) else x.others } : Sim K)
                    ({ x' with
                      nodes := upd1 x'.nodes a (t : Int), cache := x'.cache
                      others := if o.returnOthers then upd1 x'.others a (x'.others a ++ [t]) else x'.others } : Sim K) :=
                  ⟨hsx.expand, hsx.acc, hsx.visited, by dsimp only; rw [hsx.nodes], hsx.features,
                    by dsimp only; rw [hsx.others], hsx.active⟩
                obtain ⟨s1, s1', k1, k2, k3, k4, k5⟩ := consumeAt_cached (base := base) (t := t) (hone a) hsy hrx
                refine .inr ⟨s1, s1', false, ?_, ?_, k3, k4, by rw [k5]; exact g3⟩
                · rw [k1]
                · rw [k2]
            · rw [if_neg h0, if_neg h0]
              exact .inr ⟨x, x', false, rfl, rfl, hsx, hrx, hcx⟩

/-- The loop with caching and without. -/
theorem simLoop_cached {base : Nat → Nat → K} {draws : Nat → Draw K}
    (havoid : ∀ a, a ≠ 0 → ∀ f ∈ preferences A nF a, f ∉ A.featIdx)
    (hone : ∀ a, (npWhere nF (A.consumesFeatures a)).length ≤ 1) :
    ∀ (fuel : Nat) (c : Clock) (st st' : Sim K), SameBut st st' → Recorded A nF base st →
      CacheOk o M A nF base st.cache →
      (simLoop { o with caching := true } M A nF V N plan draws fuel c st = none ∧
        simLoop { o with caching := false } M A nF V N plan draws fuel c st' = none) ∨
      (∃ e, simLoop { o with caching := true } M A nF V N plan draws fuel c st = some (.error e) ∧
        simLoop { o with caching := false } M A nF V N plan draws fuel c st' = some (.error e)) ∨
      ∃ s1 s1', simLoop { o with caching := true } M A nF V N plan draws fuel c st = some (.ok s1) ∧
        simLoop { o with caching := false } M A nF V N plan draws fuel c st' = some (.ok s1') ∧
        SameBut s1 s1' ∧ CacheOk o M A nF base s1.cache := by
  intro fuel
  induction fuel with
  | zero => intro c st st' _ _ _; exact .inl ⟨rfl, rfl⟩
  | succ fuel ih =>
    intro c st st' hs hrec hcache
    unfold simLoop
    by_cases ht : c.total < (plan.map List.sum).sum
    · rw [if_pos ht, if_pos ht]
      cases hp : c.planned plan with
      | error e => exact .inr (.inl ⟨e, rfl, rfl⟩)
      | ok k =>
        dsimp only
        by_cases hk : 0 < k
        · rw [if_pos hk, if_pos hk]
          rcases simMove_cached (V := V) (N := N) (a := c.actor) (d := draws c.total) havoid hone hs hrec hcache with
            ⟨e, g1, g2⟩ | ⟨s1, s1', caught, g1, g2, g3, g4, g5⟩
          · rw [g1, g2]
            exact .inr (.inl ⟨e, rfl, rfl⟩)
          · rw [g1, g2]
            cases caught with
            | true => exact .inr (.inr ⟨s1, s1', rfl, rfl, g3, g5⟩)
            | false => exact ih _ s1 s1' g3 g4 g5
        · rw [if_neg hk, if_neg hk]
          exact ih _ st st' hs hrec hcache
    · rw [if_neg ht, if_neg ht]
      exact .inr (.inr ⟨st, st', rfl, rfl, hs, hcache⟩)

/-- What the caller of the search gets to see. -/
def Search.shown (s : Search K) : (Nat → K) × (Nat → Nat) × List (List Nat) × List (Nat → List Nat) :=
  (s.V, s.N, s.visited, s.others)

theorem runLoop_cached {base : Nat → Nat → K} {draws : Nat → Nat → Draw K} {nodes : Nat → Int} {fuel : Nat}
    (havoid : ∀ a, a ≠ 0 → ∀ f ∈ preferences A nF a, f ∉ A.featIdx)
    (hone : ∀ a, (npWhere nF (A.consumesFeatures a)).length ≤ 1) :
    ∀ (k i : Nat) (s s' : Search K), s'.shown = s.shown → CacheOk o M A nF base s.cache →
      (runLoop { o with caching := true } M A nF plan draws fuel k i base nodes s).2.2.map (Except.map Search.shown) =
      (runLoop { o with caching := false } M A nF plan draws fuel k i base nodes s').2.2.map
        (Except.map Search.shown) := by
  intro k
  induction k with
  | zero =>
    intro i s s' h _
    show some (Except.ok s.shown) = some (Except.ok s'.shown)
    rw [h]
  | succ k ih =>
    intro i s s' h hcache
    obtain ⟨hV, h⟩ := Prod.mk.inj h
    obtain ⟨hN, h⟩ := Prod.mk.inj h
    obtain ⟨hv, ho⟩ := Prod.mk.inj h
    have hit : ∀ (o : MctsOpts K) (s : Search K),
        mctsIteration o M A nF base nodes s.V s.N plan s.cache (draws i) fuel =
        (base, nodes, simLoop o M A nF s.V s.N plan (draws i) fuel .start (Sim.start nodes base s.cache)) :=
      fun _ _ => rfl
    unfold runLoop
    rw [hit, hit, hV, hN]
    rcases simLoop_cached (V := s.V) (N := s.N) (plan := plan) (draws := draws i) havoid hone fuel .start
        (Sim.start nodes base s.cache) (Sim.start nodes base s'.cache) ⟨rfl, rfl, rfl, rfl, rfl, rfl, rfl⟩
        (fun f _ _ s => by simp [Sim.start]) hcache with ⟨g1, g2⟩ | ⟨e, g1, g2⟩ | ⟨s1, s1', g1, g2, g3, g4⟩
    · rw [g1, g2]
    · rw [g1, g2]
    · rw [g1, g2]
      dsimp only
      refine ih (i + 1) _ _ ?_ g4
      unfold Search.shown
      dsimp only
      rw [g3.acc, g3.visited, g3.others, hv, ho]

end MaMDP
