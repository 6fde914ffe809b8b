import Verif.Lemmas.MCTSCache
import Verif.Model.MCTSObject

/-! Lemmas for the tree search object: caches kept between fits. -/

set_option linter.unusedSectionVars false

namespace MaMDP

variable {K : Type} [Field K] [LinearOrder K] [IsStrictOrderedRing K] {δ : Type}
variable {o : MctsOpts K} {M : Trans K} {A : SimAgents K} {nF : Nat} {V : Nat → K} {N : Nat → Nat}
  {plan : List (List Nat)}

/-- Only the caches may differ. -/
def Sim.withCache (st : Sim K) (cache : QCache K) : Sim K := { st with cache := cache }

theorem consumeAt_false {a : Nat} {st : Sim K} {t : Nat} :
    consumeAt false A nF a st t = .ok { st with
      features := fun f s => if A.consumesFeatures a f = true ∧ s = t then 0 else st.features f s } := rfl

theorem simMove_uncached (ho : o.caching = false) {a : Nat} {d : Draw K} (st : Sim K) (cache : QCache K) :
    simMove o M A nF V N a d (st.withCache cache) =
      (simMove o M A nF V N a d st).map fun p => (p.1.withCache cache, p.2) := by
  unfold simMove
  rw [show (st.withCache cache).nodes = st.nodes from rfl]
  cases hrow : A.featIdx[a]? with
  | none => rfl
  | some row =>
    cases hhere : pyIdx M.nS (st.nodes a) with
    | none => rfl
    | some here =>
      dsimp only
      by_cases hlt : nF ≤ row
      · rw [if_pos hlt, if_pos hlt]; rfl
      · rw [if_neg hlt, if_neg hlt]
        rw [show checkResult o A (st.withCache cache) = checkResult o A st from rfl]
        generalize checkResult o A st = r
        by_cases hc : r.2.2 = true
        · rw [if_pos hc, if_pos hc]; rfl
        · rw [if_neg hc, if_neg hc]
          by_cases ha : a = 0
          · rw [if_pos ha, if_pos ha]
            unfold primaryMove
            dsimp only
            rw [show (st.withCache cache).expand = st.expand from rfl]
            cases hn : nextNode o.bonus st.expand V N (nextStates M here) o.C here d.pick with
            | error e => rfl
            | ok p =>
              dsimp only
              by_cases h0 : r.2.1 0 = true
              · rw [if_pos h0, if_pos h0, ho, consumeAt_false, consumeAt_false]; rfl
              · rw [if_neg h0, if_neg h0]; rfl
          · rw [if_neg ha, if_neg ha]
            unfold otherMove
            dsimp only
            by_cases h0 : r.2.1 a = true
            · rw [if_pos h0, if_pos h0]
              unfold opponentMove
              rw [ho]
              simp only [Bool.false_eq_true, if_false]
              unfold cacheKey
              by_cases hpref : preferences A nF a = []
              · rw [if_pos hpref, if_pos hpref]; rfl
              · rw [if_neg hpref, if_neg hpref]
                dsimp only
                rw [show (st.withCache cache).features = st.features from rfl]
                cases hq : opponentNext o M nF (A.rewards a)
                    (fun f s => if f = row then if s = here then 1 else 0 else st.features f s) here none d with
                | error e => rfl
                | ok p => obtain ⟨t, q⟩ := p; rfl
            · rw [if_neg h0, if_neg h0]; rfl

theorem simLoop_uncached (ho : o.caching = false) {draws : Nat → Draw K} (cache : QCache K) :
    ∀ (fuel : Nat) (c : Clock) (st : Sim K),
      simLoop o M A nF V N plan draws fuel c (st.withCache cache) =
        (simLoop o M A nF V N plan draws fuel c st).map (Except.map fun st => st.withCache cache) := by
  intro fuel
  induction fuel with
  | zero => intro c st; rfl
  | succ fuel ih =>
    intro c st
    unfold simLoop
    by_cases ht : c.total < (plan.map List.sum).sum
    · rw [if_pos ht, if_pos ht]
      cases hp : c.planned plan with
      | error e => rfl
      | ok k =>
        dsimp only
        by_cases hk : 0 < k
        · rw [if_pos hk, if_pos hk, simMove_uncached ho]
          rcases hm : simMove o M A nF V N c.actor (draws c.total) st with e | ⟨s1, _ | _⟩
          · rfl
          · exact ih _ s1
          · rfl
        · rw [if_neg hk, if_neg hk]
          exact ih _ st
    · rw [if_neg ht, if_neg ht]; rfl

/-- Without caching the cache is irrelevant. -/
theorem runLoop_uncached (ho : o.caching = false) {draws : Nat → Nat → Draw K} {nodes : Nat → Int} {fuel : Nat}
    {base : Nat → Nat → K} :
    ∀ (k i : Nat) (s s' : Search K), s'.shown = s.shown →
      (runLoop o M A nF plan draws fuel k i base nodes s).2.2.map (Except.map Search.shown) =
      (runLoop o M A nF plan draws fuel k i base nodes s').2.2.map (Except.map Search.shown) := by
  intro k
  induction k with
  | zero =>
    intro i s s' h
    show some (Except.ok s.shown) = some (Except.ok s'.shown)
    rw [h]
  | succ k ih =>
    intro i s s' h
    obtain ⟨hV, h⟩ := Prod.mk.inj h
    obtain ⟨hN, h⟩ := Prod.mk.inj h
    obtain ⟨hv, hoo⟩ := Prod.mk.inj h
    have hit : ∀ (s : Search K),
        mctsIteration o M A nF base nodes s.V s.N plan s.cache (draws i) fuel =
        (base, nodes, simLoop o M A nF s.V s.N plan (draws i) fuel .start (Sim.start nodes base s.cache)) :=
      fun _ => rfl
    unfold runLoop
    rw [hit, hit, hV, hN]
    rw [show Sim.start nodes base s'.cache = (Sim.start nodes base s.cache).withCache s'.cache from rfl,
      simLoop_uncached ho]
    rcases hl : simLoop o M A nF s.V s.N plan (draws i) fuel .start (Sim.start nodes base s.cache) with
      _ | e | st
    · rfl
    · rfl
    · refine ih (i + 1) _ _ ?_
      unfold Search.shown Sim.withCache
      dsimp only
      rw [hv, hoo]

/-- Under the conditions of caching being harmless the entries stay right. -/
theorem runLoop_cacheOk {base : Nat → Nat → K} {draws : Nat → Nat → Draw K} {nodes : Nat → Int} {fuel : Nat}
    (havoid : ∀ a, a ≠ 0 → ∀ f ∈ preferences A nF a, f ∉ A.featIdx)
    (hone : ∀ a, (npWhere nF (A.consumesFeatures a)).length ≤ 1) :
    ∀ (k i : Nat) (s s1 : Search K), CacheOk o M A nF base s.cache →
      (runLoop { o with caching := true } M A nF plan draws fuel k i base nodes s).2.2 = some (.ok s1) →
      CacheOk o M A nF base s1.cache := by
  intro k
  induction k with
  | zero =>
    intro i s s1 h h1
    cases h1
    exact h
  | succ k ih =>
    intro i s s1 hcache h1
    have hit : mctsIteration { o with caching := true } M A nF base nodes s.V s.N plan s.cache (draws i) fuel =
        (base, nodes, simLoop { o with caching := true } M A nF s.V s.N plan (draws i) fuel .start
          (Sim.start nodes base s.cache)) := rfl
    unfold runLoop at h1
    rw [hit] at h1
    rcases simLoop_cached (V := s.V) (N := s.N) (plan := plan) (draws := draws i) havoid hone fuel .start
        (Sim.start nodes base s.cache) (Sim.start nodes base s.cache) ⟨rfl, rfl, rfl, rfl, rfl, rfl, rfl⟩
        (fun f _ _ s => by simp [Sim.start]) hcache with ⟨g1, -⟩ | ⟨e, g1, -⟩ | ⟨s2, s2', g1, -, -, g4⟩
    · rw [g1] at h1; cases h1
    · rw [g1] at h1; cases h1
    · rw [g1] at h1
      exact ih (i + 1) _ s1 g4 h1

/-- The conditions on a cache concern the opponents' rewards and the features they care about. -/
theorem CacheOk.transfer {A' : SimAgents K} {base base' : Nat → Nat → K} {cache : QCache K}
    (h : CacheOk o M A nF base cache) (hr : ∀ a, a ≠ 0 → A'.rewards a = A.rewards a)
    (hb : ∀ a, a ≠ 0 → ∀ f ∈ preferences A nF a, ∀ s, base' f s = base f s) : CacheOk o M A' nF base' cache := by
  intro a key q ha hq rec features hk hf s d
  have hp : preferences A' nF a = preferences A nF a := by unfold preferences; rw [hr a ha]
  rw [hp] at hk hf
  rw [hr a ha]
  refine h a key q ha hq rec features hk (fun f hmem s => ?_) s d
  rw [hf f hmem s, hb a ha f hmem s]

end MaMDP
