import Verif.Lemmas.MCTS
import Verif.Props.EnvironmentSteps

/-! # Monte Carlo tree search, single parts: C57, C58, C59, C61, C63, C65 -/

set_option linter.unusedSectionVars false

namespace MaMDP

variable {K : Type} [Field K] [LinearOrder K] [IsStrictOrderedRing K] {δ : Type}
variable {kind : GridKind} {W H : Nat} {selfT : Bool} {m m' : Mdp K} {specs : List (AgentSpec K δ)}
  {e0 : Env K δ}

/-- Settings for the examples: interactive, opponents solve the MDP with a few sweeps. The exploration bonus is a
rational one; the examples end before two tried successors are compared. -/
def exOpts : MctsOpts Rat :=
  { interactive := true, C := 1, caughtCost := -50, policy := .solve, algorithm := .valueIteration, selection := .max
    temperature := 1, caching := false, returnOthers := true, viMaxIter := 3, viDiscount := 1/2, viTol := 1/100
    bonus := fun n _ => if n = 0 then none else some 0, soft := fun _ _ _ _ => .nan }

/-! ## C57 choosing the next node -/

/-- While expanding with an untried successor, an untried successor is returned and expansion stops; every untried
successor is the result of some draw. -/
theorem C57_unvisited (bonus : Nat → Nat → Option K) (V : Nat → K) (N : Nat → Nat) (states : List Nat) (C : K)
    (node : Nat) (h : ∃ t ∈ states, N t = 0) :
    (∀ d, ∃ t ∈ states, N t = 0 ∧ nextNode bonus true V N states C node d = .ok (t, false)) ∧
    (∀ t ∈ states, N t = 0 → ∃ d, nextNode bonus true V N states C node d = .ok (t, false)) := by
  have hc : ((true = true) ∧ states.any (fun s => decide (N s = 0)) = true) := by
    obtain ⟨t, h1, h2⟩ := h
    exact ⟨rfl, List.any_eq_true.2 ⟨t, h1, by simpa using h2⟩⟩
  have hn : ∀ d, nextNode bonus true V N states C node d =
      match rngChoice (states.filter fun s => decide (N s = 0)) d with
      | .error e => .error e
      | .ok t => .ok (t, false) := by
    intro d
    unfold nextNode
    rw [if_pos hc]
    rfl
  constructor
  · intro d
    have hne : states.filter (fun s => decide (N s = 0)) ≠ [] := by
      obtain ⟨t, h1, h2⟩ := h
      exact List.ne_nil_of_mem (List.mem_filter.2 ⟨h1, by simpa using h2⟩)
    obtain ⟨t, h1, h2⟩ := rngChoice_ok hne d
    rw [List.mem_filter] at h1
    exact ⟨t, h1.1, by simpa using h1.2, by rw [hn, h2]⟩
  · intro t h1 h2
    obtain ⟨d, hd⟩ := rngChoice_surj (List.mem_filter.2 ⟨h1, by simpa using h2⟩ :
      t ∈ states.filter fun s => decide (N s = 0))
    exact ⟨d, by rw [hn, hd]⟩

/-- After expansion any successor is chosen, each by some draw, and expansion stays off. -/
theorem C57_simulate (bonus : Nat → Nat → Option K) (V : Nat → K) (N : Nat → Nat) (states : List Nat) (C : K)
    (node : Nat) (h : states ≠ []) :
    (∀ d, ∃ t ∈ states, nextNode bonus false V N states C node d = .ok (t, false)) ∧
    (∀ t ∈ states, ∃ d, nextNode bonus false V N states C node d = .ok (t, false)) := by
  have hn : ∀ d, nextNode bonus false V N states C node d = match rngChoice states d with
      | .error e => .error e
      | .ok t => .ok (t, false) := by
    intro d
    unfold nextNode
    rw [if_neg (by simp), if_neg (by simp)]
    rfl
  constructor
  · intro d
    obtain ⟨t, h1, h2⟩ := rngChoice_ok h d
    exact ⟨t, h1, by rw [hn, h2]⟩
  · intro t ht
    obtain ⟨d, hd⟩ := rngChoice_surj ht
    exact ⟨d, by rw [hn, hd]⟩

theorem nextNode_ucb (bonus : Nat → Nat → Option K) (V : Nat → K) (N : Nat → Nat) (states : List Nat) (C : K)
    (node d : Nat) (h : ∀ t ∈ states, N t ≠ 0) :
    nextNode bonus true V N states C node d =
      match states[argmaxNan states.length fun i => ucb bonus V N C node (states.getD i 0)]? with
      | none => .error .valueError
      | some t => .ok (t, true) := by
  have hc : ¬ ((true = true) ∧ states.any (fun s => decide (N s = 0)) = true) := by
    rintro ⟨-, h1⟩
    rw [List.any_eq_true] at h1
    obtain ⟨t, h2, h3⟩ := h1
    exact h t h2 (by simpa using h3)
  unfold nextNode
  rw [if_neg hc, if_pos rfl]
  rfl

/-- While expanding with all successors tried, from a node that was itself visited: a successor with the largest upper
confidence bound. Missing from the full claim: the node may be unvisited, see `C57_refuted`. -/
theorem C57_partial (V : Nat → ℝ) (N : Nat → Nat) (states : List Nat) (C : ℝ) (node d : Nat) (hne : states ≠ [])
    (h : ∀ t ∈ states, N t ≠ 0) (hnode : N node ≠ 0) :
    ∃ t ∈ states, nextNode ucbBonus true V N states C node d = .ok (t, true) ∧
      ∀ s ∈ states, Spec.upper V N C node s ≤ Spec.upper V N C node t := by
  have hu : ∀ i, i < states.length → ucb ucbBonus V N C node (states.getD i 0) =
      some (Spec.upper V N C node (states.getD i 0)) := by
    intro i _
    unfold ucb ucbBonus Spec.upper
    rw [if_neg hnode]
    rfl
  have hl : 0 < states.length := List.length_pos_iff.2 hne
  rw [nextNode_ucb _ _ _ _ _ _ _ h, argmaxNan_some _ _ hu]
  set k := npArgmax states.length fun i => Spec.upper V N C node (states.getD i 0) with hk
  have hkl : k < states.length := npArgmax_lt _ hl
  refine ⟨states[k], List.getElem_mem hkl, by rw [List.getElem?_eq_getElem hkl], fun s hs => ?_⟩
  obtain ⟨i, hi, rfl⟩ := List.getElem_of_mem hs
  have := le_npArgmax (fun i => Spec.upper V N C node (states.getD i 0)) hi
  rw [← hk] at this
  simpa [List.getD_eq_getElem?_getD, List.getElem?_eq_getElem hi, List.getElem?_eq_getElem hkl] using this

/-- With two visited successors of a visited node the better one is taken. -/
example : nextNode ucbBonus true (fun s => if s = 5 then 4 else 0) (fun _ => 1) [3, 5] 1 2 0 = .ok (5, true) := by
  obtain ⟨t, h1, h2, h3⟩ := C57_partial (fun s => if s = 5 then 4 else 0) (fun _ => 1) [3, 5] 1 2 0 (by simp)
    (by simp) (by simp)
  rw [h2]
  have h5 := h3 5 (by simp)
  have : t = 5 := by
    simp only [List.mem_cons, List.not_mem_nil, or_false] at h1
    rcases h1 with rfl | rfl
    · norm_num [Spec.upper] at h5
    · rfl
  rw [this]

/-- A successor is returned whenever there is one; without successors `ValueError` is raised. -/
theorem C57_member (bonus : Nat → Nat → Option K) (expand : Bool) (V : Nat → K) (N : Nat → Nat) (states : List Nat)
    (C : K) (node d : Nat) :
    (states ≠ [] → ∃ t ∈ states, ∃ x, nextNode bonus expand V N states C node d = .ok (t, x) ∧ (x = true → expand = true)) ∧
    (states = [] → nextNode bonus expand V N states C node d = .error .valueError) := by
  constructor
  · intro hne
    cases expand with
    | false =>
      obtain ⟨t, h1, h2⟩ := (C57_simulate bonus V N states C node hne).1 d
      exact ⟨t, h1, false, h2, by simp⟩
    | true =>
      by_cases h : ∃ t ∈ states, N t = 0
      · obtain ⟨t, h1, -, h2⟩ := (C57_unvisited bonus V N states C node h).1 d
        exact ⟨t, h1, false, h2, by simp⟩
      · push Not at h
        rw [nextNode_ucb _ _ _ _ _ _ _ h]
        have hl : 0 < states.length := List.length_pos_iff.2 hne
        have := argmaxNan_lt (fun i => ucb bonus V N C node (states.getD i 0)) hl
        rw [List.getElem?_eq_getElem this]
        exact ⟨_, List.getElem_mem this, true, rfl, by simp⟩
  · rintro rfl
    cases expand with
    | false => unfold nextNode; simp [rngChoice_nil]
    | true => rw [nextNode_ucb _ _ _ _ _ _ _ (by simp)]; rfl

/-- The claim fails at a node that was never visited, such as the position of the agent until the search first comes
back to it: the logarithm of 0 makes every bound NaN, and the first successor is taken whatever the values are. -/
theorem C57_refuted (V : Nat → ℝ) (N : Nat → Nat) (t : Nat) (rest : List Nat) (C : ℝ) (node d : Nat)
    (h : ∀ s ∈ t :: rest, N s ≠ 0) (hnode : N node = 0) :
    nextNode ucbBonus true V N (t :: rest) C node d = .ok (t, true) := by
  have hu : ucb ucbBonus V N C node ((t :: rest).getD 0 0) = none := by
    unfold ucb ucbBonus
    rw [if_pos hnode]
    rfl
  rw [nextNode_ucb _ _ _ _ _ _ _ h, argmaxNan_none _ (by simp) hu]
  rfl

/-- Two successors, visited equally often, one with average 2 and the other with average 0: the worse is chosen. -/
example : nextNode ucbBonus true (fun s => if s = 5 then 4 else 0) (fun s => if s = 2 then 0 else 1) [3, 5] 1 2 0 =
    .ok (3, true) :=
  C57_refuted _ _ 3 [5] 1 2 0 (by simp) (by simp)

/-! ## C58 bookkeeping, C61 the caller's arrays -/

/-- One run of the loop, continuing earlier iterations `outs`. -/
theorem runLoop_spec (o : MctsOpts K) (M : Trans K) (A : SimAgents K) (nF : Nat) (plan : List (List Nat))
    (draws : Nat → Nat → Draw K) (fuel : Nat) (features : Nat → Nat → K) (nodes : Nat → Int) :
    ∀ (k i : Nat) (s : Search K) (outs : List (K × List Nat)), outs.length = i →
      s.V = Spec.valueOf outs → s.N = Spec.visitsOf outs → s.visited = outs.map (·.2) →
      (∀ j, j < i → ∃ cache st,
        (mctsIteration o M A nF features nodes (Spec.valueOf (outs.take j)) (Spec.visitsOf (outs.take j)) plan cache
          (draws j) fuel).2.2 = some (.ok st) ∧ outs[j]? = some (st.acc, st.visited)) →
      (runLoop o M A nF plan draws fuel k i features nodes s).1 = features ∧
      (runLoop o M A nF plan draws fuel k i features nodes s).2.1 = nodes ∧
      ∀ s', (runLoop o M A nF plan draws fuel k i features nodes s).2.2 = some (.ok s') →
        ∃ outs' : List (K × List Nat), outs'.length = i + k ∧
          s'.V = Spec.valueOf outs' ∧ s'.N = Spec.visitsOf outs' ∧ s'.visited = outs'.map (·.2) ∧
          ∀ j, j < i + k → ∃ cache st,
            (mctsIteration o M A nF features nodes (Spec.valueOf (outs'.take j)) (Spec.visitsOf (outs'.take j)) plan
              cache (draws j) fuel).2.2 = some (.ok st) ∧ outs'[j]? = some (st.acc, st.visited) := by
  intro k
  induction k with
  | zero =>
    intro i s outs hl hV hN hv hj
    refine ⟨rfl, rfl, fun s' hs => ?_⟩
    cases hs
    exact ⟨outs, hl, hV, hN, hv, hj⟩
  | succ k ih =>
    intro i s outs hl hV hN hv hj
    have hit : mctsIteration o M A nF features nodes s.V s.N plan s.cache (draws i) fuel =
      (features, nodes, (mctsIteration o M A nF features nodes s.V s.N plan s.cache (draws i) fuel).2.2) := rfl
    unfold runLoop
    rw [hit]
    cases hr : (mctsIteration o M A nF features nodes s.V s.N plan s.cache (draws i) fuel).2.2 with
    | none => exact ⟨rfl, rfl, fun s' hs => by cases hs⟩
    | some r => cases r with
      | error e => exact ⟨rfl, rfl, fun s' hs => by cases hs⟩
      | ok st =>
        have := ih (i + 1) ⟨(backprop st.acc st.visited (s.V, s.N)).1, (backprop st.acc st.visited (s.V, s.N)).2,
          st.cache, s.visited ++ [st.visited], s.others ++ [st.others]⟩ (outs ++ [(st.acc, st.visited)])
          (by simp [hl])
          (by funext t
              show (backprop st.acc st.visited (s.V, s.N)).1 t = _
              rw [(backprop_eq st.acc st.visited s.V s.N t).1, hV]
              simp [Spec.valueOf])
          (by funext t
              show (backprop st.acc st.visited (s.V, s.N)).2 t = _
              rw [(backprop_eq st.acc st.visited s.V s.N t).2, hN]
              simp [Spec.visitsOf])
          (by simp [hv])
          (by intro j hji
              by_cases hjl : j < i
              · obtain ⟨c, st', h1, h2⟩ := hj j hjl
                refine ⟨c, st', ?_, ?_⟩
                · rw [List.take_append_of_le_length (by omega)]; exact h1
                · rw [List.getElem?_append_left (by omega)]; exact h2
              · have : j = i := by omega
                subst this
                refine ⟨s.cache, st, ?_, ?_⟩
                · rw [List.take_append_of_le_length (by omega), ← hl, List.take_length, ← hV, ← hN, hl]; exact hr
                · rw [← hl]; simp)
        obtain ⟨g1, g2, g3⟩ := this
        refine ⟨g1, g2, fun s' hs => ?_⟩
        obtain ⟨outs', g4⟩ := g3 s' hs
        rw [show i + 1 + k = i + (k + 1) by omega] at g4
        exact ⟨outs', g4⟩

/-- If the search ends normally there is a list of iterations, each with its return and the states the primary agent
visited, such that the visit counts and values are those of the list. Iteration number `i` is a simulated iteration on
the tables of the ones before it, from the original features and positions. -/
theorem C58_tables (o : MctsOpts K) (M : Trans K) (A : SimAgents K) (nF nIter : Nat) (features : Nat → Nat → K)
    (plan : List (List Nat)) (cache : QCache K) (draws : Nat → Nat → Draw K) (fuel : Nat) (s : Search K)
    (h : (runMcts o M A nF nIter features (some plan) cache draws fuel).2.2 = some (.ok s)) :
    ∃ outs : List (K × List Nat), outs.length = nIter ∧
      s.N = Spec.visitsOf outs ∧ s.V = Spec.valueOf outs ∧ s.visited = outs.map (·.2) ∧
      (∀ t, s.N t = 0 → s.V t = 0) ∧
      ∀ i, i < nIter → ∃ cache st,
        (mctsIteration o M A nF features A.nodes (Spec.valueOf (outs.take i)) (Spec.visitsOf (outs.take i)) plan cache
          (draws i) fuel).2.2 = some (.ok st) ∧ outs[i]? = some (st.acc, st.visited) := by
  have := (runLoop_spec o M A nF plan draws fuel features A.nodes nIter 0 (Search.fresh cache) [] rfl
    (by funext t; simp [Spec.valueOf, Search.fresh]) (by funext t; simp [Spec.visitsOf, Search.fresh]) rfl
    (by simp)).2.2 s h
  obtain ⟨outs, h1, h2, h3, h4, h5⟩ := this
  rw [Nat.zero_add] at h1 h5
  refine ⟨outs, h1, h3, h2, h4, fun t ht => ?_, h5⟩
  rw [h3] at ht
  rw [h2]
  unfold Spec.visitsOf at ht
  unfold Spec.valueOf
  rw [List.sum_eq_zero_iff] at ht
  apply List.sum_eq_zero
  intro x hx
  obtain ⟨y, hy, rfl⟩ := List.mem_map.1 hx
  rw [ht _ (List.mem_map.2 ⟨y, hy, rfl⟩)]
  simp

/-- Neither an iteration nor the whole search changes the feature array or the starting positions it was given, however
it ends. (`C58_tables` says that all iterations start from them.) -/
theorem C61_untouched (o : MctsOpts K) (M : Trans K) (A : SimAgents K) (nF nIter : Nat) (features : Nat → Nat → K)
    (nodes : Nat → Int) (V : Nat → K) (N : Nat → Nat) (plan : List (List Nat)) (plan' : Option (List (List Nat)))
    (cache : QCache K) (draw : Nat → Draw K) (draws : Nat → Nat → Draw K) (fuel : Nat) :
    (mctsIteration o M A nF features nodes V N plan cache draw fuel).1 = features ∧
    (mctsIteration o M A nF features nodes V N plan cache draw fuel).2.1 = nodes ∧
    (runMcts o M A nF nIter features plan' cache draws fuel).1 = features ∧
    (runMcts o M A nF nIter features plan' cache draws fuel).2.1 = A.nodes := by
  refine ⟨rfl, rfl, ?_, ?_⟩
  all_goals
    cases plan' with
    | none => rfl
    | some plan =>
      have := runLoop_spec o M A nF plan draws fuel features A.nodes nIter 0 (Search.fresh cache) [] rfl
        (by funext t; simp [Spec.valueOf, Search.fresh]) (by funext t; simp [Spec.visitsOf, Search.fresh]) rfl
        (by simp)
      first | exact this.1 | exact this.2.1

/-! ## C59 who is eaten -/

/-- Nobody eats the primary agent: it is not caught, receives the values of the agents it eats, and the eaten agents
become inactive. -/
theorem C59_free (n : Nat) (hn : 0 < n) (consumes : Nat → Nat → Bool) (nodes : Nat → Int) (cost : K)
    (active : Nat → Bool) (values : Nat → K) (h : ∀ i, i < n → ¬ Spec.Eats consumes nodes i 0) :
    (checkOverlap n consumes nodes cost active values).2.2 = false ∧
    (checkOverlap n consumes nodes cost active values).1 =
      ∑ j ∈ (Finset.range n).filter (fun j => Spec.Eats consumes nodes 0 j), values j ∧
    ∀ j, j < n → ((checkOverlap n consumes nodes cost active values).2.1 j = true ↔
      active j = true ∧ ¬ ∃ i, i < n ∧ Spec.Eats consumes nodes i j) := by
  have hpre : ∀ p ∈ agentPairs n consumes, nodes p.1 = nodes p.2 → p.2 ≠ 0 := by
    rintro ⟨i, j⟩ hp hij rfl
    obtain ⟨h1, -, h3⟩ := mem_agentPairs.1 hp
    exact h i h1 ⟨h3, hij⟩
  have hrun := overlap_append nodes cost values [] (agentPairs n consumes) 0 active hpre
  rw [List.append_nil] at hrun
  unfold checkOverlap
  rw [hrun]
  obtain ⟨k, rfl⟩ : ∃ k, n = k + 1 := ⟨n - 1, by omega⟩
  refine ⟨rfl, ?_, fun j hj => ?_⟩
  · rw [← overlap_sum k (k + 1) consumes nodes values]
    simp [overlapLoop, agentPairs]
  · have := overlap_any (k + 1) (k + 1) j hj consumes nodes
    show (active j && !(_ : Bool)) = true ↔ _
    rw [Bool.and_eq_true, Bool.not_eq_true', ← Bool.not_eq_true]
    unfold agentPairs
    rw [this]

/-- Some agent eats the primary agent; `i` is the first: it is caught and the cost is added. Agents are eaten by
consumers before `i` only; in particular the primary agent is paid for what it eats unless it eats itself. -/
theorem C59_caught (n : Nat) (consumes : Nat → Nat → Bool) (nodes : Nat → Int) (cost : K)
    (active : Nat → Bool) (values : Nat → K) (i : Nat) (hi : i < n) (he : Spec.Eats consumes nodes i 0)
    (hfirst : ∀ k, k < i → ¬ Spec.Eats consumes nodes k 0) :
    (checkOverlap n consumes nodes cost active values).2.2 = true ∧
    (checkOverlap n consumes nodes cost active values).1 = cost + (if i = 0 then 0 else
      ∑ j ∈ (Finset.range n).filter (fun j => Spec.Eats consumes nodes 0 j), values j) ∧
    ∀ j, j < n → ((checkOverlap n consumes nodes cost active values).2.1 j = true ↔
      active j = true ∧ j ≠ 0 ∧ ¬ ∃ k, k < i ∧ Spec.Eats consumes nodes k j) := by
  obtain ⟨r, hr⟩ : ∃ r, n = i + 1 + r := ⟨n - (i + 1), by omega⟩
  obtain ⟨l, hl⟩ := npWhere_zero (n := n) (by omega) (p := consumes i) he.1
  have hpairs : agentPairs n consumes =
      ((List.range i).flatMap fun i => (npWhere n (consumes i)).map fun j => (i, j)) ++
        ((i, 0) :: (l.map fun j => (i, j)) ++
          ((List.range r).map (i + 1 + ·)).flatMap fun i => (npWhere n (consumes i)).map fun j => (i, j)) := by
    unfold agentPairs
    rw [show List.range n = List.range i ++ ([i] ++ (List.range r).map (i + 1 + ·)) by
      rw [hr, List.range_add, List.range_succ, List.append_assoc]]
    rw [List.flatMap_append, List.flatMap_append, List.flatMap_singleton, hl]
    rfl
  have hpre : ∀ p ∈ ((List.range i).flatMap fun i => (npWhere n (consumes i)).map fun j => (i, j)),
      nodes p.1 = nodes p.2 → p.2 ≠ 0 := by
    rintro p hp hij h0
    simp only [List.mem_flatMap, List.mem_range, List.mem_map, mem_npWhere] at hp
    obtain ⟨a, h1, j, ⟨-, h2⟩, rfl⟩ := hp
    simp only at h0 hij
    subst h0
    exact hfirst a h1 ⟨h2, hij⟩
  unfold checkOverlap
  rw [hpairs, overlap_append nodes cost values _ _ 0 active hpre]
  have hstep : ∀ added act, overlapLoop nodes cost values ((i, 0) :: (l.map fun j => (i, j)) ++
      ((List.range r).map (i + 1 + ·)).flatMap fun i => (npWhere n (consumes i)).map fun j => (i, j)) added act =
      (added + cost, upd1 act 0 false, true) := by
    intro added act
    rw [List.cons_append]
    unfold overlapLoop
    rw [if_pos he.2, if_pos rfl]
  rw [hstep]
  refine ⟨rfl, ?_, fun j hj => ?_⟩
  · show 0 + _ + cost = _
    rw [zero_add, add_comm]
    congr 1
    by_cases hi0 : i = 0
    · rw [if_pos hi0]; subst hi0; simp
    · rw [if_neg hi0]
      obtain ⟨k, rfl⟩ : ∃ k, i = k + 1 := ⟨i - 1, by omega⟩
      exact overlap_sum k n consumes nodes values
  · dsimp only
    unfold upd1
    by_cases hj0 : j = 0
    · simp [hj0]
    · rw [if_neg hj0, Bool.and_eq_true, Bool.not_eq_true', ← Bool.not_eq_true, overlap_any i n j hj]
      simp [hj0]

/-- Caught exactly when some agent that consumes the primary agent shares its state. -/
theorem C59_caught_iff (n : Nat) (hn : 0 < n) (consumes : Nat → Nat → Bool) (nodes : Nat → Int) (cost : K)
    (active : Nat → Bool) (values : Nat → K) :
    (checkOverlap n consumes nodes cost active values).2.2 = true ↔
      ∃ i, i < n ∧ consumes i 0 = true ∧ nodes i = nodes 0 := by
  by_cases h : ∃ i, i < n ∧ Spec.Eats consumes nodes i 0
  · obtain ⟨h1, h2⟩ := Nat.find_spec h
    have h3 : ∀ k, k < Nat.find h → ¬ Spec.Eats consumes nodes k 0 := fun k hk he =>
      Nat.find_min h hk ⟨by omega, he⟩
    exact ⟨fun _ => h, fun _ => (C59_caught n consumes nodes cost active values _ h1 h2 h3).1⟩
  · have h' : ∀ i, i < n → ¬ Spec.Eats consumes nodes i 0 := fun i hi he => h ⟨i, hi, he⟩
    rw [(C59_free n hn consumes nodes cost active values h').1]
    exact ⟨fun hc => absurd hc (by simp), fun hc => absurd hc h⟩

/-- Three agents: 0 eats 2, 1 eats 0, all on state 4. The primary agent gets 10 for agent 2 and is then caught. -/
example : (checkOverlap 3 (fun i j => (i, j) == (0, 2) || (i, j) == (1, 0)) (fun _ => 4) (-50 : Rat) (fun _ => true)
    (fun j => if j = 2 then 10 else 0)).1 = -40 := by
  rw [(C59_caught 3 _ (fun _ => 4) (-50 : Rat) (fun _ => true) _ 1 (by norm_num) (by decide) (by decide)).2.1]
  decide +kernel

/-! ## C65 what planning knows about the agents -/

/-- For the primary agent followed by its opponents, with rewards of one length and consumption lists that denote
features: values, consumption relations, positions and feature rows. -/
theorem C65_relations (p : AgentInfo K) (os : List (AgentInfo K)) (nF : Nat)
    (hlen : ∀ i ∈ p :: os, i.reward.d0 = nF) (hrow : ∀ i ∈ p :: os, i.featIdx < nF)
    (hcons : ∀ i ∈ p :: os, ∀ f ∈ i.consumes, ∃ x, pyIdx nF f = some x)
    (hdup : ((p :: os).map (·.featIdx)).Nodup) :
    ∃ A, extractInfo (p :: os) = .ok A ∧ A.n = os.length + 1 ∧ A.featIdx = (p :: os).map (·.featIdx) ∧
      ∀ a i, (p :: os)[a]? = some i →
        A.nodes a = i.position ∧ A.rewards a = i.reward.get ∧
        A.values a = (if a = 0 then 0 else p.reward.get i.featIdx) ∧
        (∀ f, A.consumesFeatures a f = true ↔ ∃ x ∈ i.consumes, pyIdx nF x = some f) ∧
        ∀ b j, (p :: os)[b]? = some j →
          (A.consumesAgents a b = true ↔ ∃ x ∈ i.consumes, pyIdx nF x = some j.featIdx) := by
  have hp := hlen p List.mem_cons_self
  obtain ⟨rows, h1, h2, h3⟩ := rows_ok (p :: os) fun i hi f hf => by rw [hlen i hi]; exact hcons i hi f hf
  have hsame : ((p :: os).any fun i => decide (i.reward.d0 ≠ p.reward.d0)) = false := by
    rw [List.any_eq_false]
    intro i hi
    rw [hlen i hi, hp]; simp
  have hr : ((p :: os).tail.any fun i => decide (p.reward.d0 ≤ i.featIdx)) = false := by
    rw [List.any_eq_false]
    intro i hi
    have := hrow i (List.mem_cons_of_mem _ hi)
    rw [hp]; simpa using this
  refine ⟨_, by unfold extractInfo; rw [h1]; simp only []; rw [if_neg (by rw [hsame]; simp), if_neg (by rw [hr]; simp)],
    rfl, ?_, ?_⟩
  · rw [agentIdx_eq hdup, List.map_map]
    show ((p :: os).zipIdx.map fun x => x.1.featIdx) = _
    conv_rhs => rw [← List.zipIdx_map_fst 0 (p :: os), List.map_map]
    rfl
  · intro a i hi
    have hla : a < (p :: os).length := (List.getElem?_eq_some_iff.1 hi).1
    have hmem := List.mem_of_getElem? hi
    refine ⟨by simp only [hi]; rfl, by simp only [hi]; rfl, ?_, ?_, ?_⟩
    · show agentValues _ _ _ _ = _
      rw [agentValues_spec hdup, hi]
      simp only [if_pos hla]
    · intro f
      rw [← hlen i hmem]
      exact h3 a i hi f
    · intro b j hj
      show agentConsumes _ _ _ _ a b = true ↔ _
      rw [agentConsumes_spec]
      constructor
      · rintro ⟨-, f, -, g1, g2⟩
        obtain ⟨j', hj', rfl⟩ := (rowGet_agentIdx hdup).1 g2
        rw [hj] at hj'; cases hj'
        rw [← hlen i hmem]
        exact (h3 a i hi _).1 g1
      · rintro ⟨x, g1, g2⟩
        refine ⟨hla, j.featIdx, ?_, ?_, (rowGet_agentIdx hdup).2 ⟨j, hj, rfl⟩⟩
        · rw [hp]; exact hrow j (List.mem_of_getElem? hj)
        · exact (h3 a i hi _).2 ⟨x, g1, by rw [hlen i hmem]; exact g2⟩

/-- A consumption list with an index that denotes no feature makes planning fail. -/
theorem C65_bad_index (l : List (AgentInfo K)) (h : ∃ a ∈ l, ∃ f ∈ a.consumes, pyIdx a.reward.d0 f = none) :
    extractInfo l = .error .indexError := by
  unfold extractInfo
  rw [rows_error l h]

/-- A hunter worth nothing to itself, and a hare worth 10 that the hunter consumes. -/
example : ∃ A : SimAgents Rat, extractInfo [⟨0, 1, [2], ⟨3, fun f => if f = 2 then 10 else 0⟩, 1⟩,
      ⟨3, 1, [0], ⟨3, fun _ => 1⟩, 2⟩] = .ok A ∧ A.values 1 = 10 ∧ A.values 0 = 0 ∧ A.consumesAgents 0 1 = true ∧
      A.consumesAgents 1 0 = false := by
  refine ⟨_, rfl, ?_⟩
  decide +kernel

/-- In an environment, after any operations: the agents handed to the search meet the conditions of `C65_relations`. -/
theorem C65_env (hm : Mdp.GridReach kind W H selfT m) (hinit : Env.init m specs = (m', .ok e0))
    (hrows : m.nNonAgent = m.features.d0 - m.nAgents)
    (hcons : ∀ sp ∈ specs, ∀ f ∈ sp.consumes, -((m.features.d0 - m.nAgents + specs.length : Nat) : Int) ≤ f)
    (ops : List (EnvOp K δ)) (e : Env K δ) (he : e = e0.run ops)
    (a : Agent K δ) (ha : a ∈ e.agents) (interactive : Bool) (w : Arr1 K) (hw : w.d0 = e.mdp.features.d0) :
    ∃ os, e.agentInfos a interactive w = ⟨a.position, a.nMoves, a.consumes, w, a.featIdx⟩ :: os ∧
      (∀ i ∈ e.agentInfos a interactive w, i.reward.d0 = w.d0) ∧
      (∀ i ∈ e.agentInfos a interactive w, i.featIdx < w.d0) ∧
      (∀ i ∈ e.agentInfos a interactive w, ∀ f ∈ i.consumes, ∃ x, pyIdx w.d0 f = some x) ∧
      ((e.agentInfos a interactive w).map (·.featIdx)).Nodup := by
  obtain ⟨-, hok0, -, -, -, -, hd, -, -, -, -, -, -, -, -, hag⟩ := Env.init_facts hm hinit
  obtain ⟨hok, hl⟩ := Env.started hm hinit ops
  rw [← he] at hok hl
  have hc := (Env.validConsumes_init hm hinit hcons).later hok0 hok hl
  have hfacts : ∀ b ∈ e.agents, b.featIdx = b.idx + m.nNonAgent ∧ b.featIdx < w.d0 ∧ b.reward.d0 = w.d0 := by
    intro b' hb'
    obtain ⟨b, hb, -, g1, -, -, g2, -, g3, -⟩ := hl.back hok0 hok hb'
    rw [g1, g2, g3]
    obtain ⟨i, sp, q, r, h1, -, -, rfl⟩ := hag b hb
    have hi : i < specs.length := (List.getElem?_eq_some_iff.1 h1).1
    refine ⟨rfl, ?_, ?_⟩
    · show i + m.nNonAgent < w.d0
      rw [hw, hl.d0, hd, hrows]; omega
    · rw [hw, hl.d0, hd]; rfl
  have hall : ∀ i ∈ e.agentInfos a interactive w, ∃ b ∈ e.agents, i.featIdx = b.featIdx ∧ i.consumes = b.consumes ∧
      i.reward.d0 = w.d0 := by
    intro i hi
    unfold Env.agentInfos at hi
    rcases List.mem_cons.1 hi with rfl | hi
    · exact ⟨a, ha, rfl, rfl, rfl⟩
    · cases interactive with
      | false => simp at hi
      | true =>
        simp only [if_true, List.mem_map, List.mem_filter] at hi
        obtain ⟨b, ⟨hb, -⟩, rfl⟩ := hi
        exact ⟨b, hb, rfl, rfl, (hfacts b hb).2.2⟩
  refine ⟨_, rfl, fun i hi => (hall i hi).choose_spec.2.2.2, fun i hi => ?_, fun i hi f hf => ?_, ?_⟩
  · obtain ⟨b, hb, h1, -⟩ := hall i hi
    rw [h1]; exact (hfacts b hb).2.1
  · obtain ⟨b, hb, -, h2, -⟩ := hall i hi
    rw [h2] at hf
    rw [hw]
    exact hc b hb f hf
  · unfold Env.agentInfos
    have hnd : (e.agents.map (·.featIdx)).Nodup := by
      have : e.agents.map (·.featIdx) = (e.agents.map (·.idx)).map (· + m.nNonAgent) := by
        rw [List.map_map]
        exact List.map_congr_left fun b hb => (hfacts b hb).1
      rw [this]
      exact hok.idxs.map fun x y h => by simpa using h
    rw [List.map_cons, List.nodup_cons]
    cases interactive with
    | false => simp
    | true =>
      simp only [if_true, List.map_map]
      constructor
      · simp only [List.mem_map, List.mem_filter, not_exists, not_and, Function.comp_apply]
        rintro b ⟨hb, hbn⟩ he
        have := List.inj_on_of_nodup_map hnd hb ha he
        subst this
        simp at hbn
      · exact ((List.filter_sublist (p := fun b : Agent K δ => decide (b.name ≠ a.name))).map _).nodup hnd

/-! ## C63 the Q table -/

/-- After a successful fit the Q table has a value exactly at the agent's state, for the actions that lead somewhere;
the value is the average return of the successor, from the search's own tables. -/
theorem C63_table (e : Env K δ) (hdet : Spec.Deterministic e.mdp.trans)
    (hsum : ∀ s x, s < e.mdp.nStates → x < e.mdp.nActions → ∑ t ∈ Finset.range e.mdp.nStates, e.mdp.sas s x t ≤ 1)
    (a : Agent K δ) (o : MctsOpts K) (nIter : Nat) (plan : Option (List (List Nat))) (cache : QCache K)
    (draws : Nat → Nat → Draw K) (fuel : Nat) (w : Arr1 K) (v q : PyArr (Ext K))
    (h : e.mctsFit a o nIter plan cache draws fuel w = some (.ok (v, q))) :
    ∃ (A : SimAgents K) (s : Search K) (here : Nat) (g : Nat → Nat → Ext K),
      extractInfo (e.agentInfos a o.interactive w) = .ok A ∧
      (runMcts o e.mdp.trans A w.d0 nIter e.mdp.features.get plan cache draws fuel).2.2 = some (.ok s) ∧
      pyIdx e.mdp.nStates a.position = some here ∧
      v = .of1 ⟨e.mdp.nStates, fun t => .fin (s.V t)⟩ ∧ q = .of2 ⟨e.mdp.nStates, e.mdp.nActions, g⟩ ∧
      (∀ s' x, s' ≠ here → g s' x = .nan) ∧
      (∀ x, x < e.mdp.nActions → ¬ Spec.Possible e.mdp.trans here x → g here x = .nan) ∧
      (∀ x t, x < e.mdp.nActions → t < e.mdp.nStates → e.mdp.sas here x t = 1 →
        g here x = .fin (s.V t / (1 + (s.N t : K)))) := by
  unfold Env.mctsFit at h
  cases hA : extractInfo (e.agentInfos a o.interactive w) with
  | error err => rw [hA] at h; cases h
  | ok A =>
    rw [hA] at h
    dsimp only at h
    cases hr : (runMcts o e.mdp.trans A w.d0 nIter e.mdp.features.get plan cache draws fuel).2.2 with
    | none => rw [hr] at h; cases h
    | some r => cases r with
      | error err => rw [hr] at h; cases h
      | ok s =>
        rw [hr] at h
        cases hp : pyIdx e.mdp.nStates a.position with
        | none => rw [hp] at h; cases h
        | some here =>
          rw [hp] at h
          have hlt := pyIdx_lt hp
          have hq := Prod.mk.inj (Except.ok.inj (Option.some.inj h))
          obtain ⟨h1, h2, h3⟩ := mctsQ_spec e.mdp.trans s.V s.N here
          refine ⟨A, s, here, _, rfl, hr, rfl, hq.1.symm, hq.2.symm, h1, fun x hx hx' => ?_, fun x t hx ht hxt => ?_⟩
          · refine h2 x fun t ht hxa => ?_
            rcases hdet here x t hlt hxa ht with h0 | h0
            · exact h0
            · exact absurd ⟨t, ht, by rw [h0]; exact one_pos⟩ hx'
          · obtain ⟨u, g1, g2, g3⟩ := h3 x hx ⟨t, ht, by show e.mdp.sas here x t ≠ 0; rw [hxt]; exact one_ne_zero⟩
            rw [g3]
            have hu1 : e.mdp.sas here x u = 1 := (hdet here x u hlt hx g1).resolve_left g2
            by_cases hut : u = t
            · rw [hut]
            · exfalso
              have hle := hsum here x hlt hx
              have : e.mdp.sas here x u + e.mdp.sas here x t ≤
                  ∑ y ∈ Finset.range e.mdp.nStates, e.mdp.sas here x y := by
                rw [← Finset.sum_pair hut]
                refine Finset.sum_le_sum_of_subset_of_nonneg ?_ fun y hy _ => ?_
                · intro y hy
                  rw [Finset.mem_insert, Finset.mem_singleton] at hy
                  rw [Finset.mem_range]
                  rcases hy with rfl | rfl
                  · exact g1
                  · exact ht
                · rcases hdet here x y hlt hx (Finset.mem_range.1 hy) with h0 | h0
                  · exact le_of_eq h0.symm
                  · exact le_of_lt (by rw [show e.mdp.sas here x y = 1 from h0]; exact one_pos)
              rw [hu1, hxt] at this
              linarith

/-- So a step that follows the fit goes to a successor of the agent's state. `out` is the fit of the search. -/
theorem C63_step (hm : Mdp.GridReach kind W H selfT m) (hinit : Env.init m specs = (m', .ok e0))
    (ops : List (EnvOp K δ)) (e : Env K δ) (he : e = e0.run ops) (a : Agent K δ) (ha : a ∈ e.agents)
    (D : δ → Prop) (hsel : Spec.Safe a.selector D)
    (o : MctsOpts K) (nIter : Nat) (plan : Option (List (List Nat))) (cache : QCache K)
    (draws : Nat → Nat → Draw K) (fuel : Nat) (out : FitOut K)
    (hout : e.mctsFit a o nIter plan cache draws fuel a.reward = some (out a.reward))
    (s : Nat) (hs : s = Spec.stateOf (W * H) a.position) (hlive : Spec.Live e.mdp.trans s)
    (d d' : Nat → δ) (hd : ∀ s, D (d' s)) (e1 e2 : Env K δ) (p : Int)
    (hfit : e.fit a.name out d = (e1, .ok ())) (hstep : e1.step a.name d' = (e2, .ok p)) :
    ∃ t : Nat, p = t ∧ Spec.Successor e.mdp.trans s t := by
  have hok : Env.Ok kind W H selfT e := by rw [he]; exact (Env.started hm hinit ops).1
  have hdetM := C27_grid kind W H selfT e.mdp hok.reach
  rcases Env.fit_cases hok a.name out d with ⟨-, h1⟩ | ⟨b, hb, hbn, h1⟩
  · rw [hfit] at h1; cases h1
  · have hba := Env.eq_of_name hok.nodup hb ha hbn
    subst hba
    rw [hfit] at h1
    obtain ⟨he1, hr⟩ := Prod.mk.inj h1
    have hsame := (Agent.fit_same b e.mdp out d).1
    have hmem : (b.fit e.mdp out d).1 ∈ e1.agents := by
      rw [he1, Env.mem_put (by rw [hsame.name]; exact List.mem_map.2 ⟨b, ha, rfl⟩)]
      exact .inl rfl
    have hrun : e1 = e0.run (ops ++ [.fit b.name out d]) := by
      rw [Env.run_append, ← he]
      show e1 = (e.fit b.name out d).1
      rw [hfit]
    have hmdp : e1.mdp = e.mdp := by rw [he1]; rfl
    -- the stored table
    have hq : ∃ q, (b.fit e.mdp out d).1.alg.qValues = some q ∧ Spec.MaskedAt e.mdp.trans q s := by
      unfold Agent.fit at hr ⊢
      unfold algFit at hr ⊢
      unfold checkReward PyArr.of1 at hr ⊢
      simp only [] at hr ⊢
      by_cases hl : b.reward.d0 = e.mdp.nFeatures
      · rw [if_pos hl] at hr ⊢
        have hw : (⟨b.reward.d0, fun i => b.reward.get ([i].getD 0 0)⟩ : Arr1 K) = b.reward := rfl
        simp only [hw] at hr ⊢
        cases ho : out b.reward with
        | error err => rw [ho] at hr; cases hr
        | ok vq =>
          obtain ⟨v, q⟩ := vq
          rw [ho] at hout hr
          rw [ho] at *
          obtain ⟨A, s1, here, g, -, -, g1, rfl, rfl, g2, g3, g4⟩ :=
            C63_table e hdetM.2.1 hdetM.1.le_one b o nIter plan cache draws fuel b.reward v q hout
          have hsh : here = s := by
            rw [hs, Env.stateOf_eq g1, hok.reach.ok.nStates]
          subst hsh
          have hlt := pyIdx_lt g1
          have hmask : Spec.MaskedAt e.mdp.trans ⟨e.mdp.nStates, e.mdp.nActions, g⟩ here := by
            refine ⟨rfl, rfl, fun x hx => ?_⟩
            by_cases hpos : Spec.Possible e.mdp.trans here x
            · obtain ⟨t, ht, h0⟩ := hpos
              have h1' : e.mdp.sas here x t = 1 :=
                (hdetM.2.1 here x t hlt hx ht).resolve_left (ne_of_gt h0)
              rw [show (⟨e.mdp.nStates, e.mdp.nActions, g⟩ : Arr2 (Ext K)).get here x = g here x from rfl,
                g4 x t hx ht h1']
              exact ⟨fun h => h.elim, fun h => absurd ⟨t, ht, h0⟩ h⟩
            · rw [show (⟨e.mdp.nStates, e.mdp.nActions, g⟩ : Arr2 (Ext K)).get here x = g here x from rfl, g3 x hx hpos]
              exact ⟨fun _ => hpos, fun _ => trivial⟩
          unfold checkOutput PyArr.of1 PyArr.of2
          simp only [ne_eq, not_true_eq_false, if_false]
          refine ⟨⟨e.mdp.nStates, e.mdp.nActions, g⟩, ?_, hmask⟩
          rw [(Agent.getPolicy_same _ d).2.2]
          rfl
      · rw [if_neg hl] at hr; cases hr
    obtain ⟨q, hq1, hq2⟩ := hq
    have := C39_any_selector hm hinit _ e1 hrun _ hmem D (by rw [hsame.selector]; exact hsel) q hq1 s
      (by rw [hsame.position]; exact hs) (by rw [hmdp]; exact hq2) (by rw [hmdp]; exact hlive) d' hd e2 p
      (by rw [hsame.name]; exact hstep)
    obtain ⟨t, h2, h3, -⟩ := this
    rw [hmdp] at h3
    exact ⟨t, h2, h3⟩

/-- The fox plans two of its own moves and two of the hen's, twice, and then steps up the corridor. -/
def exMctsFit (e : Env Rat Nat) : FitOut Rat := fun w => match e.agents.head? with
  | none => .error .valueError
  | some a => match e.mctsFit a exOpts 2 (some [[1, 1], [1, 1]]) (fun _ _ => none) (fun _ _ => ⟨0, 0⟩) 20 w with
    | none => .error .valueError
    | some r => r

example : ∃ m m' e a, Mdp.GridReach .square 1 3 false m ∧ Env.init m exSpecs = (m', .ok e) ∧ a ∈ e.agents ∧
    a.name = "fox" ∧
    (∃ r, e.mctsFit a exOpts 2 (some [[1, 1], [1, 1]]) (fun _ _ => none) (fun _ _ => ⟨0, 0⟩) 20 a.reward =
      some (.ok r)) ∧
    Spec.Live e.mdp.trans 0 ∧ (e.fit "fox" (exMctsFit e) fun _ => 0).2 = .ok () ∧
    ((e.fit "fox" (exMctsFit e) fun _ => 0).1.step "fox" fun _ => 0).2 = .ok 1 := by
  obtain ⟨m, m', e, h1, h2, h3⟩ := exStart
    (fun e => (match e.agents.head? with
      | none => false
      | some a => decide (a.name = "fox") &&
        match e.mctsFit a exOpts 2 (some [[1, 1], [1, 1]]) (fun _ _ => none) (fun _ _ => ⟨0, 0⟩) 20 a.reward with
        | some (.ok _) => true
        | _ => false) &&
      decide (Spec.Live e.mdp.trans 0 ∧ (e.fit "fox" (exMctsFit e) fun _ => 0).2 = .ok () ∧
      ((e.fit "fox" (exMctsFit e) fun _ => 0).1.step "fox" fun _ => 0).2 = .ok 1)) (by decide +kernel)
  rw [Bool.and_eq_true] at h3
  cases ha : e.agents.head? with
  | none => rw [ha] at h3; exact absurd h3.1 (by simp)
  | some a =>
    rw [ha] at h3
    dsimp only at h3
    rw [Bool.and_eq_true] at h3
    refine ⟨m, m', e, a, h1, h2, List.mem_of_head? ha, of_decide_eq_true h3.1.1, ?_, of_decide_eq_true h3.2⟩
    have h4 := h3.1.2
    split at h4
    · rename_i r hr; exact ⟨r, hr⟩
    · cases h4

end MaMDP
