import Verif.Props.MCTS
import Verif.Lemmas.MCTSLoop

/-! A tree search of one move per iteration. -/

set_option linter.unusedSectionVars false

namespace MaMDP

variable {K : Type} [Field K] [LinearOrder K] [IsStrictOrderedRing K]

/-- The features as the search sees them when the agent, whose row is `row`, stands in `s`. -/
def marked (features : Nat → Nat → K) (row s : Nat) : Nat → Nat → K :=
  fun f t => if f = row then (if t = s then 1 else 0) else features f t

variable {o : MctsOpts K} {M : Trans K} {A : SimAgents K} {nF : Nat} {features : Nat → Nat → K} {s row : Nat}

/-- One iteration of one move. -/
theorem oneMove_iteration (hi : o.interactive = false) (hrow : A.featIdx[0]? = some row) (hr : row < nF)
    {nodes : Nat → Int} (hs : pyIdx M.nS (nodes 0) = some s) (hc : ∀ f, A.consumesFeatures 0 f = false)
    (V : Nat → K) (N : Nat → Nat) (cache : QCache K) (draws : Nat → Draw K) (fuel : Nat) (hf : 2 ≤ fuel)
    {t : Nat} {x : Bool} (hn : nextNode o.bonus true V N (nextStates M s) o.C s (draws 0).pick = .ok (t, x)) :
    ∃ st, (mctsIteration o M A nF features nodes V N [[1]] cache draws fuel).2.2 = some (.ok st) ∧
      st.acc = stateReward nF (A.rewards 0) (marked features row s) t ∧ st.visited = [t] ∧ st.cache = cache := by
  obtain ⟨f, rfl⟩ : ∃ f, fuel = f + 2 := ⟨fuel - 2, by omega⟩
  have hmove : ∃ st, simMove o M A nF V N 0 (draws 0) (Sim.start nodes features cache) = .ok (st, false) ∧
      st.acc = stateReward nF (A.rewards 0) (marked features row s) t ∧ st.visited = [t] ∧ st.cache = cache := by
    have hw : npWhere nF (A.consumesFeatures 0) = [] := by
      rw [List.eq_nil_iff_forall_not_mem]
      intro g hg
      have := (mem_npWhere.1 hg).2
      rw [hc g] at this
      cases this
    unfold simMove
    simp only [Sim.start, hrow, hs]
    rw [if_neg (by omega)]
    simp only [checkResult, hi, Bool.false_eq_true, if_false, if_true, primaryMove, hn, consumeAt]
    cases o.caching with
    | false => exact ⟨_, rfl, by simp only [zero_add]; rfl, rfl, rfl⟩
    | true =>
      simp only [if_true, hw]
      exact ⟨_, rfl, by simp only [zero_add]; rfl, rfl, rfl⟩
  obtain ⟨st, h1, h2, h3, h4⟩ := hmove
  refine ⟨st, ?_, h2, h3, h4⟩
  unfold mctsIteration
  simp only
  rw [simLoop]
  simp only [Clock.start, List.map_cons, List.map_nil, List.sum_cons, List.sum_nil, Nat.add_zero, Nat.lt_one_iff,
    if_true, Clock.planned, List.getElem?_cons_zero, h1, hi, Bool.false_eq_true, if_false]
  rw [simLoop]
  simp only [Clock.tick, List.map_cons, List.map_nil, List.sum_cons, List.sum_nil, Nat.add_zero, Nat.zero_add,
    Nat.lt_irrefl, if_false]

/-- What the tables look like after `i` iterations of one move, `first` being the first of the successors `D`. -/
structure OneMove (r : Nat → K) (D : Finset Nat) (first i : Nat) (V : Nat → K) (N : Nat → Nat) : Prop where
  val : ∀ t, V t = N t * r t
  out : ∀ t, t ∉ D → N t = 0
  early : i ≤ D.card → (∀ t ∈ D, N t ≤ 1) ∧ (D.filter fun t => N t = 0).card = D.card - i
  late : D.card ≤ i → ∀ t ∈ D, N t = if t = first then i - D.card + 1 else 1

theorem OneMove.step {r : Nat → K} {D : Finset Nat} {first i : Nat} {V : Nat → K} {N : Nat → Nat}
    (h : OneMove r D first i V N) {t : Nat} (ht : t ∈ D)
    (hun : (∃ u ∈ D, N u = 0) → N t = 0) (hall : (∀ u ∈ D, N u ≠ 0) → t = first) :
    OneMove r D first (i + 1) (upd1 V t (V t + r t)) (upd1 N t (N t + 1)) := by
  have hpos : 0 < D.card := Finset.card_pos.2 ⟨t, ht⟩
  refine ⟨fun u => ?_, fun u hu => ?_, fun hle => ?_, fun hle u hu => ?_⟩
  · unfold upd1
    split_ifs with hut
    · subst hut; rw [h.val]; push_cast; ring
    · exact h.val u
  · have : u ≠ t := fun hc => hu (hc ▸ ht)
    simp only [upd1, if_neg this]
    exact h.out u hu
  · obtain ⟨h1, h2⟩ := h.early (by omega)
    have hne : (D.filter fun t => N t = 0).Nonempty := by
      rw [← Finset.card_pos, h2]; omega
    obtain ⟨v, hv⟩ := hne
    rw [Finset.mem_filter] at hv
    have ht0 : N t = 0 := hun ⟨v, hv.1, hv.2⟩
    constructor
    · intro u hu
      unfold upd1
      split_ifs with hut
      · omega
      · exact h1 u hu
    · have : (D.filter fun u => upd1 N t (N t + 1) u = 0) = (D.filter fun u => N u = 0).erase t := by
        ext u
        rw [Finset.mem_filter, Finset.mem_erase, Finset.mem_filter]
        by_cases hut : u = t
        · simp [hut, upd1]
        · simp [hut, upd1]
      rw [this, Finset.card_erase_of_mem (Finset.mem_filter.2 ⟨ht, ht0⟩), h2]
      omega
  · rcases Nat.lt_or_ge i D.card with hlt | hge
    · -- the last untried one
      have hi : i + 1 = D.card := by omega
      obtain ⟨h1, h2⟩ := h.early (by omega)
      have h3 : (D.filter fun t => N t = 0).card = 1 := by rw [h2]; omega
      obtain ⟨v, hv⟩ := Finset.card_eq_one.1 h3
      have hv' : v ∈ D.filter fun t => N t = 0 := by rw [hv]; exact Finset.mem_singleton_self v
      rw [Finset.mem_filter] at hv'
      have ht0 : N t = 0 := hun ⟨v, hv'.1, hv'.2⟩
      have htv : t = v := by
        have : t ∈ D.filter fun t => N t = 0 := Finset.mem_filter.2 ⟨ht, ht0⟩
        rw [hv] at this
        exact Finset.mem_singleton.1 this
      have hu1 : upd1 N t (N t + 1) u = 1 := by
        unfold upd1
        split_ifs with hut
        · omega
        · have hnz : N u ≠ 0 := fun hc => by
            have : u ∈ D.filter fun t => N t = 0 := Finset.mem_filter.2 ⟨hu, hc⟩
            rw [hv] at this
            exact hut ((Finset.mem_singleton.1 this).trans htv.symm)
          have := h1 u hu
          omega
      rw [hu1]
      split_ifs <;> omega
    · have h3 := h.late hge
      have hnz : ∀ u ∈ D, N u ≠ 0 := fun u hu => by
        rw [h3 u hu]; split_ifs <;> omega
      obtain rfl := hall hnz
      unfold upd1
      split_ifs with hut
      · rw [h3 t ht, if_pos rfl]; omega
      · rw [h3 u hu, if_neg hut]

/-- The successors of `s` as a set. -/
def succSet (M : Trans K) (s : Nat) : Finset Nat := (nextStates M s).toFinset

/-- The whole search. -/
theorem oneMove_run (hi : o.interactive = false) (hb : ∀ k, o.bonus 0 k = none) (hrow : A.featIdx[0]? = some row)
    (hr : row < nF) {nodes : Nat → Int} (hs : pyIdx M.nS (nodes 0) = some s)
    (hc : ∀ f, A.consumesFeatures 0 f = false) {first : Nat} {rest : List Nat}
    (hD : nextStates M s = first :: rest) (hself : s ∉ nextStates M s) (draws : Nat → Nat → Draw K) (fuel : Nat)
    (hf : 2 ≤ fuel) : ∀ (n i : Nat) (S : Search K),
      OneMove (stateReward nF (A.rewards 0) (marked features row s)) (succSet M s) first i S.V S.N →
      ∃ S', (runLoop o M A nF [[1]] draws fuel n i features nodes S).2.2 = some (.ok S') ∧
        OneMove (stateReward nF (A.rewards 0) (marked features row s)) (succSet M s) first (i + n) S'.V S'.N := by
  intro n
  induction n with
  | zero => intro i S h; exact ⟨S, rfl, h⟩
  | succ n ih =>
    intro i S h
    have hN0 : S.N s = 0 := h.out s (by unfold succSet; rw [List.mem_toFinset]; exact hself)
    obtain ⟨t, x, hn, ht, hun, hall⟩ : ∃ t x,
        nextNode o.bonus true S.V S.N (nextStates M s) o.C s (draws i 0).pick = .ok (t, x) ∧ t ∈ succSet M s ∧
        ((∃ u ∈ succSet M s, S.N u = 0) → S.N t = 0) ∧ ((∀ u ∈ succSet M s, S.N u ≠ 0) → t = first) := by
      unfold succSet
      simp only [List.mem_toFinset]
      by_cases hex : ∃ u ∈ nextStates M s, S.N u = 0
      · obtain ⟨t, h1, h2, h3⟩ := (C57_unvisited o.bonus S.V S.N (nextStates M s) o.C s hex).1 (draws i 0).pick
        obtain ⟨u, hu, hu0⟩ := hex
        exact ⟨t, false, h3, h1, fun _ => h2, fun hc => absurd hu0 (hc u hu)⟩
      · push Not at hex
        refine ⟨first, true, ?_, by rw [hD]; exact List.mem_cons_self, fun ⟨u, hu, hu0⟩ => absurd hu0 (hex u hu),
          fun _ => rfl⟩
        have hu : ucb o.bonus S.V S.N o.C s ((nextStates M s).getD 0 0) = none := by
          unfold ucb
          rw [hN0, hb]
          rfl
        rw [nextNode_ucb _ _ _ _ _ _ _ hex, argmaxNan_none _ (by rw [hD]; simp) hu, hD]
        rfl
    obtain ⟨st, h1, h2, h3, h4⟩ := oneMove_iteration (features := features) hi hrow hr hs hc S.V S.N S.cache
      (draws i) fuel hf hn
    rw [runLoop]
    rcases hit : mctsIteration o M A nF features nodes S.V S.N [[1]] S.cache (draws i) fuel with ⟨f', n', r'⟩
    have hfn : f' = features ∧ n' = nodes := by
      unfold mctsIteration at hit
      exact ⟨(congrArg (·.1) hit).symm, (congrArg (·.2.1) hit).symm⟩
    obtain ⟨rfl, rfl⟩ := hfn
    rw [hit] at h1
    simp only at h1
    subst h1
    simp only
    have hstep := h.step ht hun hall
    have := ih (i + 1) ⟨(backprop st.acc st.visited (S.V, S.N)).1, (backprop st.acc st.visited (S.V, S.N)).2, st.cache,
      S.visited ++ [st.visited], S.others ++ [st.others]⟩ (by
        simp only [h2, h3, backprop, List.foldl_cons, List.foldl_nil]
        exact hstep)
    rw [show i + (n + 1) = i + 1 + n by omega]
    exact this

end MaMDP
