import Verif.Lemmas.MCTSLoop
import Verif.Props.MCTS

/-! # Monte Carlo tree search, a whole iteration: C55, C56, C60, C91 -/

set_option linter.unusedSectionVars false

namespace MaMDP

variable {K : Type} [Field K] [LinearOrder K] [IsStrictOrderedRing K] {δ : Type}
variable {kind : GridKind} {W H : Nat} {selfT : Bool} {m m' : Mdp K} {specs : List (AgentSpec K δ)}
  {e0 : Env K δ}
variable {o : MctsOpts K} {M : Trans K} {A : SimAgents K} {nF : Nat} {V : Nat → K} {N : Nat → Nat}
  {plan : List (List Nat)} {draws : Nat → Draw K}

/-! ## C55 the schedule -/

/-- In interactive mode, with one list of moves per agent and the same number of turns in each: the loop ends (given
enough rounds), and has the moves of the agents made in the planned order, up to an error or the primary agent being
caught. -/
theorem C55_schedule (hint : o.interactive = true) (hn : 0 < A.n) (hl : plan.length = A.n) (T : Nat)
    (hT : ∀ l ∈ plan, l.length = T) (fuel : Nat) (hf : (plan.map List.sum).sum + A.n * T + 1 ≤ fuel)
    (features : Nat → Nat → K) (nodes : Nat → Int) (cache : QCache K) :
    (mctsIteration o M A nF features nodes V N plan cache draws fuel).2.2 =
      some (Spec.outcome (Spec.follow (fun i a st => simMove o M A nF V N a (draws i) st) 0
        (Spec.schedule plan T) (Sim.start nodes features cache))) :=
  simLoop_schedule hint hn hl hT fuel hf _

/-- If the primary agent is not caught, it visits as many states as it has planned moves, and so does every other agent
that is not eaten; otherwise not more. -/
theorem C55_counts (T : Nat) (hT : ∀ l ∈ plan, l.length = T) (features : Nat → Nat → K)
    (nodes : Nat → Int) (cache : QCache K) (st : Sim K) (caught : Bool)
    (h : Spec.follow (fun i a st => simMove o M A nF V N a (draws i) st) 0 (Spec.schedule plan T)
      (Sim.start nodes features cache) = .ok (st, caught)) :
    (0 < plan.length → st.visited.length ≤ (plan.getD 0 []).sum ∧
      (caught = false → st.visited.length = (plan.getD 0 []).sum)) ∧
    (o.returnOthers = true → ∀ a, 0 < a → a < plan.length → (st.others a).length ≤ (plan.getD a []).sum ∧
      (caught = false → st.active a = true → (st.others a).length = (plan.getD a []).sum)) := by
  constructor
  · intro h0
    have := follow_count 0 (fun st : Sim K => st.visited.length) (fun _ => True) (fun _ _ _ _ _ _ _ => trivial)
      (fun i b s s' c hm => by
        obtain ⟨row, here, -, -, -, -, -, h1, h2, h3⟩ := simMove_cases hm
        cases c with
        | true => rw [(h1 rfl).1]; exact ⟨by omega, fun h => absurd h (by simp)⟩
        | false =>
          by_cases hb : b = 0
          · obtain ⟨t, -, h4, -⟩ := h2 rfl hb
            rw [h4, if_pos hb]; simp
          · rw [(h3 rfl hb).1, if_neg hb]; simp) _ _ _ _ _ h
    rw [count_schedule plan T hT 0 h0] at this
    obtain ⟨h1, h2⟩ := this
    simp only [Sim.start, List.length_nil, Nat.zero_add] at h1 h2
    exact ⟨h1, (h2 trivial).2⟩
  · intro hret a ha0 ha
    have := follow_count a (fun st : Sim K => (st.others a).length) (fun st => st.active a = true)
      (fun i b s s' c hm hact => by
        obtain ⟨row, here, -, -, -, -, h0, -⟩ := simMove_cases hm
        rw [h0] at hact
        exact checkResult_active hact)
      (fun i b s s' c hm => by
        obtain ⟨row, here, -, -, -, -, -, h1, h2, h3⟩ := simMove_cases hm
        cases c with
        | true => rw [(h1 rfl).2.1]; exact ⟨by omega, fun h => absurd h (by simp)⟩
        | false =>
          by_cases hb : b = 0
          · obtain ⟨t, -, -, h4, -⟩ := h2 rfl hb
            rw [h4, if_neg (by omega)]; simp
          · rcases (h3 rfl hb).2.2 with ⟨h4, h5, -⟩ | ⟨t, h4, -, -, h5⟩
            · rw [h5]
              refine ⟨by omega, fun _ hact => ?_⟩
              by_cases hba : b = a
              · rw [hba, hact] at h4; cases h4
              · rw [if_neg hba]; rfl
            · rw [h5, if_pos hret]
              unfold upd1
              by_cases hba : b = a
              · subst hba; simp
              · have hab : a ≠ b := fun h => hba h.symm
                rw [if_neg hab, if_neg hba]; simp) _ _ _ _ _ h
    rw [count_schedule plan T hT a ha] at this
    obtain ⟨h1, h2⟩ := this
    simp only [Sim.start, List.length_nil, Nat.zero_add] at h1 h2
    exact ⟨h1, fun hc hact => (h2 hact).2 hc⟩

/-- Two turns of two agents, the first with two moves and then one, the second with one each: their order. -/
example : Spec.schedule [[2, 1], [1, 1]] 2 = [0, 0, 1, 0, 1] := by decide

/-- A line of three states in which one can go up (action 0) or down (action 1). -/
def exLine : Trans Rat := ⟨3, 2, fun s a t => if (a = 0 ∧ t = s + 1) ∨ (a = 1 ∧ s = t + 1) then 1 else 0⟩

/-- Hunter and hare on the line; the hunter eats the hare (feature row 2), which is worth 10. Feature row 0 lies on the
last state and is what the hare likes. -/
def exHunt (hunter hare : Int) : List (AgentInfo Rat) :=
  [⟨hunter, 1, [2], ⟨3, fun f => if f = 2 then 10 else 0⟩, 1⟩, ⟨hare, 1, [], ⟨3, fun f => if f = 0 then 1 else 0⟩, 2⟩]

/-- The features of the line with hunter and hare. -/
def exFeatures (hunter hare : Nat) : Nat → Nat → Rat := fun f s =>
  if (f = 0 ∧ s = 2) ∨ (f = 1 ∧ s = hunter) ∨ (f = 2 ∧ s = hare) then 1 else 0

/-- The iteration of hunter and hare with a given plan, and something about its end. -/
def exIteration (o : MctsOpts Rat) (hunter hare : Nat) (plan : List (List Nat)) (draws : Nat → Draw Rat)
    (p : Sim Rat → Bool) : Bool :=
  match extractInfo (exHunt hunter hare) with
  | .error _ => false
  | .ok A => match (mctsIteration o exLine A 3 (exFeatures hunter hare) A.nodes (fun _ => 0) (fun _ => 0) plan
      (fun _ _ => none) draws 30).2.2 with
    | some (.ok st) => p st
    | _ => false

/-- First the hare, at state 1, makes its move, then the hunter, at state 0: nobody is eaten on the way. -/
example : exIteration exOpts 0 1 [[0, 1], [1, 0]] (fun _ => ⟨0, 0⟩)
    (fun st => decide (st.visited = [1] ∧ st.others 1 = [2] ∧ st.active 1 = true)) = true := by
  decide +kernel

/-- With unequal numbers of turns the loop may fail instead. -/
example : (match extractInfo (exHunt 0 2) with
    | .error _ => false
    | .ok A => match (mctsIteration exOpts exLine A 3 (exFeatures 0 2) A.nodes (fun _ => 0) (fun _ => 0)
        [[1], [1, 1]] (fun _ _ => none) (fun _ => ⟨0, 0⟩) 30).2.2 with
      | some (.error .indexError) => true
      | _ => false) = true := by
  decide +kernel

/-! ## C56 paths -/

/-- What holds of paths during an iteration. -/
theorem walks_invariant (hM : ∀ s x t, s < M.nS → x < M.nA → t < M.nS → 0 ≤ M.p s x t) (start : Nat → Int) :
    ∀ a d st st' c,
      ((∀ s, pyIdx M.nS (start 0) = some s → Spec.Walk M s st.visited ∧
          pyIdx M.nS (st.nodes 0) = some (st.visited.getLastD s)) ∧
        (o.returnOthers = true → ∀ b, b ≠ 0 → ∀ s, pyIdx M.nS (start b) = some s → Spec.Walk M s (st.others b) ∧
          pyIdx M.nS (st.nodes b) = some ((st.others b).getLastD s))) →
      simMove o M A nF V N a d st = .ok (st', c) →
      ((∀ s, pyIdx M.nS (start 0) = some s → Spec.Walk M s st'.visited ∧
          pyIdx M.nS (st'.nodes 0) = some (st'.visited.getLastD s)) ∧
        (o.returnOthers = true → ∀ b, b ≠ 0 → ∀ s, pyIdx M.nS (start b) = some s → Spec.Walk M s (st'.others b) ∧
          pyIdx M.nS (st'.nodes b) = some ((st'.others b).getLastD s))) := by
  rintro a d st st' c ⟨h0, hb⟩ hm
  obtain ⟨row, here, -, -, hhere, -, -, h1, h2, h3⟩ := simMove_cases hm
  cases c with
  | true =>
    obtain ⟨e1, e2, e3, -⟩ := h1 rfl
    rw [e1, e2, e3]
    exact ⟨h0, hb⟩
  | false =>
    by_cases ha : a = 0
    · obtain ⟨t, ht, e1, e2, e3, -⟩ := h2 rfl ha
      rw [mem_nextStates] at ht
      obtain ⟨ht1, x, hx, hp⟩ := ht
      have hlt := pyIdx_lt hhere
      have hsucc : Spec.Successor M here t := ⟨ht1, x, hx, lt_of_le_of_ne (hM _ _ _ hlt hx ht1) (Ne.symm hp)⟩
      rw [e1, e2, e3]
      refine ⟨fun s hs => ?_, fun hr b hb0 s hs => ?_⟩
      · obtain ⟨g1, g2⟩ := h0 s hs
        rw [ha, g2] at hhere
        cases hhere
        refine ⟨walk_append g1 hsucc, ?_⟩
        rw [List.getLastD_concat]
        show pyIdx M.nS (upd1 st.nodes 0 (t : Int) 0) = _
        unfold upd1
        rw [if_pos rfl]
        exact pyIdx_natCast ht1
      · have : upd1 st.nodes 0 (t : Int) b = st.nodes b := by unfold upd1; rw [if_neg hb0]
        rw [this]
        exact hb hr b hb0 s hs
    · obtain ⟨e1, -, h4⟩ := h3 rfl ha
      rw [e1]
      rcases h4 with ⟨-, e2, e3⟩ | ⟨t, -, hsucc, e3, e2⟩
      · rw [e2, e3]; exact ⟨h0, hb⟩
      · refine ⟨fun s hs => ?_, fun hr b hb0 s hs => ?_⟩
        · have : upd1 st.nodes a (t : Int) 0 = st.nodes 0 := by unfold upd1; rw [if_neg (Ne.symm ha)]
          rw [e3, this]
          exact h0 s hs
        · rw [if_pos hr] at e2
          rw [e2, e3]
          unfold upd1
          by_cases hba : b = a
          · subst hba
            rw [if_pos rfl, if_pos rfl]
            obtain ⟨g1, g2⟩ := hb hr b hb0 s hs
            rw [g2] at hhere
            cases hhere
            rw [List.getLastD_concat]
            exact ⟨walk_append g1 hsucc, pyIdx_natCast hsucc.1⟩
          · rw [if_neg hba, if_neg hba]
            exact hb hr b hb0 s hs

/-- Whatever the plan, the mode and the draws: the states visited by the primary agent follow its starting state, each
reached from the one before by some action; the same holds for the recorded states of every other agent. -/
theorem C56_walks (hM : ∀ s x t, s < M.nS → x < M.nA → t < M.nS → 0 ≤ M.p s x t) (features : Nat → Nat → K)
    (nodes : Nat → Int) (cache : QCache K) (fuel : Nat) (st : Sim K)
    (h : (mctsIteration o M A nF features nodes V N plan cache draws fuel).2.2 = some (.ok st)) :
    (∀ s, pyIdx M.nS (nodes 0) = some s → Spec.Walk M s st.visited) ∧
    (o.returnOthers = true → ∀ a, a ≠ 0 → ∀ s, pyIdx M.nS (nodes a) = some s → Spec.Walk M s (st.others a)) := by
  have := simLoop_invariant (o := o) (M := M) (A := A) (nF := nF) (V := V) (N := N) _
    (walks_invariant hM nodes) fuel .start (Sim.start nodes features cache) st
    ⟨fun s hs => ⟨trivial, hs⟩, fun _ b _ s hs => ⟨trivial, hs⟩⟩ h
  exact ⟨fun s hs => (this.1 s hs).1, fun hr a ha s hs => (this.2 hr a ha s hs).1⟩

/-- On a grid no walled state is visited in any iteration. -/
theorem C56_walls (hm : Mdp.GridReach kind W H selfT m) (features : Nat → Nat → K) (nodes : Nat → Int)
    (cache : QCache K) (fuel : Nat) (st : Sim K)
    (h : (mctsIteration o m.trans A nF features nodes V N plan cache draws fuel).2.2 = some (.ok st)) :
    (∀ s, pyIdx m.nStates (nodes 0) = some s → ∀ t ∈ st.visited, t < m.nStates ∧ m.walls.get t = 0) ∧
    (o.returnOthers = true → ∀ a, a ≠ 0 → ∀ s, pyIdx m.nStates (nodes a) = some s →
      ∀ t ∈ st.others a, t < m.nStates ∧ m.walls.get t = 0) := by
  have hg := C27_grid kind W H selfT m hm
  have hw : ∀ s t, s < m.trans.nS → Spec.Successor m.trans s t → m.walls.get t = 0 := by
    rintro s t hs ⟨ht, x, -, hp⟩
    have g := hm.ok
    have hs' : s < W * H := by rw [← g.nStates]; exact hs
    have ht' : t < W * H := by rw [← g.nStates]; exact ht
    exact (g.walls01 t ht').resolve_right ((g.sas_pos hs' ht').1 hp).2.1
  obtain ⟨h1, h2⟩ := C56_walks hg.1.nonneg features nodes cache fuel st h
  exact ⟨fun s hs => walk_states _ hw (pyIdx_lt hs) (h1 s hs),
    fun hr a ha s hs => walk_states _ hw (pyIdx_lt hs) (h2 hr a ha s hs)⟩

/-- All iterations of a search, for the recorded states of the primary agent. -/
theorem C56_search (hM : ∀ s x t, s < M.nS → x < M.nA → t < M.nS → 0 ≤ M.p s x t) (nIter : Nat)
    (features : Nat → Nat → K) (cache : QCache K) (draws : Nat → Nat → Draw K) (fuel : Nat) (s : Search K)
    (h : (runMcts o M A nF nIter features (some plan) cache draws fuel).2.2 = some (.ok s)) (s0 : Nat)
    (h0 : pyIdx M.nS (A.nodes 0) = some s0) : ∀ l ∈ s.visited, Spec.Walk M s0 l := by
  obtain ⟨outs, h1, -, -, h2, -, h3⟩ := C58_tables o M A nF nIter features plan cache draws fuel s h
  intro l hl
  rw [h2] at hl
  obtain ⟨x, hx, rfl⟩ := List.mem_map.1 hl
  obtain ⟨i, hi, rfl⟩ := List.getElem_of_mem hx
  obtain ⟨c, st, g1, g2⟩ := h3 i (by omega)
  rw [List.getElem?_eq_getElem hi] at g2
  rw [Option.some.inj g2]
  exact (C56_walks hM _ _ _ _ _ g1).1 s0 h0

/-- The hunter walks up the line; the hare, at the end of the line, can only run into it. -/
example : exIteration exOpts 0 2 [[1, 1], [1, 1]] (fun _ => ⟨0, 0⟩)
    (fun st => decide (st.visited = [1, 2] ∧ st.others 1 = [1])) = true := by
  decide +kernel

/-! ## C59 the eaten -/

/-- Who is found eaten stays so, stays where it is and records no further state, to the end of the iteration. -/
theorem C59_inactive (a : Nat) (ha : a ≠ 0) (fuel : Nat) (c : Clock) (st st' : Sim K) (hst : st.active a = false)
    (h : simLoop o M A nF V N plan draws fuel c st = some (.ok st')) :
    st'.active a = false ∧ st'.nodes a = st.nodes a ∧ st'.others a = st.others a := by
  refine simLoop_invariant (o := o) (M := M) (A := A) (nF := nF) (V := V) (N := N)
    (fun x => x.active a = false ∧ x.nodes a = st.nodes a ∧ x.others a = st.others a) ?_ fuel c st st'
    ⟨hst, rfl, rfl⟩ h
  rintro b d x x' c ⟨h1, h2, h3⟩ hm
  obtain ⟨row, here, -, -, -, -, hac, g1, g2, g3⟩ := simMove_cases hm
  have hx' : x'.active a = false := by
    by_contra hc
    rw [Bool.not_eq_false, hac] at hc
    rw [checkResult_active hc] at h1
    cases h1
  refine ⟨hx', ?_⟩
  cases c with
  | true => rw [(g1 rfl).2.2.1, (g1 rfl).2.1]; exact ⟨h2, h3⟩
  | false =>
    by_cases hb : b = 0
    · obtain ⟨t, -, -, e2, e3, -⟩ := g2 rfl hb
      rw [e2, e3]
      unfold upd1
      rw [if_neg ha]
      exact ⟨h2, h3⟩
    · rcases (g3 rfl hb).2.2 with ⟨-, e2, e3⟩ | ⟨t, e1, -, e3, e2⟩
      · rw [e2, e3]; exact ⟨h2, h3⟩
      · have hab : a ≠ b := fun hc => by rw [← hc, hx'] at e1; cases e1
        rw [e2, e3]
        unfold upd1
        rw [if_neg hab]
        refine ⟨h2, ?_⟩
        split
        · exact (if_neg hab).trans h3
        · exact h3

/-- The hunter, at 0, steps onto the hare at 1 before it moves: the hare stays there for its three moves. -/
example : exIteration exOpts 0 1 [[1], [3]] (fun _ => ⟨0, 0⟩)
    (fun st => decide (st.active 1 = false ∧ st.nodes 1 = 1 ∧ st.others 1 = [])) = true := by
  decide +kernel

/-! ## C60 the reward for prey -/

/-- The claim is false. The hunter stands next to the hare, which is worth 10, and steps onto it. If the hare has one
move planned the iteration is worth 20: 10 on arrival, as the hare's feature is still there, and 10 when it is found
eaten at the start of the hare's move. If two moves are planned the dead hare is found again: 30. -/
theorem C60_refuted :
    exIteration exOpts 0 1 [[1], [1]] (fun _ => ⟨0, 0⟩) (fun st => decide (st.visited = [1] ∧ st.acc = 20)) = true ∧
    exIteration exOpts 0 1 [[1], [2]] (fun _ => ⟨0, 0⟩) (fun st => decide (st.visited = [1] ∧ st.acc = 30)) = true ∧
    (match extractInfo (exHunt 0 1) with
      | .ok A => decide (A.values 1 = 10 ∧ A.consumesAgents 0 1 = true)
      | .error _ => false) = true := by
  decide +kernel

/-- The features the primary agent sees when it moves: its own row marks its state. -/
def ownView (M : Trans K) (A : SimAgents K) (st : Sim K) : Nat → Nat → K := fun f s =>
  if A.featIdx[0]? = some f then (if pyIdx M.nS (st.nodes 0) = some s then 1 else 0) else st.features f s

/-- What is true: in an iteration in which the primary agent is not caught, its return is the sum of

* for each prey, its value times the number of moves at whose start the primary agent is on its state, and
* for each of its own moves, the reward of the state it arrives in.

Missing from the full claim: that the number in the first item is at most one, and that arrival does not pay for the
prey as well. Both fail (`C60_refuted`). -/
theorem C60_partial (hint : o.interactive = true) (hn : 0 < A.n) (l : List Nat) (i : Nat) (st st' : Sim K)
    (h : Spec.follow (fun i a st => simMove o M A nF V N a (draws i) st) i l st = .ok (st', false)) :
    st'.acc = st.acc +
      (∑ j ∈ Finset.range A.n, (((Spec.steps (fun i a st => simMove o M A nF V N a (draws i) st) i l st).countP
        fun x => decide (Spec.Eats A.consumesAgents x.2.1.nodes 0 j) : Nat) : K) * A.values j) +
      ((Spec.steps (fun i a st => simMove o M A nF V N a (draws i) st) i l st).map fun x =>
        if x.1 = 0 then ∑ f ∈ Finset.range nF, A.rewards 0 f * ownView M A x.2.1 f (x.2.2.visited.getLastD 0)
        else 0).sum := by
  have hmove : ∀ i a s s', simMove o M A nF V N a (draws i) s = .ok (s', false) →
      s'.acc = s.acc + ((∑ j ∈ Finset.range A.n,
        if Spec.Eats A.consumesAgents s.nodes 0 j then A.values j else 0) +
        if a = 0 then stateReward nF (A.rewards 0) (ownView M A s) (s'.visited.getLastD 0) else 0) := by
    intro i a s s' hm
    obtain ⟨row, here, hrow, -, hhere, hc, -, -, h2, h3⟩ := simMove_cases hm
    have hck : checkResult o A s = checkOverlap A.n A.consumesAgents s.nodes o.caughtCost s.active A.values := by
      unfold checkResult; rw [if_pos hint]
    have hfree : ∀ k, k < A.n → ¬ Spec.Eats A.consumesAgents s.nodes k 0 := by
      intro k hk he
      rw [hck] at hc
      rw [(C59_caught_iff A.n hn A.consumesAgents s.nodes o.caughtCost s.active A.values).2 ⟨k, hk, he⟩] at hc
      cases hc
    have hpay : (checkResult o A s).1 = ∑ j ∈ Finset.range A.n,
        if Spec.Eats A.consumesAgents s.nodes 0 j then A.values j else 0 := by
      rw [hck, (C59_free A.n hn A.consumesAgents s.nodes o.caughtCost s.active A.values hfree).2.1,
        Finset.sum_filter]
    by_cases ha : a = 0
    · obtain ⟨t, -, e1, -, -, e2⟩ := h2 rfl ha
      rw [e2, hpay, if_pos ha, e1, List.getLastD_concat, add_assoc]
      have : (fun f x => if f = row then (if x = here then (1 : K) else 0) else s.features f x) = ownView M A s := by
        funext f x
        unfold ownView
        rw [← ha, hrow, hhere]
        simp only [Option.some.injEq]
        by_cases h1 : f = row
        · rw [if_pos h1, if_pos h1.symm]
          by_cases h2 : x = here
          · rw [if_pos h2, if_pos h2.symm]
          · rw [if_neg h2, if_neg (Ne.symm h2)]
        · rw [if_neg h1, if_neg (Ne.symm h1)]
      rw [this]
    · rw [(h3 rfl ha).2.1, hpay, if_neg ha, add_zero]
  have := follow_sum (move := fun i a st => simMove o M A nF V N a (draws i) st) (fun st : Sim K => st.acc)
    (fun a s s' => (∑ j ∈ Finset.range A.n,
        if Spec.Eats A.consumesAgents s.nodes 0 j then A.values j else 0) +
        if a = 0 then stateReward nF (A.rewards 0) (ownView M A s) (s'.visited.getLastD 0) else 0) hmove l i st st' h
  rw [this, add_assoc]
  congr 1
  rw [List.sum_map_add]
  congr 1
  induction (Spec.steps (fun i a st => simMove o M A nF V N a (draws i) st) i l st) with
  | nil => simp
  | cons x l ih =>
    rw [List.map_cons, List.sum_cons, ih, ← Finset.sum_add_distrib]
    refine Finset.sum_congr rfl fun j _ => ?_
    rw [List.countP_cons]
    by_cases hx : Spec.Eats A.consumesAgents x.2.1.nodes 0 j
    · simp [hx]; ring
    · simp [hx]

/-! ## C91 planning alone -/

theorem planned_first {k : Nat} {own : List Nat} {others : List (List Nat)} {c : Clock} (hc : c.actor = 0 ∧ c.turns 0 = 0) :
    c.planned ((k :: own) :: others) = .ok k := by
  unfold Clock.planned
  rw [hc.1]
  dsimp only [List.getElem?_cons_zero]
  rw [hc.2]
  rfl

theorem simLoop_alone (hint : o.interactive = false) {k : Nat} (hk : 0 < k) {own : List Nat}
    {others : List (List Nat)} (hp : plan = (k :: own) :: others) :
    ∀ (r fuel : Nat) (c : Clock) (st : Sim K), c.actor = 0 → c.turns 0 = 0 →
      c.total + r = (plan.map List.sum).sum → r + 1 ≤ fuel →
      simLoop o M A nF V N plan draws fuel c st =
        some (Spec.outcome (Spec.follow (fun i a st => simMove o M A nF V N a (draws i) st) c.total
          (List.replicate r 0) st)) := by
  intro r
  induction r with
  | zero =>
    intro fuel c st h1 h2 h3 h4
    obtain ⟨f, rfl⟩ : ∃ f, fuel = f + 1 := ⟨fuel - 1, by omega⟩
    unfold simLoop
    rw [if_neg (by omega)]
    rfl
  | succ r ih =>
    intro fuel c st h1 h2 h3 h4
    obtain ⟨f, rfl⟩ : ∃ f, fuel = f + 1 := ⟨fuel - 1, by omega⟩
    unfold simLoop
    have hpl : c.planned plan = .ok k := by rw [hp]; exact planned_first ⟨h1, h2⟩
    rw [if_pos (by omega), hpl]
    dsimp only
    rw [if_pos hk, List.replicate_succ, h1]
    unfold Spec.follow
    cases hmv : simMove o M A nF V N 0 (draws c.total) st with
    | error e => rfl
    | ok p =>
      obtain ⟨st', caught⟩ := p
      cases caught with
      | true => rfl
      | false =>
        dsimp only
        rw [hint, if_neg (by simp)]
        exact ih f c.tick st' h1 h2 (by show c.total + 1 + r = _; omega) (by omega)

/-- What non-interactive planning does: as many moves of the primary agent as are planned for all agents together. -/
theorem C91_moves (hint : o.interactive = false) {k : Nat} (hk : 0 < k) {own : List Nat} {others : List (List Nat)}
    (fuel : Nat) (hf : (k + own.sum) + (others.map List.sum).sum + 1 ≤ fuel) (features : Nat → Nat → K)
    (nodes : Nat → Int) (cache : QCache K) :
    (mctsIteration o M A nF features nodes V N ((k :: own) :: others) cache draws fuel).2.2 =
      some (Spec.outcome (Spec.follow (fun i a st => simMove o M A nF V N a (draws i) st) 0
        (List.replicate (k + own.sum + (others.map List.sum).sum) 0) (Sim.start nodes features cache))) ∧
    ∀ st, (mctsIteration o M A nF features nodes V N ((k :: own) :: others) cache draws fuel).2.2 = some (.ok st) →
      st.visited.length = k + own.sum + (others.map List.sum).sum := by
  have h1 := simLoop_alone (M := M) (A := A) (nF := nF) (V := V) (N := N) (draws := draws) hint hk
    (plan := (k :: own) :: others) rfl (k + own.sum + (others.map List.sum).sum) fuel .start
    (Sim.start nodes features cache) rfl rfl (by simp [Clock.start]) (by omega)
  refine ⟨h1, fun st hst => ?_⟩
  have hst' : simLoop o M A nF V N ((k :: own) :: others) draws fuel .start (Sim.start nodes features cache) =
      some (.ok st) := hst
  rw [h1] at hst'
  cases hfo : Spec.follow (fun i a st => simMove o M A nF V N a (draws i) st) 0
      (List.replicate (k + own.sum + (others.map List.sum).sum) 0) (Sim.start nodes features cache) with
  | error e => rw [show Clock.start.total = 0 from rfl, hfo] at hst'; cases hst'
  | ok p =>
    obtain ⟨st2, c⟩ := p
    rw [show Clock.start.total = 0 from rfl, hfo] at hst'
    cases hst'
    have hcf : ∀ i b (s s' : Sim K) c, simMove o M A nF V N b (draws i) s = .ok (s', c) → c = false := by
      intro i b s s' c hm
      obtain ⟨row, here, -, -, -, hc, -⟩ := simMove_cases hm
      rw [hc]
      unfold checkResult
      rw [hint]
      rfl
    have hc : c = false := by
      have : ∀ (l : List Nat) i (s s' : Sim K) c,
          Spec.follow (fun i a st => simMove o M A nF V N a (draws i) st) i l s = .ok (s', c) → c = false := by
        intro l
        induction l with
        | nil => intro i s s' c h; cases h; rfl
        | cons a l ih =>
          intro i s s' c h
          unfold Spec.follow at h
          split at h
          · cases h
          · rename_i hm; exact absurd (hcf _ _ _ _ _ hm) (by simp)
          · exact ih _ _ _ _ h
      exact this _ _ _ _ _ hfo
    have := follow_count 0 (fun st : Sim K => st.visited.length) (fun _ => True) (fun _ _ _ _ _ _ _ => trivial)
      (fun i b s s' c hm => by
        obtain ⟨row, here, -, -, -, -, -, h1, h2, h3⟩ := simMove_cases hm
        cases c with
        | true => rw [(h1 rfl).1]; exact ⟨by omega, fun h => absurd h (by simp)⟩
        | false =>
          by_cases hb : b = 0
          · obtain ⟨t, -, h4, -⟩ := h2 rfl hb
            rw [h4, if_pos hb]; simp
          · rw [(h3 rfl hb).1, if_neg hb]; simp) _ _ _ _ _ hfo
    have h2 := (this.2 trivial).2 hc
    simpa [Sim.start] using h2

/-- With a plan for the agent alone, an iteration consists of the moves it planned. Missing from the full claim: plans
that also list other agents, as `step_multi` makes them; see `C91_refuted`. -/
theorem C91_partial (hint : o.interactive = false) {k : Nat} (hk : 0 < k) {own : List Nat} (fuel : Nat)
    (hf : (k :: own).sum + 1 ≤ fuel) (features : Nat → Nat → K) (nodes : Nat → Int) (cache : QCache K) (st : Sim K)
    (h : (mctsIteration o M A nF features nodes V N [k :: own] cache draws fuel).2.2 = some (.ok st)) :
    st.visited.length = (k :: own).sum := by
  have := (C91_moves (M := M) (A := A) (nF := nF) (V := V) (N := N) (draws := draws) hint hk (others := []) fuel
    (by simpa using hf) features nodes cache).2 st h
  simpa using this

/-- The claim is false whenever another agent has planned moves: the agent's iteration is longer than its plan, by all
of them. -/
theorem C91_refuted (hint : o.interactive = false) {k : Nat} (hk : 0 < k) {own : List Nat} {others : List (List Nat)}
    (hothers : 0 < (others.map List.sum).sum) (fuel : Nat)
    (hf : (k + own.sum) + (others.map List.sum).sum + 1 ≤ fuel) (features : Nat → Nat → K)
    (nodes : Nat → Int) (cache : QCache K) (st : Sim K)
    (h : (mctsIteration o M A nF features nodes V N ((k :: own) :: others) cache draws fuel).2.2 = some (.ok st)) :
    (k :: own).sum < st.visited.length := by
  rw [(C91_moves hint hk fuel hf features nodes cache).2 st h, List.sum_cons]
  omega

/-- One move planned for the hunter and two for the hare: the hunter makes three. -/
example : exIteration { exOpts with interactive := false } 0 1 [[1], [2]] (fun _ => ⟨0, 0⟩)
    (fun st => decide (st.visited.length = 3)) = true := by
  decide +kernel

/-- If no move is planned for the agent in the first turn but some in all, the loop never ends: no number of rounds is
enough. -/
theorem C91_endless_refuted (hint : o.interactive = false) {own : List Nat} {others : List (List Nat)}
    (hpos : 0 < own.sum + (others.map List.sum).sum) (fuel : Nat) (features : Nat → Nat → K) (nodes : Nat → Int)
    (cache : QCache K) :
    (mctsIteration o M A nF features nodes V N ((0 :: own) :: others) cache draws fuel).2.2 = none := by
  show simLoop o M A nF V N ((0 :: own) :: others) draws fuel .start (Sim.start nodes features cache) = none
  induction fuel with
  | zero => rfl
  | succ fuel ih =>
    unfold simLoop
    rw [if_pos (by simp [Clock.start]; omega), planned_first ⟨rfl, rfl⟩]
    dsimp only
    rw [if_neg (by omega), hint]
    exact ih

end MaMDP
