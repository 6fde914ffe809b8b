import Verif.Spec.Caught
import Verif.Props.MCTSLoop
import Verif.Props.SearchAgent

/-! # C174: a tree search reckons with being caught -/

set_option linter.unusedSectionVars false

namespace MaMDP

variable {K : Type} [Field K] [LinearOrder K] [IsStrictOrderedRing K]
variable {o : MctsOpts K} {M : Trans K} {A : SimAgents K} {nF : Nat} {V : Nat → K} {N : Nat → Nat}
  {plan : List (List Nat)} {draws : Nat → Draw K}

/-- One move, then the rest. -/
theorem follow_cons {σ : Type} (move : Nat → Nat → σ → Py (σ × Bool)) (i a : Nat) (l : List Nat) (st : σ) :
    Spec.follow move i (a :: l) st = match move i a st with
      | .error e => .error e
      | .ok (st, true) => .ok (st, true)
      | .ok (st, false) => Spec.follow move (i + 1) l st := rfl

/-- Moves in two parts. -/
theorem follow_append {σ : Type} (move : Nat → Nat → σ → Py (σ × Bool)) : ∀ (l l' : List Nat) (i : Nat) (st : σ),
    Spec.follow move i (l ++ l') st = match Spec.follow move i l st with
      | .error e => .error e
      | .ok (st, true) => .ok (st, true)
      | .ok (st, false) => Spec.follow move (i + l.length) l' st := by
  intro l
  induction l with
  | nil => intro l' i st; rfl
  | cons a l ih =>
    intro l' i st
    rw [List.cons_append, follow_cons, follow_cons]
    rcases move i a st with e | ⟨st1, c | c⟩
    · rfl
    · dsimp only
      rw [ih, List.length_cons, show i + 1 + l.length = i + (l.length + 1) by omega]
    · rfl

/-- Moves depend on the outcomes of the generator for these moves only. -/
theorem follow_congr {σ : Type} (move move' : Nat → Nat → σ → Py (σ × Bool)) : ∀ (l : List Nat) (i : Nat) (st : σ),
    (∀ j, i ≤ j → j < i + l.length → move j = move' j) → Spec.follow move i l st = Spec.follow move' i l st := by
  intro l
  induction l with
  | nil => intro i st _; rfl
  | cons a l ih =>
    intro i st h
    unfold Spec.follow
    rw [h i le_rfl (by simp)]
    rcases move' i a st with e | ⟨st1, c | c⟩
    · rfl
    · exact ih (i + 1) st1 fun j h1 h2 => h j (by omega) (by simp only [List.length_cons]; omega)
    · rfl

/-- **C174**, what does hold: an iteration ends with the primary agent caught exactly when at the start of some move, after the
moves `l₁` before it, an agent that consumes it stands on its state. From then on nothing is visited, and the cost of being caught is
added, besides the values of prey on the same state. Missing: after the last move nobody looks; and eaten agents catch too. -/
theorem C174_partial (hint : o.interactive = true) (hn : 0 < A.n) (hself : A.consumesAgents 0 0 = false) (l : List Nat)
    (start st' : Sim K) (caught : Bool)
    (h : Spec.follow (fun i a st => simMove o M A nF V N a (draws i) st) 0 l start = .ok (st', caught)) :
    (caught = true ↔ ∃ l₁ a l₂ st, l = l₁ ++ a :: l₂ ∧
      Spec.follow (fun i a st => simMove o M A nF V N a (draws i) st) 0 l₁ start = .ok (st, false) ∧ Spec.Seized A st) ∧
    ∀ l₁ a l₂ st, l = l₁ ++ a :: l₂ →
      Spec.follow (fun i a st => simMove o M A nF V N a (draws i) st) 0 l₁ start = .ok (st, false) → Spec.Seized A st →
      st'.visited = st.visited ∧ st'.nodes = st.nodes ∧
      st'.acc = st.acc + (o.caughtCost + ∑ j ∈ (Finset.range A.n).filter (fun j => Spec.Eats A.consumesAgents st.nodes 0 j),
        A.values j) := by
  have hcheck : ∀ st : Sim K, ((checkResult o A st).2.2 = true ↔ Spec.Seized A st) ∧
      (Spec.Seized A st → (checkResult o A st).1 = o.caughtCost +
        ∑ j ∈ (Finset.range A.n).filter (fun j => Spec.Eats A.consumesAgents st.nodes 0 j), A.values j) := by
    intro st
    unfold checkResult
    rw [if_pos hint]
    refine ⟨C59_caught_iff A.n hn _ _ _ _ _, fun hs => ?_⟩
    have hs' : ∃ i, i < A.n ∧ Spec.Eats A.consumesAgents st.nodes i 0 := hs
    obtain ⟨h1, h2⟩ := Nat.find_spec hs'
    rw [(C59_caught A.n A.consumesAgents st.nodes o.caughtCost st.active A.values _ h1 h2
      fun k hk he => Nat.find_min hs' hk ⟨by omega, he⟩).2.1, if_neg]
    intro h0
    rw [h0] at h2
    rw [h2.1] at hself
    cases hself
  have key : ∀ l₁ a l₂ st, l = l₁ ++ a :: l₂ →
      Spec.follow (fun i a st => simMove o M A nF V N a (draws i) st) 0 l₁ start = .ok (st, false) → Spec.Seized A st →
      caught = true ∧ st'.visited = st.visited ∧ st'.nodes = st.nodes ∧
      st'.acc = st.acc + (o.caughtCost + ∑ j ∈ (Finset.range A.n).filter (fun j => Spec.Eats A.consumesAgents st.nodes 0 j),
        A.values j) := by
    intro l₁ a l₂ st hl hst hs
    rw [hl, follow_append, hst] at h
    dsimp only at h
    unfold Spec.follow at h
    rcases hm : simMove o M A nF V N a (draws (0 + l₁.length)) st with e | ⟨st1, c⟩
    · rw [hm] at h; cases h
    · rw [hm] at h
      obtain ⟨row, here, -, -, -, hc, -, h1, -⟩ := simMove_cases hm
      rw [(hcheck st).1.2 hs] at hc
      subst hc
      cases h
      obtain ⟨g1, -, g2, g3⟩ := h1 rfl
      exact ⟨rfl, g1, g2, by rw [g3, (hcheck st).2 hs]⟩
  refine ⟨⟨fun hc => ?_, fun ⟨l₁, a, l₂, st, h1, h2, h3⟩ => (key l₁ a l₂ st h1 h2 h3).1⟩,
    fun l₁ a l₂ st h1 h2 h3 => (key l₁ a l₂ st h1 h2 h3).2⟩
  subst hc
  clear key
  -- the first move at which the check finds it
  have main : ∀ (l : List Nat) (i : Nat) (start : Sim K),
      Spec.follow (fun i a st => simMove o M A nF V N a (draws i) st) i l start = .ok (st', true) →
      ∃ l₁ a l₂ st, l = l₁ ++ a :: l₂ ∧
        Spec.follow (fun i a st => simMove o M A nF V N a (draws i) st) i l₁ start = .ok (st, false) ∧ Spec.Seized A st := by
    intro l
    induction l with
    | nil => intro i start h; cases h
    | cons a l ih =>
      intro i start h
      rw [follow_cons] at h
      rcases hm : simMove o M A nF V N a (draws i) start with e | ⟨st1, c | c⟩
      · rw [hm] at h; cases h
      · rw [hm] at h
        obtain ⟨l₁, b, l₂, st, h1, h2, h3⟩ := ih (i + 1) st1 h
        refine ⟨a :: l₁, b, l₂, st, by rw [h1]; rfl, ?_, h3⟩
        rw [follow_cons, hm]
        exact h2
      · obtain ⟨row, here, -, -, -, hc, -⟩ := simMove_cases hm
        exact ⟨[], a, l, start, rfl, rfl, (hcheck start).1.1 hc.symm⟩
  exact main l 0 start h

/-- **C174**, what goes wrong: what an opponent does with the last planned move never counts, also if it catches the agent. Two
iterations whose random outcomes differ in the last move only, and that is an opponent's, visit the same states and have the same return. -/
theorem C174_unseen (hint : o.interactive = true) (hn : 0 < A.n) (hl : plan.length = A.n) (T : Nat)
    (hT : ∀ l ∈ plan, l.length = T) (fuel : Nat) (hf : (plan.map List.sum).sum + A.n * T + 1 ≤ fuel)
    (l : List Nat) (a : Nat) (ha : a ≠ 0) (hlast : Spec.schedule plan T = l ++ [a])
    (draws' : Nat → Draw K) (hd : ∀ i, i < l.length → draws i = draws' i)
    (features : Nat → Nat → K) (nodes : Nat → Int) (cache : QCache K) (st st' : Sim K)
    (h : (mctsIteration o M A nF features nodes V N plan cache draws fuel).2.2 = some (.ok st))
    (h' : (mctsIteration o M A nF features nodes V N plan cache draws' fuel).2.2 = some (.ok st')) :
    st.visited = st'.visited ∧ st.acc = st'.acc := by
  rw [C55_schedule hint hn hl T hT fuel hf, hlast, follow_append] at h h'
  have hcongr := follow_congr (fun i a st => simMove o M A nF V N a (draws' i) st)
    (fun i a st => simMove o M A nF V N a (draws i) st) l 0 (Sim.start nodes features cache)
    (fun j _ hj => by rw [hd j (by omega)])
  rw [hcongr] at h'
  rcases hfl : Spec.follow (fun i a st => simMove o M A nF V N a (draws i) st) 0 l (Sim.start nodes features cache) with
    e | ⟨s1, c | c⟩
  · rw [hfl] at h; cases h
  · rw [hfl] at h h'
    have one : ∀ (dr : Nat → Draw K) (s2 : Sim K),
        some (Spec.outcome (Spec.follow (fun i a st => simMove o M A nF V N a (dr i) st) (0 + l.length) [a] s1)) =
          some (.ok s2) → s2.visited = s1.visited ∧ s2.acc = s1.acc + (checkResult o A s1).1 := by
      intro dr s2 h2
      rw [follow_cons] at h2
      rcases hm : simMove o M A nF V N a (dr (0 + l.length)) s1 with e | ⟨s3, c | c⟩
      · rw [hm] at h2; cases h2
      · rw [hm] at h2
        cases h2
        obtain ⟨row, here, -, -, -, -, -, -, -, g⟩ := simMove_cases hm
        exact ⟨(g rfl ha).1, (g rfl ha).2.1⟩
      · rw [hm] at h2
        cases h2
        obtain ⟨row, here, -, -, -, -, -, g, -⟩ := simMove_cases hm
        exact ⟨(g rfl).1, (g rfl).2.2.2⟩
    obtain ⟨g1, g2⟩ := one draws st h
    obtain ⟨k1, k2⟩ := one draws' st' h'
    exact ⟨g1.trans k1.symm, g2.trans k2.symm⟩
  · rw [hfl] at h h'
    cases h
    cases h'
    exact ⟨rfl, rfl⟩

/-- A hare that plans and a hunter that eats it, on the line. The feature rows are 1 for the hare, 2 for the hunter and 3 for
the bear; the bear eats the hunter. -/
def exFlight (bear : Bool) : List (AgentInfo Rat) :=
  [⟨0, 1, [], ⟨4, fun _ => 0⟩, 1⟩, ⟨if bear then 1 else 2, 1, [1], ⟨4, fun f => if f = 1 then 1 else 0⟩, 2⟩] ++
    if bear then [⟨1, 1, [2], ⟨4, fun f => if f = 2 then 1 else 0⟩, 3⟩] else []

/-- An iteration of the hare's search with a given plan, and something about its end. -/
def exFlee (bear : Bool) (plan : List (List Nat)) (p : SimAgents Rat → Sim Rat → Bool) : Bool :=
  match extractInfo (exFlight bear) with
  | .error _ => false
  | .ok A => match (mctsIteration exOpts exLine A 4 (fun _ _ => 0) A.nodes (fun _ => 0) (fun _ => 0) plan
      (fun _ _ => none) (fun _ => ⟨0, 0⟩) 30).2.2 with
    | some (.ok st) => p A st
    | _ => false

/-- **C174 is false of the code.** The hare at one end of the line and the hunter at the other have only one way to go, and
meet in the middle. If one turn is planned, the iteration ends there, with the hare caught and a return of 0; only if another
turn is planned the cost of 50 is paid. On the other hand, the cost is paid when the hare comes to a state on which the bear ate the hunter: the hare is on its first
move, and the hunter, inactive, is the only one that eats hares. -/
theorem C174_refuted :
    exFlee false [[1], [1]] (fun A st => decide (Spec.SeizedAlive A st ∧ st.visited = [1] ∧ st.acc = 0)) = true ∧
    exFlee false [[1, 1], [1, 1]] (fun A st => decide (Spec.SeizedAlive A st ∧ st.visited = [1] ∧ st.acc = -50)) = true ∧
    exFlee true [[1], [1], [1]] (fun A st => decide (¬ Spec.SeizedAlive A st ∧ st.visited = [1] ∧ st.acc = -50 ∧
      st.active 1 = false ∧ A.consumesAgents 2 0 = false)) = true ∧
    exFlee true [[1], [0], [0]] (fun A st => decide (¬ Spec.SeizedAlive A st ∧ st.visited = [1] ∧ st.acc = 0 ∧
      st.active 1 = false)) = true := by
  decide +kernel

/-- A hen with food next to it, and a fox on the other side of the food. -/
def exBait : List (AgentSpec Rat Nat) :=
  [⟨"hen", 1, maxSelector, .fresh, some 1, .of1 ⟨3, fun f => if f = 0 then 1 else 0⟩, []⟩,
   ⟨"fox", 1, maxSelector, .fresh, some 3, .of1 ⟨3, fun f => if f = 1 then 1 else 0⟩, [1]⟩]

/-- Where the hen steps after a search of four iterations with a given plan. -/
def exHenGoes (e : Env Rat Nat) (plan : List (List Nat)) : Option Int :=
  match e.fitSearch "hen" (.init exOpts 4 true) ⟨some plan, fun _ j => ⟨j, 0⟩, 30, fun _ _ => none⟩ (fun _ => 0) with
  | some (e1, _, .ok ()) => match (e1.step "hen" fun _ => 0).2 with
    | .ok p => some p
    | .error _ => none
  | _ => none

/-- What this means for a hen in a corridor of five cells: planning one turn ahead, in which the fox surely comes to the food too,
it steps to the food on cell 2; planning two turns ahead it goes away from it. -/
theorem C174_refuted_bait : ∃ (m m' : Mdp Rat) (e : Env Rat Nat), Mdp.GridReach .square 1 5 false m ∧
    Env.init m exBait = (m', .ok e) ∧ exHenGoes e [[1], [1]] = some 2 ∧ exHenGoes e [[1, 1], [1, 1]] = some 0 := by
  have key : ∀ (y : Py (Mdp Rat)) (sp : List (AgentSpec Rat Nat)),
      Mdp.initGrid .square 1 5 false ⟨1, 5, fun _ s => if s = 2 then 1 else 0⟩ none = y →
      (match y with
        | .error _ => false
        | .ok m => match (Env.init m sp).2 with
          | .error _ => false
          | .ok e => decide (exHenGoes e [[1], [1]] = some 2 ∧ exHenGoes e [[1, 1], [1, 1]] = some 0)) = true →
      ∃ (m m' : Mdp Rat) (e : Env Rat Nat), Mdp.GridReach .square 1 5 false m ∧
        Env.init m sp = (m', .ok e) ∧ exHenGoes e [[1], [1]] = some 2 ∧ exHenGoes e [[1, 1], [1, 1]] = some 0 := by
    intro y sp hy h
    rcases y with err | m
    · cases h
    dsimp only at h
    rcases h1 : Env.init m sp with ⟨m', err | e⟩
    · rw [h1] at h; cases h
    rw [h1] at h
    obtain ⟨g1, g2⟩ := of_decide_eq_true h
    exact ⟨m, m', e, .init hy, h1, g1, g2⟩
  exact key _ _ rfl (by decide +kernel)

/-- The hare and the hunter meet the hypotheses of `C174_partial` and `C174_unseen`: nobody eats itself, and the last of the planned
moves is the hunter's. -/
example : (match extractInfo (exFlight false) with
    | .error _ => false
    | .ok A => decide (exOpts.interactive = true ∧ A.n = 2 ∧ A.consumesAgents 0 0 = false ∧ A.consumesAgents 1 0 = true ∧
      Spec.schedule [[1], [1]] 1 = [0] ++ [1])) = true := by
  decide +kernel

end MaMDP
