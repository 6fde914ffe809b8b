import Verif.Lemmas.Exploring
import Verif.Props.MCTSCache
import Verif.Props.Grid
import Verif.Props.OneMove

/-! # A tree search keeps exploring: C141 -/

set_option linter.unusedSectionVars false

namespace MaMDP

/-- The lemma behind C141, for any transition function with a way back from each successor. -/
theorem explores {o : MctsOpts ℝ} {M : Trans ℝ} {A : SimAgents ℝ} {nF : Nat} {F : Nat → Nat → ℝ}
    (hint : o.interactive = false) (hb : o.bonus = ucbBonus) (hC : 0 < o.C) {k : Nat} (hk : 0 < k) {own : List Nat}
    {others : List (List Nat)} {L : Nat} (hL : L = k + own.sum + (others.map List.sum).sum) (h2 : 2 ≤ L) {fuel : Nat}
    (hf : L + 1 ≤ fuel) {s : Nat} (hs : pyIdx M.nS (A.nodes 0) = some s)
    (hrev : ∀ t ∈ nextStates M s, s ∈ nextStates M t) {cache : QCache ℝ} {draws : Nat → Nat → Draw ℝ}
    (S : Nat → Search ℝ)
    (hS : ∀ n, (runMcts o M A nF n F (some ((k :: own) :: others)) cache draws fuel).2.2 = some (.ok (S n))) :
    (∀ t ∈ nextStates M s, ∀ B, ∃ n0, ∀ n, n0 ≤ n → B ≤ (S n).N t) ∧
    ∃ R, 0 ≤ R ∧ ∀ n t, |(S n).V t| ≤ R * (S n).N t := by
  have hstep : ∀ n, ∃ st cache', (mctsIteration o M A nF F A.nodes (S n).V (S n).N ((k :: own) :: others) cache'
      (draws n) fuel).2.2 = some (.ok st) ∧
      (∀ t, (S (n + 1)).V t = (S n).V t + (st.visited.count t : ℝ) * st.acc) ∧
      ∀ t, (S (n + 1)).N t = (S n).N t + st.visited.count t := by
    intro n
    obtain ⟨s1, st, g1, g2, g3, g4⟩ := runLoop_succ n 0 _ _ (hS (n + 1))
    have : s1 = S n := by
      have := hS n
      unfold runMcts at this
      dsimp only at this
      rw [g1] at this
      exact Except.ok.inj (Option.some.inj this)
    subst this
    rw [Nat.zero_add] at g2
    refine ⟨st, _, g2, fun t => ?_, fun t => ?_⟩
    · rw [g3]; exact (backprop_eq _ _ _ _ t).1
    · rw [g4]; exact (backprop_eq _ _ _ _ t).2
  choose st cache' hit hV hN using hstep
  have htwo := fun n => iteration_two hint hk hL h2 hf hs (hit n)
  choose c1 c2 x y l hvis hm1 hm2 hn1 hn2 hacc using htwo
  set R : ℝ := L * reach M A nF F with hR
  have hR0 : 0 ≤ R := mul_nonneg (Nat.cast_nonneg _) (reach_nonneg F)
  have hbound : ∀ n t, |(S n).V t| ≤ R * (S n).N t := by
    intro n
    induction n with
    | zero =>
      intro t
      have h0 := hS 0
      have h0' : Search.fresh cache = S 0 := Except.ok.inj (Option.some.inj h0)
      rw [← h0']
      simp [Search.fresh]
    | succ n ih =>
      intro t
      rw [hV, hN]
      refine le_trans (abs_add_le _ _) ?_
      rw [abs_mul, Nat.abs_cast]
      push_cast
      have h1 := ih t
      have h3 : (List.count t (st n).visited : ℝ) * |(st n).acc| ≤ (List.count t (st n).visited : ℝ) * R :=
        mul_le_mul_of_nonneg_left (hacc n) (Nat.cast_nonneg _)
      nlinarith
  refine ⟨?_, R, hR0, hbound⟩
  have hmono : ∀ t, Monotone fun n => (S n).N t := fun t => monotone_nat_of_le_succ fun n => by
    rw [hN]; exact Nat.le_add_right _ _
  have hcount1 : ∀ n, (S n).N (c1 n) < (S (n + 1)).N (c1 n) := by
    intro n
    have : 0 < (st n).visited.count (c1 n) := List.count_pos_iff.2 (by rw [hvis]; simp)
    rw [hN]
    omega
  have hcount2 : ∀ n, (S n).N (c2 n) < (S (n + 1)).N (c2 n) := by
    intro n
    have : 0 < (st n).visited.count (c2 n) := List.count_pos_iff.2 (by rw [hvis]; simp)
    rw [hN]
    omega
  rw [hb] at hn1 hn2
  -- the first choice
  have hroot : Chooses (fun n => (S n).V) (fun n => (S n).N) o.C s (nextStates M s) (fun _ => True) c1 := by
    refine ⟨fun n => ⟨n, le_refl n, trivial⟩, fun n _ => hm1 n, fun n _ => hcount1 n, fun n _ h => ?_,
      fun n _ h h0 => ?_⟩
    · obtain ⟨t, -, ht, he⟩ := (C57_unvisited ucbBonus (S n).V (S n).N _ o.C s h).1 ((draws n) 0).pick
      rw [hn1 n] at he
      simp only [Except.ok.injEq, Prod.mk.injEq] at he
      rw [he.1]
      exact ht
    · obtain ⟨t, -, he, hbest⟩ := C57_partial (S n).V (S n).N _ o.C s ((draws n) 0).pick
        (List.ne_nil_of_mem (hm1 n)) h h0
      rw [hn1 n] at he
      simp only [Except.ok.injEq, Prod.mk.injEq] at he
      rw [he.1]
      exact hbest
  obtain ⟨i, hi, hoften, hgrow⟩ := hroot.some hmono
  obtain ⟨n0, hn0⟩ := hroot.tried hmono
  -- after some time the second choice is one of the search, too
  have hx : ∀ n, n0 ≤ n → x n = true := by
    intro n hn
    have he := hn1 n
    rw [nextNode_ucb _ _ _ _ _ _ _ (hn0 n hn)] at he
    split at he
    · cases he
    · simp only [Except.ok.injEq, Prod.mk.injEq] at he
      exact he.2.symm
  have hnext : Chooses (fun n => (S n).V) (fun n => (S n).N) o.C i (nextStates M i) (fun n => n0 ≤ n ∧ c1 n = i) c2 := by
    refine ⟨fun n => ?_, fun n h => by rw [← h.2]; exact hm2 n, fun n _ => hcount2 n, fun n hT h => ?_,
      fun n hT h h0 => ?_⟩
    · obtain ⟨j, h1, -, h3⟩ := hoften (max n n0)
      exact ⟨j, le_trans (le_max_left _ _) h1, le_trans (le_max_right _ _) h1, h3⟩
    · obtain ⟨t, -, ht, he⟩ := (C57_unvisited ucbBonus (S n).V (S n).N _ o.C i h).1 ((draws n) 1).pick
      have := hn2 n
      rw [hx n hT.1, hT.2, he] at this
      simp only [Except.ok.injEq, Prod.mk.injEq] at this
      rw [← this.1]
      exact ht
    · have hmem := hm2 n
      rw [hT.2] at hmem
      obtain ⟨t, -, he, hbest⟩ := C57_partial (S n).V (S n).N _ o.C i ((draws n) 1).pick
        (List.ne_nil_of_mem hmem) h h0
      have := hn2 n
      rw [hx n hT.1, hT.2, he] at this
      simp only [Except.ok.injEq, Prod.mk.injEq] at this
      rw [← this.1]
      exact hbest
  have hback := fun B => hnext.all hmono hC hR0 hbound hgrow (hrev i hi) B
  exact fun t ht B => hroot.all hmono hC hR0 hbound hback ht B

section
variable {K : Type} [Field K] [LinearOrder K] [IsStrictOrderedRing K] {δ : Type}
variable {o : MctsOpts K} {M : Trans K} {A : SimAgents K} {nF : Nat}

theorem nextStates_live {s : Nat} (h : Spec.Live M s) : nextStates M s ≠ [] := by
  obtain ⟨x, hx, t, ht, hp⟩ := h
  exact List.ne_nil_of_mem (mem_nextStates.2 ⟨ht, x, hx, ne_of_gt hp⟩)

/-- No move of an agent that plans alone fails. -/
theorem alone_ok (hint : o.interactive = false) {row : Nat} (hrow : A.featIdx[0]? = some row) (hr : row < nF)
    (hone : o.caching = true → (npWhere nF (A.consumesFeatures 0)).length ≤ 1)
    (hlive : ∀ s t, t ∈ nextStates M s → s < M.nS → nextStates M t ≠ []) {V : Nat → K} {N : Nat → Nat}
    {draws : Nat → Draw K} : ∀ (r i : Nat) (st : Sim K),
      (∃ s, pyIdx M.nS (st.nodes 0) = some s ∧ nextStates M s ≠ []) →
      ∃ st', Spec.follow (fun i a st => simMove o M A nF V N a (draws i) st) i (List.replicate r 0) st =
        .ok (st', false) := by
  intro r
  induction r with
  | zero => intro i st _; exact ⟨st, rfl⟩
  | succ r ih =>
    rintro i st ⟨s, hs, hne⟩
    have hmove : ∃ st', simMove o M A nF V N 0 (draws i) st = .ok (st', false) := by
      unfold simMove
      rw [hrow, hs]
      dsimp only
      rw [if_neg (by omega)]
      have hck : checkResult o A st = (0, st.active, false) := by
        unfold checkResult
        rw [hint]
        rfl
      rw [hck]
      dsimp only
      rw [if_neg (by simp), if_pos rfl]
      obtain ⟨t, x, hn⟩ := nextNode_ok o.bonus st.expand V N o.C s (draws i).pick hne
      unfold primaryMove
      dsimp only
      rw [hn]
      dsimp only
      split
      · rename_i e he
        split at he
        · obtain ⟨st', h'⟩ := consumeAt_ok (A := A) (nF := nF) (a := 0) hone { st with
            features := fun f s' => if f = row then (if s' = s then 1 else 0) else st.features f s'
            expand := x, nodes := upd1 st.nodes 0 (t : Int), visited := st.visited ++ [t]
            acc := st.acc + 0 + stateReward nF (A.rewards 0)
              (fun f s' => if f = row then (if s' = s then 1 else 0) else st.features f s') t } t
          rw [h'] at he
          cases he
        · cases he
      · exact ⟨_, rfl⟩
    obtain ⟨st', hst⟩ := hmove
    obtain ⟨here, t, x, -, g1, -, g3, -, -, g6, -⟩ := simMove_primary hint hst
    obtain ⟨st'', h⟩ := ih (i + 1) st' ⟨t, by rw [g6, pyIdx_nat, if_pos (mem_nextStates.1 g3).1],
      hlive here t g3 (pyIdx_lt g1)⟩
    refine ⟨st'', ?_⟩
    rw [List.replicate_succ]
    unfold Spec.follow
    rw [hst]
    exact h

end

section
variable {K : Type} [Field K] [LinearOrder K] [IsStrictOrderedRing K]

/-- From wherever one can go on a grid one can go back. -/
theorem grid_back {kind : GridKind} {W H : Nat} {selfT : Bool} {m : Mdp K} (h : Mdp.GridReach kind W H selfT m)
    {s t : Nat} (hs : s < m.nStates) (ht : t ∈ nextStates m.trans s) : s ∈ nextStates m.trans t := by
  obtain ⟨h1, x, hx, hp⟩ := mem_nextStates.1 ht
  have h1' : t < m.nStates := h1
  have hx' : x < m.nActions := hx
  have hp' : m.sas s x t ≠ 0 := hp
  have g := h.ok
  by_cases hxm : x < kind.nMoves
  · have key : ∃ y, y < m.nActions ∧ m.sas t y s = 1 := by
      have hA := g.nActions
      cases kind with
      | square =>
        refine ⟨(x + 2) % 4, ?_, C05_square_reversible W H selfT m h s x t hs h1' hxm hp'⟩
        rw [hA]
        simp only [GridKind.nMoves]
        omega
      | hex =>
        refine ⟨(x + 3) % 6, ?_, C05_hex_reversible W H selfT m h s x t hs h1' hxm hp'⟩
        rw [hA]
        simp only [GridKind.nMoves]
        omega
    obtain ⟨y, hy, he⟩ := key
    refine mem_nextStates.2 ⟨hs, y, hy, ?_⟩
    show m.sas t y s ≠ 0
    rw [he]
    exact one_ne_zero
  · have hsl : s < W * H := by rw [← g.nStates]; exact hs
    have htl : t < W * H := by rw [← g.nStates]; exact h1'
    obtain ⟨w1, w2, hmv⟩ := (g.sas_ne_zero hsl htl).1 hp'
    rcases hmv with ⟨d, e1, e2⟩ | ⟨_, _, e2⟩
    · exfalso
      cases kind with
      | square =>
        have e1' : Spec.squareDir x = some d := e1
        simp only [GridKind.nMoves] at hxm
        unfold Spec.squareDir at e1'
        split at e1' <;> first | omega | cases e1'
      | hex =>
        have e1' : Spec.hexDir (Spec.cell H s).1 x = some d := e1
        simp only [GridKind.nMoves] at hxm
        unfold Spec.hexDir at e1'
        split at e1' <;> first | omega | cases e1'
    · rw [e2] at ht ⊢
      exact ht

end

variable {δ : Type} {kind : GridKind} {W H : Nat} {selfT : Bool} {m m' : Mdp ℝ} {specs : List (AgentSpec ℝ δ)}
  {e0 : Env ℝ δ}

theorem explored (hm : Mdp.GridReach kind W H selfT m) (hinit : Env.init m specs = (m', .ok e0))
    (hrows : m.nNonAgent = m.features.d0 - m.nAgents)
    (hcons : ∀ sp ∈ specs, ∀ f ∈ sp.consumes, -((m.features.d0 - m.nAgents + specs.length : Nat) : Int) ≤ f)
    (ops : List (EnvOp ℝ δ)) {e : Env ℝ δ} (he : e = e0.run ops) {a : Agent ℝ δ} (ha : a ∈ e.agents)
    {s : Nat} (hs : s = Spec.stateOf (W * H) a.position) (hlive : Spec.Live e.mdp.trans s)
    (o : MctsOpts ℝ) (hint : o.interactive = false) (hb : o.bonus = ucbBonus) (hC : 0 < o.C)
    (w : Arr1 ℝ) (hw : w.d0 = e.mdp.features.d0)
    (hone : o.caching = true → ∀ f ∈ a.consumes, ∀ g ∈ a.consumes, pyIdx w.d0 f = pyIdx w.d0 g)
    (k : Nat) (hk : 0 < k) (own : List Nat) (others : List (List Nat))
    (h2 : 2 ≤ k + own.sum + (others.map List.sum).sum) (fuel : Nat)
    (hf : k + own.sum + (others.map List.sum).sum + 1 ≤ fuel) (cache : QCache ℝ) (draws : Nat → Nat → Draw ℝ) :
    pyIdx e.mdp.nStates a.position = some s ∧ ∃ A, extractInfo (e.agentInfos a o.interactive w) = .ok A ∧
      ∃ S : Nat → Search ℝ,
        (∀ n, (runMcts o e.mdp.trans A w.d0 n e.mdp.features.get (some ((k :: own) :: others)) cache draws fuel).2.2 =
          some (.ok (S n))) ∧
        (∀ t, Spec.Successor e.mdp.trans s t → ∀ B, ∃ n0, ∀ n, n0 ≤ n → B ≤ (S n).N t) ∧
        ∃ R, 0 ≤ R ∧ ∀ n t, |(S n).V t| ≤ R * (S n).N t := by
  obtain ⟨hok, -⟩ := Env.started hm hinit ops
  rw [← he] at hok
  obtain ⟨j, hj, -⟩ := hok.pos a ha
  have hS : e.mdp.nStates = W * H := hok.reach.ok.nStates
  have hsj : s = j := by
    rw [hs]
    rw [hS] at hj
    exact (Env.stateOf_eq hj).symm
  subst hsj
  refine ⟨hj, ?_⟩
  obtain ⟨os, hinfos, g1, g2, g3, g4⟩ := C65_env hm hinit hrows hcons ops e he a ha o.interactive w hw
  rw [hinfos] at g1 g2 g3 g4
  obtain ⟨A, hA, hn, hfi, hag⟩ := C65_relations _ os w.d0 g1 g2 g3 g4
  have h0 := hag 0 _ rfl
  rw [hinfos]
  refine ⟨A, hA, ?_⟩
  have hrow : A.featIdx[0]? = some a.featIdx := by rw [hfi]; rfl
  have hr : a.featIdx < w.d0 := g2 _ List.mem_cons_self
  have hnode : pyIdx e.mdp.trans.nS (A.nodes 0) = some s := by rw [h0.1]; exact hj
  have hone' : o.caching = true → (npWhere w.d0 (A.consumesFeatures 0)).length ≤ 1 := by
    intro hc
    refine npWhere_le_one fun f g _ _ hf hg => ?_
    obtain ⟨y, hy, hy'⟩ := (h0.2.2.2.1 f).1 hf
    obtain ⟨z, hz, hz'⟩ := (h0.2.2.2.1 g).1 hg
    have := hone hc y hy z hz
    rw [hy', hz'] at this
    exact Option.some.inj this
  have hstep : ∀ s t, t ∈ nextStates e.mdp.trans s → s < e.mdp.trans.nS → nextStates e.mdp.trans t ≠ [] :=
    fun s t ht hs => List.ne_nil_of_mem (grid_back hok.reach hs ht)
  have hrun : ∀ n, ∃ S, (runMcts o e.mdp.trans A w.d0 n e.mdp.features.get (some ((k :: own) :: others)) cache draws
      fuel).2.2 = some (.ok S) := by
    intro n
    refine (runLoop_ok (fun _ => True) (fun V N cache i _ => ?_) n 0 (Search.fresh cache) trivial).imp fun _ h => h.1
    have hloop := simLoop_alone (M := e.mdp.trans) (A := A) (nF := w.d0) (V := V) (N := N) (draws := draws i) hint hk
      (plan := (k :: own) :: others) rfl (k + own.sum + (others.map List.sum).sum) fuel .start
      (Sim.start A.nodes e.mdp.features.get cache) rfl rfl (by simp [Clock.start]) (by omega)
    obtain ⟨st, hst⟩ := alone_ok (V := V) (N := N) (draws := draws i) hint hrow hr hone' hstep
      (k + own.sum + (others.map List.sum).sum) 0 (Sim.start A.nodes e.mdp.features.get cache)
      ⟨s, hnode, nextStates_live hlive⟩
    rw [show Clock.start.total = 0 from rfl, hst] at hloop
    exact ⟨st, hloop, trivial⟩
  choose S hS' using hrun
  obtain ⟨k1, k2⟩ := explores hint hb hC hk rfl h2 hf hnode
    (fun t ht => grid_back hok.reach (pyIdx_lt hj) ht) S hS'
  refine ⟨S, hS', fun t ht => k1 t ?_, k2⟩
  obtain ⟨q1, x, q2, q3⟩ := ht
  exact mem_nextStates.2 ⟨q1, x, q2, ne_of_gt q3⟩

/-- **C141**, visits: on a grid, when an agent plans alone and at least two moves ahead, with any positive exploration
constant, each state it can go to is visited more and more often as the number of iterations grows, whatever the
generator does. -/
theorem C141_explores (hm : Mdp.GridReach kind W H selfT m) (hinit : Env.init m specs = (m', .ok e0))
    (hrows : m.nNonAgent = m.features.d0 - m.nAgents)
    (hcons : ∀ sp ∈ specs, ∀ f ∈ sp.consumes, -((m.features.d0 - m.nAgents + specs.length : Nat) : Int) ≤ f)
    (ops : List (EnvOp ℝ δ)) (e : Env ℝ δ) (he : e = e0.run ops) (a : Agent ℝ δ) (ha : a ∈ e.agents)
    (s : Nat) (hs : s = Spec.stateOf (W * H) a.position)
    (o : MctsOpts ℝ) (hint : o.interactive = false) (hb : o.bonus = ucbBonus) (hC : 0 < o.C)
    (w : Arr1 ℝ) (hw : w.d0 = e.mdp.features.d0)
    (hone : o.caching = true → ∀ f ∈ a.consumes, ∀ g ∈ a.consumes, pyIdx w.d0 f = pyIdx w.d0 g)
    (k : Nat) (hk : 0 < k) (own : List Nat) (others : List (List Nat))
    (h2 : 2 ≤ k + own.sum + (others.map List.sum).sum) (fuel : Nat)
    (hf : k + own.sum + (others.map List.sum).sum + 1 ≤ fuel) (cache : QCache ℝ) (draws : Nat → Nat → Draw ℝ)
    (t : Nat) (ht : Spec.Successor e.mdp.trans s t) (B : Nat) :
    ∃ n0, ∀ n, n0 ≤ n → ∃ A S, extractInfo (e.agentInfos a o.interactive w) = .ok A ∧
      (runMcts o e.mdp.trans A w.d0 n e.mdp.features.get (some ((k :: own) :: others)) cache draws fuel).2.2 =
        some (.ok S) ∧ B ≤ S.N t := by
  have hlive : Spec.Live e.mdp.trans s := by
    obtain ⟨h1, x, h3, h4⟩ := ht
    exact ⟨x, h3, t, h1, h4⟩
  obtain ⟨-, A, hA, S, hS, hgrow, -⟩ := explored hm hinit hrows hcons ops he ha hs hlive o hint hb hC w hw hone k hk own
    others h2 fuel hf cache draws
  obtain ⟨n0, h⟩ := hgrow t ht B
  exact ⟨n0, fun n hn => ⟨A, S n, hA, hS n, h n hn⟩⟩

/-- **C141**, values: so, with enough iterations, the value that a fit gives an action is as close as one likes to the
average of the returns of the walks through the state that the action leads to. -/
theorem C141_averages (hm : Mdp.GridReach kind W H selfT m) (hinit : Env.init m specs = (m', .ok e0))
    (hrows : m.nNonAgent = m.features.d0 - m.nAgents)
    (hcons : ∀ sp ∈ specs, ∀ f ∈ sp.consumes, -((m.features.d0 - m.nAgents + specs.length : Nat) : Int) ≤ f)
    (ops : List (EnvOp ℝ δ)) (e : Env ℝ δ) (he : e = e0.run ops) (a : Agent ℝ δ) (ha : a ∈ e.agents)
    (s : Nat) (hs : s = Spec.stateOf (W * H) a.position)
    (o : MctsOpts ℝ) (hint : o.interactive = false) (hb : o.bonus = ucbBonus) (hC : 0 < o.C)
    (w : Arr1 ℝ) (hw : w.d0 = e.mdp.features.d0)
    (hone : o.caching = true → ∀ f ∈ a.consumes, ∀ g ∈ a.consumes, pyIdx w.d0 f = pyIdx w.d0 g)
    (k : Nat) (hk : 0 < k) (own : List Nat) (others : List (List Nat))
    (h2 : 2 ≤ k + own.sum + (others.map List.sum).sum) (fuel : Nat)
    (hf : k + own.sum + (others.map List.sum).sum + 1 ≤ fuel) (cache : QCache ℝ) (draws : Nat → Nat → Draw ℝ)
    (x t : Nat) (hx : x < e.mdp.nActions) (ht : t < e.mdp.nStates) (hxt : e.mdp.sas s x t = 1) (ε : ℝ) (hε : 0 < ε) :
    ∃ n0, ∀ n, n0 ≤ n → ∃ (v : PyArr (Ext ℝ)) (g : Nat → Nat → Ext ℝ) (y : ℝ) (outs : List (ℝ × List Nat))
        (A : SimAgents ℝ),
      e.mctsFit a o n (some ((k :: own) :: others)) cache draws fuel w =
        some (.ok (v, .of2 ⟨e.mdp.nStates, e.mdp.nActions, g⟩)) ∧
      g s x = .fin y ∧ outs.length = n ∧ extractInfo (e.agentInfos a o.interactive w) = .ok A ∧
      (∀ i, i < n → ∃ cache' st,
        (mctsIteration o e.mdp.trans A w.d0 e.mdp.features.get A.nodes (Spec.valueOf (outs.take i))
          (Spec.visitsOf (outs.take i)) ((k :: own) :: others) cache' (draws i) fuel).2.2 = some (.ok st) ∧
          outs[i]? = some (st.acc, st.visited)) ∧
      0 < Spec.visitsOf outs t ∧ |y - Spec.valueOf outs t / Spec.visitsOf outs t| ≤ ε := by
  have hsucc : Spec.Successor e.mdp.trans s t := ⟨ht, x, hx, by
    show 0 < e.mdp.sas s x t
    rw [hxt]; exact one_pos⟩
  have hlive : Spec.Live e.mdp.trans s := by
    obtain ⟨h1, x, h3, h4⟩ := hsucc
    exact ⟨x, h3, t, h1, h4⟩
  obtain ⟨hj, A, hA, S, hS, hgrow, R, hR, hV⟩ := explored hm hinit hrows hcons ops he ha hs hlive o hint hb hC w hw hone
    k hk own others h2 fuel hf cache draws
  obtain ⟨X, hX⟩ := exists_nat_gt (R / ε)
  obtain ⟨n0, h⟩ := hgrow t hsucc (X + 1)
  refine ⟨n0, fun n hn => ?_⟩
  have hN := h n hn
  obtain ⟨hok, -⟩ := Env.started hm hinit ops
  rw [← he] at hok
  obtain ⟨hsub, hdet, -⟩ := C27_grid kind W H selfT e.mdp hok.reach
  have hfit : e.mctsFit a o n (some ((k :: own) :: others)) cache draws fuel w =
      some (.ok (.of1 ⟨e.mdp.nStates, fun t => .fin ((S n).V t)⟩,
        .of2 ⟨e.mdp.nStates, e.mdp.nActions, mctsQ e.mdp.trans (S n).V (S n).N s⟩)) := by
    unfold Env.mctsFit
    rw [hA]
    dsimp only
    rw [hS n]
    dsimp only
    rw [hj]
  obtain ⟨outs, k1, k2, k3, -, -, k6⟩ :=
    C58_tables o e.mdp.trans A w.d0 n e.mdp.features.get _ cache draws fuel (S n) (hS n)
  obtain ⟨A', S', here, g, q1, q2, q3, q4, q5, -, -, q8⟩ := C63_table e hdet hsub.le_one a o n
    _ cache draws fuel w _ _ hfit
  rw [hA] at q1
  cases q1
  rw [hS n] at q2
  cases q2
  rw [hj] at q3
  cases q3
  rw [q5] at hfit
  refine ⟨_, _, (S n).V t / (1 + ((S n).N t : ℝ)), outs, A, hfit, q8 x t hx ht hxt, k1, hA, k6, ?_, ?_⟩
  · rw [← k2]; omega
  · rw [← k2, ← k3]
    have hb := hV n t
    set N : ℝ := ((S n).N t : ℝ) with hNd
    have hN1 : (X : ℝ) + 1 ≤ N := by rw [hNd]; exact_mod_cast hN
    have hXp : (0 : ℝ) ≤ X := Nat.cast_nonneg _
    have hNp : 0 < N := by linarith
    have hd : (S n).V t / (1 + N) - (S n).V t / N = -((S n).V t / N) / (1 + N) := by
      field_simp
      ring
    rw [hd, abs_div, abs_neg, abs_div, abs_of_pos hNp, abs_of_pos (by linarith : (0 : ℝ) < 1 + N)]
    have h3 : |(S n).V t| / N ≤ R := by rw [div_le_iff₀ hNp]; exact hb
    rw [div_le_iff₀ (by linarith : (0 : ℝ) < 1 + N)]
    rw [div_lt_iff₀ hε] at hX
    nlinarith

/-- On the corridor of `C108_refuted`, where a search one move ahead looks at state 0 only once, a search two moves ahead
looks at both neighbours of the middle more and more often. -/
example : ∃ (m m' : Mdp ℝ) (e : Env ℝ Nat) (a : Agent ℝ Nat), Mdp.GridReach .square 1 3 false m ∧
    Env.init m exMiddle = (m', .ok e) ∧ a ∈ e.agents ∧ ∀ (o : MctsOpts ℝ), o.interactive = false → o.bonus = ucbBonus →
    0 < o.C → ∀ (cache : QCache ℝ) (draws : Nat → Nat → Draw ℝ) (B : Nat), ∃ n0, ∀ n, n0 ≤ n → ∀ t, t = 0 ∨ t = 2 →
      ∃ A S, extractInfo (e.agentInfos a o.interactive a.reward) = .ok A ∧
        (runMcts o e.mdp.trans A a.reward.d0 n e.mdp.features.get (some [[2]]) cache draws 3).2.2 = some (.ok S) ∧
        B ≤ S.N t := by
  obtain ⟨m, m', e, a, hm, hinit, hrows, hmem, -, hp0, hcons, -, -, hsucc, -, -⟩ := exMiddle_start
  obtain ⟨-, hrd⟩ := reward_length hm hinit [] e rfl a hmem
  refine ⟨m, m', e, a, hm, hinit, hmem, fun o hint hb hC cache draws B => ?_⟩
  have key := fun t ht => C141_explores hm hinit hrows (by simp [exMiddle]) [] e rfl a hmem 1 (by rw [hp0]; rfl) o hint hb
    hC a.reward hrd (by rw [hcons]; simp) 2 (by omega) [] [] (by simp) 3 (by simp) cache draws t ht B
  obtain ⟨n1, h1⟩ := key 0 ((hsucc 0).2 (.inl rfl))
  obtain ⟨n2, h2⟩ := key 2 ((hsucc 2).2 (.inr rfl))
  refine ⟨max n1 n2, fun n hn t ht => ?_⟩
  rcases ht with rfl | rfl
  · exact h1 n (le_trans (le_max_left _ _) hn)
  · exact h2 n (le_trans (le_max_right _ _) hn)

end MaMDP
