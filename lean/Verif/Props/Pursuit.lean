import Verif.Lemmas.Pursuit

/-! # Pursuit: C145 -/

set_option linter.unusedSectionVars false

namespace MaMDP

variable {kind : GridKind} {W H : Nat} {selfT : Bool} {m m' : Mdp ℝ} {specs : List (AgentSpec ℝ Nat)}
  {e0 : Env ℝ Nat}

theorem Chase.met (hm : Mdp.GridReach kind W H selfT m) (hinit : Env.init m specs = (m', .ok e0)) {a b : Agent ℝ Nat}
    {M : Trans ℝ} {D k s g : Nat} {e : Env ℝ Nat} (h : Chase e0 (W * H) a b M D k s g e) :
    Spec.StandsIn (W * H) e a.name s ∧ Spec.StandsIn (W * H) e b.name g := by
  obtain ⟨past, he⟩ := h.run
  have hok : Env.Ok kind W H selfT e := by rw [he]; exact (Env.started hm hinit past).1
  obtain ⟨a', ha', -, -, -, -, hs⟩ := h.hunter
  obtain ⟨b', hb', -, hg⟩ := h.prey
  obtain ⟨ha1, ha2⟩ := (Env.agent?_eq hok.nodup).1 ha'
  obtain ⟨hb1, hb2⟩ := (Env.agent?_eq hok.nodup).1 hb'
  exact ⟨⟨a', ha1, ha2, hs.symm⟩, ⟨b', hb1, hb2, hg.symm⟩⟩

/-- **C145**: an agent that gets reward from another one only, is fitted with value iteration before each of its moves and makes
`k` of them in a turn, catches the other one, which gets at most `j < k` moves away in a turn, whatever all the others do:
if it can be reached with `d` moves in the beginning, then within `d / (k - j)` turns. -/
theorem C145_caught (hm : Mdp.GridReach kind W H selfT m) (hinit : Env.init m specs = (m', .ok e0))
    (ops : List (EnvOp ℝ Nat)) (e : Env ℝ Nat) (he : e = e0.run ops) (a b : Agent ℝ Nat) (ha : a ∈ e.agents) (hb : b ∈ e.agents)
    (hab : a.name ≠ b.name) (hsel : a.selector = maxSelector) (hhunt : Spec.Hunter e a b)
    (row : Nat) (hrow : row = e.mdp.features.d0 - e.mdp.nAgents + b.idx)
    (hseen : e.mdp.features.get row (Spec.stateOf (W * H) b.position) = 1)
    (hsafe : ∀ c ∈ e.agents, c.name ≠ a.name → ¬ Spec.Feeds e.mdp.features.d0 c row)
    (d : Nat) (hd : Spec.Reaches e.mdp.trans (Spec.stateOf (W * H) a.position) (Spec.stateOf (W * H) b.position) d)
    (j k : Nat) (hjk : j < k) (γ tol : ℝ) (h0 : 0 < γ) (h1 : γ < 1) (htol : 0 < tol)
    (hsmall : 2 * tol ≤ γ ^ (d + j) * (1 - γ) ^ 2 * a.reward.get row) :
    ∃ N, ∀ maxIter, N ≤ maxIter → ∀ (fitDraws stepDraws : Nat → Nat → Nat → Nat) (others : Nat → List (EnvOp ℝ Nat)),
      (∀ n, ∀ op ∈ others n, Spec.OfOthers a.name op ∧ Spec.Placed (W * H) b.name op) →
      (∀ n g g', Spec.StandsIn (W * H) (Spec.hunt maxIter γ tol a.name k fitDraws stepDraws others e n) b.name g →
        Spec.StandsIn (W * H) ((Spec.hunt maxIter γ tol a.name k fitDraws stepDraws others e n).run (others n)) b.name g' →
        ∃ i, i ≤ j ∧ Spec.Reaches e.mdp.trans g g' i) →
      ∃ n i g, n * (k - j) ≤ d ∧ i ≤ k ∧
        Spec.StandsIn (W * H) (Spec.forage maxIter γ tol a.name (fitDraws n) (stepDraws n)
          ((Spec.hunt maxIter γ tol a.name k fitDraws stepDraws others e n).run (others n)) i) a.name g ∧
        Spec.StandsIn (W * H) (Spec.forage maxIter γ tol a.name (fitDraws n) (stepDraws n)
          ((Spec.hunt maxIter γ tol a.name k fitDraws stepDraws others e n).run (others n)) i) b.name g := by
  subst hrow
  obtain ⟨hok, hlater⟩ := Env.started hm hinit ops
  rw [← he] at hok hlater
  obtain ⟨-, hok0, hval, -, -, -, hd0, hna, -, -, -, -, -, -, -, hag⟩ := Env.init_facts hm hinit
  obtain ⟨a0, ha0, -, -, -, hcons, -, -, hrew, -, -⟩ := hlater.back hok0 hok ha
  have hboth : a.reward.d0 = e.mdp.features.d0 ∧ ∀ f ∈ a.consumes, f < (e.mdp.features.d0 : Int) := by
    obtain ⟨i, sp, p, r, hi, -, -, rfl⟩ := hag a0 ha0
    rw [hrew, hcons, hlater.d0, hd0]
    refine ⟨rfl, fun f hf => ?_⟩
    have := (hval sp (List.mem_of_getElem? hi)).2.2 f hf
    omega
  obtain ⟨hrd, hup⟩ := hboth
  have hvalid : ∀ f ∈ a.consumes, ∃ r, pyIdx e.mdp.features.d0 f = some r := by
    intro f hf
    have h2 := hhunt.known f hf
    have h3 := hup f hf
    rw [hrd] at h2
    by_cases h4 : 0 ≤ f
    · exact ⟨f.toNat, pyIdx_spec.2 ⟨by omega, .inl (by omega)⟩⟩
    · exact ⟨(f + e.mdp.features.d0).toNat, pyIdx_spec.2 ⟨by omega, .inr (by omega)⟩⟩
  obtain ⟨hM, hdet, hA, -⟩ := C27_grid kind W H selfT e.mdp hok.reach
  set D := e.mdp.features.d0 with hDdef
  set nk := e.mdp.nAgents with hnk
  set M := e.mdp.trans with hMdef
  set w := a.reward.get (D - nk + b.idx) with hw
  choose lim hlim using fun g : Nat => C103_limit M hM hA (fun t => if t = g then w else 0) γ tol h0 h1 htol
  refine ⟨(Finset.range M.nS).sup lim + 1, fun maxIter hmax fitDraws stepDraws others hoth hfair => ?_⟩
  have hstop : ∀ g, g < M.nS → ∃ i, i < maxIter ∧ ∀ s, s < M.nS →
      |Spec.sweeps M (fun t => if t = g then w else 0) γ (i + 1) s - Spec.sweeps M (fun t => if t = g then w else 0) γ i s| < tol := by
    intro g hg
    refine hlim g maxIter ?_
    have := Finset.le_sup (f := lim) (Finset.mem_range.2 hg)
    omega
  set now := Spec.hunt maxIter γ tol a.name k fitDraws stepDraws others e with hnow
  -- the hunter's moves of one turn
  have hturn : ∀ (n s g r : Nat), Chase e0 (W * H) a b M D nk s g ((now n).run (others n)) → Spec.Reaches M s g r → r ≤ d + j →
      ∀ i, (∃ i', i' ≤ i ∧ ∃ g, Spec.StandsIn (W * H) (Spec.forage maxIter γ tol a.name (fitDraws n) (stepDraws n)
          ((now n).run (others n)) i') a.name g ∧ Spec.StandsIn (W * H) (Spec.forage maxIter γ tol a.name (fitDraws n)
          (stepDraws n) ((now n).run (others n)) i') b.name g) ∨
        ∃ s' r', Chase e0 (W * H) a b M D nk s' g (Spec.forage maxIter γ tol a.name (fitDraws n) (stepDraws n)
          ((now n).run (others n)) i) ∧ Spec.Reaches M s' g r' ∧ r' + i ≤ r := by
    intro n s g r hc hre hr i
    induction i with
    | zero => exact .inr ⟨s, r, hc, hre, by omega⟩
    | succ i ih =>
      rcases ih with ⟨i', hi', h2⟩ | ⟨s', r', hc', hre', hr'⟩
      · exact .inl ⟨i', by omega, h2⟩
      · by_cases hsg : s' = g
        · subst hsg
          exact .inl ⟨i, by omega, s', hc'.met hm hinit⟩
        · right
          obtain ⟨t, l, hl, hre2, -, -, hc2⟩ := hc'.move hm hinit hrd hab hhunt.likes
            (fun f hf => hhunt.only f (by rw [hrd]; exact hf)) hhunt.eats hvalid (by omega) h0 h1 htol hsmall hstop
            (fitDraws n i) (stepDraws n i) hsg (by omega) hre'
          exact ⟨t, l, hc2, hre2, by omega⟩
  -- the turns
  have hall : ∀ n, (∃ n' i g, n' * (k - j) ≤ d ∧ i ≤ k ∧
      Spec.StandsIn (W * H) (Spec.forage maxIter γ tol a.name (fitDraws n') (stepDraws n') ((now n').run (others n')) i) a.name g ∧
      Spec.StandsIn (W * H) (Spec.forage maxIter γ tol a.name (fitDraws n') (stepDraws n') ((now n').run (others n')) i) b.name g) ∨
      ∃ s g r, Chase e0 (W * H) a b M D nk s g (now n) ∧ Spec.Reaches M s g r ∧ r + n * (k - j) ≤ d := by
    intro n
    induction n with
    | zero =>
      refine .inr ⟨_, _, d, ⟨⟨ops, he⟩, rfl, rfl, rfl, ⟨a, (Env.agent?_eq hok.nodup).2 ⟨ha, rfl⟩, hsel, rfl, rfl, rfl, rfl⟩,
        ⟨b, (Env.agent?_eq hok.nodup).2 ⟨hb, rfl⟩, rfl, rfl⟩, fun _ => hseen, fun c hc hn hE => ?_⟩, hd, by omega⟩
      exact hsafe c hc hn (Env.eats_feeds.1 hE).2
    | succ n ih =>
      rcases ih with h2 | ⟨s, g, r, hc, hre, hr⟩
      · exact .inl h2
      · obtain ⟨g', hc'⟩ := hc.others hm hinit (hoth n)
        obtain ⟨i, hi, hgi⟩ := hfair n g g' (hc.met hm hinit).2 (hc'.met hm hinit).2
        have hre' := reaches_trans hgi r s hre
        rcases hturn n s g' (r + i) hc' hre' (by omega) k with ⟨i', hi', u, hu⟩ | ⟨s', r', hc2, hre2, hr2⟩
        · exact .inl ⟨n, i', u, by omega, hi', hu⟩
        · refine .inr ⟨s', g', r', hc2, hre2, ?_⟩
          rw [Nat.add_mul]
          omega
  rcases hall (d + 1) with h2 | ⟨s, g, r, -, -, hr⟩
  · exact h2
  · exfalso
    have : d + 1 ≤ (d + 1) * (k - j) := Nat.le_mul_of_pos_right _ (by omega)
    omega

/-! ### A prey that steps -/

/-- An agent that is where it can move, and has a selector and a plan that make it move as it can. -/
structure LawfulPrey (M : Trans ℝ) (D : Nat → Prop) (y : String) (e : Env ℝ Nat) : Prop where
  trans : e.mdp.trans = M
  agent : ∀ b, e.agent? y = some b → Spec.Safe b.selector D ∧ Spec.Live M (Spec.stateOf M.nS b.position) ∧
    ∀ q, b.alg.qValues = some q → ∀ s, s < M.nS → Spec.MaskedAt M q s

theorem LawfulPrey.apply {M : Trans ℝ} {D : Nat → Prop} {x y : String} {e : Env ℝ Nat} (hok : Env.Ok kind W H selfT e)
    (h : LawfulPrey M D y e) (op : EnvOp ℝ Nat) (h1 : Spec.OfOthers x op) (h2 : Spec.Roams M D y op) (h3 : Spec.NoMulti y op) :
    LawfulPrey M D y (e.apply op) ∧ ∀ b b', e.agent? y = some b → (e.apply op).agent? y = some b' →
      ∃ i, i ≤ Spec.stepsOf y [op] ∧ Spec.Reaches M (Spec.stateOf M.nS b.position) (Spec.stateOf M.nS b'.position) i := by
  obtain ⟨rfl, hag⟩ := h
  have hN : e.mdp.trans.nS = e.mdp.nStates := rfl
  -- calls for others
  have hother : ∀ e' : Env ℝ Nat, e'.mdp.trans = e.mdp.trans → e'.agent? y = e.agent? y →
      LawfulPrey e.mdp.trans D y e' ∧ ∀ b b', e.agent? y = some b → e'.agent? y = some b' →
        ∃ i, i ≤ Spec.stepsOf y [op] ∧
          Spec.Reaches e.mdp.trans (Spec.stateOf e.mdp.trans.nS b.position) (Spec.stateOf e.mdp.trans.nS b'.position) i := by
    intro e' ht ha
    refine ⟨⟨ht, by rw [ha]; exact hag⟩, fun b b' hb hb' => ⟨0, by omega, ?_⟩⟩
    rw [ha, hb] at hb'
    cases hb'
    exact reaches_zero.2 rfl
  -- calls that change only the plan
  have hsame : ∀ (e' : Env ℝ Nat) (a a' : Agent ℝ Nat), e'.mdp = e.mdp → a ∈ e.agents → a.name = y →
      e'.agent? y = some a' → Agent.SameBody a a' →
      (∀ q, a'.alg.qValues = some q → ∀ s, s < e.mdp.trans.nS → Spec.MaskedAt e.mdp.trans q s) →
      LawfulPrey e.mdp.trans D y e' ∧ ∀ b b', e.agent? y = some b → e'.agent? y = some b' →
        ∃ i, i ≤ Spec.stepsOf y [op] ∧
          Spec.Reaches e.mdp.trans (Spec.stateOf e.mdp.trans.nS b.position) (Spec.stateOf e.mdp.trans.nS b'.position) i := by
    intro e' a a' hm ha hn ha' hbody hq
    have hay : e.agent? y = some a := (Env.agent?_eq hok.nodup).2 ⟨ha, hn⟩
    obtain ⟨g1, g2, -⟩ := hag a hay
    refine ⟨⟨by rw [hm], fun b hb => ?_⟩, fun b b' hb hb' => ⟨0, by omega, ?_⟩⟩
    · rw [ha'] at hb; cases hb
      exact ⟨by rw [hbody.selector]; exact g1, by rw [hbody.position]; exact g2, hq⟩
    · rw [ha'] at hb'; cases hb'
      rw [hay] at hb; cases hb
      rw [hbody.position]
      exact reaches_zero.2 rfl
  cases op with
  | fit z o d =>
    by_cases hz : z = y
    · subst hz
      rcases Env.fit_cases hok z o d with ⟨-, h4⟩ | ⟨a, ha, hn, h4⟩
      · exact hother _ (by show (e.fit z o d).1.mdp.trans = _; rw [h4]) (by show (e.fit z o d).1.agent? z = _; rw [h4])
      · have hbody := (Agent.fit_same a e.mdp o d).1
        have h5 : (e.fit z o d).1 = e.put e.mdp (a.fit e.mdp o d).1 := by rw [h4]
        refine hsame _ a (a.fit e.mdp o d).1 ?_ ha hn ?_ hbody ?_
        · show (e.fit z o d).1.mdp = _; rw [h5]; rfl
        · show (e.fit z o d).1.agent? z = _
          rw [h5, ← hn]
          exact Env.agent?_put_same hok ha hbody.name
        · exact fun q hq => Env.fit_masked (h2 rfl)
            (hag a ((Env.agent?_eq hok.nodup).2 ⟨ha, hn⟩)).2.2 q hq
    · have := nibbled_fit (x := y) hz hok o d
      exact hother _ this.trans this.agent
  | stepProba z p d =>
    by_cases hz : z = y
    · subst hz
      rcases Env.stepProba_cases hok z p d with ⟨-, h4⟩ | ⟨a, ha, hn, hc⟩
      · exact hother _ (by show (e.stepProba z p d).1.mdp.trans = _; rw [h4])
          (by show (e.stepProba z p d).1.agent? z = _; rw [h4])
      · have hbody := Agent.stepProba_same a e.mdp p d
        have h5 : (e.stepProba z p d).1.mdp = e.mdp ∧ (e.stepProba z p d).1.agent? z =
            (e.put e.mdp (a.stepProba e.mdp p d).1).agent? z := by
          rcases hc with ⟨err, -, h6⟩ | ⟨x, -, h6⟩ <;> · rw [h6]; exact ⟨rfl, rfl⟩
        refine hsame _ a (a.stepProba e.mdp p d).1 h5.1 ha hn ?_ hbody.1 ?_
        · show (e.stepProba z p d).1.agent? z = _
          rw [h5.2, ← hn]
          exact Env.agent?_put_same hok ha hbody.1.name
        · rw [hbody.2.2]
          exact (hag a ((Env.agent?_eq hok.nodup).2 ⟨ha, hn⟩)).2.2
    · have := nibbled_stepProba (x := y) hz hok p d
      exact hother _ this.trans this.agent
  | setAgentPosition z p =>
    have := nibbled_setAgentPosition (x := y) h2 hok p
    exact hother _ this.trans this.agent
  | stepMulti z s p t r c o =>
    have := nibbled_run (x := y) [.stepMulti z s p t r c o] e hok (by
      intro op hop
      rw [List.mem_singleton] at hop
      subst hop
      exact h3)
    exact hother _ this.trans this.agent
  | stepMultiInteractive n m => exact h1.elim
  | reset => exact h1.elim
  | setWalls w => exact h1.elim
  | addWallXY a b => exact h1.elim
  | resetWalls => exact h1.elim
  | setAlgorithm z st =>
    by_cases hz : z = y
    · subst hz
      rcases Env.setAlgorithm_cases hok z st with ⟨-, h4⟩ | ⟨a, ha, hn, h4⟩
      · exact hother _ (by show (e.setAlgorithm z st).1.mdp.trans = _; rw [h4])
          (by show (e.setAlgorithm z st).1.agent? z = _; rw [h4])
      · have hbody := Env.setAlgorithm_same a st
        refine hsame _ a { a with alg := st } ?_ ha hn ?_ hbody ?_
        · show (e.setAlgorithm z st).1.mdp = _; rw [h4]; rfl
        · show (e.setAlgorithm z st).1.agent? z = _
          rw [h4, ← hn]
          exact Env.agent?_put_same hok ha hbody.name
        · exact h2 rfl
    · have := nibbled_setAlgorithm (x := y) hz hok st
      exact hother _ this.trans this.agent
  | step z d =>
    by_cases hz : z = y
    · subst hz
      have hcase : ∀ (a a1 a2 : Agent ℝ Nat) (j t : Nat), a.name = z → Env.Moved e a d a1 j t →
          (e.step z d).1.mdp.trans = e.mdp.trans → (e.step z d).1.agent? z = some a2 → a2.selector = a1.selector →
          a2.position = a1.position → a2.alg = a1.alg →
          LawfulPrey e.mdp.trans D z (e.step z d).1 ∧ ∀ b b', e.agent? z = some b → (e.step z d).1.agent? z = some b' →
            ∃ i, i ≤ Spec.stepsOf z [EnvOp.step z d] ∧
              Spec.Reaches e.mdp.trans (Spec.stateOf e.mdp.trans.nS b.position) (Spec.stateOf e.mdp.trans.nS b'.position) i := by
        intro a a1 a2 j t hn hmv ht ha2 k1 k2 k3
        have hay : e.agent? z = some a := (Env.agent?_eq hok.nodup).2 ⟨hmv.mem, hn⟩
        obtain ⟨g1, g2, g3⟩ := hag a hay
        have hj := hmv.seat
        have hsj : Spec.stateOf e.mdp.trans.nS a.position = j := (Env.stateOf_eq hj).symm
        rw [hsj] at g2
        obtain ⟨q, P, p, s, -, f2, -⟩ := hmv.ex
        have hsucc := hmv.successor hok g1 (h2 rfl) f2 (g3 q f2 j (pyIdx_lt hj)) g2
        obtain ⟨-, -, hl⟩ := Env.successor_facts hok (pyIdx_lt hj) hsucc
        have hpt : Spec.stateOf e.mdp.trans.nS a2.position = t := by
          rw [k2, hmv.name.2.2.2.1]
          exact (Env.stateOf_eq (by
            have : t < e.mdp.trans.nS := hmv.lt
            simp [this])).symm
        refine ⟨⟨ht, fun b hb => ?_⟩, fun b b' hb hb' => ⟨1, by simp [Spec.stepsOf], ?_⟩⟩
        · rw [ha2] at hb; cases hb
          refine ⟨by rw [k1, hmv.name.2.2.2.2.2.2.2.2.1]; exact g1, by rw [hpt]; exact hl, ?_⟩
          rw [k3, hmv.name.2.2.2.2.2.2.2.1]
          exact g3
        · rw [ha2] at hb'; cases hb'
          rw [hay] at hb; cases hb
          rw [hpt, hsj]
          obtain ⟨ht, x, hx, hp⟩ := hsucc
          exact reaches_succ.2 ⟨x, t, hx, ht, ((C27_grid kind W H selfT e.mdp hok.reach).2.1 j x t
            (pyIdx_lt hj) hx ht).resolve_left (ne_of_gt hp), reaches_zero.2 rfl⟩
      rcases Env.step_cases hok z d with ⟨-, h4⟩ | ⟨a, a', err, ha, hn, hbody, -, halg, -, h4⟩ |
        ⟨a, a1, j, t, g, c, hn, hmv, -, -, -, h4, -⟩ | ⟨a, a1, j, t, g, hn, hmv, -, -, h4, -⟩
      · exact hother _ (by show (e.step z d).1.mdp.trans = _; rw [h4]) (by show (e.step z d).1.agent? z = _; rw [h4])
      · refine hsame _ a a' ?_ ha hn ?_ hbody ?_
        · show (e.step z d).1.mdp = _; rw [h4]; rfl
        · show (e.step z d).1.agent? z = _
          rw [h4, ← hn]
          exact Env.agent?_put_same hok ha hbody.name
        · rw [halg]
          exact (hag a ((Env.agent?_eq hok.nodup).2 ⟨ha, hn⟩)).2.2
      · refine hcase a a1 { a1 with consumed := fun f => a.consumed f + c f } j t hn hmv ?_ ?_ rfl rfl rfl
        · rw [h4]; rfl
        · rw [h4, ← hn]
          exact Env.agent?_put_same (m := e.mdp.withFeat g) hok hmv.mem hmv.name.1
      · refine hcase a a1 a1 j t hn hmv ?_ ?_ rfl rfl rfl
        · rw [h4]; rfl
        · rw [h4, ← hn]
          exact Env.agent?_put_same (m := e.mdp.withFeat g) hok hmv.mem hmv.name.1
    · have := nibbled_step (x := y) hz hok d
      exact hother _ this.trans this.agent

theorem stepsOf_cons (y : String) (op : EnvOp ℝ Nat) (l : List (EnvOp ℝ Nat)) :
    Spec.stepsOf y (op :: l) = Spec.stepsOf y [op] + Spec.stepsOf y l := by
  cases op <;> simp [Spec.stepsOf]

theorem LawfulPrey.run {M : Trans ℝ} {D : Nat → Prop} {x y : String} (ops : List (EnvOp ℝ Nat)) :
    ∀ e : Env ℝ Nat, Env.Ok kind W H selfT e → LawfulPrey M D y e →
      (∀ op ∈ ops, Spec.OfOthers x op ∧ Spec.Roams M D y op ∧ Spec.NoMulti y op) →
      LawfulPrey M D y (e.run ops) ∧ ∀ b b', e.agent? y = some b → (e.run ops).agent? y = some b' →
        ∃ i, i ≤ Spec.stepsOf y ops ∧ Spec.Reaches M (Spec.stateOf M.nS b.position) (Spec.stateOf M.nS b'.position) i := by
  induction ops with
  | nil =>
    intro e _ h _
    refine ⟨h, fun b b' hb hb' => ⟨0, by omega, ?_⟩⟩
    rw [show e.run [] = e from rfl, hb] at hb'
    cases hb'
    exact reaches_zero.2 rfl
  | cons op ops ih =>
    intro e hok h hops
    obtain ⟨h1, h2, h3⟩ := hops op List.mem_cons_self
    obtain ⟨k1, k2⟩ := h.apply hok op h1 h2 h3
    have hok' : Env.Ok kind W H selfT (e.apply op) := Env.Ok.run [op] e hok
    obtain ⟨k3, k4⟩ := ih (e.apply op) hok' k1 fun o ho => hops o (List.mem_cons_of_mem _ ho)
    refine ⟨k3, fun b b'' hb hb'' => ?_⟩
    have hl : Env.Later e (e.apply op) := Env.later_run [op] hok
    obtain ⟨b', hb', -⟩ := agent?_later hok hok' hl hb
    obtain ⟨i1, hi1, r1⟩ := k2 b b' hb hb'
    obtain ⟨i2, hi2, r2⟩ := k4 b' b'' hb' hb''
    exact ⟨i1 + i2, by rw [stepsOf_cons]; omega, reaches_trans r2 i1 _ r1⟩

theorem LawfulPrey.forage {M : Trans ℝ} {D : Nat → Prop} {x y : String} (hxy : x ≠ y) {maxIter : Nat} {γ tol : ℝ}
    {d1 d2 : Nat → Nat → Nat} {e : Env ℝ Nat} (hok : Env.Ok kind W H selfT e) (h : LawfulPrey M D y e) (k : Nat) :
    Env.Ok kind W H selfT (Spec.forage maxIter γ tol x d1 d2 e k) ∧ LawfulPrey M D y (Spec.forage maxIter γ tol x d1 d2 e k) := by
  induction k with
  | zero => exact ⟨hok, h⟩
  | succ k ih =>
    obtain ⟨hok', h'⟩ := ih
    have hok2 := hok'.fit x (valueIterationFit (Spec.forage maxIter γ tol x d1 d2 e k).mdp maxIter γ tol) (d1 k)
    have n1 := nibbled_fit (x := y) hxy hok' (valueIterationFit (Spec.forage maxIter γ tol x d1 d2 e k).mdp maxIter γ tol) (d1 k)
    have n2 := (n1.then (nibbled_step (x := y) hxy hok2 (d2 k)))
    refine ⟨hok2.step x (d2 k), ⟨n2.trans.trans h'.trans, fun b hb => h'.agent b ?_⟩⟩
    rw [← n2.agent]
    exact hb

/-- **C145**, for a prey that moves by at most `j` calls of `step` in a turn, on plans that tell which moves are possible (such
as value iteration makes): between them it may be fitted in any way. -/
theorem C145_steps (hm : Mdp.GridReach kind W H selfT m) (hinit : Env.init m specs = (m', .ok e0))
    (ops : List (EnvOp ℝ Nat)) (e : Env ℝ Nat) (he : e = e0.run ops) (a b : Agent ℝ Nat) (ha : a ∈ e.agents) (hb : b ∈ e.agents)
    (hab : a.name ≠ b.name) (hsel : a.selector = maxSelector) (hhunt : Spec.Hunter e a b)
    (row : Nat) (hrow : row = e.mdp.features.d0 - e.mdp.nAgents + b.idx)
    (hseen : e.mdp.features.get row (Spec.stateOf (W * H) b.position) = 1)
    (hsafe : ∀ c ∈ e.agents, c.name ≠ a.name → ¬ Spec.Feeds e.mdp.features.d0 c row)
    (d : Nat) (hd : Spec.Reaches e.mdp.trans (Spec.stateOf (W * H) a.position) (Spec.stateOf (W * H) b.position) d)
    (Dr : Nat → Prop) (hselb : Spec.Safe b.selector Dr) (hlive : Spec.Live e.mdp.trans (Spec.stateOf (W * H) b.position))
    (hmask : ∀ q, b.alg.qValues = some q → ∀ s, s < W * H → Spec.MaskedAt e.mdp.trans q s)
    (j k : Nat) (hjk : j < k) (γ tol : ℝ) (h0 : 0 < γ) (h1 : γ < 1) (htol : 0 < tol)
    (hsmall : 2 * tol ≤ γ ^ (d + j) * (1 - γ) ^ 2 * a.reward.get row) :
    ∃ N, ∀ maxIter, N ≤ maxIter → ∀ (fitDraws stepDraws : Nat → Nat → Nat → Nat) (others : Nat → List (EnvOp ℝ Nat)),
      (∀ n, ∀ op ∈ others n, Spec.OfOthers a.name op ∧ Spec.Roams e.mdp.trans Dr b.name op ∧ Spec.NoMulti b.name op) →
      (∀ n, Spec.stepsOf b.name (others n) ≤ j) →
      ∃ n i g, n * (k - j) ≤ d ∧ i ≤ k ∧
        Spec.StandsIn (W * H) (Spec.forage maxIter γ tol a.name (fitDraws n) (stepDraws n)
          ((Spec.hunt maxIter γ tol a.name k fitDraws stepDraws others e n).run (others n)) i) a.name g ∧
        Spec.StandsIn (W * H) (Spec.forage maxIter γ tol a.name (fitDraws n) (stepDraws n)
          ((Spec.hunt maxIter γ tol a.name k fitDraws stepDraws others e n).run (others n)) i) b.name g := by
  obtain ⟨N, key⟩ := C145_caught hm hinit ops e he a b ha hb hab hsel hhunt row hrow hseen hsafe d hd j k hjk γ tol h0 h1 htol hsmall
  refine ⟨N, fun maxIter hmax fitDraws stepDraws others hoth hslow => ?_⟩
  have hok : Env.Ok kind W H selfT e := by rw [he]; exact (Env.started hm hinit ops).1
  have hN : e.mdp.trans.nS = W * H := hok.reach.ok.nStates
  refine key maxIter hmax fitDraws stepDraws others (fun n op hop => ⟨(hoth n op hop).1, fun p hp => ?_⟩) ?_
  · have := (hoth n op hop).2.1
    rw [hp] at this
    exact absurd rfl this
  set now := Spec.hunt maxIter γ tol a.name k fitDraws stepDraws others e with hnow
  have hlaw : ∀ n, Env.Ok kind W H selfT (now n) ∧ LawfulPrey e.mdp.trans Dr b.name (now n) := by
    intro n
    induction n with
    | zero =>
      refine ⟨hok, rfl, fun c hc => ?_⟩
      obtain ⟨hc1, hc2⟩ := (Env.agent?_eq hok.nodup).1 hc
      have := Env.eq_of_name hok.nodup hc1 hb hc2
      subst this
      rw [hN]
      exact ⟨hselb, hlive, hmask⟩
    | succ n ih =>
      have h2 := (ih.2.run (others n) (now n) ih.1 (hoth n)).1
      exact LawfulPrey.forage hab (Env.Ok.run (others n) _ ih.1) h2 k
  intro n g g' ⟨c, hc1, hc2, hc3⟩ ⟨c', hc1', hc2', hc3'⟩
  obtain ⟨hokn, hln⟩ := hlaw n
  have hokn' : Env.Ok kind W H selfT ((now n).run (others n)) := Env.Ok.run (others n) _ hokn
  obtain ⟨i, hi, hre⟩ := (hln.run (others n) (now n) hokn (hoth n)).2 c c'
    ((Env.agent?_eq hokn.nodup).2 ⟨hc1, hc2⟩) ((Env.agent?_eq hokn'.nodup).2 ⟨hc1', hc2'⟩)
  rw [hN, hc3, hc3'] at hre
  exact ⟨i, hi.trans (hslow n), hre⟩

/-! ### Two agents on four cells -/

/-- A fox that likes and eats the hen, and a hen without aims. -/
noncomputable def exFoxHen : List (AgentSpec ℝ Nat) :=
  [⟨"fox", 1, maxSelector, .fresh, some 0, .of1 ⟨3, fun i => if i = 2 then 1 else 0⟩, [2]⟩,
   ⟨"hen", 1, maxSelector, .fresh, some 1, .of1 ⟨3, fun _ => 0⟩, []⟩]

theorem exFoxStart : ∃ (m m' : Mdp ℝ) (e : Env ℝ Nat) (a b : Agent ℝ Nat), Mdp.GridReach .square 2 2 false m ∧
    Env.init m exFoxHen = (m', .ok e) ∧ Env.Ok .square 2 2 false e ∧ (∀ t, t < 2 * 2 → e.mdp.walls.get t = 0) ∧
    e.mdp.features.d0 = 3 ∧ e.mdp.nAgents = 2 ∧ a ∈ e.agents ∧ b ∈ e.agents ∧
    a = Env.newAgent 0 a.featIdx (exFoxHen[0]) 0 ⟨3, fun i => if i = 2 then 1 else 0⟩ ∧
    b = Env.newAgent 1 b.featIdx (exFoxHen[1]) 1 ⟨3, fun _ => 0⟩ ∧
    (∀ t, e.mdp.features.get 2 t = if t = 1 then 1 else 0) ∧ ∀ c ∈ e.agents, c.name ≠ "fox" → c.consumes = [] := by
  obtain ⟨m, hi, -, hF, -, hN, -, -, hW⟩ := Mdp.initGrid_ok (K := ℝ) (kind := .square) (W := 2) (H := 2)
    (selfT := false) (f := ⟨1, 4, fun _ s => s⟩) (w := none) (by decide) rfl (by simp)
  have hm : Mdp.GridReach .square 2 2 false m := .init hi
  have hd : m.features.d0 - m.nAgents = 1 := by rw [hF, hN]; rfl
  obtain ⟨e, he⟩ := (C38_validated hm exFoxHen).2 (by
    intro sp hsp
    rw [hd]
    simp only [exFoxHen, List.mem_cons, List.not_mem_nil, or_false] at hsp
    rcases hsp with rfl | rfl
    · exact ⟨⟨_, rfl⟩, ⟨0, rfl, by decide, by decide⟩, by simp [exFoxHen]⟩
    · exact ⟨⟨_, rfl⟩, ⟨1, rfl, by decide, by decide⟩, by simp⟩)
  have hinit : Env.init m exFoxHen = ((Env.init m exFoxHen).1, .ok e) := Prod.ext rfl he
  have hnames : (exFoxHen.map (·.name)).Nodup := by simp [exFoxHen]
  obtain ⟨-, hok, -, -, -, -, hd0, hna, hst, -, -, hwl, hfe, hrows, hag, hall⟩ := Env.init_facts hm hinit
  obtain ⟨hl, hag⟩ := hag hnames
  have hl1 : e.agents.length = 2 := hl
  rw [hd] at hd0 hag hrows hall
  have h0 : 0 < e.agents.length := by omega
  have h1 : 1 < e.agents.length := by omega
  have hS : m.nStates = 4 := hm.ok.nStates
  refine ⟨m, _, e, e.agents[0], e.agents[1], hm, hinit, hok, by intro t _; rw [hwl, hW], hd0, hna, List.getElem_mem h0,
    List.getElem_mem h1, ?_, ?_, ?_, ?_⟩
  · obtain ⟨sp, p, r, h2, h3, h4, h5⟩ := hag 0 e.agents[0] (List.getElem?_eq_getElem h0)
    cases h2
    cases h3
    simp only [PyArr.of1] at h4
    injection h4 with _ h6
    rw [h5, ← h6]
    rfl
  · obtain ⟨sp, p, r, h2, h3, h4, h5⟩ := hag 1 e.agents[1] (List.getElem?_eq_getElem h1)
    cases h2
    cases h3
    simp only [PyArr.of1] at h4
    injection h4 with _ h6
    rw [h5, ← h6]
    rfl
  · obtain ⟨p, h2, h3⟩ := hrows 1 _ rfl
    cases h2
    rw [hS] at h3
    exact h3
  · intro c hc hne
    obtain ⟨i, sp, p, r, h2, -, -, rfl⟩ := hall c hc
    have : sp ∈ exFoxHen := List.mem_of_getElem? h2
    simp only [exFoxHen, List.mem_cons, List.not_mem_nil, or_false] at this
    rcases this with rfl | rfl
    · exact absurd rfl hne
    · rfl

theorem exFox_hunter {e : Env ℝ Nat} {a b : Agent ℝ Nat} (hd0 : e.mdp.features.d0 = 3) (hna : e.mdp.nAgents = 2)
    (ha : a = Env.newAgent 0 a.featIdx (exFoxHen[0]) 0 ⟨3, fun i => if i = 2 then 1 else 0⟩)
    (hb : b = Env.newAgent 1 b.featIdx (exFoxHen[1]) 1 ⟨3, fun _ => 0⟩) : Spec.Hunter e a b := by
  have hi : b.idx = 1 := by rw [hb]; rfl
  constructor
  · rw [hd0, hna, hi, ha]
    norm_num [Env.newAgent]
  · rw [hd0, hna, hi, ha]
    intro f _ hf
    exact if_neg hf
  · rw [hd0, hna, hi, ha]
    simp [Env.newAgent, exFoxHen]
  · rw [ha]
    simp [Env.newAgent, exFoxHen]

/-- The fox catches the hen when it makes two moves for each of hers, whatever plans she steps on. -/
example (plans : Nat → FitOut ℝ) (draws : Nat → Nat → Nat) :
    ∃ (m m' : Mdp ℝ) (e : Env ℝ Nat), Mdp.GridReach .square 2 2 false m ∧ Env.init m exFoxHen = (m', .ok e) ∧
      ((∀ n, Spec.MaskedOut e.mdp.trans (plans n)) → ∃ N n i g, n ≤ 1 ∧ i ≤ 2 ∧
        Spec.StandsIn 4 (Spec.forage N (1 / 2) (1 / 32) "fox" (fun _ _ => 0) (fun _ _ => 0)
          ((Spec.hunt N (1 / 2) (1 / 32) "fox" 2 (fun _ _ _ => 0) (fun _ _ _ => 0)
            (fun n => [.fit "hen" (plans n) (draws n), .step "hen" (draws n)]) e n).run
            [.fit "hen" (plans n) (draws n), .step "hen" (draws n)]) i) "fox" g ∧
        Spec.StandsIn 4 (Spec.forage N (1 / 2) (1 / 32) "fox" (fun _ _ => 0) (fun _ _ => 0)
          ((Spec.hunt N (1 / 2) (1 / 32) "fox" 2 (fun _ _ _ => 0) (fun _ _ _ => 0)
            (fun n => [.fit "hen" (plans n) (draws n), .step "hen" (draws n)]) e n).run
            [.fit "hen" (plans n) (draws n), .step "hen" (draws n)]) i) "hen" g) := by
  obtain ⟨m, m', e, a, b, hm, hinit, hok, hwalls, hd0, hna, ha, hb, ha1, hb1, hrow, hcons⟩ := exFoxStart
  refine ⟨m, m', e, hm, hinit, fun hplans => ?_⟩
  have hna1 : a.name = "fox" := by rw [ha1]; rfl
  have hnb1 : b.name = "hen" := by rw [hb1]; rfl
  have hpa : Spec.stateOf (2 * 2) a.position = 0 := by rw [ha1]; rfl
  have hpb : Spec.stateOf (2 * 2) b.position = 1 := by rw [hb1]; rfl
  obtain ⟨N, key⟩ := C145_steps hm hinit [] e rfl a b ha hb (by rw [hna1, hnb1]; decide) (by rw [ha1]; rfl)
    (exFox_hunter hd0 hna ha1 hb1) 2 (by rw [hd0, hna, hb1]; rfl) (by rw [hpb, hrow]; rfl)
    (by
      intro c hc hne
      rw [Spec.Feeds, hcons c hc (by rw [← hna1]; exact hne)]
      rintro ⟨f, hf, -⟩
      cases hf)
    1 (by
      rw [hpa, hpb]
      refine reaches_succ.2 ⟨0, 1, ?_, ?_, ?_, reaches_zero.2 rfl⟩
      · show 0 < e.mdp.nActions
        rw [hok.reach.ok.nActions]; decide
      · show 1 < e.mdp.nStates
        rw [hok.reach.ok.nStates]; decide
      · show e.mdp.sas 0 0 1 = 1
        rw [hok.reach.ok.sas_eq_one (by decide) (by decide), hwalls 0 (by decide), hwalls 1 (by decide)]
        exact ⟨by norm_num, by norm_num, by decide⟩)
    (fun _ => True) (by rw [hb1]; exact safe_max) (by rw [hpb]; exact live_free hok hwalls (by decide) (by decide))
    (by rw [hb1]; intro q hq; cases hq) 1 2 (by decide) (1 / 2) (1 / 32) (by norm_num) (by norm_num) (by norm_num)
    (by rw [ha1]; norm_num [Env.newAgent])
  obtain ⟨n, i, g, h1, h2, h3⟩ := key N le_rfl (fun _ _ _ => 0) (fun _ _ _ => 0)
    (fun n => [.fit "hen" (plans n) (draws n), .step "hen" (draws n)])
    (by
      intro n op hop
      rw [hna1, hnb1]
      simp only [List.mem_cons, List.not_mem_nil, or_false] at hop
      rcases hop with rfl | rfl
      · exact ⟨by simp [Spec.OfOthers], fun _ => hplans n, trivial⟩
      · exact ⟨by simp [Spec.OfOthers], fun _ _ => trivial, trivial⟩)
    (by intro n; rw [hnb1]; simp [Spec.stepsOf])
  rw [hna1, hnb1] at h3
  exact ⟨N, n, i, g, by omega, h2, h3⟩

/-! ### Equal speed is not enough -/

open Classical in
noncomputable def goTable (M : Trans ℝ) (x s b : Nat) : Ext ℝ :=
  if Spec.Possible M s b then (if b = x then .fin 1 else .fin 0) else .nan

/-- A plan that favours action `x` wherever it is possible. -/
noncomputable def goFor (M : Trans ℝ) (x : Nat) : FitOut ℝ := fun _ =>
  .ok (.of1 ⟨M.nS, fun _ => .fin 0⟩, .of2 ⟨M.nS, M.nA, goTable M x⟩)

theorem goFor_masked (M : Trans ℝ) (x : Nat) : Spec.MaskedOut M (goFor M x) := by
  intro w v g h s hs
  simp only [goFor, PyArr.of1, PyArr.of2, Except.ok.injEq, Prod.mk.injEq, PyArr.nd.injEq] at h
  obtain ⟨-, -, rfl⟩ := h
  refine ⟨rfl, rfl, fun b hb => ?_⟩
  show Spec.Unusable (goTable M x s b) ↔ _
  unfold goTable
  split_ifs with h1 h2 <;> simp [Spec.Unusable, h1]

/-- Moves on four cells: to one of the two neighbours, never across. -/
theorem four_moves {e : Env ℝ Nat} (hok : Env.Ok .square 2 2 false e) (hwalls : ∀ t, t < 2 * 2 → e.mdp.walls.get t = 0) :
    (∀ s x t, s < 4 → x < 4 → t < 4 → e.mdp.trans.p s x t = 1 → t ≠ s ∧ s + t ≠ 3) ∧
    ∀ s t, s < 4 → t < 4 → t ≠ s → s + t ≠ 3 → ∃ x, x < 4 ∧ e.mdp.trans.p s x t = 1 := by
  have key : ∀ s x t, s < 4 → t < 4 → (e.mdp.trans.p s x t = 1 ↔ GridKind.square.Move 2 false s x t) := by
    intro s x t hs ht
    show e.mdp.sas s x t = 1 ↔ _
    rw [hok.reach.ok.sas_eq_one hs ht, hwalls s hs, hwalls t ht]
    simp
  constructor
  · intro s x t hs hx ht h
    rw [key s x t hs ht] at h
    exact (show ∀ s < 4, ∀ x < 4, ∀ t < 4, GridKind.square.Move 2 false s x t → t ≠ s ∧ s + t ≠ 3 by decide) s hs x hx t ht h
  · intro s t hs ht h1 h2
    obtain ⟨x, hx, h⟩ := (show ∀ s < 4, ∀ t < 4, t ≠ s → s + t ≠ 3 → ∃ x < 4, GridKind.square.Move 2 false s x t by
      decide) s hs t ht h1 h2
    exact ⟨x, hx, (key s x t hs ht).2 h⟩

/-- **C145**, the limit: a prey that makes one move for each of the hunter's can get away for good. On four cells every move
of the hunter leaves it beside the prey, which then goes to the far corner. All other hypotheses of `C145_steps` hold. -/
theorem C145_escape : ∃ (m m' : Mdp ℝ) (e : Env ℝ Nat) (a b : Agent ℝ Nat), Mdp.GridReach .square 2 2 false m ∧
    Env.init m exFoxHen = (m', .ok e) ∧ a ∈ e.agents ∧ b ∈ e.agents ∧ a.name ≠ b.name ∧ a.selector = maxSelector ∧
    Spec.Hunter e a b ∧ e.mdp.features.get (e.mdp.features.d0 - e.mdp.nAgents + b.idx) (Spec.stateOf (2 * 2) b.position) = 1 ∧
    (∀ c ∈ e.agents, c.name ≠ a.name → ¬ Spec.Feeds e.mdp.features.d0 c (e.mdp.features.d0 - e.mdp.nAgents + b.idx)) ∧
    Spec.Reaches e.mdp.trans (Spec.stateOf (2 * 2) a.position) (Spec.stateOf (2 * 2) b.position) 1 ∧
    Spec.Safe b.selector (fun _ => True) ∧ Spec.Live e.mdp.trans (Spec.stateOf (2 * 2) b.position) ∧ b.alg.qValues = none ∧
    ∀ γ tol : ℝ, 0 < γ → γ < 1 → ∀ maxIter, 0 < maxIter → ∀ fitDraws stepDraws : Nat → Nat → Nat → Nat,
    ∃ others : Nat → List (EnvOp ℝ Nat),
      (∀ n, ∀ op ∈ others n, Spec.OfOthers a.name op ∧ Spec.Roams e.mdp.trans (fun _ => True) b.name op ∧ Spec.NoMulti b.name op) ∧
      (∀ n, Spec.stepsOf b.name (others n) = 1) ∧
      ∀ n i g, i ≤ 1 →
        Spec.StandsIn (2 * 2) (Spec.forage maxIter γ tol a.name (fitDraws n) (stepDraws n)
          ((Spec.hunt maxIter γ tol a.name 1 fitDraws stepDraws others e n).run (others n)) i) a.name g →
        ¬ Spec.StandsIn (2 * 2) (Spec.forage maxIter γ tol a.name (fitDraws n) (stepDraws n)
          ((Spec.hunt maxIter γ tol a.name 1 fitDraws stepDraws others e n).run (others n)) i) b.name g := by
  obtain ⟨m, m', e, a, b, hm, hinit, hok, hwalls, hd0, hna, ha, hb, ha1, hb1, hrow, hcons⟩ := exFoxStart
  have hna1 : a.name = "fox" := by rw [ha1]; rfl
  have hnb1 : b.name = "hen" := by rw [hb1]; rfl
  have hab : a.name ≠ b.name := by rw [hna1, hnb1]; decide
  have hpa : Spec.stateOf (2 * 2) a.position = 0 := by rw [ha1]; rfl
  have hpb : Spec.stateOf (2 * 2) b.position = 1 := by rw [hb1]; rfl
  have hbi : b.idx = 1 := by rw [hb1]; rfl
  have hr2 : e.mdp.features.d0 - e.mdp.nAgents + b.idx = 2 := by rw [hd0, hna, hbi]
  have hhunt := exFox_hunter hd0 hna ha1 hb1
  have hS : e.mdp.trans.nS = 4 := hok.reach.ok.nStates
  have hA : e.mdp.trans.nA = 4 := hok.reach.ok.nActions
  obtain ⟨hmv1, hmv2⟩ := four_moves hok hwalls
  have hfeed : ∀ c ∈ e.agents, c.name ≠ a.name → ¬ Spec.Feeds e.mdp.features.d0 c (e.mdp.features.d0 - e.mdp.nAgents + b.idx) := by
    intro c hc hne
    rw [Spec.Feeds, hcons c hc (by rw [← hna1]; exact hne)]
    rintro ⟨f, hf, -⟩
    cases hf
  have hseen : e.mdp.features.get (e.mdp.features.d0 - e.mdp.nAgents + b.idx) (Spec.stateOf (2 * 2) b.position) = 1 := by
    rw [hr2, hpb, hrow]; rfl
  refine ⟨m, m', e, a, b, hm, hinit, ha, hb, hab, by rw [ha1]; rfl, hhunt, hseen, hfeed, ?_, by rw [hb1]; exact safe_max,
    by rw [hpb]; exact live_free hok hwalls (by decide) (by decide), by rw [hb1]; rfl, ?_⟩
  · rw [hpa, hpb]
    obtain ⟨x, hx, hp⟩ := hmv2 0 1 (by decide) (by decide) (by decide) (by decide)
    exact reaches_succ.2 ⟨x, 1, by omega, by omega, hp, reaches_zero.2 rfl⟩
  intro γ tol h0 h1 maxIter hmax fitDraws stepDraws
  have hrd : a.reward.d0 = e.mdp.features.d0 := by rw [hd0, ha1]; rfl
  have hvalid : ∀ f ∈ a.consumes, ∃ r, pyIdx e.mdp.features.d0 f = some r := by
    intro f hf
    rw [ha1] at hf
    have : f = 2 := by simpa [Env.newAgent, exFoxHen] using hf
    subst this
    rw [hd0]
    exact ⟨2, rfl⟩
  set M := e.mdp.trans with hM
  set D := e.mdp.features.d0 with hD
  set nk := e.mdp.nAgents with hnk
  -- the hunter and the prey are beside each other
  let Beside : Env ℝ Nat → Prop := fun E => ∃ s g, Chase e (2 * 2) a b M D nk s g E ∧ s < 4 ∧ g < 4 ∧ s ≠ g ∧ s + g ≠ 3
  -- the prey goes to the far corner
  have hflee : ∀ E, Beside E → ∃ x, ∃ s, s < 4 ∧ Chase e (2 * 2) a b M D nk s (3 - s)
      (E.run [.fit b.name (goFor M x) fun _ => 0, .step b.name fun _ => 0]) := by
    rintro E ⟨s, g, hc, hs, hg, hsg, hs3⟩
    obtain ⟨x, hx, hp⟩ := hmv2 g (3 - s) hg (by omega) (by omega) (by omega)
    refine ⟨x, s, hs, ?_⟩
    obtain ⟨g', hc'⟩ := hc.others hm hinit (ops := [.fit b.name (goFor M x) fun _ => 0, .step b.name fun _ => 0]) (by
      intro op hop
      simp only [List.mem_cons, List.not_mem_nil, or_false] at hop
      rcases hop with rfl | rfl
      · exact ⟨hab.symm, fun p hp => by cases hp⟩
      · exact ⟨hab.symm, fun p hp => by cases hp⟩)
    obtain ⟨past, hE⟩ := hc.run
    obtain ⟨hokE, hlater⟩ := Env.started hm hinit past
    rw [← hE] at hokE hlater
    obtain ⟨b', hb', hbi', hgb⟩ := hc.prey
    obtain ⟨hbm, hbn⟩ := (Env.agent?_eq hokE.nodup).1 hb'
    obtain ⟨b0, hb0, hn0, -, -, -, -, -, hrew, hsel, -⟩ := hlater.back hok hokE hbm
    have : b0 = b := Env.eq_of_name hok.nodup hb0 hb (hn0.symm.trans hbn)
    subst this
    obtain ⟨j, hj, -⟩ := hokE.pos b' hbm
    have hjg : j = g := by rw [hgb, ← hokE.reach.ok.nStates]; exact Env.stateOf_eq hj
    subst hjg
    have htE := hc.trans
    have hSE : E.mdp.nStates = 4 := hokE.reach.ok.nStates
    have hAE : E.mdp.nActions = 4 := hokE.reach.ok.nActions
    have hpE : E.mdp.sas j x (3 - s) = 1 := by
      have : E.mdp.trans.p j x (3 - s) = 1 := by rw [htE]; exact hp
      exact this
    obtain ⟨-, ⟨c, hc1, hc2, hc3, -⟩, -⟩ := Env.fit_step_best hokE hbm (out := goFor M x) (y := 1)
      (by
        rw [hrew, hb1]
        show 3 = E.mdp.features.d0
        rw [hc.d0, hd0])
      (by rw [hsel, hb1]; rfl) (v := fun _ => .fin 0) (g := goTable M x) (by
        have h2 : M.nS = E.mdp.nStates := by rw [← htE]; rfl
        have h3 : M.nA = E.mdp.nActions := by rw [← htE]; rfl
        rw [← h2, ← h3]
        rfl) (s := j) (x := x) hj (by omega)
      (by
        unfold goTable
        rw [if_pos (possible_of_one (by omega) hp), if_pos rfl])
      (by
        intro y _ hy
        unfold goTable
        by_cases h : Spec.Possible M j y
        · right
          refine ⟨0, ?_, one_pos⟩
          rw [if_pos h, if_neg hy]
        · left
          rw [if_neg h])
      (C15_next_state .square 2 2 false E.mdp hokE.reach j x (3 - s) (by omega) (by omega) (by omega) (by rw [hpE]; exact one_pos))
      (fun _ => 0) (fun _ => 0)
    rw [hbn] at hc1
    have hst : Spec.StandsIn (2 * 2) (E.run [.fit b0.name (goFor M x) fun _ => 0, .step b0.name fun _ => 0]) b0.name (3 - s) :=
      ⟨c, hc1, hc2.trans hbn, by
        rw [hc3]
        unfold Spec.stateOf
        rw [if_pos (by omega)]
        omega⟩
    obtain ⟨c', hc1', hc2', hc3'⟩ := (hc'.met hm hinit).2
    obtain ⟨c, hc1, hc2, hc3⟩ := hst
    obtain ⟨past', hE'⟩ := hc'.run
    have hokE' : Env.Ok .square 2 2 false (E.run [.fit b0.name (goFor M x) fun _ => 0, .step b0.name fun _ => 0]) := by
      rw [hE']; exact (Env.started hm hinit past').1
    have := Env.eq_of_name hokE'.nodup hc1 hc1' (hc2.trans hc2'.symm)
    subst this
    have : g' = 3 - s := hc3'.symm.trans hc3
    rw [this] at hc'
    exact hc'
  -- the hunter follows
  have hfollow : ∀ E d1 d2, (∃ s, s < 4 ∧ Chase e (2 * 2) a b M D nk s (3 - s) E) →
      Beside ((E.fit a.name (valueIterationFit E.mdp maxIter γ tol) d1).1.step a.name d2).1 := by
    rintro E d1 d2 ⟨s, hs, hc⟩
    obtain ⟨t, x, v, q, h2, h3, h4, h5, h6, -, -, -, -, -, h7⟩ := hc.go hm hinit hrd hab hhunt.likes
      (fun f hf => hhunt.only f (by rw [hrd]; exact hf)) hhunt.eats hvalid hmax (tol := tol) h0 h1 d1 d2 (by omega)
      (live_free hok hwalls (by decide) hs)
    obtain ⟨h8, h9⟩ := hmv1 s x t hs (by omega) (by omega) h6
    exact ⟨t, 3 - s, h7, by omega, by omega, by omega, by omega⟩
  classical
  let act : Env ℝ Nat → Nat := fun E => if h : Beside E then (hflee E h).choose else 0
  let calls : Env ℝ Nat → List (EnvOp ℝ Nat) := fun E =>
    [.fit b.name (goFor M (act E)) fun _ => 0, .step b.name fun _ => 0]
  let now : Nat → Env ℝ Nat := fun n => Nat.rec e (fun n E =>
    Spec.forage maxIter γ tol a.name (fitDraws n) (stepDraws n) (E.run (calls E)) 1) n
  have hnow : ∀ n, Spec.hunt maxIter γ tol a.name 1 fitDraws stepDraws (fun n => calls (now n)) e n = now n := by
    intro n
    induction n with
    | zero => rfl
    | succ n ih =>
      show Spec.forage _ _ _ _ _ _ ((Spec.hunt _ _ _ _ _ _ _ _ _ n).run _) 1 = _
      rw [ih]
  have hcalls : ∀ E, Beside E → ∃ s, s < 4 ∧ Chase e (2 * 2) a b M D nk s (3 - s) (E.run (calls E)) := by
    intro E h
    have := (hflee E h).choose_spec
    show ∃ s, s < 4 ∧ Chase e (2 * 2) a b M D nk s (3 - s) (E.run [.fit b.name (goFor M (act E)) fun _ => 0, .step b.name fun _ => 0])
    rw [show act E = (hflee E h).choose from dif_pos h]
    exact this
  have hall : ∀ n, Beside (now n) := by
    intro n
    induction n with
    | zero =>
      refine ⟨0, 1, ⟨⟨[], rfl⟩, rfl, rfl, rfl, ⟨a, (Env.agent?_eq hok.nodup).2 ⟨ha, rfl⟩, by rw [ha1]; rfl, rfl, rfl, rfl, hpa.symm⟩,
        ⟨b, (Env.agent?_eq hok.nodup).2 ⟨hb, rfl⟩, rfl, hpb.symm⟩, fun _ => by rw [← hseen, hpb]; rfl, fun c hc hn hE => ?_⟩,
        by decide, by decide, by decide, by decide⟩
      exact hfeed c hc hn (Env.eats_feeds.1 hE).2
    | succ n ih => exact hfollow _ _ _ (hcalls _ ih)
  refine ⟨fun n => calls (now n), ?_, ?_, ?_⟩
  · intro n op hop
    simp only [calls, List.mem_cons, List.not_mem_nil, or_false] at hop
    rcases hop with rfl | rfl
    · exact ⟨hab.symm, fun _ => goFor_masked _ _, trivial⟩
    · exact ⟨hab.symm, fun _ _ => trivial, trivial⟩
  · intro n
    simp [calls, Spec.stepsOf]
  · intro n i g hi
    rw [hnow n]
    obtain ⟨s, g', hc, hne⟩ : ∃ s g', Chase e (2 * 2) a b M D nk s g' (Spec.forage maxIter γ tol a.name (fitDraws n) (stepDraws n)
        ((now n).run (calls (now n))) i) ∧ s ≠ g' := by
      obtain ⟨s, hs, hc⟩ := hcalls _ (hall n)
      rcases Nat.le_one_iff_eq_zero_or_eq_one.1 hi with rfl | rfl
      · exact ⟨s, 3 - s, hc, by omega⟩
      · obtain ⟨t, g', h2, -, -, h3, -⟩ := hfollow _ (fitDraws n 0) (stepDraws n 0) ⟨s, hs, hc⟩
        exact ⟨t, g', h2, h3⟩
    obtain ⟨past, hE⟩ := hc.run
    have hokE := (Env.started hm hinit past).1
    rw [← hE] at hokE
    obtain ⟨⟨c, hc1, hc2, hc3⟩, ⟨c', hc1', hc2', hc3'⟩⟩ := hc.met hm hinit
    rintro ⟨u, hu1, hu2, hu3⟩ ⟨u', hu1', hu2', hu3'⟩
    have e1 := Env.eq_of_name hokE.nodup hc1 hu1 (hc2.trans hu2.symm)
    have e2 := Env.eq_of_name hokE.nodup hc1' hu1' (hc2'.trans hu2'.symm)
    subst e1 e2
    exact hne (by rw [← hc3, ← hc3', hu3, hu3'])

end MaMDP
