import Verif.Lemmas.EnvWalk

/-! # C103, C104: following a plan -/

set_option linter.unusedSectionVars false

namespace MaMDP

/-- Some pass within the limit changes no value by `tol` or more, so the tolerance test ended the planning. -/
theorem plan_close {M : Trans ℝ} (hM : Spec.SubStochastic M) (hA : 0 < M.nA) {r V : Nat → ℝ} {γ tol : ℝ}
    (h0 : 0 < γ) (h1 : γ < 1) (htol : 0 < tol) (hV : Spec.Bellman M r γ V) {maxIter : Nat}
    (hstop : ∃ i, i < maxIter ∧ ∀ s, s < M.nS → |Spec.sweeps M r γ (i + 1) s - Spec.sweeps M r γ i s| < tol)
    {v : Nat → ℝ} {q : Nat → Nat → Ext ℝ} (hsol : solveHard M r maxIter γ tol = .ok (v, q)) :
    Close M r γ V q (tol * γ / (1 - γ)) := by
  obtain ⟨v', q', e, -, h2⟩ := C28_accuracy M hM hA r γ tol h0 h1 htol V hV maxIter hstop
  rw [hsol] at e
  cases e
  refine ⟨h2, fun s a hs ha hp => ?_⟩
  refine (C29_mask M hM r maxIter γ tol v q hsol s a hs ha).1.2 fun t ht => ?_
  unfold Spec.Possible at hp
  push Not at hp
  exact le_antisymm (hp t ht) (hM.nonneg s a t hs ha ht)

/-- **C103**: in a deterministic MDP with rewards between 0 and `R`, no sequence of actions whatever collects
more than a greedy walk on the planned action values does, but for the discounted tail after the walk and
the planner's tolerance. -/
theorem C103_plan (M : Trans ℝ) (hM : Spec.SubStochastic M) (hdet : Spec.Deterministic M) (hA : 0 < M.nA)
    (r : Nat → ℝ) (R : ℝ) (hr : ∀ t, t < M.nS → 0 ≤ r t ∧ r t ≤ R) (γ tol : ℝ) (h0 : 0 < γ) (h1 : γ < 1)
    (htol : 0 < tol) (maxIter : Nat)
    (hstop : ∃ i, i < maxIter ∧ ∀ s, s < M.nS → |Spec.sweeps M r γ (i + 1) s - Spec.sweeps M r γ i s| < tol)
    (v : Nat → ℝ) (q : Nat → Nat → Ext ℝ) (hsol : solveHard M r maxIter γ tol = .ok (v, q))
    (s : Nat) (hs : s < M.nS) (l : List (Nat × Nat)) (hl : Spec.Plays M s l) (hg : Spec.Greedy M.nA q s l)
    (other : List (Nat × Nat)) (ho : Spec.Plays M s other) :
    Spec.discounted r γ other ≤
      Spec.discounted r γ l + γ ^ l.length * (R / (1 - γ)) + 2 * tol * γ / (1 - γ) ^ 2 := by
  obtain ⟨V, hV, -⟩ := C27_converges M hM hA r γ h0 h1
  have hr0 : ∀ t, t < M.nS → 0 ≤ r t := fun t ht => (hr t ht).1
  have hR : 0 ≤ R := le_trans (hr s hs).1 (hr s hs).2
  have h1g : 0 < 1 - γ := by linarith
  have h2 := greedy_return hM hdet h0 h1 hr0 hV (bellman_le hM h0 h1 hR (fun t ht => (hr t ht).2) hV)
    (plan_close hM hA h0 h1 htol hV hstop hsol) (div_nonneg (mul_nonneg htol.le h0.le) h1g.le) l s hs hl hg
  have h3 := (C32_optimal M hM hdet r hr0 γ h0 h1 V hV s hs).1 other ho
  have h4 : 2 * (tol * γ / (1 - γ)) / (1 - γ) = 2 * tol * γ / (1 - γ) ^ 2 := by field_simp
  linarith

/-- Following the plan never gets stuck: in a state with a possible action the best actions are possible. -/
theorem C103_possible (M : Trans ℝ) (hM : Spec.SubStochastic M) (hdet : Spec.Deterministic M)
    (r : Nat → ℝ) (γ tol : ℝ) (maxIter : Nat) (v : Nat → ℝ) (q : Nat → Nat → Ext ℝ)
    (hsol : solveHard M r maxIter γ tol = .ok (v, q)) (s : Nat) (hs : s < M.nS) (hlive : Spec.Live M s)
    (a : Nat) (ha : a < M.nA) (hbest : ∀ b, b < M.nA → Spec.NoBetter (q s b) (q s a)) :
    ∃ t, t < M.nS ∧ M.p s a t = 1 := by
  obtain ⟨b, hb, t, ht, hp⟩ := hlive
  have h2 := C29_mask M hM r maxIter γ tol v q hsol s
  have h3 : q s b ≠ .ninf := fun hc => absurd ((h2 b hs hb).1.1 hc t ht) (ne_of_gt hp)
  obtain ⟨x, hx⟩ := (h2 b hs hb).2 h3
  have h4 := hbest b hb
  have h5 : q s a ≠ .ninf := fun hc => by rw [hx, hc] at h4; exact h4
  by_contra hcon
  push Not at hcon
  exact h5 ((h2 a hs ha).1.2 fun u hu => (hdet s a u hs ha hu).resolve_right (hcon u hu))

/-- Such iteration limits exist, for every tolerance. -/
theorem C103_limit (M : Trans ℝ) (hM : Spec.SubStochastic M) (hA : 0 < M.nA) (r : Nat → ℝ) (γ tol : ℝ)
    (h0 : 0 < γ) (h1 : γ < 1) (htol : 0 < tol) : ∃ N, ∀ k, N ≤ k →
      ∃ i, i < k ∧ ∀ s, s < M.nS → |Spec.sweeps M r γ (i + 1) s - Spec.sweeps M r γ i s| < tol := by
  obtain ⟨B, hB0, hB⟩ := exists_bound M.nS (Spec.sweeps M r γ 1)
  have hdec : ∀ i s, s < M.nS → |Spec.sweeps M r γ (i + 1) s - Spec.sweeps M r γ i s| ≤ γ ^ i * B := by
    intro i
    induction i with
    | zero =>
      intro s hs
      have := hB s hs
      simpa [Spec.sweeps] using this
    | succ i ih =>
      intro s hs
      have := C27_contraction M hM hA r γ h0 h1 (Spec.sweeps M r γ (i + 1)) (Spec.sweeps M r γ i) _ _
        ((pass_iff hA r γ _ (Spec.sweeps M r γ (i + 1 + 1))).2 fun _ _ => rfl)
        ((pass_iff hA r γ _ (Spec.sweeps M r γ (i + 1))).2 fun _ _ => rfl) _ ih s hs
      rw [pow_succ, mul_comm (γ ^ i) γ, mul_assoc]
      exact this
  have ht : Filter.Tendsto (fun n : ℕ => γ ^ n * B) Filter.atTop (nhds 0) := by
    have := (tendsto_pow_atTop_nhds_zero_of_lt_one h0.le h1).mul_const B
    rwa [zero_mul] at this
  obtain ⟨m, hm⟩ := (ht.eventually (gt_mem_nhds htol)).exists
  exact ⟨m + 1, fun k hk => ⟨m, by omega, fun s hs => lt_of_le_of_lt (hdec m s hs) hm⟩⟩

/-- The chain with reward 1 in state 0: some limit qualifies, there is an answer, and going to and fro is a
walk that can be taken. -/
example : ∃ k v q, (∃ i, i < k ∧ ∀ s, s < 2 →
      |Spec.sweeps (chain2 ℝ) (fun t => if t = 0 then 1 else 0) (1 / 2) (i + 1) s -
        Spec.sweeps (chain2 ℝ) (fun t => if t = 0 then 1 else 0) (1 / 2) i s| < 1 / 100) ∧
    solveHard (chain2 ℝ) (fun t => if t = 0 then 1 else 0) k (1 / 2) (1 / 100) = .ok (v, q) ∧
    Spec.Plays (chain2 ℝ) 0 [(0, 1), (1, 0), (0, 1), (1, 0)] := by
  have h2 : 0 < (chain2 ℝ).nA := by simp [chain2]
  obtain ⟨N, hN⟩ := C103_limit (chain2 ℝ) chain2_ok.1 h2 (fun t => if t = 0 then 1 else 0)
    (1 / 2) (1 / 100) (by norm_num) (by norm_num) (by norm_num)
  obtain ⟨v, q, e⟩ := (C33_settings (chain2 ℝ) (fun t => if t = 0 then 1 else 0) (N + 1) (1 / 2) (1 / 100)).2.2
    (by norm_num) (by norm_num) (by omega) h2
  exact ⟨N + 1, v, q, hN (N + 1) (by omega), e, by simp [Spec.Plays, chain2]⟩

/-- **C104**: if exactly one state `g` is rewarded, a greedy walk on the planned action values reaches it by a
shortest way, whatever the ties: `d` steps from a state at distance `d`, for a tolerance small enough. -/
theorem C104_shortest (M : Trans ℝ) (hM : Spec.SubStochastic M) (hdet : Spec.Deterministic M) (hA : 0 < M.nA)
    (r : Nat → ℝ) (g : Nat) (hg : g < M.nS) (hrg : 0 < r g) (honly : ∀ t, t < M.nS → t ≠ g → r t = 0)
    (γ tol : ℝ) (h0 : 0 < γ) (h1 : γ < 1) (htol : 0 < tol) (maxIter : Nat)
    (hstop : ∃ i, i < maxIter ∧ ∀ s, s < M.nS → |Spec.sweeps M r γ (i + 1) s - Spec.sweeps M r γ i s| < tol)
    (v : Nat → ℝ) (q : Nat → Nat → Ext ℝ) (hsol : solveHard M r maxIter γ tol = .ok (v, q))
    (s d : Nat) (hs : s < M.nS) (hd : Spec.Distance M s g d) (hsmall : 2 * tol ≤ γ ^ d * (1 - γ) ^ 2 * r g)
    (l : List (Nat × Nat)) (hl : Spec.Plays M s l) (hgr : Spec.Greedy M.nA q s l) (hlen : l.length = d) :
    (s :: l.map (·.2)).getLast? = some g := by
  obtain ⟨V, hV, -⟩ := C27_converges M hM hA r γ h0 h1
  have hr0 : ∀ t, t < M.nS → 0 ≤ r t := fun t ht => by
    by_cases h : t = g
    · rw [h]; exact hrg.le
    · rw [honly t ht h]
  have h1g : 0 < 1 - γ := by linarith
  have hq := plan_close hM hA h0 h1 htol hV hstop hsol
  induction d generalizing s l with
  | zero =>
    rw [List.length_eq_zero_iff] at hlen
    subst hlen
    simpa using reaches_zero.1 hd.1
  | succ d ih =>
    cases l with
    | nil => simp at hlen
    | cons x l =>
      obtain ⟨a, t⟩ := x
      obtain ⟨ha, ht, hp, hl⟩ := hl
      obtain ⟨hb, hgl⟩ := hgr
      have hpow : 0 ≤ γ ^ d := pow_nonneg h0.le _
      have hE : 2 * (tol * γ / (1 - γ)) ≤ γ ^ d * (1 - γ) * r g := by
        rw [show 2 * (tol * γ / (1 - γ)) = (2 * tol) * γ / (1 - γ) by ring, div_le_iff₀ h1g]
        have h2 : 2 * tol * γ ≤ γ ^ (d + 1) * (1 - γ) ^ 2 * r g * γ := mul_le_mul_of_nonneg_right hsmall h0.le
        have h3 : γ ^ (d + 1) * (1 - γ) ^ 2 * r g * γ = (γ ^ d * (1 - γ) * r g * (1 - γ)) * (γ * γ) := by
          rw [pow_succ]; ring
        have h4 : γ * γ ≤ 1 := by nlinarith
        have h5 : 0 ≤ γ ^ d * (1 - γ) * r g * (1 - γ) :=
          mul_nonneg (mul_nonneg (mul_nonneg hpow h1g.le) hrg.le) h1g.le
        rw [h3] at h2
        nlinarith
      have hd' := greedy_closer hM hdet h0 h1 hr0 hV hg honly hq hE hs hd ha ht hp hb
      have hsm : 2 * tol ≤ γ ^ d * (1 - γ) ^ 2 * r g := by
        refine hsmall.trans ?_
        have h5 : 0 ≤ γ ^ d * (1 - γ) ^ 2 * r g := mul_nonneg (mul_nonneg hpow (sq_nonneg _)) hrg.le
        rw [pow_succ]
        nlinarith
      have := ih t ht hd' hsm l hl hgl (by simpa using hlen)
      simpa only [List.map_cons, List.getLast?_cons_cons] using this

/-- On the chain, state 1 is at distance 1 from state 0. -/
example : Spec.Distance (chain2 ℝ) 1 0 1 := by
  refine ⟨⟨[(1, 0)], by simp [Spec.Plays, chain2], rfl, rfl⟩, fun n hn => ?_⟩
  have : n = 0 := by omega
  subst this
  rw [reaches_zero]
  omega

/-! ## In an environment -/

variable {kind : GridKind} {W H : Nat} {selfT : Bool} {m m' : Mdp ℝ} {specs : List (AgentSpec ℝ Nat)}
  {e0 : Env ℝ Nat}

/-- Fitting with value iteration succeeds for an agent that can move. -/
theorem fit_succeeds (hm : Mdp.GridReach kind W H selfT m) (hinit : Env.init m specs = (m', .ok e0))
    (ops : List (EnvOp ℝ Nat)) (e : Env ℝ Nat) (he : e = e0.run ops) (a : Agent ℝ Nat) (ha : a ∈ e.agents)
    (hsel : a.selector = maxSelector) (s : Nat) (hs : s = Spec.stateOf (W * H) a.position)
    (hlive : Spec.Live e.mdp.trans s) (maxIter : Nat) (hk : 0 < maxIter) (γ tol : ℝ) (h0 : 0 < γ) (h1 : γ < 1)
    (d : Nat → Nat) : ∃ e1, e.fit a.name (valueIterationFit e.mdp maxIter γ tol) d = (e1, .ok ()) := by
  obtain ⟨hok, hlater⟩ := Env.started hm hinit ops
  rw [← he] at hok hlater
  obtain ⟨-, hok0, -, -, -, -, hd0, -, -, -, -, -, -, -, -, hag⟩ := Env.init_facts hm hinit
  obtain ⟨a0, ha0, -, -, -, -, -, -, hrew, -, -⟩ := hlater.back hok0 hok ha
  have hrd : a.reward.d0 = e.mdp.features.d0 := by
    obtain ⟨i, sp, p, r, -, -, -, rfl⟩ := hag a0 ha0
    rw [hrew, hlater.d0, hd0]; rfl
  obtain ⟨j, hj, -⟩ := hok.pos a ha
  have hsj := Env.stateOf_eq hj
  rw [hok.reach.ok.nStates, ← hs] at hsj
  subst hsj
  have hjn : j < e.mdp.nStates := pyIdx_lt hj
  rcases Env.fit_cases hok a.name (valueIterationFit e.mdp maxIter γ tol) d with ⟨h2, -⟩ | ⟨b, hb, hbn, h3⟩
  · exact absurd ((hok.names a.name).2 (List.mem_map_of_mem ha)) h2
  · have := Env.eq_of_name hok.nodup hb ha hbn
    subst this
    obtain ⟨hM, hdet, hA, -⟩ := C27_grid kind W H selfT e.mdp hok.reach
    obtain ⟨v, q, hsol⟩ := (C33_settings e.mdp.trans
      (stateReward b.reward.d0 b.reward.get e.mdp.features.get) maxIter γ tol).2.2 h0 h1 hk hA
    suffices hgoal : (b.fit e.mdp (valueIterationFit e.mdp maxIter γ tol) d).2 = .ok () from
      ⟨_, by rw [h3, hgoal]⟩
    have hw : checkReward e.mdp.nFeatures (.of1 b.reward) = .ok b.reward := by
      simp only [checkReward, PyArr.of1]
      rw [if_pos (show b.reward.d0 = e.mdp.nFeatures from hrd)]
      rfl
    obtain ⟨c, hc, t, ht, hp⟩ := hlive
    have h29 := C29_mask e.mdp.trans hM _ maxIter γ tol v q hsol j c hjn hc
    obtain ⟨y, hy⟩ := h29.2 fun hn => absurd (h29.1.1 hn t ht) (ne_of_gt hp)
    have hne : ∃ s, s < (⟨e.mdp.nStates, e.mdp.nActions, q⟩ : Arr2 (Ext ℝ)).d0 ∧
        ¬ Spec.NoEstimate ⟨e.mdp.nStates, e.mdp.nActions, q⟩ s :=
      ⟨j, hjn, fun hn => by
        have h5 : q j c = .nan := hn c hc
        rw [hy] at h5; cases h5⟩
    obtain ⟨P, hP, -⟩ := (C23_max_pi_p _).2 hne
    obtain ⟨p, hpp, -⟩ := C24_max_pi _ d hne
    have hfin : ∀ st : AlgState ℝ, st.qValues = some ⟨e.mdp.nStates, e.mdp.nActions, q⟩ →
        (Agent.getPolicy { b with alg := st } d).2 = .ok () := by
      intro st hst
      unfold Agent.getPolicy
      simp only [hst, hsel, hP, hpp]
    unfold Agent.fit algFit
    rw [hw]
    simp only [valueIterationFit, hsol, PyArr.of1, PyArr.of2, checkOutput, ne_eq, not_true_eq_false, if_false]
    exact hfin _ rfl

/-- After a successful `fit` with value iteration the agent follows the planned action values. -/
theorem follows_fit (hm : Mdp.GridReach kind W H selfT m) (hinit : Env.init m specs = (m', .ok e0))
    (ops : List (EnvOp ℝ Nat)) (e : Env ℝ Nat) (he : e = e0.run ops) (a : Agent ℝ Nat) (ha : a ∈ e.agents)
    (hsel : a.selector = maxSelector) (s : Nat) (hs : s = Spec.stateOf (W * H) a.position)
    (hlive : Spec.Live e.mdp.trans s) (maxIter : Nat) (γ tol : ℝ) (d : Nat → Nat) (e1 : Env ℝ Nat)
    (hfit : e.fit a.name (valueIterationFit e.mdp maxIter γ tol) d = (e1, .ok ())) :
    s < e.mdp.trans.nS ∧ ∃ v q,
      solveHard e.mdp.trans (stateReward a.reward.d0 a.reward.get e.mdp.features.get) maxIter γ tol = .ok (v, q) ∧
      Env.Follows kind W H selfT e.mdp.trans a.name ⟨e.mdp.nStates, e.mdp.nActions, q⟩ s a.history e1 := by
  have hok : Env.Ok kind W H selfT e := by rw [he]; exact (Env.started hm hinit ops).1
  obtain ⟨j, hj, -⟩ := hok.pos a ha
  have hsj := Env.stateOf_eq hj
  rw [hok.reach.ok.nStates, ← hs] at hsj
  subst hsj
  refine ⟨pyIdx_lt hj, ?_⟩
  have hmo := C54_value_iteration hok.reach maxIter γ tol
  have hM := (C27_grid kind W H selfT e.mdp hok.reach).1
  rcases Env.fit_cases hok a.name (valueIterationFit e.mdp maxIter γ tol) d with ⟨-, h1⟩ | ⟨b, hb, hbn, h3⟩
  · rw [hfit] at h1; cases h1
  · have := Env.eq_of_name hok.nodup hb ha hbn
    subst this
    rw [hfit] at h3
    have hok1 : Env.Ok kind W H selfT (e.put e.mdp (b.fit e.mdp (valueIterationFit e.mdp maxIter γ tol) d).1) :=
      hok.same hb (Agent.fit_same b e.mdp _ d).1
    have hsame := Agent.fit_same b e.mdp (valueIterationFit e.mdp maxIter γ tol) d
    have e2 : e1 = e.put e.mdp (b.fit e.mdp (valueIterationFit e.mdp maxIter γ tol) d).1 := congrArg Prod.fst h3
    have e3 : (b.fit e.mdp (valueIterationFit e.mdp maxIter γ tol) d).2 = .ok () := (congrArg Prod.snd h3).symm
    set b1 := (b.fit e.mdp (valueIterationFit e.mdp maxIter γ tol) d).1 with hb1
    have halg : ∃ v q, solveHard e.mdp.trans (stateReward b.reward.d0 b.reward.get e.mdp.features.get) maxIter γ tol =
        .ok (v, q) ∧ b1.alg.fitComplete = true ∧ b1.alg.qValues = some ⟨e.mdp.nStates, e.mdp.nActions, q⟩ := by
      unfold Agent.fit at e3 hb1
      rcases hf : algFit (valueIterationFit e.mdp maxIter γ tol) e.mdp.nFeatures e.mdp.nStates e.mdp.nActions
        (.of1 b.reward) b.alg with ⟨st, x | x⟩
      · rw [hf] at e3; cases e3
      · rw [hf] at hb1
        simp only at hb1
        rw [hb1, (Agent.getPolicy_same { b with alg := st } d).2.2]
        unfold algFit at hf
        split at hf
        · cases hf
        · rename_i w hw
          have hw' : w = b.reward := by
            simp only [checkReward, PyArr.of1] at hw
            split_ifs at hw
            cases hw
            rfl
          subst hw'
          unfold valueIterationFit at hf
          split at hf
          · cases hf
          · rename_i v0 q0 hv0
            split at hv0
            · cases hv0
            · rename_i v q hsol
              cases hv0
              simp only [PyArr.of1, PyArr.of2, checkOutput, ne_eq, not_true_eq_false, if_false] at hf
              cases hf
              exact ⟨v, q, hsol, rfl, rfl⟩
    obtain ⟨v, q, hsol, hc, hq⟩ := halg
    refine ⟨v, q, hsol, ?_⟩
    rw [e2]
    refine ⟨hok1, rfl, ?_, ?_, hlive, b1, (Env.mem_put (by
      rw [hsame.1.name]; exact List.mem_map_of_mem (f := (·.name)) hb)).2 (.inl rfl), hsame.1.name,
      hsame.1.selector.trans hsel, hc, hq, by rw [hsame.1.position]; exact hj, hsame.2⟩
    · intro t ht
      exact hmo b.reward (.of1 ⟨e.mdp.nStates, fun s => .fin (v s)⟩) (fun i => q (i.getD 0 0) (i.getD 1 0))
        (by simp only [valueIterationFit, hsol]; rfl) t ht
    · intro t x ht hx hc
      change q t x = .pinf at hc
      have := (C29_mask e.mdp.trans hM _ maxIter γ tol v q hsol t x ht hx).2 (by rw [hc]; simp)
      obtain ⟨y, hy⟩ := this
      rw [hy] at hc; cases hc

/-- **C103**, in an environment after any history: an agent with the greedy selector is fitted with value
iteration and then stepped `n` times. Its history grows by `n` states, and no sequence of actions from where
it stood collects more (of the reward it was fitted for) than these states do, but for the discounted tail and
the tolerance. -/
theorem C103_environment (hm : Mdp.GridReach kind W H selfT m) (hinit : Env.init m specs = (m', .ok e0))
    (ops : List (EnvOp ℝ Nat)) (e : Env ℝ Nat) (he : e = e0.run ops) (a : Agent ℝ Nat) (ha : a ∈ e.agents)
    (hsel : a.selector = maxSelector) (s : Nat) (hs : s = Spec.stateOf (W * H) a.position)
    (hlive : Spec.Live e.mdp.trans s)
    (r : Nat → ℝ) (hr : r = fun t => ∑ f ∈ Finset.range a.reward.d0, a.reward.get f * e.mdp.features.get f t)
    (R : ℝ) (hrR : ∀ t, t < W * H → 0 ≤ r t ∧ r t ≤ R)
    (maxIter : Nat) (γ tol : ℝ) (h0 : 0 < γ) (h1 : γ < 1) (htol : 0 < tol)
    (hstop : ∃ i, i < maxIter ∧ ∀ s, s < W * H →
      |Spec.sweeps e.mdp.trans r γ (i + 1) s - Spec.sweeps e.mdp.trans r γ i s| < tol)
    (d : Nat → Nat) (n : Nat) (draws : Nat → Nat → Nat) :
    ∃ e1, e.fit a.name (valueIterationFit e.mdp maxIter γ tol) d = (e1, .ok ()) ∧
    ∃ a' ∈ (e1.run ((List.range n).map fun i => .step a.name (draws i))).agents, a'.name = a.name ∧
      ∃ ps : List Nat, ps.length = n ∧ a'.history = a.history ++ ps.map (fun p : Nat => (p : Int)) ∧
        ∀ other, Spec.Plays e.mdp.trans s other → Spec.discounted r γ other ≤
          Spec.visitReward r γ ps + γ ^ n * (R / (1 - γ)) + 2 * tol * γ / (1 - γ) ^ 2 := by
  obtain ⟨e1, hfit⟩ := fit_succeeds hm hinit ops e he a ha hsel s hs hlive maxIter
    (by obtain ⟨i, hi, -⟩ := hstop; omega) γ tol h0 h1 d
  refine ⟨e1, hfit, ?_⟩
  obtain ⟨hsn, v, q, hsol, hf⟩ := follows_fit hm hinit ops e he a ha hsel s hs hlive maxIter γ tol d e1 hfit
  have hok : Env.Ok kind W H selfT e := by rw [he]; exact (Env.started hm hinit ops).1
  have hN : e.mdp.trans.nS = W * H := hok.reach.ok.nStates
  obtain ⟨hM, hdet, hA, -⟩ := C27_grid kind W H selfT e.mdp hok.reach
  obtain ⟨l, l1, l2, l3, j', ⟨-, -, -, -, -, a', ha', hn', -, -, -, -, hh⟩, -⟩ := hf.walk draws n 0
  simp only [Nat.zero_add] at ha'
  have hr' : stateReward a.reward.d0 a.reward.get e.mdp.features.get = r := by rw [hr]; rfl
  rw [hr'] at hsol
  refine ⟨a', ha', hn', l.map (·.2), by simpa using l1, by rw [hh, List.map_map]; rfl, fun other ho => ?_⟩
  have := C103_plan e.mdp.trans hM hdet hA r R (by rw [hN]; exact hrR) γ tol h0 h1 htol maxIter
    (by rw [hN]; exact hstop) v q hsol s hsn l l2 l3 other ho
  rw [l1, discounted_visits r γ l] at this
  exact this

/-- **C104**, in an environment after any history: with one rewarded state `g` at distance `d` from where the
agent stands, `d` steps after `fit` take it there. -/
theorem C104_environment (hm : Mdp.GridReach kind W H selfT m) (hinit : Env.init m specs = (m', .ok e0))
    (ops : List (EnvOp ℝ Nat)) (e : Env ℝ Nat) (he : e = e0.run ops) (a : Agent ℝ Nat) (ha : a ∈ e.agents)
    (hsel : a.selector = maxSelector) (s : Nat) (hs : s = Spec.stateOf (W * H) a.position)
    (hlive : Spec.Live e.mdp.trans s)
    (r : Nat → ℝ) (hr : r = fun t => ∑ f ∈ Finset.range a.reward.d0, a.reward.get f * e.mdp.features.get f t)
    (g : Nat) (hg : g < W * H) (hrg : 0 < r g) (honly : ∀ t, t < W * H → t ≠ g → r t = 0)
    (n : Nat) (hd : Spec.Distance e.mdp.trans s g n)
    (maxIter : Nat) (γ tol : ℝ) (h0 : 0 < γ) (h1 : γ < 1) (htol : 0 < tol)
    (hsmall : 2 * tol ≤ γ ^ n * (1 - γ) ^ 2 * r g)
    (hstop : ∃ i, i < maxIter ∧ ∀ s, s < W * H →
      |Spec.sweeps e.mdp.trans r γ (i + 1) s - Spec.sweeps e.mdp.trans r γ i s| < tol)
    (d : Nat → Nat) (draws : Nat → Nat → Nat) :
    ∃ e1, e.fit a.name (valueIterationFit e.mdp maxIter γ tol) d = (e1, .ok ()) ∧
    ∃ a' ∈ (e1.run ((List.range n).map fun i => .step a.name (draws i))).agents, a'.name = a.name ∧
      Spec.stateOf (W * H) a'.position = g := by
  obtain ⟨e1, hfit⟩ := fit_succeeds hm hinit ops e he a ha hsel s hs hlive maxIter
    (by obtain ⟨i, hi, -⟩ := hstop; omega) γ tol h0 h1 d
  refine ⟨e1, hfit, ?_⟩
  obtain ⟨hsn, v, q, hsol, hf⟩ := follows_fit hm hinit ops e he a ha hsel s hs hlive maxIter γ tol d e1 hfit
  have hok : Env.Ok kind W H selfT e := by rw [he]; exact (Env.started hm hinit ops).1
  have hN : e.mdp.trans.nS = W * H := hok.reach.ok.nStates
  obtain ⟨hM, hdet, hA, -⟩ := C27_grid kind W H selfT e.mdp hok.reach
  obtain ⟨l, l1, l2, l3, j', ⟨-, -, -, -, -, a', ha', hn', -, -, -, hpos, -⟩, hlast⟩ := hf.walk draws n 0
  simp only [Nat.zero_add] at ha'
  have hr' : stateReward a.reward.d0 a.reward.get e.mdp.features.get = r := by rw [hr]; rfl
  rw [hr'] at hsol
  have := C104_shortest e.mdp.trans hM hdet hA r g (by rw [hN]; exact hg) hrg (by rw [hN]; exact honly) γ tol h0 h1
    htol maxIter (by rw [hN]; exact hstop) v q hsol s n hsn hd hsmall l l2 l3 l1
  rw [hlast] at this
  refine ⟨a', ha', hn', ?_⟩
  rw [← hN, ← Env.stateOf_eq hpos]
  exact Option.some.inj this

/-- Paths of a grid MDP are sequences of actions. -/
theorem reaches_of_path {m : Mdp ℝ} (hm : Mdp.GridReach kind W H selfT m) {n s g : Nat} :
    Spec.Path (Spec.MdpStep m) n s g → Spec.Reaches m.trans s g n := by
  intro h
  induction h with
  | nil p => exact reaches_zero.2 rfl
  | cons h1 _ ih =>
    obtain ⟨hs, ht, a, ha, hp⟩ := h1
    exact reaches_succ.2 ⟨a, _, ha, ht,
      ((C27_grid kind W H selfT m hm).2.1 _ _ _ hs ha ht).resolve_left (ne_of_gt hp), ih⟩

theorem path_of_reaches {m : Mdp ℝ} {n : Nat} : ∀ {s g : Nat}, s < m.nStates → Spec.Reaches m.trans s g n →
    Spec.Path (Spec.MdpStep m) n s g := by
  induction n with
  | zero => intro s g _ h; rw [reaches_zero.1 h]; exact .nil _
  | succ n ih =>
    intro s g hs h
    obtain ⟨a, t, ha, ht, hp, h2⟩ := reaches_succ.1 h
    exact .cons ⟨hs, ht, a, ha, by
      have h3 : m.sas s a t = 1 := hp
      rw [h3]; exact one_pos⟩ (ih ht h2)

/-- Without walls the distances are those of the freshly built grid. -/
theorem distance_free {m m0 : Mdp ℝ} (hm : Mdp.GridReach kind W H selfT m)
    (hw : ∀ t, t < W * H → m.walls.get t = 0) {f : Arr2 ℝ} (hfd : f.d1 = W * H)
    (h0 : Mdp.initGrid kind W H selfT f none = .ok m0)
    {s g n : Nat} (hs : s < W * H) (h : Spec.IsDist (Spec.MdpStep m0) s g n) : Spec.Distance m.trans s g n := by
  have g1 := hm.ok
  have hm0 : Mdp.GridReach kind W H selfT m0 := .init h0
  have g0 := hm0.ok
  have hw0 : ∀ t, t < W * H → m0.walls.get t = 0 := by
    intro t _
    have hpos := g0.pos
    obtain ⟨m2, e1, -, -, -, -, -, -, e2⟩ := Mdp.initGrid_ok (kind := kind) (selfT := selfT) (w := none) hpos hfd (by simp)
    rw [h0] at e1
    cases e1
    rw [e2]
  have hstep : ∀ x y, Spec.MdpStep m0 x y ↔ Spec.MdpStep m x y := by
    intro x y
    unfold Spec.MdpStep
    rw [g0.nStates, g1.nStates, g0.nActions, g1.nActions]
    refine and_congr_right fun hx => and_congr_right fun hy => exists_congr fun a => and_congr_right fun _ => ?_
    rw [g0.sas_pos hx hy, g1.sas_pos hx hy, hw0 x hx, hw0 y hy, hw x hx, hw y hy]
  have hpath : ∀ k x y, Spec.Path (Spec.MdpStep m0) k x y ↔ Spec.Path (Spec.MdpStep m) k x y := by
    intro k x y
    have : Spec.MdpStep m0 = Spec.MdpStep m := by funext x y; exact propext (hstep x y)
    rw [this]
  refine ⟨reaches_of_path hm ((hpath _ _ _).1 h.1), fun k hk hc => ?_⟩
  have := h.2 k ((hpath _ _ _).2 (path_of_reaches (by rw [g1.nStates]; exact hs) hc))
  omega

/-- What the grid theorems share. -/
theorem goal_on_grid (hm : Mdp.GridReach kind W H selfT m) (hinit : Env.init m specs = (m', .ok e0))
    (ops : List (EnvOp ℝ Nat)) (e : Env ℝ Nat) (he : e = e0.run ops)
    (hwalls : ∀ t, t < W * H → e.mdp.walls.get t = 0) (a : Agent ℝ Nat) (ha : a ∈ e.agents)
    (hsel : a.selector = maxSelector) (s : Nat) (hs : s = Spec.stateOf (W * H) a.position)
    (r : Nat → ℝ) (hr : r = fun t => ∑ f ∈ Finset.range a.reward.d0, a.reward.get f * e.mdp.features.get f t)
    (g : Nat) (hg : g < W * H) (hsg : s ≠ g) (hrg : 0 < r g) (honly : ∀ t, t < W * H → t ≠ g → r t = 0)
    (n : Nat) (hn : ∀ m0 : Mdp ℝ, Mdp.initGrid kind W H selfT e.mdp.features none = .ok m0 →
      Spec.IsDist (Spec.MdpStep m0) s g n)
    (maxIter : Nat) (γ tol : ℝ) (h0 : 0 < γ) (h1 : γ < 1) (htol : 0 < tol)
    (hsmall : 2 * tol ≤ γ ^ n * (1 - γ) ^ 2 * r g)
    (hstop : ∃ i, i < maxIter ∧ ∀ s, s < W * H →
      |Spec.sweeps e.mdp.trans r γ (i + 1) s - Spec.sweeps e.mdp.trans r γ i s| < tol)
    (d : Nat → Nat) (draws : Nat → Nat → Nat) :
    ∃ e1, e.fit a.name (valueIterationFit e.mdp maxIter γ tol) d = (e1, .ok ()) ∧
    ∃ a' ∈ (e1.run ((List.range n).map fun i => .step a.name (draws i))).agents, a'.name = a.name ∧
      Spec.stateOf (W * H) a'.position = g := by
  have hok : Env.Ok kind W H selfT e := by rw [he]; exact (Env.started hm hinit ops).1
  have g1 := hok.reach.ok
  obtain ⟨m0, e1, -⟩ := Mdp.initGrid_ok (kind := kind) (selfT := selfT) (f := e.mdp.features) (w := none) g1.pos
    g1.featStates (by simp)
  have hsW : s < W * H := by
    obtain ⟨j, hj, -⟩ := hok.pos a ha
    have hsj := Env.stateOf_eq hj
    rw [g1.nStates, ← hs] at hsj
    rw [← hsj, ← g1.nStates]; exact pyIdx_lt hj
  have hd := distance_free hok.reach hwalls g1.featStates e1 hsW (hn m0 e1)
  have hlive : Spec.Live e.mdp.trans s := by
    cases n with
    | zero => exact absurd (reaches_zero.1 hd.1) hsg
    | succ n =>
      obtain ⟨b, t, hb, ht, hp, -⟩ := reaches_succ.1 hd.1
      exact ⟨b, hb, possible_of_one ht hp⟩
  exact C104_environment hm hinit ops e he a ha hsel s hs hlive r hr g hg hrg honly n hd maxIter γ tol h0 h1 htol
    hsmall hstop d draws

/-- **C104**, square grid without walls: the agent is at the rewarded state after as many steps as the two
cells are apart, horizontally plus vertically. -/
theorem C104_square (hm : Mdp.GridReach .square W H selfT m) (hinit : Env.init m specs = (m', .ok e0))
    (ops : List (EnvOp ℝ Nat)) (e : Env ℝ Nat) (he : e = e0.run ops)
    (hwalls : ∀ t, t < W * H → e.mdp.walls.get t = 0) (a : Agent ℝ Nat) (ha : a ∈ e.agents)
    (hsel : a.selector = maxSelector) (s : Nat) (hs : s = Spec.stateOf (W * H) a.position)
    (r : Nat → ℝ) (hr : r = fun t => ∑ f ∈ Finset.range a.reward.d0, a.reward.get f * e.mdp.features.get f t)
    (g : Nat) (hg : g < W * H) (hsg : s ≠ g) (hrg : 0 < r g) (honly : ∀ t, t < W * H → t ≠ g → r t = 0)
    (n : Nat) (hn : (n : Int) = |((s / H : Nat) : Int) - (g / H : Nat)| + |((s % H : Nat) : Int) - (g % H : Nat)|)
    (maxIter : Nat) (γ tol : ℝ) (h0 : 0 < γ) (h1 : γ < 1) (htol : 0 < tol)
    (hsmall : 2 * tol ≤ γ ^ n * (1 - γ) ^ 2 * r g)
    (hstop : ∃ i, i < maxIter ∧ ∀ s, s < W * H →
      |Spec.sweeps e.mdp.trans r γ (i + 1) s - Spec.sweeps e.mdp.trans r γ i s| < tol)
    (d : Nat → Nat) (draws : Nat → Nat → Nat) :
    ∃ e1, e.fit a.name (valueIterationFit e.mdp maxIter γ tol) d = (e1, .ok ()) ∧
    ∃ a' ∈ (e1.run ((List.range n).map fun i => .step a.name (draws i))).agents, a'.name = a.name ∧
      Spec.stateOf (W * H) a'.position = g := by
  refine goal_on_grid hm hinit ops e he hwalls a ha hsel s hs r hr g hg hsg hrg honly n ?_ maxIter γ tol h0 h1 htol
    hsmall hstop d draws
  intro m0 hm0
  have hok : Env.Ok .square W H selfT e := by rw [he]; exact (Env.started hm hinit ops).1
  obtain ⟨j, hj, -⟩ := hok.pos a ha
  have hsj := Env.stateOf_eq hj
  rw [hok.reach.ok.nStates, ← hs] at hsj
  obtain ⟨k, hk, hd⟩ := C08_square_connected W H selfT _ m0 hm0 s g
    (by rw [← hsj, ← hok.reach.ok.nStates]; exact pyIdx_lt hj) hg
  have : n = k := by omega
  rw [this]; exact hd

/-- **C104**, hexagonal grid without walls: the number of steps is `offset_distance` of the two cells. -/
theorem C104_hex (hm : Mdp.GridReach .hex W H selfT m) (hinit : Env.init m specs = (m', .ok e0))
    (ops : List (EnvOp ℝ Nat)) (e : Env ℝ Nat) (he : e = e0.run ops)
    (hwalls : ∀ t, t < W * H → e.mdp.walls.get t = 0) (a : Agent ℝ Nat) (ha : a ∈ e.agents)
    (hsel : a.selector = maxSelector) (s : Nat) (hs : s = Spec.stateOf (W * H) a.position)
    (r : Nat → ℝ) (hr : r = fun t => ∑ f ∈ Finset.range a.reward.d0, a.reward.get f * e.mdp.features.get f t)
    (g : Nat) (hg : g < W * H) (hsg : s ≠ g) (hrg : 0 < r g) (honly : ∀ t, t < W * H → t ≠ g → r t = 0)
    (n : Nat) (hn : offsetDistance (s / H : Nat) (s % H : Nat) (g / H : Nat) (g % H : Nat) = .ok (n : Rat))
    (maxIter : Nat) (γ tol : ℝ) (h0 : 0 < γ) (h1 : γ < 1) (htol : 0 < tol)
    (hsmall : 2 * tol ≤ γ ^ n * (1 - γ) ^ 2 * r g)
    (hstop : ∃ i, i < maxIter ∧ ∀ s, s < W * H →
      |Spec.sweeps e.mdp.trans r γ (i + 1) s - Spec.sweeps e.mdp.trans r γ i s| < tol)
    (d : Nat → Nat) (draws : Nat → Nat → Nat) :
    ∃ e1, e.fit a.name (valueIterationFit e.mdp maxIter γ tol) d = (e1, .ok ()) ∧
    ∃ a' ∈ (e1.run ((List.range n).map fun i => .step a.name (draws i))).agents, a'.name = a.name ∧
      Spec.stateOf (W * H) a'.position = g := by
  refine goal_on_grid hm hinit ops e he hwalls a ha hsel s hs r hr g hg hsg hrg honly n ?_ maxIter γ tol h0 h1 htol
    hsmall hstop d draws
  intro m0 hm0
  have hok : Env.Ok .hex W H selfT e := by rw [he]; exact (Env.started hm hinit ops).1
  obtain ⟨j, hj, -⟩ := hok.pos a ha
  have hsj := Env.stateOf_eq hj
  rw [hok.reach.ok.nStates, ← hs] at hsj
  obtain ⟨k, hk, hd⟩ := C08_hex_connected W H selfT _ m0 hm0 s g
    (by rw [← hsj, ← hok.reach.ok.nStates]; exact pyIdx_lt hj) hg
  have : n = k := by
    rw [hk] at hn
    simpa using (Except.ok.inj hn).symm
  rw [this]; exact hd

/-- One agent, who likes feature 0 and is indifferent to itself. -/
noncomputable def exSeeker : List (AgentSpec ℝ Nat) :=
  [⟨"ant", 1, maxSelector, .fresh, some 0, .of1 ⟨2, fun i => if i = 0 then 1 else 0⟩, []⟩]

/-- The hypotheses of `C104_square` are met: a 3 by 4 grid with one rewarded cell in the far corner, five steps
away. -/
example : ∃ (m m' : Mdp ℝ) (e : Env ℝ Nat) (a : Agent ℝ Nat), Mdp.GridReach .square 3 4 false m ∧
    Env.init m exSeeker = (m', .ok e) ∧ a ∈ e.agents ∧ a.name = "ant" ∧
    ∃ e1 maxIter tol, e.fit "ant" (valueIterationFit e.mdp maxIter (1 / 2) tol) (fun _ => 0) = (e1, .ok ()) ∧
      ∀ draws : Nat → Nat → Nat, ∃ a' ∈ (e1.run ((List.range 5).map fun i => .step "ant" (draws i))).agents,
        a'.name = "ant" ∧ Spec.stateOf 12 a'.position = 11 := by
  obtain ⟨m, hi, -, hF, -, hN, -, -, hW⟩ := Mdp.initGrid_ok (K := ℝ) (kind := .square) (W := 3) (H := 4)
    (selfT := false) (f := ⟨1, 12, fun _ s => if s = 11 then 1 else 0⟩) (w := none) (by decide) rfl (by simp)
  have hm : Mdp.GridReach .square 3 4 false m := .init hi
  have hd : m.features.d0 - m.nAgents = 1 := by rw [hF, hN]; rfl
  obtain ⟨e, he⟩ := (C38_validated hm exSeeker).2 (by
    intro sp hsp
    rw [exSeeker, List.mem_singleton] at hsp
    subst hsp
    rw [hd]
    exact ⟨⟨_, rfl⟩, ⟨0, rfl, by decide, by decide⟩, by simp⟩)
  have hinit : Env.init m exSeeker = ((Env.init m exSeeker).1, .ok e) := Prod.ext rfl he
  have hnames : (exSeeker.map (·.name)).Nodup := by simp [exSeeker]
  obtain ⟨hl, -, hag⟩ := C38_agents hm hinit hnames
  obtain ⟨-, -, hfe, -, -⟩ := C38_features hm hinit
  obtain ⟨-, -, -, -, -, -, -, -, -, -, -, hwl, -⟩ := Env.init_facts hm hinit
  have hl1 : e.agents.length = 1 := hl
  have hlt : 0 < e.agents.length := by omega
  obtain ⟨hname, -, hpos, -, -, -, -, -, hrd, ⟨get, hget, hgk⟩, hsel, -⟩ :=
    hag 0 e.agents[0] ⟨"ant", 1, maxSelector, .fresh, some 0, .of1 ⟨2, fun i => if i = 0 then 1 else 0⟩, []⟩
      (List.getElem?_eq_getElem hlt) rfl
  have hmem : e.agents[0] ∈ e.agents := List.getElem_mem hlt
  have hp0 : e.agents[0].position = 0 := (Option.some.inj hpos).symm
  rw [hd] at hrd
  have hrd : e.agents[0].reward.d0 = 2 := hrd
  unfold PyArr.of1 at hget
  have hget2 : (fun i : List Nat => (if i.getD 0 0 = 0 then (1 : ℝ) else 0)) = get := by
    injection hget
  have hr : (fun t => ∑ f ∈ Finset.range e.agents[0].reward.d0, e.agents[0].reward.get f * e.mdp.features.get f t) =
      fun t => if t = 11 then (1 : ℝ) else 0 := by
    funext t
    rw [hrd, Finset.sum_range_succ, Finset.sum_range_succ, Finset.sum_range_zero, hgk, hgk, ← hget2,
      hfe 0 t (by rw [hd]; decide), hF]
    simp
  have hreach := (Env.started hm hinit []).1.reach
  have hgrid := C27_grid _ _ _ _ _ hreach
  obtain ⟨N, hNs⟩ := C103_limit e.mdp.trans hgrid.1 hgrid.2.2.1 (fun t => if t = 11 then (1 : ℝ) else 0) (1 / 2)
    (1 / 256) (by norm_num) (by norm_num) (by norm_num)
  obtain ⟨i, hi1, hi2⟩ := hNs N le_rfl
  have key := C104_square hm hinit [] e rfl (by intro t _; rw [hwl, hW]) e.agents[0] hmem hsel 0
    (by rw [hp0]; rfl) (fun t => if t = 11 then (1 : ℝ) else 0) hr.symm 11 (by decide) (by decide) (by norm_num)
    (by intro t _ ht; exact if_neg ht) 5 (by decide) N (1 / 2) (1 / 256) (by norm_num) (by norm_num) (by norm_num)
    (by norm_num) ⟨i, hi1, fun s hs => hi2 s (by
      have : e.mdp.trans.nS = 3 * 4 := hreach.ok.nStates
      rw [this]; exact hs)⟩ (fun _ => 0)
  rw [hname] at key
  obtain ⟨e1, h1, -⟩ := key (fun _ _ => 0)
  refine ⟨m, _, e, e.agents[0], hm, hinit, hmem, hname, e1, N, 1 / 256, h1, fun draws => ?_⟩
  obtain ⟨e2, h2, h3⟩ := key draws
  rw [h1] at h2
  cases h2
  exact h3

end MaMDP
