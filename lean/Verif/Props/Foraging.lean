import Verif.Lemmas.Foraging
import Verif.Lemmas.Turns
import Verif.Props.Exploring
import Verif.Props.Optimality
import Verif.Props.EnvironmentSteps

/-! # Foraging: C143 -/

set_option linter.unusedSectionVars false

namespace MaMDP

/-- The lemma behind C143, about any transition function whose moves can be taken back. The rewards `R A` depend on the set `A`
of what has been eaten. -/
theorem forage_ends {M : Trans ℝ} (hM : Spec.SubStochastic M) (hdet : Spec.Deterministic M) (hA : 0 < M.nA)
    (hback : CanReturn M) {γ : ℝ} (h0 : 0 < γ) (h1 : γ < 1) {ι : Type} (U : Finset ι) (r : Finset ι → Nat → ℝ)
    (hr0 : ∀ A, A ⊆ U → ∀ t, t < M.nS → 0 ≤ r A t)
    (hmono : ∀ A B, A ⊆ B → B ⊆ U → ∀ t, t < M.nS → r B t ≤ r A t) :
    ∃ ε K, 0 < ε ∧ ∀ tol, 0 < tol → tol ≤ ε → ∃ N, 0 < N ∧ ∀ maxIter, N ≤ maxIter →
      ∀ (s : Nat → Nat) (A : Nat → Finset ι), (∀ n, A n ⊆ U) → (∀ n, A n ⊆ A (n + 1)) → (∀ n, s n < M.nS) →
        (∀ n, 0 < r (A n) (s (n + 1)) → A n ≠ A (n + 1)) →
        (∀ n, ∃ x v q, x < M.nA ∧ M.p (s n) x (s (n + 1)) = 1 ∧ solveHard M (r (A n)) maxIter γ tol = .ok (v, q) ∧
          ∀ b, b < M.nA → Spec.NoBetter (q (s n) b) (q (s n) x)) →
        ∀ n, K ≤ n → ∀ t k, Spec.Reaches M (s 0) t k → r (A n) t = 0 := by
  classical
  have h1g : 0 < 1 - γ := by linarith
  obtain ⟨R, hR0, hR⟩ := exists_bound M.nS (r ∅)
  -- the least reward
  obtain ⟨ρ, hρ, hle⟩ : ∃ ρ : ℝ, 0 < ρ ∧ ∀ B, B ⊆ U → ∀ t, t < M.nS → 0 < r B t → ρ ≤ r B t := by
    by_cases hne : ((U.powerset ×ˢ Finset.range M.nS).filter fun x => 0 < r x.1 x.2).Nonempty
    · obtain ⟨k, hk, hmin⟩ := Finset.exists_min_image _ (fun x : Finset ι × Nat => r x.1 x.2) hne
      rw [Finset.mem_filter] at hk
      exact ⟨r k.1 k.2, hk.2, fun B hB t ht hp => hmin (B, t) (Finset.mem_filter.2
        ⟨Finset.mem_product.2 ⟨Finset.mem_powerset.2 hB, Finset.mem_range.2 ht⟩, hp⟩)⟩
    · exact ⟨1, one_pos, fun B hB t ht hp => absurd ⟨(B, t), Finset.mem_filter.2
        ⟨Finset.mem_product.2 ⟨Finset.mem_powerset.2 hB, Finset.mem_range.2 ht⟩, hp⟩⟩ hne⟩
  -- the longest way
  obtain ⟨D, hD⟩ : ∃ D, ∀ s t, s < M.nS → t < M.nS → (∃ k, Spec.Reaches M s t (k + 1)) →
      ∃ k, k ≤ D ∧ Spec.Reaches M s t (k + 1) := by
    have : ∀ st : Nat × Nat, ∃ k, (∃ k, Spec.Reaches M st.1 st.2 (k + 1)) → Spec.Reaches M st.1 st.2 (k + 1) := by
      intro st
      by_cases h : ∃ k, Spec.Reaches M st.1 st.2 (k + 1)
      · exact ⟨h.choose, fun _ => h.choose_spec⟩
      · exact ⟨0, fun h' => absurd h' h⟩
    choose len hlen using this
    refine ⟨(Finset.range M.nS ×ˢ Finset.range M.nS).sup len, fun s t hs ht h => ⟨len (s, t), ?_, hlen (s, t) h⟩⟩
    exact Finset.le_sup (f := len) (Finset.mem_product.2 ⟨Finset.mem_range.2 hs, Finset.mem_range.2 ht⟩)
  set c : ℝ := γ ^ D * ρ with hc
  have hc0 : 0 < c := mul_pos (pow_pos h0 _) hρ
  set η : ℝ := (1 - γ) * c / 2 with hη
  have hη0 : 0 < η := by rw [hη]; positivity
  obtain ⟨K, hK⟩ := exists_nat_gt (R / (1 - γ) / η)
  refine ⟨(1 - γ) ^ 2 * c / 4, (U.card + 1) * K, by positivity, fun tol ht0 ht => ?_⟩
  have hE : 2 * (tol * γ / (1 - γ)) ≤ η := by
    rw [show 2 * (tol * γ / (1 - γ)) = 2 * tol * γ / (1 - γ) by ring, div_le_iff₀ h1g, hη]
    nlinarith
  choose W hW _ _ _ using fun r : Nat → ℝ => C27_converges M hM hA r γ h0 h1
  -- a limit for every set of what may have been eaten
  choose lim hlim using fun B : Finset ι => C103_limit M hM hA (r B) γ tol h0 h1 ht0
  refine ⟨U.powerset.sup lim + 1, Nat.succ_pos _, fun maxIter hmax s A hU hgrow hlt heat hgo => ?_⟩
  have hr0' : ∀ n t, t < M.nS → 0 ≤ r (A n) t := fun n => hr0 _ (hU n)
  have hrR : ∀ n t, t < M.nS → r (A n) t ≤ R := fun n t ht =>
    le_trans (hmono ∅ (A n) (Finset.empty_subset _) (hU n) t ht) (le_trans (le_abs_self _) (hR t ht))
  have hreach : ∀ n, ∃ k, Spec.Reaches M (s 0) (s n) k := by
    intro n
    induction n with
    | zero => exact ⟨0, reaches_zero.2 rfl⟩
    | succ n ih =>
      obtain ⟨k, hk⟩ := ih
      obtain ⟨x, v, q, hx, hp, -⟩ := hgo n
      exact ⟨k + 1, reaches_snoc hx (hlt _) hp k _ hk⟩
  have hworth : ∀ n i t k, Spec.Reaches M (s 0) t k → 0 < r (A n) t → c ≤ W (r (A n)) (s i) := by
    intro n i t k hk hp
    have ht : t < M.nS := reaches_lt k _ (hlt 0) hk
    obtain ⟨j, hj⟩ := hreach i
    have h2 := reaches_trans hk j _ (reaches_back hback j _ (hlt 0) hj)
    -- one move there and back makes sure that there is a move at all
    obtain ⟨x, v, q, hx, hpx, -⟩ := hgo i
    obtain ⟨y, hy, hpy⟩ := hback _ _ _ (hlt i) hx (hlt (i + 1)) hpx
    have h3 : Spec.Reaches M (s i) t ((j + k + 1) + 1) :=
      reaches_succ.2 ⟨x, _, hx, hlt (i + 1), hpx, reaches_succ.2 ⟨y, _, hy, hlt i, hpy, h2⟩⟩
    obtain ⟨l, hl, h4⟩ := hD (s i) t (hlt i) ht ⟨_, h3⟩
    refine le_trans ?_ (value_reaches hM hdet h0 h1 (hr0' n) (hW (r (A n))) l _ (hlt i) h4)
    exact mul_le_mul (pow_le_pow_of_le_one h0.le h1.le hl) (hle _ (hU n) t ht hp) hρ.le (pow_nonneg h0.le _)
  have hrun : Run M η s A r W := by
    refine ⟨hlt, hgrow, heat, fun n hfood hz => ?_⟩
    obtain ⟨t, k, hk, hp⟩ := hfood
    obtain ⟨x, v, q, hx, hpx, hsol, hbest⟩ := hgo n
    have hstop := hlim (A n) maxIter (by
      have := Finset.le_sup (f := lim) (Finset.mem_powerset.2 (hU n))
      omega)
    have hclose := plan_close hM hA h0 h1 ht0 (hW (r (A n))) hstop hsol
    have hposs := possible_of_one (hlt (n + 1)) hpx
    obtain ⟨b, hb, hpb, hQ⟩ := bellman_attained hM h0 h1 (hr0' n) (hW (r (A n))) (hlt n) hx hposs
    have hgr := hclose.greedy (hlt n) hx hb hposs hpb hbest
    rw [hQ, show Spec.Q M (r (A n)) γ (W (r (A n))) (s n) x = r (A n) (s (n + 1)) + γ * W (r (A n)) (s (n + 1)) from
      actionValue_det hM hdet _ _ _ (hlt n) hx (hlt (n + 1)) hpx, hz, zero_add] at hgr
    have hcW := hworth n (n + 1) t k hk hp
    have : (1 - γ) * c ≤ (1 - γ) * W (r (A n)) (s (n + 1)) := mul_le_mul_of_nonneg_left hcW h1g.le
    rw [hη] at hE ⊢
    linarith
  have hle' : ∀ n k, A n ⊆ A (n + k) := hrun.le
  intro n hn t k hk
  refine hrun.ends hU hr0' (fun n k => hmono _ _ (hle' n k) (hU _)) (fun n => bellman_nonneg hM h0 h1 (hr0' n) (hW (r (A n))))
    (fun n => bellman_le hM h0 h1 hR0 (hrR n) (hW (r (A n)))) ?_ hn hk
  rwa [div_lt_iff₀ hη0] at hK

/-! ## In an environment -/

variable {kind : GridKind} {W H : Nat} {selfT : Bool} {m m' : Mdp ℝ} {specs : List (AgentSpec ℝ Nat)}
  {e0 : Env ℝ Nat}

/-- The state of affairs between two rounds: agent `a` (or what has become of it) is in state `s`. -/
structure Foraging (e0 : Env ℝ Nat) (N : Nat) (a : Agent ℝ Nat) (M : Trans ℝ) (D k s : Nat) (e : Env ℝ Nat) : Prop where
  run : ∃ ops, e = e0.run ops
  trans : e.mdp.trans = M
  d0 : e.mdp.features.d0 = D
  nAgents : e.mdp.nAgents = k
  agent : ∃ b ∈ e.agents, b.name = a.name ∧ b.selector = maxSelector ∧ b.reward = a.reward ∧ b.consumes = a.consumes ∧
    b.idx = a.idx ∧ s = Spec.stateOf N b.position
  nonneg : ∀ f t, f < D → 0 < a.reward.get f → t < N → 0 ≤ e.mdp.features.get f t
  live : Spec.Live M s

/-- One round. -/
theorem forage_round (hm : Mdp.GridReach kind W H selfT m) (hinit : Env.init m specs = (m', .ok e0))
    {a : Agent ℝ Nat} {D k : Nat} (hD : a.reward.d0 = D) (hself : a.reward.get (D - k + a.idx) = 0)
    (hlikes : ∀ f, f < D → 0 ≤ a.reward.get f) (heats : ∀ f, f < D → 0 < a.reward.get f → (f : Int) ∈ a.consumes)
    (hvalid : ∀ f ∈ a.consumes, ∃ r, pyIdx D f = some r) {M : Trans ℝ} {maxIter : Nat} (hk : 0 < maxIter) {γ tol : ℝ}
    (h0 : 0 < γ) (h1 : γ < 1) (d1 d2 : Nat → Nat) {s : Nat} {e : Env ℝ Nat} (h : Foraging e0 (W * H) a M D k s e) :
    ∃ t : Nat, (e.fit a.name (valueIterationFit e.mdp maxIter γ tol) d1).2 = .ok () ∧
      ((e.fit a.name (valueIterationFit e.mdp maxIter γ tol) d1).1.step a.name d2).2 = .ok (t : Int) ∧
      Foraging e0 (W * H) a M D k t ((e.fit a.name (valueIterationFit e.mdp maxIter γ tol) d1).1.step a.name d2).1 ∧
      (∀ u, food ((e.fit a.name (valueIterationFit e.mdp maxIter γ tol) d1).1.step a.name d2).1 a u =
        if u = t then 0 else food e a u) ∧
      (∀ f u, f ≠ D - k + a.idx → ((e.fit a.name (valueIterationFit e.mdp maxIter γ tol) d1).1.step a.name d2).1.mdp.features.get f u =
        e.mdp.features.get f u ∨ u = t ∧
          ((e.fit a.name (valueIterationFit e.mdp maxIter γ tol) d1).1.step a.name d2).1.mdp.features.get f u = 0) ∧
      s < M.nS ∧ t < M.nS ∧
      ∃ x v q, x < M.nA ∧ M.p s x t = 1 ∧ solveHard M (food e a) maxIter γ tol = .ok (v, q) ∧
        ∀ b, b < M.nA → Spec.NoBetter (q s b) (q s x) := by
  obtain ⟨⟨ops, he⟩, rfl, hd0, hna, ⟨b, hb, hbn, hsel, hrew, hcons, hidx, hs⟩, hnn, hlive⟩ := h
  obtain ⟨e1, hfit⟩ := fit_succeeds hm hinit ops e he b hb hsel s hs hlive maxIter hk γ tol h0 h1 d1
  obtain ⟨hsn, v, q, hsol, hf⟩ := follows_fit hm hinit ops e he b hb hsel s hs hlive maxIter γ tol d1 e1 hfit
  have hok : Env.Ok kind W H selfT e := by rw [he]; exact (Env.started hm hinit ops).1
  -- what fitting leaves
  obtain ⟨b1, hb1, hsame, he1⟩ : ∃ b1, b1 ∈ e1.agents ∧ Agent.SameBody b b1 ∧ e1.mdp = e.mdp := by
    rcases Env.fit_cases hok b.name (valueIterationFit e.mdp maxIter γ tol) d1 with ⟨-, h2⟩ | ⟨b', hb', hbn', h2⟩
    · rw [hfit] at h2; cases h2
    · have := Env.eq_of_name hok.nodup hb' hb hbn'
      subst this
      rw [hfit] at h2
      have h3 := congrArg Prod.fst h2
      simp only at h3
      have hsame := (Agent.fit_same b' e.mdp (valueIterationFit e.mdp maxIter γ tol) d1).1
      refine ⟨_, ?_, hsame, by rw [h3]; rfl⟩
      rw [h3]
      exact (Env.mem_put (by rw [hsame.name]; exact List.mem_map_of_mem (f := (·.name)) hb')).2 (.inl rfl)
  rw [← hbn, hfit]
  dsimp only
  obtain ⟨x, t, hx, ht, hp, hbest, hf'⟩ := hf.step d2
  have hcons1 : b1.consumes = a.consumes := hsame.consumes.trans hcons
  -- the step
  have hstep : ∃ a1 j, Env.Moved e1 b1 d2 a1 j t ∧ e1.step b.name d2 = (Env.after e1 b1 a1 t, .ok (t : Int)) := by
    obtain ⟨a', ha', hn', -, -, -, hpos', hhist'⟩ := hf'.agent
    obtain ⟨a0, ha0, hn0, -, -, -, -, hhist0⟩ := hf.agent
    have e0' : a0 = b1 := Env.eq_of_name hf.ok.nodup ha0 hb1 (hn0.trans hsame.name.symm)
    subst e0'
    have hvalid' : ∀ f ∈ a0.consumes, ∃ r, pyIdx e1.mdp.features.d0 f = some r := by
      rw [he1, hd0, hcons1]; exact hvalid
    have hgo : ∀ a1 j t', Env.Moved e1 a0 d2 a1 j t' → t' = t := by
      intro a1 j t' hmv
      have hst := Env.step_of hf.ok hmv hvalid'
      rw [hn0] at hst
      rw [hst] at ha'
      have hmem : Env.grown e1 a0 a1 t' ∈ (Env.after e1 a0 a1 t').agents := by
        rw [Env.after_agents]
        exact List.mem_map.2 ⟨a0, hmv.mem, by rw [if_pos hmv.name.1.symm]⟩
      have hok' : Env.Ok kind W H selfT (Env.after e1 a0 a1 t') := by
        have := hf'.ok; rw [hst] at this; exact this
      have e2 := Env.eq_of_name hok'.nodup ha' hmem (by rw [hn', ← hn0]; exact hmv.name.1.symm)
      rw [e2] at hhist'
      have : a1.history = a0.history ++ [(t' : Int)] := hmv.name.2.2.2.2.2.2.1
      rw [show (Env.grown e1 a0 a1 t').history = a1.history from rfl, this, hhist0] at hhist'
      simpa using hhist'
    rcases Env.step_cases hf.ok b.name d2 with ⟨h2, -⟩ | ⟨c, c', err, hc, hcn, hbody, hh, -, -, h2⟩ |
      ⟨c, a1, j, t', g, cc, hcn, hmv, -, -, -, -, -⟩ | ⟨c, a1, j, t', g, hcn, hmv, hv, -, -, -⟩
    · exact absurd ((hf.ok.names _).2 (by rw [← hn0]; exact List.mem_map_of_mem ha0)) h2
    · exfalso
      have := Env.eq_of_name hf.ok.nodup hc ha0 (hcn.trans hn0.symm)
      subst this
      rw [h2] at ha'
      have hmem : c' ∈ (e1.put e1.mdp c').agents :=
        (Env.mem_put (by rw [hbody.name]; exact List.mem_map_of_mem (f := (·.name)) hc)).2 (.inl rfl)
      have hok' : Env.Ok kind W H selfT (e1.put e1.mdp c') := by
        have := hf'.ok; rw [h2] at this; exact this
      have e2 := Env.eq_of_name hok'.nodup ha' hmem (by rw [hn', hbody.name, hcn])
      rw [e2, hh, hhist0] at hhist'
      simp at hhist'
    · have := Env.eq_of_name hf.ok.nodup hmv.mem ha0 (hcn.trans hn0.symm)
      subst this
      have := hgo a1 j t' hmv
      subst this
      exact ⟨a1, j, hmv, by rw [← hn0]; exact Env.step_of hf.ok hmv hvalid'⟩
    · have := Env.eq_of_name hf.ok.nodup hmv.mem ha0 (hcn.trans hn0.symm)
      subst this
      exact absurd hvalid' hv
  obtain ⟨a1, j, hmv, hst⟩ := hstep
  have hN : e.mdp.trans.nS = W * H := hok.reach.ok.nStates
  have hidx1 : b1.idx = a.idx := hsame.idx.trans hidx
  have hrow : e1.mdp.agentRow b1.idx = D - k + a.idx := by
    unfold Mdp.agentRow
    rw [he1, hd0, hna, hidx1]
  have hget : ∀ f u, (Env.after e1 b1 a1 t).mdp.features.get f u =
      if u = t ∧ Env.Eats e1 b1 f ∧ 0 < (if f = D - k + a.idx then (if u = t then 1 else 0) else e.mdp.features.get f u)
        then 0 else (if f = D - k + a.idx then (if u = t then 1 else 0) else e.mdp.features.get f u) := by
    intro f u
    rw [Env.after_get]
    unfold Env.fed
    simp only [Env.setRow_get, hrow]
    rw [he1]
  rw [hst]
  refine ⟨t, rfl, rfl, ⟨⟨ops ++ [.fit b.name (valueIterationFit e.mdp maxIter γ tol) d1, .step b.name d2], ?_⟩, ?_, ?_, ?_, ?_, ?_,
    hf'.live⟩, ?_, ?_, hsn, ht, x, v, q, hx, hp, ?_, hbest⟩
  · rw [Env.run_append, ← he]
    show _ = ((e.fit b.name (valueIterationFit e.mdp maxIter γ tol) d1).1.step b.name d2).1
    rw [hfit, hst]
  · have := hf'.trans
    rw [hst] at this
    exact this
  · show e1.mdp.features.d0 = D
    rw [he1, hd0]
  · show e1.mdp.nAgents = k
    rw [he1, hna]
  · refine ⟨Env.grown e1 b1 a1 t, ?_, ?_, ?_, ?_, ?_, ?_, ?_⟩
    · rw [Env.after_agents]
      exact List.mem_map.2 ⟨b1, hb1, by rw [if_pos hmv.name.1.symm]⟩
    · show a1.name = a.name
      rw [hmv.name.1, hsame.name, hbn]
    · show a1.selector = maxSelector
      rw [hmv.name.2.2.2.2.2.2.2.2.1, hsame.selector, hsel]
    · show a1.reward = a.reward
      rw [hmv.name.2.2.2.2.2.2.2.2.2.2.2, hsame.reward, hrew]
    · show a1.consumes = a.consumes
      rw [hmv.name.2.2.2.2.1, hcons1]
    · show a1.idx = a.idx
      rw [hmv.name.2.1, hidx1]
    · show t = Spec.stateOf (W * H) a1.position
      rw [hmv.name.2.2.2.1]
      unfold Spec.stateOf
      simp
  · intro f u hf hw hu
    rw [hget]
    have := hnn f u hf hw hu
    split_ifs <;> first | exact le_rfl | exact zero_le_one | exact this
  · intro u
    unfold food
    split_ifs with h
    · subst h
      have hu : u < W * H := by rw [← hN]; exact ht
      refine Finset.sum_eq_zero fun f hf => ?_
      have hfD : f < D := by rw [← hD]; exact Finset.mem_range.1 hf
      by_cases hfr : f = D - k + a.idx
      · rw [hfr, hself, zero_mul]
      · rcases (hlikes f hfD).lt_or_eq with hw | hw
        · have heat : Env.Eats e1 b1 f :=
            ⟨f, by rw [hcons1]; exact heats f hfD hw, by rw [he1, hd0, pyIdx_nat, if_pos hfD]⟩
          rw [hget]
          simp only [if_neg hfr, heat, true_and]
          have := hnn f u hfD hw hu
          split_ifs with h2
          · exact mul_zero _
          · rw [le_antisymm (not_lt.1 h2) this, mul_zero]
        · rw [← hw, zero_mul]
    · refine Finset.sum_congr rfl fun f _ => ?_
      rw [hget]
      simp only [h, false_and, if_false]
      by_cases hfr : f = D - k + a.idx
      · rw [hfr, hself, zero_mul, zero_mul]
      · rw [if_neg hfr]
  · intro f u hfr
    rw [hget]
    simp only [if_neg hfr]
    split_ifs with h2
    · exact .inr ⟨h2.1, rfl⟩
    · exact .inl rfl
  · have : stateReward b.reward.d0 b.reward.get e.mdp.features.get = food e a := by
      rw [hrew]; rfl
    rwa [← this]

/-- **C143**: an agent that is fitted with value iteration before each of its steps, likes or ignores everything and consumes what
it likes, in an environment after any history: if the tolerance is small enough and the limit of passes large enough,
all its fits and steps succeed, and after some number of rounds nothing it likes is left in any state it can reach. -/
theorem C143_forage (hm : Mdp.GridReach kind W H selfT m) (hinit : Env.init m specs = (m', .ok e0))
    (ops : List (EnvOp ℝ Nat)) (e : Env ℝ Nat) (he : e = e0.run ops) (a : Agent ℝ Nat) (ha : a ∈ e.agents)
    (hsel : a.selector = maxSelector) (s : Nat) (hs : s = Spec.stateOf (W * H) a.position)
    (hlive : Spec.Live e.mdp.trans s) (hfor : Spec.Forager e a)
    (hfeat : ∀ f t, f < a.reward.d0 → 0 < a.reward.get f → t < W * H → 0 ≤ e.mdp.features.get f t) (γ : ℝ) (h0 : 0 < γ) (h1 : γ < 1) :
    ∃ ε K, 0 < ε ∧ ∀ tol, 0 < tol → tol ≤ ε → ∃ N, ∀ maxIter, N ≤ maxIter → ∀ fitDraws stepDraws : Nat → Nat → Nat,
      (∀ n, ∃ e1 e2 p, (Spec.forage maxIter γ tol a.name fitDraws stepDraws e n).fit a.name
          (valueIterationFit (Spec.forage maxIter γ tol a.name fitDraws stepDraws e n).mdp maxIter γ tol) (fitDraws n) =
            (e1, .ok ()) ∧
          e1.step a.name (stepDraws n) = (e2, .ok p)) ∧
      ∀ n, K ≤ n → ∀ t k, Spec.Reaches e.mdp.trans s t k → ∀ f, f < a.reward.d0 → 0 < a.reward.get f →
        (Spec.forage maxIter γ tol a.name fitDraws stepDraws e n).mdp.features.get f t = 0 := by
  obtain ⟨hok, hlater⟩ := Env.started hm hinit ops
  rw [← he] at hok hlater
  obtain ⟨-, hok0, hval, -, -, -, hd0, hna, -, -, -, -, -, -, -, hag⟩ := Env.init_facts hm hinit
  obtain ⟨a0, ha0, -, -, -, hcons, -, -, hrew, -, -⟩ := hlater.back hok0 hok ha
  have hboth : a.reward.d0 = e.mdp.features.d0 ∧ ∀ f ∈ a.consumes, f < (e.mdp.features.d0 : Int) := by
    obtain ⟨i, sp, p, r, hi, -, -, rfl⟩ := hag a0 ha0
    rw [hrew, hcons, hlater.d0, hd0]
    refine ⟨rfl, fun f hf => ?_⟩
    have := (hval sp (List.mem_of_getElem? hi)).2.2 f hf
    omega
  obtain ⟨hrd, hup⟩ := hboth
  have hvalid : ∀ f ∈ a.consumes, ∃ r, pyIdx e.mdp.features.d0 f = some r := by
    intro f hf
    have h2 := hfor.known f hf
    have h3 := hup f hf
    rw [hrd] at h2
    by_cases h4 : 0 ≤ f
    · exact ⟨f.toNat, pyIdx_spec.2 ⟨by omega, .inl (by omega)⟩⟩
    · exact ⟨(f + e.mdp.features.d0).toNat, pyIdx_spec.2 ⟨by omega, .inr (by omega)⟩⟩
  obtain ⟨hM, hdet, hA, -⟩ := C27_grid kind W H selfT e.mdp hok.reach
  have hN : e.mdp.trans.nS = W * H := hok.reach.ok.nStates
  have hback : CanReturn e.mdp.trans := by
    intro s x t hs hx ht hp
    obtain ⟨-, y, hy, hq⟩ := mem_nextStates.1 (grid_back hok.reach hs
      (mem_nextStates.2 ⟨ht, x, hx, by rw [hp]; exact one_ne_zero⟩))
    exact ⟨y, hy, (hdet t y s ht hy hs).resolve_left hq⟩
  have hr0 : ∀ t, t < e.mdp.trans.nS → 0 ≤ food e a t := fun t ht =>
    food_nonneg hfor.likes fun f hf hw => hfeat f t hf hw (by rw [← hN]; exact ht)
  obtain ⟨ε, K, hε, key⟩ := forage_ends hM hdet hA hback h0 h1 (Finset.range e.mdp.trans.nS)
    (fun T t => if t ∈ T then 0 else food e a t)
    (fun T _ t ht => by
      split_ifs
      · exact le_rfl
      · exact hr0 t ht)
    (fun T T' hT _ t ht => by
      split_ifs with h2 h3 h3
      · exact le_rfl
      · exact hr0 t ht
      · exact absurd (hT h3) h2
      · exact le_rfl)
  refine ⟨ε, K, hε, fun tol ht0 ht => ?_⟩
  obtain ⟨N, hN0, key⟩ := key tol ht0 ht
  refine ⟨N, fun maxIter hmax fitDraws stepDraws => ?_⟩
  set now := Spec.forage maxIter γ tol a.name fitDraws stepDraws e with hnow
  have hround := fun n s => forage_round (s := s) (e := now n) hm hinit hrd hfor.self
    (by rw [← hrd]; exact hfor.likes) (by rw [← hrd]; exact hfor.eats) hvalid (M := e.mdp.trans)
    (maxIter := maxIter) (by omega) (tol := tol) h0 h1
    (fitDraws n) (stepDraws n)
  have hsucc : ∀ n, now (n + 1) = (((now n).fit a.name (valueIterationFit (now n).mdp maxIter γ tol) (fitDraws n)).1.step
      a.name (stepDraws n)).1 := fun n => rfl
  have hall : ∀ n, ∃ s, Foraging e0 (W * H) a e.mdp.trans e.mdp.features.d0 e.mdp.nAgents s (now n) := by
    intro n
    induction n with
    | zero =>
      exact ⟨s, ⟨ops, he⟩, rfl, rfl, rfl, ⟨a, ha, rfl, hsel, rfl, rfl, rfl, hs⟩, by rw [← hrd]; exact hfeat, hlive⟩
    | succ n ih =>
      obtain ⟨s, h⟩ := ih
      obtain ⟨t, -, -, h2, -⟩ := hround n s h
      exact ⟨t, h2⟩
  choose pos hpos using hall
  have huniq : ∀ n t, Foraging e0 (W * H) a e.mdp.trans e.mdp.features.d0 e.mdp.nAgents t (now n) → t = pos n := by
    intro n t h
    obtain ⟨ops', h2⟩ := h.run
    have hok' : Env.Ok kind W H selfT (now n) := by rw [h2]; exact (Env.started hm hinit ops').1
    obtain ⟨b, hb, hbn, -, -, -, -, e1⟩ := h.agent
    obtain ⟨c, hc, hcn, -, -, -, -, e2⟩ := (hpos n).agent
    have := Env.eq_of_name hok'.nodup hb hc (hbn.trans hcn.symm)
    rw [e1, e2, this]
  have hs0 : pos 0 = s := (huniq 0 s
    ⟨⟨ops, he⟩, rfl, rfl, rfl, ⟨a, ha, rfl, hsel, rfl, rfl, rfl, hs⟩, by rw [← hrd]; exact hfeat, hlive⟩).symm
  refine ⟨fun n => ?_, fun n hn t k hreach f hf hw => ?_⟩
  · obtain ⟨t, h2, h3, -⟩ := hround n _ (hpos n)
    exact ⟨_, _, t, by rw [← h2], by rw [← h3]⟩
  · have hlt : ∀ n, pos n < e.mdp.trans.nS := by
      intro n
      obtain ⟨-, -, -, -, -, -, h4, -⟩ := hround n _ (hpos n)
      exact h4
    have hfood : ∀ n, food (now (n + 1)) a = fun u => if u = pos (n + 1) then 0 else food (now n) a u := by
      intro n
      obtain ⟨t, -, -, h2, h3, -⟩ := hround n _ (hpos n)
      have := huniq (n + 1) t h2
      subst this
      funext u
      exact h3 u
    set gone : Nat → Finset Nat := fun n => (Finset.range n).image fun i => pos (i + 1) with hgone
    have hsuc : ∀ n, gone (n + 1) = insert (pos (n + 1)) (gone n) := fun n => by
      rw [hgone]
      simp only [Finset.range_add_one, Finset.image_insert]
    have hmask : ∀ n, food (now n) a = fun t => if t ∈ gone n then 0 else food e a t := by
      intro n
      induction n with
      | zero => funext t; simp [hgone, hnow, Spec.forage]
      | succ n ih =>
        rw [hfood, ih, hsuc]
        funext t
        simp only [Finset.mem_insert]
        by_cases h : t = pos (n + 1)
        · rw [if_pos h, if_pos (.inl h)]
        · rw [if_neg h]
          simp only [h, false_or]
    have hzero := key maxIter hmax pos gone ?_ ?_ hlt ?_ ?_ n hn t k (by rw [hs0]; exact hreach)
    · have ht : t < W * H := by
        rw [← hN]
        exact reaches_lt k s (by rw [← hs0]; exact hlt 0) hreach
      have hz : food (now n) a t = 0 := by rw [hmask n]; exact hzero
      exact food_zero hfor.likes (fun f hf hw => (hpos n).nonneg f t (by rw [← hrd]; exact hf) hw ht) hz hf hw
    · intro n x hx
      rw [hgone] at hx
      obtain ⟨i, -, rfl⟩ := Finset.mem_image.1 hx
      exact Finset.mem_range.2 (hlt _)
    · intro n
      rw [hsuc]
      exact Finset.subset_insert _ _
    · intro n h2 h3
      rw [hsuc] at h3
      rw [if_pos (h3 ▸ Finset.mem_insert_self _ _)] at h2
      exact lt_irrefl _ h2
    · intro n
      obtain ⟨t, -, -, h2, -, -, -, -, h5⟩ := hround n _ (hpos n)
      have := huniq (n + 1) t h2
      subst this
      rw [hmask n] at h5
      exact h5

/-! ### In company -/

/-- What the others may have done: eaten something. -/
structure Nibbled (x : String) (e e' : Env ℝ Nat) : Prop where
  agent : e'.agent? x = e.agent? x
  trans : e'.mdp.trans = e.mdp.trans
  later : Env.Later e e'
  get : ∀ f t, f < e.mdp.features.d0 - e.mdp.nAgents → e'.mdp.features.get f t = e.mdp.features.get f t ∨
    t < e.mdp.nStates ∧ e'.mdp.features.get f t = 0

theorem Nibbled.refl (x : String) (e : Env ℝ Nat) : Nibbled x e e := ⟨rfl, rfl, .refl e, fun _ _ _ => .inl rfl⟩

theorem Nibbled.then {x : String} {e1 e2 e3 : Env ℝ Nat} (h1 : Nibbled x e1 e2) (h2 : Nibbled x e2 e3) : Nibbled x e1 e3 := by
  refine ⟨h2.agent.trans h1.agent, h2.trans.trans h1.trans, h1.later.trans h2.later, fun f t hf => ?_⟩
  rcases h2.get f t (by rw [h1.later.d0, h1.later.nAgents]; exact hf) with h3 | ⟨h3, h4⟩
  · rw [h3]
    exact h1.get f t hf
  · exact .inr ⟨by rw [← h1.later.nStates]; exact h3, h4⟩

theorem nibbled_fit {x y : String} (hy : y ≠ x) {e : Env ℝ Nat} (h : Env.Ok kind W H selfT e) (o : FitOut ℝ) (d : Nat → Nat) :
    Nibbled x e (e.fit y o d).1 := by
  have hmdp : (e.fit y o d).1.mdp = e.mdp := by
    rcases Env.fit_cases h y o d with ⟨-, h1⟩ | ⟨a, h1, -, h2⟩
    · rw [h1]
    · rw [h2]; rfl
  exact ⟨Env.agent?_fit hy.symm o d, by rw [hmdp], Env.later_fit h y o d, fun f t _ => .inl (by rw [hmdp])⟩

theorem nibbled_setAlgorithm {x y : String} (hy : y ≠ x) {e : Env ℝ Nat} (h : Env.Ok kind W H selfT e) (st : AlgState ℝ) :
    Nibbled x e (e.setAlgorithm y st).1 := by
  have hmdp : (e.setAlgorithm y st).1.mdp = e.mdp := by
    rcases Env.setAlgorithm_cases h y st with ⟨-, h1⟩ | ⟨a, h1, -, h2⟩
    · rw [h1]
    · rw [h2]; rfl
  exact ⟨Env.agent?_setAlgorithm hy.symm st, by rw [hmdp], Env.later_setAlgorithm h y st, fun f t _ => .inl (by rw [hmdp])⟩

theorem nibbled_stepProba {x y : String} (hy : y ≠ x) {e : Env ℝ Nat} (h : Env.Ok kind W H selfT e) (p : Option (Arr1 ℝ))
    (d : Nat → Nat) : Nibbled x e (e.stepProba y p d).1 := by
  have hmdp : (e.stepProba y p d).1.mdp = e.mdp := by
    rcases Env.stepProba_cases h y p d with ⟨-, h1⟩ | ⟨a, h1, -, ⟨err, -, h2⟩ | ⟨x, -, h2⟩⟩
    · rw [h1]
    · rw [h2]; rfl
    · rw [h2]; rfl
  exact ⟨Env.agent?_stepProba hy.symm p d, by rw [hmdp], Env.later_stepProba h y p d, fun f t _ => .inl (by rw [hmdp])⟩

theorem nibbled_setAgentPosition {x y : String} (hy : y ≠ x) {e : Env ℝ Nat} (h : Env.Ok kind W H selfT e) (p : Int) :
    Nibbled x e (e.setAgentPosition y p).1 := by
  refine ⟨Env.agent?_setAgentPosition hy.symm p, ?_, Env.later_setAgentPosition h y p, fun f t hf => .inl ?_⟩
  · rcases Env.setAgentPosition_cases h y p with ⟨-, h1⟩ | ⟨a, h1, -, ⟨j, h2, h3⟩ | ⟨-, h3⟩ | ⟨-, h3, h4⟩⟩
    · rw [h1]
    · rw [h3]; rfl
    · rw [h3]
    · rw [h3]; rfl
  · have hne : ∀ a : Agent ℝ Nat, f ≠ e.mdp.agentRow a.idx := by
      intro a
      unfold Mdp.agentRow
      omega
    rcases Env.setAgentPosition_cases h y p with ⟨-, h1⟩ | ⟨a, h1, -, ⟨j, h2, h3⟩ | ⟨-, h3⟩ | ⟨-, h3, h4⟩⟩
    · rw [h1]
    · rw [h3]
      show (e.mdp.setRow (e.mdp.agentRow a.idx) j).features.get f t = _
      rw [Env.setRow_get, if_neg (hne a)]
    · rw [h3]
    · rw [h3]
      show (if f = e.mdp.agentRow a.idx then 0 else e.mdp.features.get f t) = _
      rw [if_neg (hne a)]

theorem nibbled_step {x y : String} (hy : y ≠ x) {e : Env ℝ Nat} (h : Env.Ok kind W H selfT e) (d : Nat → Nat) :
    Nibbled x e (e.step y d).1 := by
  refine ⟨Env.agent?_step hy.symm d, ?_, Env.later_step h y d, fun f t hf => ?_⟩
  · rcases Env.step_cases h y d with ⟨-, h1⟩ | ⟨a, a', err, h1, -, h2, -, -, -, h3⟩ |
      ⟨a, a1, j, t, g, c, -, -, -, -, -, h3, -⟩ | ⟨a, a1, j, t, g, -, -, -, -, h3, -⟩
    · rw [h1]
    · rw [h3]; rfl
    · rw [h3]; rfl
    · rw [h3]; rfl
  · have hne : ∀ a : Agent ℝ Nat, f ≠ e.mdp.agentRow a.idx := by
      intro a
      unfold Mdp.agentRow
      omega
    rcases Env.step_cases h y d with ⟨-, h1⟩ | ⟨a, a', err, h1, -, h2, -, -, -, h3⟩ |
      ⟨a, a1, j, u, g, c, -, hmv, -, hg, -, h3, -⟩ | ⟨a, a1, j, u, g, -, hmv, -, hg, h3, -⟩
    · rw [h1]; exact .inl rfl
    · rw [h3]; exact .inl rfl
    · rw [h3]
      show g f t = _ ∨ _ ∧ g f t = 0
      rw [hg, Env.setRow_get, if_neg (hne a)]
      split_ifs with h4
      · exact .inr ⟨by rw [h4.1]; exact hmv.lt, rfl⟩
      · exact .inl rfl
    · rw [h3]
      show g f t = _ ∨ _ ∧ g f t = 0
      have := hg f t
      rw [Env.setRow_get, if_neg (hne a)] at this
      rcases this with h4 | ⟨h4, h5, -⟩
      · exact .inl h4
      · exact .inr ⟨by rw [h5]; exact hmv.lt, h4⟩

theorem nibbled_run {x : String} (ops : List (EnvOp ℝ Nat)) : ∀ e : Env ℝ Nat, Env.Ok kind W H selfT e →
    (∀ op ∈ ops, Spec.OfOthers x op) → Nibbled x e (e.run ops) := by
  induction ops with
  | nil => intro e _ _; exact .refl x e
  | cons op ops ih =>
    intro e h hops
    have hop := hops op List.mem_cons_self
    have hone : Env.Ok kind W H selfT (e.apply op) ∧ Nibbled x e (e.apply op) := by
      refine ⟨Env.Ok.run [op] e h, ?_⟩
      cases op with
      | fit y o d => exact nibbled_fit hop h o d
      | step y d => exact nibbled_step hop h d
      | stepProba y p d => exact nibbled_stepProba hop h p d
      | stepMulti y s p t r c o =>
        exact (Env.stepMulti_induct (fun e' => Env.Ok kind W H selfT e' ∧ Nibbled x e e')
          (fun e' o d h2 => ⟨h2.1.fit y o d, h2.2.then (nibbled_fit hop h2.1 o d)⟩)
          (fun e' d h2 => ⟨h2.1.step y d, h2.2.then (nibbled_step hop h2.1 d)⟩) e s p t r c o ⟨h, .refl x e⟩).2
      | setAgentPosition y p => exact nibbled_setAgentPosition hop h p
      | stepMultiInteractive n m => exact hop.elim
      | reset => exact hop.elim
      | setWalls w => exact hop.elim
      | addWallXY a b => exact hop.elim
      | resetWalls => exact hop.elim
      | setAlgorithm y st => exact nibbled_setAlgorithm hop h st
    exact hone.2.then (ih (e.apply op) hone.1 fun o ho => hops o (List.mem_cons_of_mem _ ho))

/-- The others leave the forager where it is. -/
theorem Foraging.among (hm : Mdp.GridReach kind W H selfT m) (hinit : Env.init m specs = (m', .ok e0)) {a : Agent ℝ Nat}
    {M : Trans ℝ} {D k s : Nat} {e : Env ℝ Nat} (h : Foraging e0 (W * H) a M D k s e)
    (hblind : ∀ f, f < D → 0 < a.reward.get f → f < D - k)
    {others : List (EnvOp ℝ Nat)} (hops : ∀ op ∈ others, Spec.OfOthers a.name op) :
    Foraging e0 (W * H) a M D k s (e.run others) ∧ Nibbled a.name e (e.run others) := by
  obtain ⟨ops, he⟩ := h.run
  have hok : Env.Ok kind W H selfT e := by rw [he]; exact (Env.started hm hinit ops).1
  have hok' : Env.Ok kind W H selfT (e.run others) := Env.Ok.run others e hok
  have hn := nibbled_run others e hok hops
  obtain ⟨b, hb, hbn, hrest⟩ := h.agent
  have hb2 : (e.run others).agent? a.name = some b := by
    rw [hn.agent]
    exact (Env.agent?_eq hok.nodup).2 ⟨hb, hbn⟩
  obtain ⟨hb3, -⟩ := (Env.agent?_eq hok'.nodup).1 hb2
  refine ⟨⟨⟨ops ++ others, by rw [Env.run_append, ← he]⟩, hn.trans.trans h.trans, hn.later.d0.trans h.d0,
    hn.later.nAgents.trans h.nAgents, ⟨b, hb3, hbn, hrest⟩, fun f t hf hw ht => ?_, h.live⟩, hn⟩
  rcases hn.get f t (by rw [h.d0, h.nAgents]; exact hblind f hf hw) with h2 | ⟨-, h2⟩
  · rw [h2]; exact h.nonneg f t hf hw ht
  · rw [h2]

/-- **C143**, in company: between its own rounds the other agents are fitted, step, eat and are put elsewhere in any way. The
forager does not care where the agents are. How small the tolerance has to be, how many passes are needed and how many of its
own rounds it takes until nothing it likes is left do not depend on what the others do. -/
theorem C143_company (hm : Mdp.GridReach kind W H selfT m) (hinit : Env.init m specs = (m', .ok e0))
    (ops : List (EnvOp ℝ Nat)) (e : Env ℝ Nat) (he : e = e0.run ops) (a : Agent ℝ Nat) (ha : a ∈ e.agents)
    (hsel : a.selector = maxSelector) (s : Nat) (hs : s = Spec.stateOf (W * H) a.position)
    (hlive : Spec.Live e.mdp.trans s) (hfor : Spec.Forager e a)
    (hblind : ∀ f, e.mdp.features.d0 - e.mdp.nAgents ≤ f → f < a.reward.d0 → a.reward.get f = 0)
    (hfeat : ∀ f t, f < a.reward.d0 → 0 < a.reward.get f → t < W * H → 0 ≤ e.mdp.features.get f t)
    (γ : ℝ) (h0 : 0 < γ) (h1 : γ < 1) :
    ∃ ε K, 0 < ε ∧ ∀ tol, 0 < tol → tol ≤ ε → ∃ N, ∀ maxIter, N ≤ maxIter → ∀ fitDraws stepDraws : Nat → Nat → Nat,
      ∀ others : Nat → List (EnvOp ℝ Nat), (∀ n, ∀ op ∈ others n, Spec.OfOthers a.name op) →
      (∀ n, ∃ e1 e2 p, ((Spec.forageAmong maxIter γ tol a.name fitDraws stepDraws others e n).run (others n)).fit a.name
          (valueIterationFit ((Spec.forageAmong maxIter γ tol a.name fitDraws stepDraws others e n).run (others n)).mdp
            maxIter γ tol) (fitDraws n) = (e1, .ok ()) ∧
          e1.step a.name (stepDraws n) = (e2, .ok p)) ∧
      ∀ n, K ≤ n → ∀ t k, Spec.Reaches e.mdp.trans s t k → ∀ f, f < a.reward.d0 → 0 < a.reward.get f →
        (Spec.forageAmong maxIter γ tol a.name fitDraws stepDraws others e n).mdp.features.get f t = 0 := by
  obtain ⟨hok, hlater⟩ := Env.started hm hinit ops
  rw [← he] at hok hlater
  obtain ⟨-, hok0, hval, -, -, -, hd0, hna, -, -, -, -, -, -, -, hag⟩ := Env.init_facts hm hinit
  obtain ⟨a0, ha0, -, -, -, hcons, -, -, hrew, -, -⟩ := hlater.back hok0 hok ha
  have hboth : a.reward.d0 = e.mdp.features.d0 ∧ ∀ f ∈ a.consumes, f < (e.mdp.features.d0 : Int) := by
    obtain ⟨i, sp, p, r, hi, -, -, rfl⟩ := hag a0 ha0
    rw [hrew, hcons, hlater.d0, hd0]
    refine ⟨rfl, fun f hf => ?_⟩
    have := (hval sp (List.mem_of_getElem? hi)).2.2 f hf
    omega
  obtain ⟨hrd, hup⟩ := hboth
  have hvalid : ∀ f ∈ a.consumes, ∃ r, pyIdx e.mdp.features.d0 f = some r := by
    intro f hf
    have h2 := hfor.known f hf
    have h3 := hup f hf
    rw [hrd] at h2
    by_cases h4 : 0 ≤ f
    · exact ⟨f.toNat, pyIdx_spec.2 ⟨by omega, .inl (by omega)⟩⟩
    · exact ⟨(f + e.mdp.features.d0).toNat, pyIdx_spec.2 ⟨by omega, .inr (by omega)⟩⟩
  obtain ⟨hM, hdet, hA, -⟩ := C27_grid kind W H selfT e.mdp hok.reach
  have hN : e.mdp.trans.nS = W * H := hok.reach.ok.nStates
  have hback : CanReturn e.mdp.trans := by
    intro s x t hs hx ht hp
    obtain ⟨-, y, hy, hq⟩ := mem_nextStates.1 (grid_back hok.reach hs
      (mem_nextStates.2 ⟨ht, x, hx, by rw [hp]; exact one_ne_zero⟩))
    exact ⟨y, hy, (hdet t y s ht hy hs).resolve_left hq⟩
  have hsee : ∀ f, f < e.mdp.features.d0 → 0 < a.reward.get f → f < e.mdp.features.d0 - e.mdp.nAgents := by
    intro f hf hw
    by_contra hcon
    have := hblind f (not_lt.1 hcon) (by rw [hrd]; exact hf)
    exact absurd hw (by rw [this]; exact lt_irrefl _)
  set D := e.mdp.features.d0 with hDdef
  set nk := e.mdp.nAgents with hnk
  -- the rewards when the pairs (feature, state) in `A` have been eaten
  set R : Finset (Nat × Nat) → Nat → ℝ := fun A t =>
    ∑ f ∈ Finset.range D, if (f, t) ∈ A then 0 else a.reward.get f * e.mdp.features.get f t with hR
  have hterm : ∀ f t, f < D → t < W * H → 0 ≤ a.reward.get f * e.mdp.features.get f t := by
    intro f t hf ht
    rcases (hfor.likes f (by rw [hrd]; exact hf)).lt_or_eq with hw | hw
    · exact mul_nonneg hw.le (hfeat f t (by rw [hrd]; exact hf) hw ht)
    · rw [← hw, zero_mul]
  obtain ⟨ε, K, hε, key⟩ := forage_ends hM hdet hA hback h0 h1
    (Finset.range (D - nk) ×ˢ Finset.range (W * H)) R
    (fun A _ t ht => Finset.sum_nonneg fun f hf => by
      split_ifs
      · exact le_rfl
      · exact hterm f t (Finset.mem_range.1 hf) (by rw [← hN]; exact ht))
    (fun A B hAB _ t ht => Finset.sum_le_sum fun f hf => by
      have := hterm f t (Finset.mem_range.1 hf) (by rw [← hN]; exact ht)
      split_ifs with h2 h3 h3
      · exact le_rfl
      · exact this
      · exact absurd (hAB h3) h2
      · exact le_rfl)
  refine ⟨ε, K + 1, hε, fun tol ht0 ht => ?_⟩
  obtain ⟨N, hN0, key⟩ := key tol ht0 ht
  refine ⟨N, fun maxIter hmax fitDraws stepDraws others hoth => ?_⟩
  set now := Spec.forageAmong maxIter γ tol a.name fitDraws stepDraws others e with hnow
  set mid : Nat → Env ℝ Nat := fun n => (now n).run (others n) with hmid
  have hround := fun n s => forage_round (s := s) (e := mid n) hm hinit hrd hfor.self
    (by rw [← hrd]; exact hfor.likes) (by rw [← hrd]; exact hfor.eats) hvalid (M := e.mdp.trans)
    (maxIter := maxIter) (by omega) (tol := tol) h0 h1
    (fitDraws n) (stepDraws n)
  have hsucc : ∀ n, now (n + 1) = (((mid n).fit a.name (valueIterationFit (mid n).mdp maxIter γ tol) (fitDraws n)).1.step
      a.name (stepDraws n)).1 := fun n => rfl
  have hall : ∀ n, ∃ s, Foraging e0 (W * H) a e.mdp.trans D nk s (now n) := by
    intro n
    induction n with
    | zero =>
      exact ⟨s, ⟨ops, he⟩, rfl, rfl, rfl, ⟨a, ha, rfl, hsel, rfl, rfl, rfl, hs⟩, by rw [← hrd]; exact hfeat, hlive⟩
    | succ n ih =>
      obtain ⟨s, h⟩ := ih
      obtain ⟨t, -, -, h2, -⟩ := hround n s (h.among hm hinit hsee (hoth n)).1
      exact ⟨t, h2⟩
  choose pos hpos using hall
  have hposm := fun n => ((hpos n).among hm hinit hsee (hoth n)).1
  have hnib := fun n => ((hpos n).among hm hinit hsee (hoth n)).2
  have huniq : ∀ n t, Foraging e0 (W * H) a e.mdp.trans D nk t (now n) → t = pos n := by
    intro n t h
    obtain ⟨ops', h2⟩ := h.run
    have hok' : Env.Ok kind W H selfT (now n) := by rw [h2]; exact (Env.started hm hinit ops').1
    obtain ⟨b, hb, hbn, -, -, -, -, e1⟩ := h.agent
    obtain ⟨c, hc, hcn, -, -, -, -, e2⟩ := (hpos n).agent
    have := Env.eq_of_name hok'.nodup hb hc (hbn.trans hcn.symm)
    rw [e1, e2, this]
  have hs0 : pos 0 = s := (huniq 0 s
    ⟨⟨ops, he⟩, rfl, rfl, rfl, ⟨a, ha, rfl, hsel, rfl, rfl, rfl, hs⟩, by rw [← hrd]; exact hfeat, hlive⟩).symm
  refine ⟨fun n => ?_, fun n hn t k hreach f hf hw => ?_⟩
  · obtain ⟨t, h2, h3, -⟩ := hround n _ (hposm n)
    exact ⟨_, _, t, by rw [← h2], by rw [← h3]⟩
  · have hlt : ∀ n, pos n < e.mdp.trans.nS := by
      intro n
      obtain ⟨-, -, -, -, -, -, h4, -⟩ := hround n _ (hposm n)
      exact h4
    have hidx : ∀ f, f < D - nk → f ≠ D - nk + a.idx := fun f hf => by omega
    -- the forager only empties as well
    have hown : ∀ n f u, f < D - nk → (now (n + 1)).mdp.features.get f u = (mid n).mdp.features.get f u ∨
        u < W * H ∧ (now (n + 1)).mdp.features.get f u = 0 := by
      intro n f u hf
      obtain ⟨t, -, -, -, -, h3, -, h4, -⟩ := hround n _ (hposm n)
      rcases h3 f u (hidx f hf) with h5 | ⟨rfl, h5⟩
      · exact .inl h5
      · exact .inr ⟨by rw [← hN]; exact h4, h5⟩
    have hstate : ∀ n, (now n).mdp.nStates = W * H := by
      intro n
      obtain ⟨ops', h2⟩ := (hpos n).run
      rw [h2]
      exact (Env.started hm hinit ops').1.reach.ok.nStates
    have hoth' : ∀ n f u, f < D - nk → (mid n).mdp.features.get f u = (now n).mdp.features.get f u ∨
        u < W * H ∧ (mid n).mdp.features.get f u = 0 := by
      intro n f u hf
      have := (hnib n).get f u (by rw [(hpos n).d0, (hpos n).nAgents]; exact hf)
      rw [hstate n] at this
      exact this
    have hnow0 : ∀ n f u, f < D - nk → (now n).mdp.features.get f u = e.mdp.features.get f u ∨
        u < W * H ∧ (now n).mdp.features.get f u = 0 := by
      intro n
      induction n with
      | zero => intro f u _; exact .inl rfl
      | succ n ih =>
        intro f u hf
        rcases hown n f u hf with h2 | h2
        · rw [h2]
          rcases hoth' n f u hf with h3 | h3
          · rw [h3]; exact ih f u hf
          · exact .inr h3
        · exact .inr h2
    have hmid0 : ∀ n f u, f < D - nk → (mid n).mdp.features.get f u = e.mdp.features.get f u ∨
        u < W * H ∧ (mid n).mdp.features.get f u = 0 := by
      intro n f u hf
      rcases hoth' n f u hf with h3 | h3
      · rw [h3]; exact hnow0 n f u hf
      · exact .inr h3
    -- once empty, always empty
    have hstep0 : ∀ n f u, f < D - nk → (mid n).mdp.features.get f u = 0 → (now (n + 1)).mdp.features.get f u = 0 := by
      intro n f u hf h2
      rcases hown n f u hf with h3 | h3
      · rw [h3, h2]
      · exact h3.2
    have hwait0 : ∀ n f u, f < D - nk → (now n).mdp.features.get f u = 0 → (mid n).mdp.features.get f u = 0 := by
      intro n f u hf h2
      rcases hoth' n f u hf with h3 | h3
      · rw [h3, h2]
      · exact h3.2
    classical
    set A : Nat → Finset (Nat × Nat) := fun n => (Finset.range (D - nk) ×ˢ Finset.range (W * H)).filter fun x =>
      (mid n).mdp.features.get x.1 x.2 ≠ e.mdp.features.get x.1 x.2 with hAdef
    have hmem : ∀ n f u, (f, u) ∈ A n ↔ (f < D - nk ∧ u < W * H) ∧
        (mid n).mdp.features.get f u ≠ e.mdp.features.get f u := by
      intro n f u
      simp only [hAdef, Finset.mem_filter, Finset.mem_product, Finset.mem_range]
    have hfood : ∀ n, food (mid n) a = R (A n) := by
      intro n
      funext u
      simp only [food, hR, hrd]
      refine Finset.sum_congr rfl fun f hf => ?_
      have hf := Finset.mem_range.1 hf
      by_cases hfk : f < D - nk
      · by_cases hin : (f, u) ∈ A n
        · rw [if_pos hin]
          rcases hmid0 n f u hfk with h2 | h2
          · exact absurd h2 ((hmem n f u).1 hin).2
          · rw [h2.2, mul_zero]
        · rw [if_neg hin]
          rcases hmid0 n f u hfk with h2 | h2
          · rw [h2]
          · by_cases h3 : (mid n).mdp.features.get f u = e.mdp.features.get f u
            · rw [h3]
            · exact absurd ((hmem n f u).2 ⟨⟨hfk, h2.1⟩, h3⟩) hin
      · have := hblind f (not_lt.1 hfk) (by rw [hrd]; exact hf)
        rw [this, zero_mul, zero_mul, ite_self]
    have hnn : ∀ n u, u < W * H → ∀ f, f < a.reward.d0 → 0 < a.reward.get f → 0 ≤ (mid n).mdp.features.get f u :=
      fun n u hu f hf hw => (hposm n).nonneg f u (by rw [← hrd]; exact hf) hw hu
    have htW : t < W * H := by
      rw [← hN]
      exact reaches_lt k s (by rw [← hs0]; exact hlt 0) hreach
    obtain ⟨n, rfl⟩ : ∃ i, n = i + 1 := ⟨n - 1, by omega⟩
    have hzero := key maxIter hmax pos A ?_ ?_ hlt ?_ ?_ n (by omega) t k (by rw [hs0]; exact hreach)
    · rw [← hfood] at hzero
      exact hstep0 n f t (hsee f (by rw [← hrd]; exact hf) hw) (food_zero hfor.likes (hnn n t htW) hzero hf hw)
    · intro n
      exact Finset.filter_subset _ _
    · rintro n ⟨f, u⟩ hx
      obtain ⟨h2, h3⟩ := (hmem n f u).1 hx
      refine (hmem (n + 1) f u).2 ⟨h2, ?_⟩
      have h4 : (mid n).mdp.features.get f u = 0 := ((hmid0 n f u h2.1).resolve_left h3).2
      rw [hwait0 (n + 1) f u h2.1 (hstep0 n f u h2.1 h4), ← h4]
      exact h3
    · intro n h2 h3
      have hempty : food (now (n + 1)) a (pos (n + 1)) = 0 := by
        obtain ⟨t, -, -, h4, h5, -⟩ := hround n _ (hposm n)
        have := huniq (n + 1) t h4
        subst this
        have := h5 (pos (n + 1))
        rwa [if_pos rfl] at this
      have hpW : pos (n + 1) < W * H := by rw [← hN]; exact hlt _
      have hz : food (mid (n + 1)) a (pos (n + 1)) = 0 := by
        refine Finset.sum_eq_zero fun f hf => ?_
        have hf := Finset.mem_range.1 hf
        rcases (hfor.likes f hf).lt_or_eq with hw | hw
        · have := food_zero hfor.likes
            (fun f hf hw => (hpos (n + 1)).nonneg f _ (by rw [← hrd]; exact hf) hw hpW) hempty hf hw
          rw [hwait0 (n + 1) f _ (hsee f (by rw [← hrd]; exact hf) hw) this, mul_zero]
        · rw [← hw, zero_mul]
      rw [h3, ← hfood, hz] at h2
      exact lt_irrefl _ h2
    · intro n
      obtain ⟨t, -, -, h2, -, -, -, -, h5⟩ := hround n _ (hposm n)
      have := huniq (n + 1) t h2
      subst this
      rw [hfood n] at h5
      exact h5

/-- Without walls any state can be reached from any other. -/
theorem reaches_all {e : Env ℝ Nat} (hok : Env.Ok kind W H selfT e) (hwalls : ∀ t, t < W * H → e.mdp.walls.get t = 0)
    {s t : Nat} (hs : s < W * H) (ht : t < W * H) : ∃ k, Spec.Reaches e.mdp.trans s t k := by
  have g1 := hok.reach.ok
  obtain ⟨m0, e1, -⟩ := Mdp.initGrid_ok (kind := kind) (selfT := selfT) (f := e.mdp.features) (w := none) g1.pos
    g1.featStates (by simp)
  obtain ⟨k, hk⟩ : ∃ k, Spec.IsDist (Spec.MdpStep m0) s t k := by
    cases kind with
    | square =>
      obtain ⟨k, -, hk⟩ := C08_square_connected W H selfT _ m0 e1 s t hs ht
      exact ⟨k, hk⟩
    | hex =>
      obtain ⟨k, -, hk⟩ := C08_hex_connected W H selfT _ m0 e1 s t hs ht
      exact ⟨k, hk⟩
  exact ⟨k, (distance_free hok.reach hwalls g1.featStates e1 hs hk).1⟩

/-- Without walls every state has a move. -/
theorem live_free {e : Env ℝ Nat} (hok : Env.Ok kind W H selfT e) (hwalls : ∀ t, t < W * H → e.mdp.walls.get t = 0)
    (hbig : 1 < W * H) {j : Nat} (hjW : j < W * H) : Spec.Live e.mdp.trans j := by
  obtain ⟨u, hu, hne⟩ : ∃ u, u < W * H ∧ u ≠ j := by
    by_cases h : j = 0
    · exact ⟨1, hbig, by omega⟩
    · exact ⟨0, by omega, by omega⟩
  obtain ⟨k, hk⟩ := reaches_all hok hwalls hjW hu
  cases k with
  | zero => exact absurd (reaches_zero.1 hk).symm hne
  | succ k =>
    obtain ⟨b, t, hb, ht, hp, -⟩ := reaches_succ.1 hk
    exact ⟨b, hb, possible_of_one ht hp⟩

/-- **C143**, without walls: in the end nothing the agent likes is left anywhere. -/
theorem C143_no_walls (hm : Mdp.GridReach kind W H selfT m) (hinit : Env.init m specs = (m', .ok e0))
    (ops : List (EnvOp ℝ Nat)) (e : Env ℝ Nat) (he : e = e0.run ops) (hwalls : ∀ t, t < W * H → e.mdp.walls.get t = 0)
    (hbig : 1 < W * H) (a : Agent ℝ Nat) (ha : a ∈ e.agents) (hsel : a.selector = maxSelector) (hfor : Spec.Forager e a)
    (hfeat : ∀ f t, f < a.reward.d0 → 0 < a.reward.get f → t < W * H → 0 ≤ e.mdp.features.get f t) (γ : ℝ) (h0 : 0 < γ) (h1 : γ < 1) :
    ∃ ε K, 0 < ε ∧ ∀ tol, 0 < tol → tol ≤ ε → ∃ N, ∀ maxIter, N ≤ maxIter → ∀ fitDraws stepDraws : Nat → Nat → Nat,
      ∀ n, K ≤ n → ∀ t, t < W * H → ∀ f, f < a.reward.d0 → 0 < a.reward.get f →
        (Spec.forage maxIter γ tol a.name fitDraws stepDraws e n).mdp.features.get f t = 0 := by
  have hok : Env.Ok kind W H selfT e := by rw [he]; exact (Env.started hm hinit ops).1
  obtain ⟨j, hj, -⟩ := hok.pos a ha
  have hsj := Env.stateOf_eq hj
  rw [hok.reach.ok.nStates] at hsj
  have hjW : j < W * H := by rw [← hok.reach.ok.nStates]; exact pyIdx_lt hj
  have hlive := live_free hok hwalls hbig hjW
  obtain ⟨ε, K, hε, h⟩ := C143_forage hm hinit ops e he a ha hsel j hsj hlive hfor hfeat γ h0 h1
  refine ⟨ε, K, hε, fun tol ht0 ht => ?_⟩
  obtain ⟨N, h⟩ := h tol ht0 ht
  refine ⟨N, fun maxIter hmax d1 d2 n hn t ht => ?_⟩
  obtain ⟨k, hk⟩ := reaches_all hok hwalls hjW ht
  exact (h maxIter hmax d1 d2).2 n hn t k hk

/-- Rounds follow one another. -/
theorem forage_add {maxIter : Nat} {γ tol : ℝ} {x : String} {d1 d2 : Nat → Nat → Nat} {e : Env ℝ Nat} (j : Nat) :
    ∀ i, Spec.forage maxIter γ tol x d1 d2 e (j + i) =
      Spec.forage maxIter γ tol x (fun i => d1 (j + i)) (fun i => d2 (j + i)) (Spec.forage maxIter γ tol x d1 d2 e j) i := by
  intro i
  induction i with
  | zero => rfl
  | succ i ih =>
    rw [← Nat.add_assoc]
    unfold Spec.forage
    rw [ih]

theorem forage_congr {maxIter : Nat} {γ tol : ℝ} {x : String} {d1 d2 d1' d2' : Nat → Nat → Nat} {e : Env ℝ Nat} {k : Nat}
    (h1 : ∀ i, i < k → d1 i = d1' i) (h2 : ∀ i, i < k → d2 i = d2' i) :
    ∀ i, i ≤ k → Spec.forage maxIter γ tol x d1 d2 e i = Spec.forage maxIter γ tol x d1' d2' e i := by
  intro i
  induction i with
  | zero => intro _; rfl
  | succ i ih =>
    intro hi
    unfold Spec.forage
    rw [ih (by omega), h1 i (by omega), h2 i (by omega)]

/-- **C143**, with `step_multi`: calls of `step_multi` with `refit=True` and `k` steps each, `k` no more than the number of
moves of the agent. Each call returns `k` positions, and in the end nothing the agent likes is left. `orc n i` is what the
algorithm and the generators contribute to step `i` of call `n`: the algorithm is value iteration on the MDP as it is then. -/
theorem C143_multi (hm : Mdp.GridReach kind W H selfT m) (hinit : Env.init m specs = (m', .ok e0))
    (hnd : (specs.map (·.name)).Nodup)
    (ops : List (EnvOp ℝ Nat)) (e : Env ℝ Nat) (he : e = e0.run ops) (a : Agent ℝ Nat) (ha : a ∈ e.agents)
    (hsel : a.selector = maxSelector) (s : Nat) (hs : s = Spec.stateOf (W * H) a.position)
    (hlive : Spec.Live e.mdp.trans s) (hfor : Spec.Forager e a)
    (hfeat : ∀ f t, f < a.reward.d0 → 0 < a.reward.get f → t < W * H → 0 ≤ e.mdp.features.get f t) (γ : ℝ) (h0 : 0 < γ) (h1 : γ < 1)
    (k : Nat) (hk : 0 < k) (hle : k ≤ a.nMoves) (hmoves : ∀ b ∈ e.agents, 0 < b.nMoves) :
    ∃ ε K, 0 < ε ∧ ∀ tol, 0 < tol → tol ≤ ε → ∃ N, ∀ maxIter, N ≤ maxIter →
      ∀ (orc : Nat → Nat → Env.StepOracle ℝ Nat) (E : Nat → Env ℝ Nat), E 0 = e →
        (∀ n, E (n + 1) = ((E n).stepMulti a.name (.int k) none 1 true false (orc n)).1) →
        (∀ n i plan, i < k → (orc n i).out plan = valueIterationFit (Spec.forage maxIter γ tol a.name
          (fun i => (orc n i).fitDraws) (fun i => (orc n i).draws) (E n) i).mdp maxIter γ tol) →
        (∀ n, ∃ ps, ((E n).stepMulti a.name (.int k) none 1 true false (orc n)).2 = .ok (some ps) ∧ ps.length = k) ∧
        ∀ n, K ≤ n → ∀ t j, Spec.Reaches e.mdp.trans s t j → ∀ f, f < a.reward.d0 → 0 < a.reward.get f →
          (E n).mdp.features.get f t = 0 := by
  obtain ⟨ε, K, hε, h⟩ := C143_forage hm hinit ops e he a ha hsel s hs hlive hfor hfeat γ h0 h1
  refine ⟨ε, K, hε, fun tol ht0 ht => ?_⟩
  obtain ⟨N, h⟩ := h tol ht0 ht
  refine ⟨N, fun maxIter hmax orc E hE0 hE horc => ?_⟩
  obtain ⟨hgo, hend⟩ := h maxIter hmax (fun j => (orc (j / k) (j % k)).fitDraws) (fun j => (orc (j / k) (j % k)).draws)
  set now := Spec.forage maxIter γ tol a.name (fun j => (orc (j / k) (j % k)).fitDraws)
    (fun j => (orc (j / k) (j % k)).draws) e with hnow
  -- the calls go through the rounds
  have hcall : ∀ n, E n = now (n * k) → (∃ ops', E n = e0.run ops') ∧ E (n + 1) = now ((n + 1) * k) ∧
      ∃ ps, ((E n).stepMulti a.name (.int k) none 1 true false (orc n)).2 = .ok (some ps) ∧ ps.length = k := by
    intro n hn
    have hops : ∀ j, ∃ ops', now j = e0.run ops' := by
      intro j
      induction j with
      | zero => exact ⟨ops, he⟩
      | succ j ih =>
        obtain ⟨ops', h2⟩ := ih
        refine ⟨ops' ++ [.fit a.name (valueIterationFit (now j).mdp maxIter γ tol) (orc (j / k) (j % k)).fitDraws,
          .step a.name (orc (j / k) (j % k)).draws], ?_⟩
        rw [Env.run_append, ← h2]
        rfl
    obtain ⟨ops', h2⟩ := hops (n * k)
    rw [← hn] at h2
    refine ⟨⟨ops', h2⟩, ?_⟩
    obtain ⟨hokn, hlatern⟩ := Env.started hm hinit ops'
    rw [← h2] at hokn hlatern
    obtain ⟨hok, hlater⟩ := Env.started hm hinit ops
    rw [← he] at hok hlater
    have hok0 := (Env.init_facts hm hinit).2.1
    obtain ⟨a0, ha0, g1, -, -, -, -, g2, -⟩ := hlater.back hok0 hok ha
    obtain ⟨b, hb, g3, -, -, -, -, g4, -⟩ := hlatern.agents a0 ha0
    have hbn : b.name = a.name := g3.trans g1.symm
    have hbm : b.nMoves = a.nMoves := g4.trans g2.symm
    have hpos : ∀ c ∈ (E n).agents, 0 < c.nMoves := by
      intro c hc
      obtain ⟨c0, hc0, -, -, -, -, -, g5, -⟩ := hlatern.back hok0 hokn hc
      obtain ⟨c1, hc1, -, -, -, -, -, g6, -⟩ := hlater.agents c0 hc0
      rw [g5, ← g6]
      exact hmoves c1 hc1
    obtain ⟨moves, -, hr⟩ := C51_partial hm hinit hnd ops' (E n) h2 b hb (.int k) k (.inr (.inl rfl)) (by rw [hbm]; exact hle)
      hpos none (by simp) 1 one_pos false (orc n)
    rw [hbn] at hr
    set pre : Nat → Env ℝ Nat → Env ℝ Nat × Py Unit := fun i e' =>
      e'.fit a.name ((orc n i).out (Spec.planAt i 1 moves ((none : Option (List Nat)).getD moves))) (orc n i).fitDraws with hpre
    have hdiv : ∀ i, i < k → (n * k + i) / k = n ∧ (n * k + i) % k = i := by
      intro i hi
      constructor
      · rw [Nat.mul_comm, Nat.mul_add_div hk, Nat.div_eq_of_lt hi, Nat.add_zero]
      · rw [Nat.mul_comm, Nat.mul_add_mod, Nat.mod_eq_of_lt hi]
    have hmid : ∀ i, i ≤ k → Spec.forage maxIter γ tol a.name (fun i => (orc n i).fitDraws) (fun i => (orc n i).draws) (E n) i =
        now (n * k + i) := by
      intro i hi
      rw [hnow, forage_add, ← hnow, ← hn]
      exact forage_congr (fun i hi => by rw [(hdiv i hi).1, (hdiv i hi).2]) (fun i hi => by rw [(hdiv i hi).1, (hdiv i hi).2])
        i hi
    have hturn : ∀ i, i < k → ∃ p, Spec.turn a.name pre (fun i => (orc n i).draws) i (now (n * k + i)) =
        (now (n * k + i + 1), .ok p) := by
      intro i hi
      obtain ⟨e1, e2, p, k1, k2⟩ := hgo (n * k + i)
      have k3 : now (n * k + i + 1) = e2 := by
        show ((((now (n * k + i)).fit a.name (valueIterationFit (now (n * k + i)).mdp maxIter γ tol)
          (orc ((n * k + i) / k) ((n * k + i) % k)).fitDraws)).1.step a.name (orc ((n * k + i) / k) ((n * k + i) % k)).draws).1 = e2
        rw [k1]
        show (e1.step a.name _).1 = e2
        rw [k2]
      rw [(hdiv i hi).1, (hdiv i hi).2] at k1 k2
      refine ⟨p, ?_⟩
      unfold Spec.turn
      simp only [hpre]
      rw [horc n i _ hi, hmid i hi.le, k1]
      dsimp only
      rw [k2, k3]
    have hbefore : ∀ i, i ≤ k → Spec.before a.name pre (fun i => (orc n i).draws) (E n) i = now (n * k + i) := by
      intro i
      induction i with
      | zero => intro _; exact hn
      | succ i ih =>
        intro hi
        unfold Spec.before
        rw [ih (by omega)]
        obtain ⟨p, hp⟩ := hturn i (by omega)
        rw [hp]
        rfl
    rcases hr with ⟨ps, hps, -, hr⟩ | ⟨j, err, hj, -, herr, -⟩ | ⟨j, p, -, -, -, hst, -⟩
    · refine ⟨?_, ps, by rw [hr], hps⟩
      rw [hE, hr, Nat.succ_mul]
      exact hbefore k le_rfl
    · exfalso
      rw [hbefore j hj.le] at herr
      obtain ⟨p, hp⟩ := hturn j hj
      rw [hp] at herr
      cases herr
    · cases hst
  have hall : ∀ n, E n = now (n * k) := by
    intro n
    induction n with
    | zero => rw [Nat.zero_mul]; exact hE0
    | succ n ih => exact (hcall n ih).2.1
  refine ⟨fun n => (hcall n (hall n)).2.2, fun n hn t j hreach f hf hw => ?_⟩
  rw [hall n]
  exact hend (n * k) (le_trans hn (Nat.le_mul_of_pos_right n hk)) t j hreach f hf hw

/-- Such calls exist, from any environment and with any draws. -/
example (e : Env ℝ Nat) (x : String) (k maxIter : Nat) (γ tol : ℝ) (d1 d2 : Nat → Nat → Nat) :
    ∃ (orc : Nat → Nat → Env.StepOracle ℝ Nat) (E : Nat → Env ℝ Nat), E 0 = e ∧
      (∀ n, E (n + 1) = ((E n).stepMulti x (.int k) none 1 true false (orc n)).1) ∧
      (∀ n i, (orc n i).fitDraws = d1 i ∧ (orc n i).draws = d2 i) ∧
      (∀ n i plan, (orc n i).out plan = valueIterationFit (Spec.forage maxIter γ tol x
        (fun i => (orc n i).fitDraws) (fun i => (orc n i).draws) (E n) i).mdp maxIter γ tol) := by
  let O : Env ℝ Nat → Nat → Env.StepOracle ℝ Nat := fun e' i =>
    ⟨fun _ => valueIterationFit (Spec.forage maxIter γ tol x d1 d2 e' i).mdp maxIter γ tol, d1 i, d2 i⟩
  let E : Nat → Env ℝ Nat := Nat.rec e fun _ e' => (e'.stepMulti x (.int k) none 1 true false (O e')).1
  exact ⟨fun n => O (E n), E, rfl, fun n => rfl, fun n i => ⟨rfl, rfl⟩, fun n i plan => rfl⟩

/-- One agent, who likes and eats feature 0. -/
noncomputable def exGrazer : List (AgentSpec ℝ Nat) :=
  [⟨"ant", 1, maxSelector, .fresh, some 0, .of1 ⟨2, fun i => if i = 0 then 1 else 0⟩, [0]⟩]

/-- The hypotheses are met: a 3 by 4 grid with something in every cell, which is all gone in the end. -/
example : ∃ (m m' : Mdp ℝ) (e : Env ℝ Nat), Mdp.GridReach .square 3 4 false m ∧ Env.init m exGrazer = (m', .ok e) ∧
    (∀ t, e.mdp.features.get 0 t = t) ∧
    ∃ maxIter tol n, ∀ t, t < 12 →
      (Spec.forage maxIter (1 / 2) tol "ant" (fun _ _ => 0) (fun _ _ => 0) e n).mdp.features.get 0 t = 0 := by
  obtain ⟨m, hi, -, hF, -, hN, -, -, hW⟩ := Mdp.initGrid_ok (K := ℝ) (kind := .square) (W := 3) (H := 4)
    (selfT := false) (f := ⟨1, 12, fun _ s => s⟩) (w := none) (by decide) rfl (by simp)
  have hm : Mdp.GridReach .square 3 4 false m := .init hi
  have hd : m.features.d0 - m.nAgents = 1 := by rw [hF, hN]; rfl
  obtain ⟨e, he⟩ := (C38_validated hm exGrazer).2 (by
    intro sp hsp
    rw [exGrazer, List.mem_singleton] at hsp
    subst hsp
    rw [hd]
    exact ⟨⟨_, rfl⟩, ⟨0, rfl, by decide, by decide⟩, by simp [exGrazer]⟩)
  have hinit : Env.init m exGrazer = ((Env.init m exGrazer).1, .ok e) := Prod.ext rfl he
  have hnames : (exGrazer.map (·.name)).Nodup := by simp [exGrazer]
  obtain ⟨-, -, -, -, -, -, hd0, hna, -, -, -, hwl, hfe, hrows, hag, -⟩ := Env.init_facts hm hinit
  obtain ⟨hl, hag⟩ := hag hnames
  have hl1 : e.agents.length = 1 := hl
  have hlt : 0 < e.agents.length := by omega
  obtain ⟨sp, p, r, h1, h2, h3, h4⟩ := hag 0 e.agents[0] (List.getElem?_eq_getElem hlt)
  cases h1
  have hmem : e.agents[0] ∈ e.agents := List.getElem_mem hlt
  have hr : r = fun i => if i.getD 0 0 = 0 then 1 else 0 := by
    simp only [PyArr.of1] at h3
    injection h3 with _ h5
    exact h5.symm
  subst hr
  have hrow0 : ∀ t, e.mdp.features.get 0 t = t := fun t => by rw [hfe 0 t (by rw [hd]; decide), hF]
  have key := C143_no_walls hm hinit [] e rfl (by intro t _; rw [hwl, hW]) (by decide) e.agents[0] hmem
    (by rw [h4]; rfl) ⟨?_, ?_, ?_, ?_⟩ ?_ (1 / 2) (by norm_num) (by norm_num)
  · obtain ⟨ε, K, hε, h⟩ := key
    obtain ⟨N, h⟩ := h ε hε le_rfl
    refine ⟨m, _, e, hm, hinit, hrow0, N, ε, K, fun t ht => ?_⟩
    have := h N le_rfl (fun _ _ => 0) (fun _ _ => 0) K le_rfl t ht 0
    rw [h4, hd] at this
    exact this (show 0 < 2 by decide) (by simp [Env.newAgent])
  · intro f _
    rw [h4]
    simp only [Env.newAgent]
    split_ifs <;> norm_num
  · rw [h4, hd0, hna, hd]
    simp [Env.newAgent, exGrazer]
  · intro f _ hf
    rw [h4] at hf ⊢
    simp only [Env.newAgent] at hf ⊢
    split_ifs at hf with h5
    · have : f = 0 := by simpa using h5
      subst this
      simp
    · exact absurd hf (lt_irrefl _)
  · intro f hf
    rw [h4] at hf
    have : f = 0 := by simpa [Env.newAgent] using hf
    subst this
    omega
  · intro f t hf _ _
    rw [h4, hd] at hf
    have hf2 : f < 2 := hf
    rcases Nat.lt_or_ge f 1 with h5 | h5
    · have : f = 0 := by omega
      subst this
      rw [hrow0]
      exact Nat.cast_nonneg _
    · have : f = 1 := by omega
      subst this
      obtain ⟨p, -, h6⟩ := hrows 0 _ rfl
      rw [hd] at h6
      have := h6 t
      rw [Nat.add_zero] at this
      rw [this]
      split_ifs <;> norm_num

/-- Two agents: one that likes and eats feature 0, and one that has no aims but eats it as well. -/
noncomputable def exRivals : List (AgentSpec ℝ Nat) :=
  [⟨"ant", 1, maxSelector, .fresh, some 0, .of1 ⟨3, fun i => if i = 0 then 1 else 0⟩, [0]⟩,
   ⟨"bee", 1, maxSelector, .fresh, some 5, .of1 ⟨3, fun _ => 0⟩, [0]⟩]

/-- The hypotheses are met: a 3 by 4 grid with something in every cell. Before each step of the ant, the bee is put somewhere,
fitted and steps. -/
example (bee : Nat → Nat) (out : Nat → FitOut ℝ) :
    ∃ (m m' : Mdp ℝ) (e : Env ℝ Nat), Mdp.GridReach .square 3 4 false m ∧ Env.init m exRivals = (m', .ok e) ∧
    (∀ t, e.mdp.features.get 0 t = t) ∧
    ∃ maxIter tol n, ∀ t, t < 12 →
      (Spec.forageAmong maxIter (1 / 2) tol "ant" (fun _ _ => 0) (fun _ _ => 0)
        (fun n => [.setAgentPosition "bee" (bee n), .fit "bee" (out n) fun _ => 0, .step "bee" fun _ => 0])
        e n).mdp.features.get 0 t = 0 := by
  obtain ⟨m, hi, -, hF, -, hN, -, -, hW⟩ := Mdp.initGrid_ok (K := ℝ) (kind := .square) (W := 3) (H := 4)
    (selfT := false) (f := ⟨1, 12, fun _ s => s⟩) (w := none) (by decide) rfl (by simp)
  have hm : Mdp.GridReach .square 3 4 false m := .init hi
  have hd : m.features.d0 - m.nAgents = 1 := by rw [hF, hN]; rfl
  obtain ⟨e, he⟩ := (C38_validated hm exRivals).2 (by
    intro sp hsp
    rw [hd]
    simp only [exRivals, List.mem_cons, List.not_mem_nil, or_false] at hsp
    rcases hsp with rfl | rfl
    · exact ⟨⟨_, rfl⟩, ⟨0, rfl, by decide, by decide⟩, by simp [exRivals]⟩
    · exact ⟨⟨_, rfl⟩, ⟨5, rfl, by decide, by decide⟩, by simp [exRivals]⟩)
  have hinit : Env.init m exRivals = ((Env.init m exRivals).1, .ok e) := Prod.ext rfl he
  have hnames : (exRivals.map (·.name)).Nodup := by simp [exRivals]
  obtain ⟨-, hok, -, -, -, -, hd0, hna, -, -, -, hwl, hfe, hrows, hag, -⟩ := Env.init_facts hm hinit
  obtain ⟨hl, hag⟩ := hag hnames
  have hl1 : e.agents.length = 2 := hl
  have hlt : 0 < e.agents.length := by omega
  obtain ⟨sp, p, r, h1, h2, h3, h4⟩ := hag 0 e.agents[0] (List.getElem?_eq_getElem hlt)
  cases h1
  have hmem : e.agents[0] ∈ e.agents := List.getElem_mem hlt
  have hr : r = fun i => if i.getD 0 0 = 0 then 1 else 0 := by
    simp only [PyArr.of1] at h3
    injection h3 with _ h5
    exact h5.symm
  subst hr
  have hrow0 : ∀ t, e.mdp.features.get 0 t = t := fun t => by rw [hfe 0 t (by rw [hd]; decide), hF]
  have hwalls : ∀ t, t < 3 * 4 → e.mdp.walls.get t = 0 := by intro t _; rw [hwl, hW]
  obtain ⟨j, hj, -⟩ := hok.pos _ hmem
  have hsj := Env.stateOf_eq hj
  rw [hok.reach.ok.nStates] at hsj
  have hjW : j < 3 * 4 := by rw [← hok.reach.ok.nStates]; exact pyIdx_lt hj
  have hlike : ∀ f, (0 : ℝ) < e.agents[0].reward.get f → f = 0 := by
    intro f hf
    rw [h4] at hf
    simp only [Env.newAgent] at hf
    split_ifs at hf with h5
    · simpa using h5
    · exact absurd hf (lt_irrefl _)
  have hpos : ∀ f, (0 : ℝ) ≤ e.agents[0].reward.get f := by
    intro f
    rw [h4]
    simp only [Env.newAgent]
    split_ifs <;> norm_num
  have hzero : ∀ f, f ≠ 0 → e.agents[0].reward.get f = (0 : ℝ) := by
    intro f hf
    by_contra hne
    exact hf (hlike f (lt_of_le_of_ne (hpos f) (Ne.symm hne)))
  have hname : e.agents[0].name = "ant" := by rw [h4]; rfl
  have hdk : e.mdp.features.d0 - e.mdp.nAgents = 1 := by rw [hd0, hna, hd]; rfl
  have key := C143_company hm hinit [] e rfl e.agents[0] hmem (by rw [h4]; rfl) j hsj
    (live_free hok hwalls (by decide) hjW) ⟨fun f _ => hpos f, ?_, ?_, ?_⟩ ?_ ?_ (1 / 2) (by norm_num) (by norm_num)
  · obtain ⟨ε, K, hε, h⟩ := key
    obtain ⟨N, h⟩ := h ε hε le_rfl
    refine ⟨m, _, e, hm, hinit, hrow0, N, ε, K, fun t ht => ?_⟩
    obtain ⟨k, hk⟩ := reaches_all hok hwalls hjW ht
    have := (h N le_rfl (fun _ _ => 0) (fun _ _ => 0) (fun n => [.setAgentPosition "bee" (bee n),
      .fit "bee" (out n) fun _ => 0, .step "bee" fun _ => 0]) (by
        intro n op hop
        rw [hname]
        simp only [List.mem_cons, List.not_mem_nil, or_false] at hop
        rcases hop with rfl | rfl | rfl <;> simp [Spec.OfOthers])).2 K le_rfl t k hk 0
    rw [hname] at this
    refine this ?_ ?_
    · rw [h4, hd]
      exact (show 0 < 3 by decide)
    · rw [h4]
      simp [Env.newAgent]
  · rw [hdk]
    exact hzero _ (by omega)
  · intro f _ hf
    have := hlike f hf
    subst this
    rw [h4]
    simp [Env.newAgent]
  · intro f hf
    rw [h4] at hf
    have : f = 0 := by simpa [Env.newAgent] using hf
    subst this
    omega
  · intro f hf _
    rw [hdk] at hf
    exact hzero f (by omega)
  · intro f t _ hf _
    have := hlike f hf
    subst this
    rw [hrow0]
    exact Nat.cast_nonneg _

end MaMDP
