import Verif.Props.Optimality

/-! # C111: plans made with rewards that are slightly wrong -/

set_option linter.unusedSectionVars false

namespace MaMDP

/-- Rewards that are at most `ε` higher give values that are at most `ε / (1 - γ)` higher. -/
theorem bellman_compare {K : Type} [Field K] [LinearOrder K] [IsStrictOrderedRing K] {M : Trans K}
    (hM : Spec.SubStochastic M) {r r' V V' : Nat → K} {γ ε : K} (h0 : 0 < γ) (h1 : γ < 1) (hε : 0 ≤ ε)
    (hr : ∀ t, t < M.nS → r t ≤ r' t + ε) (hV : Spec.Bellman M r γ V) (hV' : Spec.Bellman M r' γ V') :
    ∀ s, s < M.nS → V s ≤ V' s + ε / (1 - γ) := by
  intro s hs
  obtain ⟨k, hk, ek⟩ := exists_npMax (fun t => V t - V' t) (Nat.lt_of_le_of_lt (Nat.zero_le s) hs)
  have hmax : ∀ t, t < M.nS → V t - V' t ≤ V k - V' k := fun t ht => by
    have := le_npMax (fun t => V t - V' t) ht
    rw [ek] at this
    exact this
  have h1g : 0 < 1 - γ := by linarith
  have hs' := hmax s hs
  have hdiv : 0 ≤ ε / (1 - γ) := div_nonneg hε h1g.le
  rcases le_or_gt (V k - V' k) 0 with hD | hD
  · linarith
  obtain ⟨-, a, ha, ea⟩ := hV k hk
  have hle := (hV' k hk).1 a ha
  have : Spec.Q M r γ V k a ≤ Spec.Q M r' γ V' k a + (ε + γ * (V k - V' k)) := by
    unfold Spec.Q
    calc ∑ t ∈ Finset.range M.nS, M.p k a t * (r t + γ * V t)
        ≤ ∑ t ∈ Finset.range M.nS, (M.p k a t * (r' t + γ * V' t) + M.p k a t * (ε + γ * (V k - V' k))) := by
          refine Finset.sum_le_sum fun t ht => ?_
          have ht' := Finset.mem_range.1 ht
          rw [← mul_add]
          refine mul_le_mul_of_nonneg_left ?_ (hM.nonneg k a t hk ha ht')
          have := mul_le_mul_of_nonneg_left (hmax t ht') h0.le
          have := hr t ht'
          linarith
      _ = ∑ t ∈ Finset.range M.nS, M.p k a t * (r' t + γ * V' t) +
          (∑ t ∈ Finset.range M.nS, M.p k a t) * (ε + γ * (V k - V' k)) := by
          rw [Finset.sum_add_distrib, Finset.sum_mul]
      _ ≤ _ := by
          have := mul_le_mul_of_nonneg_right (hM.le_one k a hk ha)
            (add_nonneg hε (mul_nonneg h0.le hD.le))
          linarith
  have hfin : (V k - V' k) * (1 - γ) ≤ ε := by nlinarith
  have := (le_div_iff₀ h1g).2 hfin
  linarith

/-- **C111**: raising the rewards by at most `ε` (and lowering some as you like) raises no planned value by more
than `ε / (1 - γ)`, up to the tolerance; with `ε = 0`, lower rewards never give higher values. -/
theorem C111_values (M : Trans ℝ) (hM : Spec.SubStochastic M) (hA : 0 < M.nA) (r r' : Nat → ℝ) (ε : ℝ) (hε : 0 ≤ ε)
    (hr : ∀ t, t < M.nS → r t ≤ r' t + ε) (γ tol : ℝ) (h0 : 0 < γ) (h1 : γ < 1) (htol : 0 < tol) (k k' : Nat)
    (hstop : ∃ i, i < k ∧ ∀ s, s < M.nS → |Spec.sweeps M r γ (i + 1) s - Spec.sweeps M r γ i s| < tol)
    (hstop' : ∃ i, i < k' ∧ ∀ s, s < M.nS → |Spec.sweeps M r' γ (i + 1) s - Spec.sweeps M r' γ i s| < tol) :
    ∃ v q v' q', solveHard M r k γ tol = .ok (v, q) ∧ solveHard M r' k' γ tol = .ok (v', q') ∧
      ∀ s, s < M.nS → v s < v' s + ε / (1 - γ) + 2 * tol * γ / (1 - γ) := by
  obtain ⟨V, hV, -⟩ := C27_converges M hM hA r γ h0 h1
  obtain ⟨V', hV', -⟩ := C27_converges M hM hA r' γ h0 h1
  obtain ⟨v, q, e, hv, -⟩ := C28_accuracy M hM hA r γ tol h0 h1 htol V hV k hstop
  obtain ⟨v', q', e', hv', -⟩ := C28_accuracy M hM hA r' γ tol h0 h1 htol V' hV' k' hstop'
  refine ⟨v, q, v', q', e, e', fun s hs => ?_⟩
  have h2 := (abs_lt.1 (hv s hs)).2
  have h3 := (abs_lt.1 (hv' s hs)).1
  have h4 := bellman_compare hM h0 h1 hε hr hV hV' s hs
  have h5 : 2 * tol * γ / (1 - γ) = tol * γ / (1 - γ) + tol * γ / (1 - γ) := by ring
  linarith

/-- Rewards that differ by at most `ε` give returns that differ by at most `ε / (1 - γ)`. -/
theorem visitReward_close {nS : Nat} {r r' : Nat → ℝ} {γ ε : ℝ} (h0 : 0 < γ) (h1 : γ < 1) (hε : 0 ≤ ε)
    (hr : ∀ t, t < nS → |r t - r' t| ≤ ε) : ∀ ps : List Nat, (∀ t ∈ ps, t < nS) →
      |Spec.visitReward r γ ps - Spec.visitReward r' γ ps| ≤ ε / (1 - γ) := by
  have h1g : 0 < 1 - γ := by linarith
  intro ps
  induction ps with
  | nil => intro _; simpa [Spec.visitReward] using div_nonneg hε h1g.le
  | cons t ps ih =>
    intro h
    have h2 := ih fun u hu => h u (List.mem_cons_of_mem _ hu)
    have h3 := hr t (h t List.mem_cons_self)
    have h4 : ε + γ * (ε / (1 - γ)) = ε / (1 - γ) := by field_simp; ring
    simp only [Spec.visitReward]
    calc |r t + γ * Spec.visitReward r γ ps - (r' t + γ * Spec.visitReward r' γ ps)|
        = |(r t - r' t) + γ * (Spec.visitReward r γ ps - Spec.visitReward r' γ ps)| := by congr 1; ring
      _ ≤ |r t - r' t| + |γ * (Spec.visitReward r γ ps - Spec.visitReward r' γ ps)| := abs_add_le _ _
      _ = |r t - r' t| + γ * |Spec.visitReward r γ ps - Spec.visitReward r' γ ps| := by rw [abs_mul, abs_of_pos h0]
      _ ≤ ε + γ * (ε / (1 - γ)) := add_le_add h3 (mul_le_mul_of_nonneg_left h2 h0.le)
      _ = ε / (1 - γ) := h4

theorem plays_lt {M : Trans ℝ} : ∀ (l : List (Nat × Nat)) (s : Nat), Spec.Plays M s l → ∀ t ∈ l.map (·.2), t < M.nS := by
  intro l
  induction l with
  | nil => intro s _ t ht; cases ht
  | cons x l ih =>
    obtain ⟨a, u⟩ := x
    rintro s ⟨-, hu, -, hl⟩ t ht
    rw [List.map_cons, List.mem_cons] at ht
    rcases ht with rfl | ht
    · exact hu
    · exact ih u hl t ht

/-- Planning with rewards `r'` when the real ones are `r`: a greedy walk loses at most `2 ε / (1 - γ)` more than it
would with the right rewards (C103). -/
theorem C111_plan (M : Trans ℝ) (hM : Spec.SubStochastic M) (hdet : Spec.Deterministic M) (hA : 0 < M.nA)
    (r r' : Nat → ℝ) (R ε : ℝ) (hr' : ∀ t, t < M.nS → 0 ≤ r' t ∧ r' t ≤ R)
    (hr : ∀ t, t < M.nS → |r t - r' t| ≤ ε) (γ tol : ℝ) (h0 : 0 < γ) (h1 : γ < 1) (htol : 0 < tol) (maxIter : Nat)
    (hstop : ∃ i, i < maxIter ∧ ∀ s, s < M.nS → |Spec.sweeps M r' γ (i + 1) s - Spec.sweeps M r' γ i s| < tol)
    (v : Nat → ℝ) (q : Nat → Nat → Ext ℝ) (hsol : solveHard M r' maxIter γ tol = .ok (v, q))
    (s : Nat) (hs : s < M.nS) (l : List (Nat × Nat)) (hl : Spec.Plays M s l) (hg : Spec.Greedy M.nA q s l)
    (other : List (Nat × Nat)) (ho : Spec.Plays M s other) :
    Spec.discounted r γ other ≤ Spec.discounted r γ l + 2 * ε / (1 - γ) +
      γ ^ l.length * (R / (1 - γ)) + 2 * tol * γ / (1 - γ) ^ 2 := by
  have h2 := C103_plan M hM hdet hA r' R hr' γ tol h0 h1 htol maxIter hstop v q hsol s hs l hl hg other ho
  have hε : 0 ≤ ε := (abs_nonneg _).trans (hr s hs)
  have h3 := visitReward_close h0 h1 hε hr _ (plays_lt l s hl)
  have h4 := visitReward_close h0 h1 hε hr _ (plays_lt other s ho)
  rw [← discounted_visits, ← discounted_visits] at h3 h4
  have h5 := (abs_le.1 h3).1
  have h6 := (abs_le.1 h4).2
  have h7 : 2 * ε / (1 - γ) = ε / (1 - γ) + ε / (1 - γ) := by ring
  linarith

/-- Rewards of the chain that are wrong by a tenth: planned as in the example of C103. -/
example : (∀ t, t < (chain2 ℝ).nS → |(if t = 0 then (9 / 10 : ℝ) else 1 / 10) - (if t = 0 then 1 else 0)| ≤ 1 / 10) ∧
    ∃ k, ∃ i, i < k ∧ ∀ s, s < (chain2 ℝ).nS →
      |Spec.sweeps (chain2 ℝ) (fun t => if t = 0 then 1 else 0) (1 / 2) (i + 1) s -
        Spec.sweeps (chain2 ℝ) (fun t => if t = 0 then 1 else 0) (1 / 2) i s| < 1 / 100 := by
  have h2 : 0 < (chain2 ℝ).nA := by simp [chain2]
  obtain ⟨N, hN⟩ := C103_limit (chain2 ℝ) chain2_ok.1 h2 (fun t => if t = 0 then 1 else 0)
    (1 / 2) (1 / 100) (by norm_num) (by norm_num) (by norm_num)
  refine ⟨fun t ht => ?_, N, hN N le_rfl⟩
  change t < 2 at ht
  have : t = 0 ∨ t = 1 := by omega
  rcases this with rfl | rfl <;> norm_num [abs_le]

variable {kind : GridKind} {W H : Nat} {selfT : Bool} {m m' : Mdp ℝ} {specs : List (AgentSpec ℝ Nat)}
  {e0 : Env ℝ Nat}

/-- The same in an environment after any history: `r` are the rewards that matter, `w` those the agent has. -/
theorem C111_environment (hm : Mdp.GridReach kind W H selfT m) (hinit : Env.init m specs = (m', .ok e0))
    (ops : List (EnvOp ℝ Nat)) (e : Env ℝ Nat) (he : e = e0.run ops) (a : Agent ℝ Nat) (ha : a ∈ e.agents)
    (hsel : a.selector = maxSelector) (s : Nat) (hs : s = Spec.stateOf (W * H) a.position)
    (hlive : Spec.Live e.mdp.trans s)
    (w : Nat → ℝ) (hw : w = fun t => ∑ f ∈ Finset.range a.reward.d0, a.reward.get f * e.mdp.features.get f t)
    (r : Nat → ℝ) (R ε : ℝ) (hwR : ∀ t, t < W * H → 0 ≤ w t ∧ w t ≤ R) (hr : ∀ t, t < W * H → |r t - w t| ≤ ε)
    (maxIter : Nat) (γ tol : ℝ) (h0 : 0 < γ) (h1 : γ < 1) (htol : 0 < tol)
    (hstop : ∃ i, i < maxIter ∧ ∀ s, s < W * H →
      |Spec.sweeps e.mdp.trans w γ (i + 1) s - Spec.sweeps e.mdp.trans w γ i s| < tol)
    (d : Nat → Nat) (n : Nat) (draws : Nat → Nat → Nat) :
    ∃ e1, e.fit a.name (valueIterationFit e.mdp maxIter γ tol) d = (e1, .ok ()) ∧
    ∃ a' ∈ (e1.run ((List.range n).map fun i => .step a.name (draws i))).agents, a'.name = a.name ∧
      ∃ ps : List Nat, ps.length = n ∧ a'.history = a.history ++ ps.map (fun p : Nat => (p : Int)) ∧
        ∀ other, Spec.Plays e.mdp.trans s other → Spec.discounted r γ other ≤
          Spec.visitReward r γ ps + 2 * ε / (1 - γ) + γ ^ n * (R / (1 - γ)) + 2 * tol * γ / (1 - γ) ^ 2 := by
  obtain ⟨e1, hfit⟩ := fit_succeeds hm hinit ops e he a ha hsel s hs hlive maxIter
    (by obtain ⟨i, hi, -⟩ := hstop; omega) γ tol h0 h1 d
  refine ⟨e1, hfit, ?_⟩
  obtain ⟨hsn, v, q, hsol, hf⟩ := follows_fit hm hinit ops e he a ha hsel s hs hlive maxIter γ tol d e1 hfit
  have hok : Env.Ok kind W H selfT e := by rw [he]; exact (Env.started hm hinit ops).1
  have hN : e.mdp.trans.nS = W * H := hok.reach.ok.nStates
  obtain ⟨hM, hdet, hA, -⟩ := C27_grid kind W H selfT e.mdp hok.reach
  obtain ⟨l, l1, l2, l3, j', ⟨-, -, -, -, -, a', ha', hn', -, -, -, -, hh⟩, -⟩ := hf.walk draws n 0
  simp only [Nat.zero_add] at ha'
  have hw' : stateReward a.reward.d0 a.reward.get e.mdp.features.get = w := by rw [hw]; rfl
  rw [hw'] at hsol
  refine ⟨a', ha', hn', l.map (·.2), by simpa using l1, by rw [hh, List.map_map]; rfl, fun other ho => ?_⟩
  have := C111_plan e.mdp.trans hM hdet hA r w R ε (by rw [hN]; exact hwR) (by rw [hN]; exact hr)
    γ tol h0 h1 htol maxIter (by rw [hN]; exact hstop) v q hsol s hsn l l2 l3 other ho
  rw [l1, discounted_visits r γ l] at this
  exact this

end MaMDP
