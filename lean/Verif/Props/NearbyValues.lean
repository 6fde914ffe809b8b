import Verif.Spec.NearbyValues
import Verif.Props.ActionSelection
import Verif.Props.Algorithm
import Verif.Props.Chance
import Verif.Props.SoftRounding

/-! # C178: small errors in action values hardly change softmax choices -/

set_option linter.unusedSectionVars false

namespace MaMDP

open MeasureTheory

variable {kind : GridKind} {W H : Nat} {selfT : Bool} {m m' : Mdp ℝ} {specs : List (AgentSpec ℝ ℝ)} {e0 : Env ℝ ℝ}

theorem NearTables.symm {E : ℝ} {q q' : Arr2 (Ext ℝ)} (h : Spec.NearTables E q q') : Spec.NearTables E q' q := by
  obtain ⟨h1, h2, h3⟩ := h
  refine ⟨h1.symm, h2.symm, fun s a hs ha => (h3 s a (by omega) (by omega)).imp And.symm ?_⟩
  rintro ⟨x, y, hx, hy, hd⟩
  exact ⟨y, x, hy, hx, by rwa [abs_sub_comm]⟩

/-- **C178**: if two tables of action values differ by at most `E`, no action is chosen more than `exp (2 E / T)` times as
often with one of them as with the other. -/
theorem C178_choice (T : ℝ) (hT : 0 < T) (E : ℝ) (hE : 0 ≤ E) (q q' : Arr2 (Ext ℝ)) (hS : 0 < q.d0) (hA : 0 < q.d1)
    (h : Spec.NearTables E q q') :
    ∃ sel P P', mkSoftmax T = .ok sel ∧ sel.piP q = .ok P ∧ sel.piP q' = .ok P' ∧
      ∀ s a, s < q.d0 → a < q.d1 → ∃ p p', P.get s a = .fin p ∧ P'.get s a = .fin p' ∧
        p ≤ Real.exp (2 * E / T) * p' ∧ p' ≤ Real.exp (2 * E / T) * p := by
  obtain ⟨d1, d2, hn⟩ := h
  have hne : ∀ s a, s < q.d0 → a < q.d1 → (q.get s a ≠ .nan ∧ q.get s a ≠ .pinf) ∧ q'.get s a ≠ .nan ∧ q'.get s a ≠ .pinf := by
    intro s a hs ha
    rcases hn s a hs ha with ⟨e, e'⟩ | ⟨x, y, e, e', -⟩ <;> rw [e, e'] <;>
      exact ⟨⟨by simp, by simp⟩, by simp, by simp⟩
  obtain ⟨sel, P, c1, c2, -, -, c5⟩ := C25_softmax_pi_p T hT q ⟨0, hS, fun hno => (hne 0 0 hS hA).1.1 (hno 0 hA)⟩
  obtain ⟨sel', P', c1', c2', -, -, c5'⟩ := C25_softmax_pi_p T hT q'
    ⟨0, by omega, fun hno => (hne 0 0 hS hA).2.1 (hno 0 (by omega))⟩
  obtain rfl : sel = sel' := Except.ok.inj (c1.symm.trans c1')
  refine ⟨sel, P, P', c1, c2, c2', fun s a hs ha => ?_⟩
  obtain ⟨p, p1, p2, p3, p4, p5⟩ := (c5 s hs).2 ⟨⟨a, ha, (hne s a hs ha).1.1⟩,
    fun hp => by obtain ⟨b, hb, e⟩ := hp.1; exact (hne s b hs hb).1.2 e⟩ fun b hb => (hne s b hs hb).1.2
  obtain ⟨p', p1', p2', p3', p4', p5'⟩ := (c5' s (by omega)).2 ⟨⟨a, by omega, (hne s a hs ha).2.1⟩,
    fun hp => by obtain ⟨b, hb, e⟩ := hp.1; exact (hne s b hs (by omega)).2.2 e⟩ fun b hb => (hne s b hs (by omega)).2.2
  rw [← d2] at p1' p2' p3' p4' p5'
  refine ⟨p a, p' a, (p1 a ha).1, (p1' a ha).1, ?_⟩
  have hexp : 1 ≤ Real.exp (2 * E / T) := Real.one_le_exp (by positivity)
  by_cases hf : ∃ a x, a < q.d1 ∧ q.get s a = .fin x
  · have hf' : ∃ a x, a < q.d1 ∧ q'.get s a = .fin x := by
      obtain ⟨b, x, hb, e⟩ := hf
      rcases hn s b hs hb with ⟨e', -⟩ | ⟨x, y, -, e', -⟩
      · rw [e] at e'; cases e'
      · exact ⟨b, y, hb, e'⟩
    have key : ∀ b, b < q.d1 → p a * p' b ≤ Real.exp (2 * E / T) * (p' a * p b) ∧
        p' a * p b ≤ Real.exp (2 * E / T) * (p a * p' b) := by
      intro b hb
      rcases hn s a hs ha with ⟨e, e'⟩ | ⟨x, y, e, e', hd⟩
      · rw [(p3 hf a ha).1 (.inl e), (p3' hf' a ha).1 (.inl e')]
        simp
      rcases hn s b hs hb with ⟨f, f'⟩ | ⟨x2, y2, f, f', hd2⟩
      · rw [(p3 hf b hb).1 (.inl f), (p3' hf' b hb).1 (.inl f')]
        simp
      rw [(p5 a b x x2 ha hb e f).1, (p5' a b y y2 ha hb e' f').1]
      have g0 := mul_nonneg (p1 b hb).2 (p1' b hb).2
      have g1 : Real.exp ((x - x2) / T) ≤ Real.exp (2 * E / T) * Real.exp ((y - y2) / T) := by
        rw [← Real.exp_add, ← add_div, Real.exp_le_exp]
        exact div_le_div_of_nonneg_right (by linarith [(abs_le.1 hd).2, (abs_le.1 hd2).1]) hT.le
      have g2 : Real.exp ((y - y2) / T) ≤ Real.exp (2 * E / T) * Real.exp ((x - x2) / T) := by
        rw [← Real.exp_add, ← add_div, Real.exp_le_exp]
        exact div_le_div_of_nonneg_right (by linarith [(abs_le.1 hd).1, (abs_le.1 hd2).2]) hT.le
      have k1 := mul_le_mul_of_nonneg_left g1 g0
      have k2 := mul_le_mul_of_nonneg_left g2 g0
      constructor <;> linarith
    have s1 : p a = ∑ b ∈ Finset.range q.d1, p a * p' b := by rw [← Finset.mul_sum, p2', mul_one]
    have s2 : p' a = ∑ b ∈ Finset.range q.d1, p' a * p b := by rw [← Finset.mul_sum, p2, mul_one]
    constructor
    · calc p a = ∑ b ∈ Finset.range q.d1, p a * p' b := s1
        _ ≤ ∑ b ∈ Finset.range q.d1, Real.exp (2 * E / T) * (p' a * p b) :=
          Finset.sum_le_sum fun b hb => (key b (Finset.mem_range.1 hb)).1
        _ = _ := by rw [← Finset.mul_sum, ← s2]
    · calc p' a = ∑ b ∈ Finset.range q.d1, p' a * p b := s2
        _ ≤ ∑ b ∈ Finset.range q.d1, Real.exp (2 * E / T) * (p a * p' b) :=
          Finset.sum_le_sum fun b hb => (key b (Finset.mem_range.1 hb)).2
        _ = _ := by rw [← Finset.mul_sum, ← s1]
  · have hf' : ¬ ∃ a x, a < q.d1 ∧ q'.get s a = .fin x := by
      rintro ⟨b, x, hb, e⟩
      rcases hn s b hs hb with ⟨-, e'⟩ | ⟨x, y, e', -, -⟩
      · rw [e] at e'; cases e'
      · exact hf ⟨b, x, hb, e'⟩
    have e : p' a = p a := by rw [p4 hf a ha, p4' hf' a ha]
    rw [e]
    have := mul_le_mul_of_nonneg_right hexp (p1 a ha).2
    constructor <;> linarith

/-- Weights of nearby estimates. -/
theorem weight_near {T : ℝ} (hT : 0 < T) {E : ℝ} {q q' : Arr2 (Ext ℝ)} (h : Spec.NearTables E q q') {s a : Nat}
    (hs : s < q.d0) (ha : a < q.d1) : Spec.weight T (q.get s a) ≤ Real.exp (E / T) * Spec.weight T (q'.get s a) := by
  rcases h.2.2 s a hs ha with ⟨e, e'⟩ | ⟨x, y, e, e', hd⟩
  · rw [e, e']; simp [Spec.weight]
  · rw [e, e']
    change Real.exp _ ≤ _ * Real.exp _
    rw [← Real.exp_add, ← add_div, Real.exp_le_exp]
    exact div_le_div_of_nonneg_right (by linarith [(abs_le.1 hd).2]) hT.le

theorem weight_nonneg' (T : ℝ) (x : Ext ℝ) : 0 ≤ Spec.weight T x := by
  cases x <;> simp [Spec.weight, Real.exp_nonneg]

/-- Chances of moves for nearby tables. -/
theorem moveChance_near {T : ℝ} (hT : 0 < T) {E : ℝ} {q q' : Arr2 (Ext ℝ)} (h : Spec.NearTables E q q') {s a : Nat}
    (hs : s < q.d0) (ha : a < q.d1) :
    0 ≤ Spec.moveChance T q s a ∧ Spec.moveChance T q s a ≤ Real.exp (2 * E / T) * Spec.moveChance T q' s a := by
  unfold Spec.moveChance
  have h1 := weight_near hT h hs ha
  have h2 : ∑ y ∈ Finset.range q'.d1, Spec.weight T (q'.get s y) ≤
      Real.exp (E / T) * ∑ y ∈ Finset.range q.d1, Spec.weight T (q.get s y) := by
    rw [h.2.1, Finset.mul_sum]
    refine Finset.sum_le_sum fun y hy => ?_
    exact weight_near hT (NearTables.symm h) (by rw [← h.1]; exact hs) (Finset.mem_range.1 hy)
  have n1 : 0 ≤ ∑ y ∈ Finset.range q.d1, Spec.weight T (q.get s y) := Finset.sum_nonneg fun _ _ => weight_nonneg' _ _
  have n2 : 0 ≤ ∑ y ∈ Finset.range q'.d1, Spec.weight T (q'.get s y) := Finset.sum_nonneg fun _ _ => weight_nonneg' _ _
  refine ⟨div_nonneg (weight_nonneg' _ _) n1, ?_⟩
  have hsplit : Real.exp (2 * E / T) = Real.exp (E / T) * Real.exp (E / T) := by
    rw [← Real.exp_add]; congr 1; ring
  rcases n1.eq_or_lt with h0 | hpos
  · rw [← h0, div_zero]
    exact mul_nonneg (Real.exp_nonneg _) (div_nonneg (weight_nonneg' _ _) n2)
  have hpos' : 0 < ∑ y ∈ Finset.range q'.d1, Spec.weight T (q'.get s y) := by
    have h3 : ∑ y ∈ Finset.range q.d1, Spec.weight T (q.get s y) ≤
        Real.exp (E / T) * ∑ y ∈ Finset.range q'.d1, Spec.weight T (q'.get s y) := by
      rw [← h.2.1, Finset.mul_sum]
      exact Finset.sum_le_sum fun y hy => weight_near hT h hs (Finset.mem_range.1 hy)
    by_contra hc
    have : ∑ y ∈ Finset.range q'.d1, Spec.weight T (q'.get s y) = 0 := le_antisymm (not_lt.1 hc) n2
    rw [this, mul_zero] at h3
    linarith
  rw [← mul_div_assoc, div_le_div_iff₀ hpos hpos', hsplit]
  calc Spec.weight T (q.get s a) * ∑ y ∈ Finset.range q'.d1, Spec.weight T (q'.get s y)
      ≤ (Real.exp (E / T) * Spec.weight T (q'.get s a)) *
        (Real.exp (E / T) * ∑ y ∈ Finset.range q.d1, Spec.weight T (q.get s y)) :=
        mul_le_mul h1 h2 n2 (mul_nonneg (Real.exp_nonneg _) (weight_nonneg' _ _))
    _ = _ := by ring

theorem standing_near {T : ℝ} (hT : 0 < T) {E : ℝ} {q q' : Arr2 (Ext ℝ)} (h : Spec.NearTables E q q') {M : Trans ℝ}
    (hM : Spec.SubStochastic M) (h0 : q.d0 = M.nS) (h1 : q.d1 = M.nA) (t : Nat) : ∀ k s, s < M.nS →
      0 ≤ Spec.standing M T q k s t ∧ Spec.standing M T q k s t ≤ Real.exp (2 * E / T) ^ k * Spec.standing M T q' k s t := by
  intro k
  induction k with
  | zero =>
    intro s _
    unfold Spec.standing
    constructor
    · split_ifs <;> norm_num
    · rw [pow_zero, one_mul]
  | succ k ih =>
    intro s hs
    unfold Spec.standing
    constructor
    · refine Finset.sum_nonneg fun x hx => Finset.sum_nonneg fun u hu => ?_
      have hx' := Finset.mem_range.1 hx
      have hu' := Finset.mem_range.1 hu
      exact mul_nonneg (mul_nonneg (moveChance_near hT h (by omega) (by omega)).1 (hM.nonneg s x u hs hx' hu')) (ih u hu').1
    · rw [Finset.mul_sum]
      refine Finset.sum_le_sum fun x hx => ?_
      rw [Finset.mul_sum]
      refine Finset.sum_le_sum fun u hu => ?_
      have hx' := Finset.mem_range.1 hx
      have hu' := Finset.mem_range.1 hu
      obtain ⟨m0, m1⟩ := moveChance_near hT h (s := s) (a := x) (by omega) (by omega)
      obtain ⟨i0, i1⟩ := ih u hu'
      have hp := hM.nonneg s x u hs hx' hu'
      have hm' : 0 ≤ Real.exp (2 * E / T) * Spec.moveChance T q' s x := m0.trans m1
      calc Spec.moveChance T q s x * M.p s x u * Spec.standing M T q k u t
          ≤ (Real.exp (2 * E / T) * Spec.moveChance T q' s x * M.p s x u) *
            (Real.exp (2 * E / T) ^ k * Spec.standing M T q' k u t) :=
            mul_le_mul (mul_le_mul_of_nonneg_right m1 hp) i1 i0 (mul_nonneg hm' hp)
        _ = _ := by rw [pow_succ]; ring

/-- **C178**, positions: where a softmax agent stands after `k` steps (C132) is at most `exp (2 E / T) ^ k` times as likely,
and at least the inverse of that, as a table of action values within `E` of the agent's would have it. -/
theorem C178_position (hm : Mdp.GridReach kind W H selfT m) (hinit : Env.init m specs = (m', .ok e0))
    (ops : List (EnvOp ℝ ℝ)) (e : Env ℝ ℝ) (he : e = e0.run ops) (a : Agent ℝ ℝ) (ha : a ∈ e.agents)
    (T : ℝ) (hT : 0 < T) (hsel : a.selector = softmaxSelector T) (hfit : a.alg.fitComplete = true) (q : Arr2 (Ext ℝ))
    (hq : a.alg.qValues = some q) (hmask : ∀ s, s < W * H → Spec.MaskedAt e.mdp.trans q s)
    (hfin : ∀ s x, s < W * H → x < e.mdp.nActions → q.get s x ≠ .pinf)
    (s : Nat) (hs : s = Spec.stateOf (W * H) a.position) (hlive : Spec.Live e.mdp.trans s) (k t : Nat)
    (E : ℝ) (q' : Arr2 (Ext ℝ)) (hnear : Spec.NearTables E q q') :
    ∃ p : ℝ, volume {ω : Spec.Outcome k (W * H) | Spec.Delivered ω ∧ ∃ a' ∈ (Spec.stepped e a.name ω).agents,
        a'.name = a.name ∧ Spec.stateOf (W * H) a'.position = t} = ENNReal.ofReal p ∧ 0 ≤ p ∧
      p ≤ Real.exp (2 * E / T) ^ k * Spec.standing e.mdp.trans T q' k s t ∧
      Spec.standing e.mdp.trans T q' k s t ≤ Real.exp (2 * E / T) ^ k * p := by
  obtain ⟨hD, hsN, hN⟩ := drifts_start hm hinit ops e he a ha T hsel hfit q hq hmask hfin s hs hlive
  have hM : Spec.SubStochastic e.mdp.trans := (C27_grid kind W H selfT _ hD.ok.reach).1
  obtain ⟨d0, d1, -⟩ := hmask s hsN
  have hsM : s < e.mdp.trans.nS := by rw [hN]; exact hsN
  refine ⟨_, C132_position hm hinit ops e he a ha T hT hsel hfit q hq hmask hfin s hs hlive k t,
    (standing_near hT hnear hM d0 d1 t k s hsM).1, (standing_near hT hnear hM d0 d1 t k s hsM).2, ?_⟩
  exact (standing_near hT (NearTables.symm hnear) hM (hnear.1.symm.trans d0) (hnear.2.1.symm.trans d1) t k s hsM).2

/-- **C178**, planning: the action values of value iteration, for any limit, are as close to the exact ones as the
tolerance and the number of passes make them; so the choices of a softmax agent are as close to those it would make with
exact values. -/
theorem C178_planning (M : Trans ℝ) (hM : Spec.SubStochastic M) (hA : 0 < M.nA) (r : Nat → ℝ) (R : ℝ) (hR : 0 ≤ R)
    (hr : ∀ t, t < M.nS → |r t| ≤ R) (γ tol : ℝ) (h0 : 0 < γ) (h1 : γ < 1) (htol : 0 < tol) (V : Nat → ℝ)
    (hV : Spec.Bellman M r γ V) (maxIter : Nat) (hk : 0 < maxIter) :
    ∃ v q, solveHard M r maxIter γ tol = .ok (v, q) ∧
      Spec.NearTables (max (γ * tol / (1 - γ)) (γ ^ maxIter * (R / (1 - γ)))) ⟨M.nS, M.nA, q⟩ (Spec.exactTable M r γ V) := by
  have h1g : 0 < 1 - γ := by linarith
  obtain ⟨v, q, E, e1, e2, -, e4⟩ := C124_accuracy M hM hA r R hR hr γ tol h0 h1 htol 0 (R / (1 - γ)) le_rfl
    (by rw [add_zero, le_div_iff₀ h1g, add_mul, mul_assoc, div_mul_cancel₀ _ h1g.ne']; linarith)
    (Arith.exact M r γ) ⟨fun v s a _ _ _ => by
      change |actionValue M r γ v s a - _| ≤ _
      rw [show actionValue M r γ v s a = Spec.Q M r γ v s a from rfl, sub_self, abs_zero], fun x y _ _ => by
      change |(|x - y| - |x - y|)| ≤ _
      rw [sub_self, abs_zero]⟩ V hV maxIter hk
  rw [C124_exact] at e1
  have hE : E ≤ max (γ * tol / (1 - γ)) (γ ^ maxIter * (R / (1 - γ))) := by
    rcases e2 with ⟨rfl, -⟩ | ⟨rfl, -⟩
    · rw [mul_zero, add_zero]; exact le_max_left _ _
    · rw [zero_div, add_zero]; exact le_max_right _ _
  refine ⟨v, q, e1, rfl, rfl, fun s a hs ha => ?_⟩
  unfold Spec.exactTable
  dsimp only
  by_cases hp : Spec.Possible M s a
  · obtain ⟨x, hx, hd⟩ := (e4 s a hs ha).1 hp
    exact .inr ⟨x, _, hx, if_pos hp, hd.trans hE⟩
  · exact .inl ⟨(e4 s a hs ha).2 hp, if_neg hp⟩

/-- **C178**, planning with `soft=True`, as max-causal-entropy IRL does. -/
theorem C178_planning_soft (M : Trans ℝ) (hM : Spec.SubStochastic M) (hA : 0 < M.nA) (r : Nat → ℝ) (R : ℝ) (hR : 0 ≤ R)
    (hr : ∀ t, t < M.nS → |r t| ≤ R) (γ tol : ℝ) (h0 : 0 < γ) (h1 : γ < 1) (htol : 0 < tol) (V : Nat → ℝ)
    (hV : Spec.SoftBellman M r γ V) (maxIter : Nat) (hk : 0 < maxIter) :
    ∃ v q, solveSoft M r maxIter γ tol = .ok (v, q) ∧
      Spec.NearTables (max (γ * tol / (1 - γ)) (γ ^ maxIter * ((R + Real.log (M.nA + 1)) / (1 - γ))))
        ⟨M.nS, M.nA, q⟩ (Spec.exactTable M r γ V) := by
  have h1g : 0 < 1 - γ := by linarith
  obtain ⟨v, q, E, e1, e2, -, e4⟩ := C177_accuracy M hM hA r R hR hr γ tol h0 h1 htol 0
    ((R + Real.log (M.nA + 1)) / (1 - γ)) le_rfl
    (by rw [add_zero, le_div_iff₀ h1g, add_mul, mul_assoc, div_mul_cancel₀ _ h1g.ne']; linarith)
    (SoftArith.exact M r γ) ⟨fun v s a _ _ _ => by
      change |actionValue M r γ v s a - _| ≤ _
      rw [show actionValue M r γ v s a = Spec.Q M r γ v s a from rfl, sub_self, abs_zero], fun v s _ _ => by
      change |softBackup M.nA (actionValue M r γ v s) - softBackup M.nA (Spec.Q M r γ v s)| ≤ _
      rw [show actionValue M r γ v s = Spec.Q M r γ v s from rfl, sub_self, abs_zero], fun x y _ _ => by
      change |(|x - y| - |x - y|)| ≤ _
      rw [sub_self, abs_zero]⟩ V hV maxIter hk
  rw [C177_exact] at e1
  have hE : E ≤ max (γ * tol / (1 - γ)) (γ ^ maxIter * ((R + Real.log (M.nA + 1)) / (1 - γ))) := by
    rcases e2 with ⟨rfl, -⟩ | ⟨rfl, -⟩
    · rw [mul_zero, add_zero]; exact le_max_left _ _
    · rw [zero_div, add_zero]; exact le_max_right _ _
  refine ⟨v, q, e1, rfl, rfl, fun s a hs ha => ?_⟩
  unfold Spec.exactTable
  dsimp only
  by_cases hp : Spec.Possible M s a
  · obtain ⟨x, hx, hd⟩ := (e4 s a hs ha).1 hp
    exact .inr ⟨x, _, hx, if_pos hp, hd.trans hE⟩
  · exact .inl ⟨(e4 s a hs ha).2 hp, if_neg hp⟩

/-- Two tables that differ by at most 1/10: the chances of the first action are `1 / (1 + e)` and a little more. -/
example : Spec.NearTables (1 / 10) ⟨1, 3, fun _ a => if a = 0 then .fin 0 else if a = 1 then .fin 1 else .ninf⟩
    ⟨1, 3, fun _ a => if a = 0 then .fin (1 / 10) else if a = 1 then .fin (19 / 20) else .ninf⟩ := by
  refine ⟨rfl, rfl, fun s a _ ha => ?_⟩
  have ha : a < 3 := ha
  interval_cases a
  · exact .inr ⟨0, 1 / 10, rfl, rfl, by norm_num⟩
  · exact .inr ⟨1, 19 / 20, rfl, rfl, by norm_num⟩
  · exact .inl ⟨rfl, rfl⟩

/-- With a discount of 0.9, a tolerance of 1e-8, 500 passes and rewards of at most 1 the bound is below 1e-7. -/
example : max (9 / 10 * (1 / 10 ^ 8) / (1 - 9 / 10)) ((9 / 10 : ℝ) ^ 500 * (1 / (1 - 9 / 10))) ≤ 1 / 10 ^ 7 := by
  rw [max_le_iff]
  refine ⟨by norm_num, ?_⟩
  have h : (9 / 10 : ℝ) ^ 500 ≤ (9 / 10) ^ 200 := pow_le_pow_of_le_one (by norm_num) (by norm_num) (by norm_num)
  refine (mul_le_mul_of_nonneg_right h (by norm_num)).trans ?_
  norm_num

end MaMDP
