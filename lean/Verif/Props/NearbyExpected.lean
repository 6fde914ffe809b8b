import Verif.Props.NearbyValues
import Verif.Props.IRL

/-! # C178: limited planning in max-causal-entropy IRL -/

set_option linter.unusedSectionVars false

namespace MaMDP

/-- Chances under policies made from nearby tables. -/
theorem exponential_near {M : Trans ℝ} {T : ℝ} (hT : 0 < T) {E : ℝ} {q q' : Arr2 (Ext ℝ)}
    (h : Spec.NearTables E q q') (h0 : q.d0 = M.nS) (h1 : q.d1 = M.nA) {π π' : Nat → Nat → ℝ}
    (hfin : ∀ s a, s < M.nS → a < M.nA → Spec.Possible M s a → ∃ x, q.get s a = .fin x)
    (hπ : Spec.IsPolicy M π) (hπ' : Spec.IsPolicy M π') (hp : Spec.TakesPossible M π) (hp' : Spec.TakesPossible M π')
    (he : Spec.Exponential T q π) (he' : Spec.Exponential T q' π') {s a : Nat} (hs : s < M.nS) (hl : Spec.Live M s)
    (ha : a < M.nA) : π s a ≤ Real.exp (2 * E / T) * π' s a := by
  have key : ∀ b, b < M.nA → π s a * π' s b ≤ Real.exp (2 * E / T) * (π' s a * π s b) := by
    intro b hb
    have n1 := mul_nonneg ((hπ' s hs).1 a ha) ((hπ s hs).1 b hb)
    by_cases hz : π s a = 0
    · rw [hz, zero_mul]
      exact mul_nonneg (Real.exp_nonneg _) n1
    by_cases hz' : π' s b = 0
    · rw [hz', mul_zero]
      exact mul_nonneg (Real.exp_nonneg _) n1
    obtain ⟨x, hx⟩ := hfin s a hs ha (hp s hs hl a ha hz)
    obtain ⟨x2, hx2⟩ := hfin s b hs hb (hp' s hs hl b hb hz')
    rcases h.2.2 s a (by omega) (by omega) with ⟨e, -⟩ | ⟨x', y, e, e', hd⟩
    · rw [hx] at e; cases e
    rcases h.2.2 s b (by omega) (by omega) with ⟨f, -⟩ | ⟨x2', y2, f, f', hd2⟩
    · rw [hx2] at f; cases f
    rw [he s (by omega) a b x' x2' (by omega) (by omega) e f,
      he' s (by have := h.1; omega) a b y y2 (by have := h.2.1; omega) (by have := h.2.1; omega) e' f']
    have g0 := mul_nonneg ((hπ s hs).1 b hb) ((hπ' s hs).1 b hb)
    have g1 : Real.exp ((x' - x2') / T) ≤ Real.exp (2 * E / T) * Real.exp ((y - y2) / T) := by
      rw [← Real.exp_add, ← add_div, Real.exp_le_exp]
      exact div_le_div_of_nonneg_right (by linarith [(abs_le.1 hd).2, (abs_le.1 hd2).1]) hT.le
    have k1 := mul_le_mul_of_nonneg_left g1 g0
    linarith
  calc π s a = ∑ b ∈ Finset.range M.nA, π s a * π' s b := by rw [← Finset.mul_sum, (hπ' s hs).2, mul_one]
    _ ≤ ∑ b ∈ Finset.range M.nA, Real.exp (2 * E / T) * (π' s a * π s b) :=
      Finset.sum_le_sum fun b hb => key b (Finset.mem_range.1 hb)
    _ = _ := by rw [← Finset.mul_sum, ← Finset.mul_sum, (hπ s hs).2, mul_one]

theorem stateDist_near {M : Trans ℝ} (hM : Spec.SubStochastic M) {π π' : Nat → Nat → ℝ} {c : ℝ}
    (hπ : Spec.IsPolicy M π)
    (h : ∀ s a, s < M.nS → Spec.Live M s → a < M.nA → π s a ≤ c * π' s a) {p0 : Nat → ℝ} (hp0 : ∀ s, 0 ≤ p0 s) :
    ∀ k s, s < M.nS → 0 ≤ Spec.stateDist M π p0 k s ∧ Spec.stateDist M π p0 k s ≤ c ^ k * Spec.stateDist M π' p0 k s := by
  intro k
  induction k with
  | zero => intro s _; exact ⟨hp0 s, by rw [pow_zero, one_mul]; exact le_rfl⟩
  | succ k ih =>
    intro t ht
    have inner : ∀ s, s < M.nS → 0 ≤ ∑ a ∈ Finset.range M.nA, π s a * M.p s a t ∧
        ∑ a ∈ Finset.range M.nA, π s a * M.p s a t ≤ c * ∑ a ∈ Finset.range M.nA, π' s a * M.p s a t := by
      intro s hs
      refine ⟨Finset.sum_nonneg fun a ha => mul_nonneg ((hπ s hs).1 a (Finset.mem_range.1 ha))
        (hM.nonneg s a t hs (Finset.mem_range.1 ha) ht), ?_⟩
      rw [Finset.mul_sum]
      refine Finset.sum_le_sum fun a ha => ?_
      have ha' := Finset.mem_range.1 ha
      by_cases hl : Spec.Live M s
      · rw [← mul_assoc]
        exact mul_le_mul_of_nonneg_right (h s a hs hl ha') (hM.nonneg s a t hs ha' ht)
      · have hz : M.p s a t = 0 := by
          by_contra hne
          exact hl ⟨a, ha', t, ht, lt_of_le_of_ne (hM.nonneg s a t hs ha' ht) (Ne.symm hne)⟩
        rw [hz, mul_zero, mul_zero, mul_zero]
    change 0 ≤ ∑ s ∈ Finset.range M.nS, Spec.stateDist M π p0 k s * ∑ a ∈ Finset.range M.nA, π s a * M.p s a t ∧
      ∑ s ∈ Finset.range M.nS, Spec.stateDist M π p0 k s * ∑ a ∈ Finset.range M.nA, π s a * M.p s a t ≤
        c ^ (k + 1) * ∑ s ∈ Finset.range M.nS, Spec.stateDist M π' p0 k s * ∑ a ∈ Finset.range M.nA, π' s a * M.p s a t
    constructor
    · exact Finset.sum_nonneg fun s hs => mul_nonneg (ih s (Finset.mem_range.1 hs)).1 (inner s (Finset.mem_range.1 hs)).1
    · rw [Finset.mul_sum]
      refine Finset.sum_le_sum fun s hs => ?_
      obtain ⟨i0, i1⟩ := ih s (Finset.mem_range.1 hs)
      obtain ⟨j0, j1⟩ := inner s (Finset.mem_range.1 hs)
      calc _ ≤ (c ^ k * Spec.stateDist M π' p0 k s) * (c * ∑ a ∈ Finset.range M.nA, π' s a * M.p s a t) :=
            mul_le_mul i1 j1 j0 (i0.trans i1)
        _ = _ := by rw [pow_succ]; ring

theorem walkFeatures_near {m : Mdp ℝ} (hM : Spec.SubStochastic m.trans) {π π' : Nat → Nat → ℝ} {c : ℝ} (hc : 1 ≤ c)
    (hπ : Spec.IsPolicy m.trans π)
    (h : ∀ s a, s < m.trans.nS → Spec.Live m.trans s → a < m.trans.nA → π s a ≤ c * π' s a) (ts : List (List Int)) (n f : Nat)
    (hf : ∀ s, s < m.nStates → 0 ≤ m.features.get f s) :
    Spec.walkFeatures m π ts n f ≤ c ^ n * Spec.walkFeatures m π' ts n f := by
  unfold Spec.walkFeatures
  rw [Finset.mul_sum]
  refine Finset.sum_le_sum fun k hk => ?_
  rw [Finset.mul_sum]
  refine Finset.sum_le_sum fun s hs => ?_
  have hs' : s < m.trans.nS := Finset.mem_range.1 hs
  obtain ⟨i0, i1⟩ := stateDist_near hM hπ h (p0 := Spec.startShare m.nStates ts)
    (fun s => by unfold Spec.startShare; positivity) k s hs'
  have hck : c ^ k ≤ c ^ n := pow_le_pow_right₀ hc (Finset.mem_range.1 hk).le
  have hpos : 0 < c ^ k := pow_pos (by linarith) k
  have hd : 0 ≤ Spec.stateDist m.trans π' (Spec.startShare m.nStates ts) k s := by
    by_contra hneg
    have := mul_neg_of_pos_of_neg hpos (not_le.1 hneg)
    linarith
  rw [← mul_assoc]
  exact mul_le_mul_of_nonneg_right (i1.trans (mul_le_mul_of_nonneg_right hck hd)) (hf s (Finset.mem_range.1 hs))

/-- There is a policy that weighs the possible actions by the exponentials of their exact soft values. -/
theorem C178_exact_policy (M : Trans ℝ) (hM : Spec.SubStochastic M) (hA : 0 < M.nA) (hS : 0 < M.nS) (r : Nat → ℝ) (γ : ℝ)
    (V : Nat → ℝ) (T : ℝ) (hT : 0 < T) : ∃ π, Spec.IsPolicy M π ∧ Spec.TakesPossible M π ∧
      Spec.Exponential T (Spec.exactTable M r γ V) π := by
  obtain ⟨P, -, h1, h2, h3⟩ := softmaxPolicy M hM hA hS T hT (Spec.Q M r γ V)
  refine ⟨_, h1, h2, fun s hs a b x y ha hb hx hy => h3 s hs a b x y ha hb ?_ ?_⟩
  · unfold Spec.exactTable at hx
    dsimp only at hx
    split_ifs at hx with hp
    rw [← hx]
    exact (maskQ_ninf hM _ hs ha).2 hp
  · unfold Spec.exactTable at hy
    dsimp only at hy
    split_ifs at hy with hp
    rw [← hy]
    exact (maskQ_ninf hM _ hs hb).2 hp

/-- **C178**, learning: what max-causal-entropy IRL expects of a feature (that is nowhere negative) is, up to a factor
`exp (2 E) ^ n`, what a walk of `n` states by the exact policy would meet of it, where `E` is the error of planning. -/
theorem C178_expected (m : Mdp ℝ) (hM : Spec.SubStochastic m.trans) (hA : 0 < m.nActions) (hS : 0 < m.nStates)
    (ts : List (List Int)) (hts : ∀ t ∈ ts, ∃ i l, t = i :: l ∧ Spec.InRange m.nStates i)
    (n : Nat) (hn : 0 < n) (γ tol : ℝ) (h0 : 0 < γ) (h1 : γ < 1) (htol : 0 < tol) (θ : Nat → ℝ) (R : ℝ) (hR : 0 ≤ R)
    (hr : ∀ s, s < m.nStates → |Spec.weighted m θ s| ≤ R) (V : Nat → ℝ)
    (hV : Spec.SoftBellman m.trans (Spec.weighted m θ) γ V) (E : ℝ)
    (hE : E = max (γ * tol / (1 - γ)) (γ ^ n * ((R + Real.log (m.nActions + 1)) / (1 - γ))))
    (π : Nat → Nat → ℝ) (hπ : Spec.IsPolicy m.trans π) (hp : Spec.TakesPossible m.trans π)
    (he : Spec.Exponential 1 (Spec.exactTable m.trans (Spec.weighted m θ) γ V) π) :
    ∃ g, mceSoft m n γ tol ts θ = .ok g ∧ ∀ f, (∀ s, s < m.nStates → 0 ≤ m.features.get f s) →
      g f ≤ Real.exp (2 * E) ^ n * Spec.walkFeatures m π ts n f ∧
      Spec.walkFeatures m π ts n f ≤ Real.exp (2 * E) ^ n * g f := by
  obtain ⟨g, ρ, v, q, e1, e2, e3, e4, e5, e6⟩ := C66_expected_soft m hM hA hS ts hts n hn γ tol h0 h1 θ
  obtain ⟨v', q', f1, f2⟩ := C178_planning_soft m.trans hM hA (Spec.weighted m θ) R hR hr γ tol h0 h1 htol V hV n hn
  obtain ⟨-, rfl⟩ := Prod.mk.inj (Except.ok.inj (e5.symm.trans f1))
  have hE' : E = max (γ * tol / (1 - γ)) (γ ^ n * ((R + Real.log (m.trans.nA + 1)) / (1 - γ))) := hE
  rw [← hE'] at f2
  have h1g : 0 < 1 - γ := by linarith
  have hE0 : 0 ≤ E := by rw [hE]; exact le_max_of_le_left (by positivity)
  have hexact : ∀ s a, s < m.trans.nS → a < m.trans.nA → Spec.Possible m.trans s a →
      ∃ x, (Spec.exactTable m.trans (Spec.weighted m θ) γ V).get s a = .fin x := fun s a _ _ h => ⟨_, if_pos h⟩
  have hcomp : ∀ s a, s < m.trans.nS → a < m.trans.nA → Spec.Possible m.trans s a → ∃ x, q s a = .fin x := by
    intro s a hs ha h
    rcases f2.2.2 s a hs ha with ⟨-, e⟩ | ⟨x, y, e, -, -⟩
    · obtain ⟨x, hx⟩ := hexact s a hs ha h
      rw [hx] at e; cases e
    · exact ⟨x, e⟩
  have hone : 1 ≤ Real.exp (2 * E) := Real.one_le_exp (by linarith)
  refine ⟨g, e1, fun f hf => ?_⟩
  rw [e4 f]
  refine ⟨walkFeatures_near hM hone e2 (fun s a hs hl ha => ?_) ts n f hf,
    walkFeatures_near hM hone hπ (fun s a hs hl ha => ?_) ts n f hf⟩
  · have := exponential_near one_pos f2 rfl rfl hcomp e2 hπ e3 hp e6 he hs hl ha
    rwa [div_one] at this
  · have := exponential_near one_pos (NearTables.symm f2) rfl rfl hexact hπ e2 hp e3 he e6 hs hl ha
    rwa [div_one] at this

/-- The exact values, the policy and the bound on rewards asked for exist for every environment and all weights. -/
example (m : Mdp ℝ) (hM : Spec.SubStochastic m.trans) (hA : 0 < m.nActions) (hS : 0 < m.nStates) (θ : Nat → ℝ) :
    ∃ R V π, 0 ≤ R ∧ (∀ s, s < m.nStates → |Spec.weighted m θ s| ≤ R) ∧
      Spec.SoftBellman m.trans (Spec.weighted m θ) (9 / 10) V ∧ Spec.IsPolicy m.trans π ∧ Spec.TakesPossible m.trans π ∧
      Spec.Exponential 1 (Spec.exactTable m.trans (Spec.weighted m θ) (9 / 10) V) π := by
  obtain ⟨V, hV, -⟩ := C34_soft_converges m.trans hM (Spec.weighted m θ) (9 / 10) (by norm_num) (by norm_num)
  obtain ⟨π, h⟩ := C178_exact_policy m.trans hM hA hS (Spec.weighted m θ) (9 / 10) V 1 one_pos
  exact ⟨∑ s ∈ Finset.range m.nStates, |Spec.weighted m θ s|, V, π, Finset.sum_nonneg fun _ _ => abs_nonneg _,
    fun s hs => Finset.single_le_sum (f := fun s => |Spec.weighted m θ s|) (fun _ _ => abs_nonneg _)
      (Finset.mem_range.2 hs), hV, h⟩

/-- With the usual settings (discount 0.9, tolerance 1e-8, 500 passes), rewards of at most 1 and four actions the factor is
below 1.0002: the exponent is at most 1/10000. -/
example : 500 * (2 * max (9 / 10 * (1 / 10 ^ 8) / (1 - 9 / 10)) ((9 / 10 : ℝ) ^ 500 * ((1 + Real.log (4 + 1)) / (1 - 9 / 10)))) ≤
    1 / 10 ^ 4 := by
  have h : (9 / 10 : ℝ) ^ 500 ≤ (9 / 10) ^ 250 := pow_le_pow_of_le_one (by norm_num) (by norm_num) (by norm_num)
  have h2 : Real.log (4 + 1) ≤ 4 := by
    have := Real.log_le_sub_one_of_pos (show (0 : ℝ) < 4 + 1 by norm_num)
    linarith
  have h3 : (1 + Real.log (4 + 1)) / (1 - 9 / 10) ≤ 50 := by
    rw [div_le_iff₀ (by norm_num)]
    calc 1 + Real.log (4 + 1) ≤ 1 + 4 := add_le_add le_rfl h2
      _ ≤ _ := by norm_num
  have h4 : (0 : ℝ) ≤ (1 + Real.log (4 + 1)) / (1 - 9 / 10) :=
    div_nonneg (add_nonneg zero_le_one (Real.log_nonneg (by norm_num))) (by norm_num)
  have h5 : (9 / 10 : ℝ) ^ 500 * ((1 + Real.log (4 + 1)) / (1 - 9 / 10)) ≤ (9 / 10) ^ 250 * 50 :=
    mul_le_mul h h3 h4 (by positivity)
  have h6 : max (9 / 10 * (1 / 10 ^ 8) / (1 - 9 / 10)) ((9 / 10 : ℝ) ^ 500 * ((1 + Real.log (4 + 1)) / (1 - 9 / 10))) ≤
      1 / 10 ^ 7 := max_le (by norm_num) (h5.trans (by norm_num))
  linarith

end MaMDP
