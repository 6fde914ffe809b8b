import Verif.Props.NearbyExpected
import Verif.Lemmas.NeverMatches

/-! # C178: limited planning in max-causal-entropy IRL, features of either sign -/

set_option linter.unusedSectionVars false

namespace MaMDP

/-- Walks by two policies whose chances differ by a factor of at most `c` meet nearly the same of a bounded feature. -/
theorem walkFeatures_close {m : Mdp ℝ} (hM : Spec.SubStochastic m.trans) {π π' : Nat → Nat → ℝ} {c : ℝ} (hc : 1 ≤ c)
    (hπ : Spec.IsPolicy m.trans π) (hπ' : Spec.IsPolicy m.trans π')
    (h : ∀ s a, s < m.trans.nS → Spec.Live m.trans s → a < m.trans.nA → π s a ≤ c * π' s a)
    (h' : ∀ s a, s < m.trans.nS → Spec.Live m.trans s → a < m.trans.nA → π' s a ≤ c * π s a) (ts : List (List Int))
    (hne : ts ≠ []) (hts : ∀ t ∈ ts, ∃ i l, t = i :: l ∧ Spec.InRange m.nStates i) (n f : Nat) (F : ℝ) (hF : 0 ≤ F)
    (hf : ∀ s, s < m.nStates → |m.features.get f s| ≤ F) :
    |Spec.walkFeatures m π ts n f - Spec.walkFeatures m π' ts n f| ≤ (c ^ n - 1) * (n * F) := by
  have hv := C66_total_le m.trans hM π' hπ' (Spec.startShare m.nStates ts) (fun s _ => startShare_nonneg _ _ _)
    (sum_startShare (K := ℝ) m.nStates ts hne hts).le n
  rw [Finset.sum_congr rfl fun t ht => visitation_eq m.trans π' (Spec.startShare m.nStates ts) n t (Finset.mem_range.1 ht),
    Finset.sum_comm] at hv
  have hcn : 1 ≤ c ^ n := one_le_pow₀ hc
  have hterm : ∀ k, k < n → ∀ s, s < m.nStates →
      |Spec.stateDist m.trans π (Spec.startShare m.nStates ts) k s * m.features.get f s -
        Spec.stateDist m.trans π' (Spec.startShare m.nStates ts) k s * m.features.get f s| ≤
      (c ^ n - 1) * F * Spec.stateDist m.trans π' (Spec.startShare m.nStates ts) k s := by
    intro k hk s hs
    obtain ⟨a0, a1⟩ := stateDist_near hM hπ h (startShare_nonneg m.nStates ts) k s hs
    obtain ⟨b0, b1⟩ := stateDist_near hM hπ' h' (startShare_nonneg m.nStates ts) k s hs
    set d := Spec.stateDist m.trans π (Spec.startShare m.nStates ts) k s
    set d' := Spec.stateDist m.trans π' (Spec.startShare m.nStates ts) k s
    have hck : c ^ k ≤ c ^ n := pow_le_pow_right₀ hc hk.le
    have a2 : d ≤ c ^ n * d' := a1.trans (mul_le_mul_of_nonneg_right hck b0)
    have b2 : d' ≤ c ^ n * d := b1.trans (mul_le_mul_of_nonneg_right hck a0)
    have hd : |d - d'| ≤ (c ^ n - 1) * d' := by
      rw [abs_le]
      constructor
      · rcases le_total d d' with hle | hle
        · have := mul_le_mul_of_nonneg_left hle (sub_nonneg.2 hcn)
          linarith
        · have := mul_nonneg (sub_nonneg.2 hcn) b0
          linarith
      · linarith
    rw [← sub_mul, abs_mul]
    calc |d - d'| * |m.features.get f s| ≤ (c ^ n - 1) * d' * F :=
          mul_le_mul hd (hf s hs) (abs_nonneg _) (mul_nonneg (sub_nonneg.2 hcn) b0)
      _ = _ := by ring
  unfold Spec.walkFeatures
  rw [← Finset.sum_sub_distrib]
  calc _ ≤ ∑ k ∈ Finset.range n, ∑ s ∈ Finset.range m.nStates,
        (c ^ n - 1) * F * Spec.stateDist m.trans π' (Spec.startShare m.nStates ts) k s := by
        refine (Finset.abs_sum_le_sum_abs _ _).trans (Finset.sum_le_sum fun k hk => ?_)
        rw [← Finset.sum_sub_distrib]
        exact (Finset.abs_sum_le_sum_abs _ _).trans (Finset.sum_le_sum fun s hs =>
          hterm k (Finset.mem_range.1 hk) s (Finset.mem_range.1 hs))
    _ = (c ^ n - 1) * F * ∑ k ∈ Finset.range n, ∑ s ∈ Finset.range m.nStates,
        Spec.stateDist m.trans π' (Spec.startShare m.nStates ts) k s := by
        rw [Finset.mul_sum]
        exact Finset.sum_congr rfl fun k _ => (Finset.mul_sum _ _ _).symm
    _ ≤ (c ^ n - 1) * F * n := mul_le_mul_of_nonneg_left hv (mul_nonneg (sub_nonneg.2 hcn) hF)
    _ = _ := by ring

/-- **C178**, learning, features of either sign: what max-causal-entropy IRL expects of a feature of at most `F` differs by
at most `(exp (2 E) ^ n - 1) n F` from what a walk of `n` states by the exact policy meets of it. -/
theorem C178_counts (m : Mdp ℝ) (hM : Spec.SubStochastic m.trans) (hA : 0 < m.nActions) (hS : 0 < m.nStates)
    (ts : List (List Int)) (hne : ts ≠ []) (hts : ∀ t ∈ ts, ∃ i l, t = i :: l ∧ Spec.InRange m.nStates i)
    (n : Nat) (hn : 0 < n) (γ tol : ℝ) (h0 : 0 < γ) (h1 : γ < 1) (htol : 0 < tol) (θ : Nat → ℝ) (R : ℝ) (hR : 0 ≤ R)
    (hr : ∀ s, s < m.nStates → |Spec.weighted m θ s| ≤ R) (V : Nat → ℝ)
    (hV : Spec.SoftBellman m.trans (Spec.weighted m θ) γ V) (E : ℝ)
    (hE : E = max (γ * tol / (1 - γ)) (γ ^ n * ((R + Real.log (m.nActions + 1)) / (1 - γ))))
    (π : Nat → Nat → ℝ) (hπ : Spec.IsPolicy m.trans π) (hp : Spec.TakesPossible m.trans π)
    (he : Spec.Exponential 1 (Spec.exactTable m.trans (Spec.weighted m θ) γ V) π) :
    ∃ g, mceSoft m n γ tol ts θ = .ok g ∧ ∀ f F, 0 ≤ F → (∀ s, s < m.nStates → |m.features.get f s| ≤ F) →
      |g f - Spec.walkFeatures m π ts n f| ≤ (Real.exp (2 * E) ^ n - 1) * (n * F) := by
  obtain ⟨g, ρ, v, q, e1, e2, e3, e4, e5, e6⟩ := C66_expected_soft m hM hA hS ts hts n hn γ tol h0 h1 θ
  obtain ⟨v', q', f1, f2⟩ := C178_planning_soft m.trans hM hA (Spec.weighted m θ) R hR hr γ tol h0 h1 htol V hV n hn
  obtain ⟨-, rfl⟩ := Prod.mk.inj (Except.ok.inj (e5.symm.trans f1))
  have hE' : E = max (γ * tol / (1 - γ)) (γ ^ n * ((R + Real.log (m.trans.nA + 1)) / (1 - γ))) := hE
  rw [← hE'] at f2
  have h1g : 0 < 1 - γ := by linarith
  have hE0 : 0 ≤ E := by rw [hE]; exact le_max_of_le_left (by positivity)
  have hexact : ∀ s a, s < m.trans.nS → a < m.trans.nA → Spec.Possible m.trans s a →
      ∃ x, (Spec.exactTable m.trans (Spec.weighted m θ) γ V).get s a = .fin x := fun s a _ _ h => ⟨_, if_pos h⟩
  have hcomp : ∀ s a, s < m.trans.nS → a < m.trans.nA → Spec.Possible m.trans s a → ∃ x, q s a = .fin x := by
    intro s a hs ha h
    rcases f2.2.2 s a hs ha with ⟨-, e⟩ | ⟨x, y, e, -, -⟩
    · obtain ⟨x, hx⟩ := hexact s a hs ha h
      rw [hx] at e; cases e
    · exact ⟨x, e⟩
  refine ⟨g, e1, fun f F hF hf => ?_⟩
  rw [e4 f]
  refine walkFeatures_close hM (Real.one_le_exp (by linarith)) e2 hπ (fun s a hs hl ha => ?_) (fun s a hs hl ha => ?_)
    ts hne hts n f F hF hf
  · have := exponential_near one_pos f2 rfl rfl hcomp e2 hπ e3 hp e6 he hs hl ha
    rwa [div_one] at this
  · have := exponential_near one_pos (NearTables.symm f2) rfl rfl hexact hπ e2 hp e3 he e6 hs hl ha
    rwa [div_one] at this

/-- With an exponent of 1/10000 (the usual settings, see `C178_expected`), 500 passes and features of at most 1 the
difference is below 0.051. -/
example : (Real.exp (1 / 10 ^ 4) - 1) * (500 * 1) ≤ 51 / 1000 := by
  have := Real.exp_bound_div_one_sub_of_interval (x := 1 / 10 ^ 4) (by norm_num) (by norm_num)
  have h2 : (1 : ℝ) / (1 - 1 / 10 ^ 4) ≤ 1 + 51 / 500000 := by norm_num
  linarith

end MaMDP
