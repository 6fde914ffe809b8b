import Verif.Props.IRL
import Verif.Props.IRLReport

/-! # Totals of observed and expected feature counts; how far an ascent can go -/

set_option linter.unusedSectionVars false

namespace MaMDP

variable {K : Type} [Field K] [LinearOrder K] [IsStrictOrderedRing K]

/-- The total of the features a walk meets, when every state has the same total. -/
theorem walkFeatures_total {m : Mdp K} (hD : Spec.NoDeadEnds m.trans) {π : Nat → Nat → K} (hπ : Spec.IsPolicy m.trans π)
    (hp : Spec.TakesPossible m.trans π) {ts : List (List Int)} (h0 : ts ≠ [])
    (hts : ∀ t ∈ ts, ∃ i l, t = i :: l ∧ Spec.InRange m.nStates i) {c : K}
    (hF : ∀ s, s < m.nStates → ∑ f ∈ Finset.range m.nFeatures, m.features.get f s = c) (n : Nat) :
    ∑ f ∈ Finset.range m.nFeatures, Spec.walkFeatures m π ts n f = c * n := by
  have hd : ∀ k, ∑ s ∈ Finset.range m.nStates, Spec.stateDist m.trans π (Spec.startShare m.nStates ts) k s = 1 :=
    fun k => stateDist_sum hD hπ hp _ (sum_startShare m.nStates ts h0 hts) k
  unfold Spec.walkFeatures
  rw [Finset.sum_comm]
  have : ∀ k ∈ Finset.range n, ∑ f ∈ Finset.range m.nFeatures, ∑ s ∈ Finset.range m.nStates,
      Spec.stateDist m.trans π (Spec.startShare m.nStates ts) k s * m.features.get f s = c := by
    intro k _
    rw [Finset.sum_comm]
    rw [Finset.sum_congr rfl fun s hs => by
      rw [← Finset.mul_sum, hF s (Finset.mem_range.1 hs)], ← Finset.sum_mul, hd k, one_mul]
  rw [Finset.sum_congr rfl this]
  simp [mul_comm]

/-- The total of the observed counts: what is visited is at most 1 in all. -/
theorem observed_total {m : Mdp K} {ts : List (List Int)} (h0 : ts ≠ []) (hne : ∀ t ∈ ts, t ≠ [])
    (hr : ∀ t ∈ ts, ∀ i ∈ t, Spec.InRange m.nStates i) {c : K} (hc : 0 ≤ c)
    (hF : ∀ s, s < m.nStates → ∑ f ∈ Finset.range m.nFeatures, m.features.get f s = c) :
    ∑ f ∈ Finset.range m.nFeatures, observedCounts m ts f ≤ c ∧
      (ts.length = 1 → ∑ f ∈ Finset.range m.nFeatures, observedCounts m ts f = c) := by
  have e : ∑ f ∈ Finset.range m.nFeatures, observedCounts m ts f =
      c * ∑ s ∈ Finset.range m.nStates, Spec.nestedVisits (K := K) m.nStates ts s / (ts.length : K) := by
    unfold observedCounts
    rw [Finset.sum_comm, Finset.mul_sum]
    exact Finset.sum_congr rfl fun s hs => by rw [← Finset.sum_mul, hF s (Finset.mem_range.1 hs)]
  obtain ⟨h1, h2⟩ := C67_total m.nStates ts h0 hne _ ((C67_exact (K := K) m.nStates ts).1 hr)
  rw [e]
  refine ⟨mul_le_of_le_one_right hc h1, fun hl => ?_⟩
  rw [h2.2 (by
    match ts, hl with
    | [t], _ => simp), mul_one]

/-- Expected and observed counts of a feature between 0 and `b`. -/
theorem counts_between {m : Mdp K} {b : K} {f : Nat} (hb : ∀ s, s < m.nStates → 0 ≤ m.features.get f s ∧ m.features.get f s ≤ b)
    {D : Nat → K} (hD : ∀ s, s < m.nStates → 0 ≤ D s) {t : K} (ht : ∑ s ∈ Finset.range m.nStates, D s ≤ t) (h0 : 0 ≤ b) :
    0 ≤ ∑ s ∈ Finset.range m.nStates, m.features.get f s * D s ∧
      ∑ s ∈ Finset.range m.nStates, m.features.get f s * D s ≤ b * t := by
  refine ⟨Finset.sum_nonneg fun s hs => mul_nonneg (hb s (Finset.mem_range.1 hs)).1 (hD s (Finset.mem_range.1 hs)), ?_⟩
  refine le_trans (Finset.sum_le_sum fun s hs => mul_le_mul_of_nonneg_right (hb s (Finset.mem_range.1 hs)).2
    (hD s (Finset.mem_range.1 hs))) ?_
  rw [← Finset.mul_sum]
  exact mul_le_mul_of_nonneg_left ht h0

theorem nestedVisits_nonneg (n : Nat) : ∀ (ts : List (List Int)) (s : Nat), 0 ≤ Spec.nestedVisits (K := K) n ts s
  | [], s => le_refl _
  | t :: ts, s => by
    rw [Spec.nestedVisits]
    refine add_nonneg (div_nonneg (Nat.cast_nonneg _) (List.prod_nonneg fun x hx => ?_)) (nestedVisits_nonneg n ts s)
    obtain ⟨u, -, rfl⟩ := List.mem_map.1 hx
    exact Nat.cast_nonneg _

theorem startShare_nonneg (n : Nat) (ts : List (List Int)) (s : Nat) : 0 ≤ Spec.startShare (K := K) n ts s :=
  div_nonneg (Nat.cast_nonneg _) (Nat.cast_nonneg _)

/-- The difference between observed and expected counts of a feature between 0 and `b`. -/
theorem error_between {m : Mdp K} (hM : Spec.SubStochastic m.trans) {π : Nat → Nat → K} (hπ : Spec.IsPolicy m.trans π)
    {ts : List (List Int)} (h0 : ts ≠ []) (hne : ∀ t ∈ ts, t ≠ []) (hr : ∀ t ∈ ts, ∀ i ∈ t, Spec.InRange m.nStates i)
    {n : Nat} (hn : 0 < n) {b : K} (b0 : 0 ≤ b) {f : Nat}
    (hb : ∀ s, s < m.nStates → 0 ≤ m.features.get f s ∧ m.features.get f s ≤ b) :
    |observedCounts m ts f - Spec.walkFeatures m π ts n f| ≤ b * n := by
  have hts : ∀ t ∈ ts, ∃ i l, t = i :: l ∧ Spec.InRange m.nStates i := by
    intro u hu
    match u, hne u hu, hr u hu with
    | i :: l, _, hr => exact ⟨i, l, rfl, hr i List.mem_cons_self⟩
  have h1 := (C67_total m.nStates ts h0 hne _ ((C67_exact (K := K) m.nStates ts).1 hr)).1
  obtain ⟨o0, o1⟩ := counts_between hb (D := fun s => Spec.nestedVisits m.nStates ts s / (ts.length : K))
    (fun s _ => div_nonneg (nestedVisits_nonneg _ _ _) (Nat.cast_nonneg _)) h1 b0
  have hv := C66_total_le m.trans hM π hπ (Spec.startShare m.nStates ts) (fun s _ => startShare_nonneg _ _ _)
    (sum_startShare (K := K) m.nStates ts h0 hts).le n
  obtain ⟨e0, e1⟩ := counts_between hb
    (fun s hs => C66_nonneg m.trans hM π hπ (Spec.startShare m.nStates ts) (fun s _ => startShare_nonneg _ _ _) n s hs) hv b0
  have hw : Spec.walkFeatures m π ts n f = ∑ s ∈ Finset.range m.nStates, m.features.get f s *
      visitation m.trans π (Spec.startShare m.nStates ts) n s := by
    rw [walkFeatures_eq]
    exact Finset.sum_congr rfl fun s hs => by rw [visitation_eq _ _ _ _ _ (Finset.mem_range.1 hs)]
  rw [hw]
  have hn1 : (1 : K) ≤ n := by exact_mod_cast hn
  have hbn : b * 1 ≤ b * n := mul_le_mul_of_nonneg_left hn1 b0
  unfold observedCounts
  rw [abs_le]
  constructor <;> linarith

/-- The rates used with a decay of at least 1 add up to at most one and a half times the learning rate. -/
theorem sum_actualRate {d : Nat} (hd : 1 ≤ d) {lr : K} (hlr : 0 ≤ lr) (N : Nat) :
    ∑ i ∈ Finset.range N, Spec.actualRate lr d (i + 1) ≤ 3 / 2 * lr := by
  have key : ∀ N : Nat, ∑ i ∈ Finset.range (N + 1), (1 : K) / (((i + 1).factorial : K) * ((i + 1 : Nat) : K)) ≤
      3 / 2 - 1 / (2 * ((N + 1).factorial : K)) := by
    intro N
    induction N with
    | zero => norm_num
    | succ N ih =>
      rw [Finset.sum_range_succ]
      refine le_trans (add_le_add_left ih _) ?_
      have hf : (0 : K) < ((N + 1).factorial : K) := by exact_mod_cast Nat.factorial_pos _
      have e : (((N + 1 + 1).factorial : Nat) : K) = ((N : K) + 2) * ((N + 1).factorial : K) := by
        rw [Nat.factorial_succ]; push_cast; ring
      have hN : (0 : K) ≤ N := Nat.cast_nonneg N
      rw [e]
      have e2 : ((N + 1 + 1 : Nat) : K) = (N : K) + 2 := by push_cast; ring
      rw [e2]
      have h2 : (0 : K) < (N : K) + 2 := by linarith
      have h3 : 1 / (((N : K) + 2) * ((N + 1).factorial : K) * ((N : K) + 2)) ≤
          1 / (2 * ((N + 1).factorial : K)) - 1 / (2 * (((N : K) + 2) * ((N + 1).factorial : K))) := by
        have : 1 / (2 * ((N + 1).factorial : K)) - 1 / (2 * (((N : K) + 2) * ((N + 1).factorial : K))) -
            1 / (((N : K) + 2) * ((N + 1).factorial : K) * ((N : K) + 2)) =
            ((N : K) * (N + 3)) / (2 * ((N : K) + 2) ^ 2 * ((N + 1).factorial : K)) := by
          field_simp
          ring
        have h4 : 0 ≤ ((N : K) * (N + 3)) / (2 * ((N : K) + 2) ^ 2 * ((N + 1).factorial : K)) := by positivity
        linarith
      linarith
  have le1 : ∀ i : Nat, Spec.actualRate lr d (i + 1) ≤ lr * (1 / (((i + 1).factorial : K) * ((i + 1 : Nat) : K))) := by
    intro i
    unfold Spec.actualRate
    rw [mul_one_div, ← mul_pow]
    have h1 : (1 : K) ≤ ((i + 1).factorial : K) * ((i + 1 : Nat) : K) := by
      have : 1 ≤ (i + 1).factorial * (i + 1) := Nat.mul_pos (Nat.factorial_pos _) (Nat.succ_pos _)
      exact_mod_cast this
    exact div_le_div_of_nonneg_left hlr (by linarith) (le_self_pow₀ h1 (by omega))
  refine le_trans (Finset.sum_le_sum fun i _ => le1 i) ?_
  rw [← Finset.mul_sum, mul_comm]
  refine mul_le_mul_of_nonneg_right ?_ hlr
  cases N with
  | zero => norm_num
  | succ N =>
    refine le_trans (key N) ?_
    have : (0 : K) ≤ 1 / (2 * ((N + 1).factorial : K)) := by positivity
    linarith

theorem actualRate_nonneg {lr : K} (hlr : 0 ≤ lr) (d n : Nat) : 0 ≤ Spec.actualRate lr d n :=
  div_nonneg hlr (by positivity)

/-- How far an ascent can go from its start. -/
theorem ascend_reach (ign : Nat → Prop) [DecidablePred ign] {rate : Nat → K} (hrate : ∀ n, 0 ≤ rate n) {obs : Nat → K}
    {E : (Nat → K) → Nat → K} {start : Nat → K} {f : Nat} (hf : ¬ ign f) {B : K} (hB : ∀ x, |obs f - E x f| ≤ B) :
    ∀ N, |Spec.ascend ign rate obs E start N f - start f| ≤ (∑ i ∈ Finset.range N, rate (i + 1)) * B
  | 0 => by simp [Spec.ascend, hf]
  | N + 1 => by
    have ih := ascend_reach ign hrate (start := start) hf hB N
    simp only [Spec.ascend, if_neg hf]
    rw [Finset.sum_range_succ, add_mul]
    set w := Spec.ascend ign rate obs E start N with hw
    have h1 : w f + rate (N + 1) * (obs f - E w f) - start f = (w f - start f) + rate (N + 1) * (obs f - E w f) := by ring
    show |w f + rate (N + 1) * (obs f - E w f) - start f| ≤ _
    rw [h1]
    refine le_trans (abs_add_le _ _) (add_le_add ih ?_)
    rw [abs_mul, abs_of_nonneg (hrate _)]
    exact mul_le_mul_of_nonneg_left (hB w) (hrate _)

/-- The total of the weights along an ascent without ignored features. -/
theorem ascend_total (nF : Nat) (ign : Nat → Prop) [DecidablePred ign] (hno : ∀ f, ¬ ign f) {rate : Nat → K} {obs : Nat → K}
    {E : (Nat → K) → Nat → K} {start : Nat → K} {t u : K} (ho : ∑ f ∈ Finset.range nF, obs f = t)
    (hE : ∀ x, ∑ f ∈ Finset.range nF, E x f = u) :
    ∀ N, ∑ f ∈ Finset.range nF, Spec.ascend ign rate obs E start N f =
      ∑ f ∈ Finset.range nF, start f - (∑ i ∈ Finset.range N, rate (i + 1)) * (u - t)
  | 0 => by simp [Spec.ascend, hno]
  | N + 1 => by
    have ih := ascend_total nF ign hno (rate := rate) (start := start) ho hE N
    have e : ∀ f ∈ Finset.range nF, Spec.ascend ign rate obs E start (N + 1) f =
        Spec.ascend ign rate obs E start N f + rate (N + 1) * (obs f - E (Spec.ascend ign rate obs E start N) f) := by
      intro f _
      simp only [Spec.ascend, if_neg (hno f)]
    rw [Finset.sum_congr rfl e, Finset.sum_add_distrib, ih, ← Finset.mul_sum, Finset.sum_sub_distrib, ho, hE,
      Finset.sum_range_succ]
    ring

end MaMDP
