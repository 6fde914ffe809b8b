import Verif.Spec.Temperature
import Verif.Props.ActionSelection
import Mathlib.Analysis.SpecialFunctions.Log.Basic
import Mathlib.Topology.Algebra.Order.Field
import Mathlib.Tactic.FieldSimp
import Mathlib.Tactic.Positivity

/-! # C105: the softmax temperature -/

set_option linter.unusedSectionVars false

namespace MaMDP

open Filter Topology

/-- **C105**: the probabilities are proportional to the weights. -/
theorem C105_exact (T : ℝ) (hT : 0 < T) (q : Arr2 (Ext ℝ)) (sel : Selector ℝ ℝ) (hsel : mkSoftmax T = .ok sel)
    (P : Arr2 (Ext ℝ)) (hP : sel.piP q = .ok P) (s : Nat) (hs : s < q.d0)
    (hp : ∀ a, a < q.d1 → q.get s a ≠ .pinf) (hf : ∃ a x, a < q.d1 ∧ q.get s a = .fin x) :
    0 < ∑ b ∈ Finset.range q.d1, Spec.weight T (q.get s b) ∧ ∀ a, a < q.d1 →
      P.get s a = .fin (Spec.weight T (q.get s a) / ∑ b ∈ Finset.range q.d1, Spec.weight T (q.get s b)) := by
  obtain ⟨a0, x0, ha0, hx0⟩ := hf
  have hne : ∃ s, s < q.d0 ∧ ¬ Spec.NoEstimate q s := ⟨s, hs, fun h => by rw [h a0 ha0] at hx0; cases hx0⟩
  obtain ⟨sel', P', h1, h2, -, -, h3⟩ := C25_softmax_pi_p T hT q hne
  rw [hsel] at h1; cases h1
  rw [hP] at h2; cases h2
  obtain ⟨p, hp1, hp2, hp3, -, hp5⟩ := (h3 s hs).2 ⟨⟨a0, ha0, by rw [hx0]; simp⟩, fun h => by
    obtain ⟨⟨a, ha, hc⟩, -⟩ := h; exact hp a ha hc⟩ hp
  have hfin := hp3 ⟨a0, x0, ha0, hx0⟩
  have hpa : ∀ a, a < q.d1 → p a = p a0 * Real.exp (-(x0 / T)) * Spec.weight T (q.get s a) := by
    intro a ha
    cases hq : q.get s a with
    | pinf => exact absurd hq (hp a ha)
    | nan => rw [(hfin a ha).1 (.inr hq)]; simp [Spec.weight]
    | ninf => rw [(hfin a ha).1 (.inl hq)]; simp [Spec.weight]
    | fin x =>
      rw [(hp5 a a0 x x0 ha ha0 hq hx0).1, mul_assoc]
      unfold Spec.weight
      rw [← Real.exp_add]
      congr 2
      ring
  have hpos : 0 < ∑ b ∈ Finset.range q.d1, Spec.weight T (q.get s b) := by
    refine Finset.sum_pos' (fun b _ => ?_) ⟨a0, Finset.mem_range.2 ha0, ?_⟩
    · unfold Spec.weight; split
      · exact (Real.exp_pos _).le
      · exact le_rfl
    · rw [hx0]; exact Real.exp_pos _
  refine ⟨hpos, fun a ha => ?_⟩
  rw [(hp1 a ha).1, hpa a ha]
  rw [Finset.sum_congr rfl fun a ha => hpa a (Finset.mem_range.1 ha), ← Finset.mul_sum] at hp2
  congr 1
  rw [eq_div_iff hpos.ne', mul_right_comm, hp2, one_mul]

/-- Weights are not negative. -/
theorem weight_nonneg (T : ℝ) (e : Ext ℝ) : 0 ≤ Spec.weight T e := by
  unfold Spec.weight; split
  · exact (Real.exp_pos _).le
  · exact le_rfl

/-- A best action of a row with a finite and no infinite estimate is finite. -/
theorem best_fin {q : Arr2 (Ext ℝ)} {s : Nat} (hp : ∀ a, a < q.d1 → q.get s a ≠ .pinf)
    (hf : ∃ a x, a < q.d1 ∧ q.get s a = .fin x) {a : Nat} (ha : Spec.IsBest q s a) : ∃ m, q.get s a = .fin m := by
  obtain ⟨b, x, hb, hx⟩ := hf
  have h := ha.2 b hb
  rw [hx] at h
  cases hq : q.get s a with
  | fin m => exact ⟨m, rfl⟩
  | pinf => exact absurd hq (hp a ha.1)
  | nan => rw [hq] at h; exact h.elim
  | ninf => rw [hq] at h; exact h.elim

theorem exists_best (q : Arr2 (Ext ℝ)) {s : Nat} (hd : 0 < q.d1) : ∃ a, Spec.IsBest q s a := by
  obtain ⟨a, ha⟩ := List.exists_mem_of_ne_nil _ (maxActions_ne_nil (fun a => (q.get s a).clean) hd)
  exact ⟨a, mem_maxActions_isBest.1 ha⟩

/-- **C105**, bound: an action that is worse by `x - y` than some other has a probability of at most
`exp (-(x - y) / T)`. -/
theorem C105_bound (T : ℝ) (hT : 0 < T) (q : Arr2 (Ext ℝ)) (sel : Selector ℝ ℝ) (hsel : mkSoftmax T = .ok sel)
    (P : Arr2 (Ext ℝ)) (hP : sel.piP q = .ok P) (s : Nat) (hs : s < q.d0)
    (hp : ∀ a, a < q.d1 → q.get s a ≠ .pinf) (a b : Nat) (x y : ℝ) (ha : a < q.d1) (hb : b < q.d1)
    (hx : q.get s a = .fin x) (hy : q.get s b = .fin y) :
    ∃ p, P.get s b = .fin p ∧ p ≤ Real.exp (-((x - y) / T)) := by
  obtain ⟨hpos, h⟩ := C105_exact T hT q sel hsel P hP s hs hp ⟨a, x, ha, hx⟩
  refine ⟨_, h b hb, ?_⟩
  rw [div_le_iff₀ hpos]
  have h1 : Spec.weight T (q.get s a) ≤ ∑ b ∈ Finset.range q.d1, Spec.weight T (q.get s b) :=
    Finset.single_le_sum (f := fun b => Spec.weight T (q.get s b)) (fun b _ => weight_nonneg T _)
      (Finset.mem_range.2 ha)
  have h2 : Spec.weight T (q.get s b) = Real.exp (-((x - y) / T)) * Spec.weight T (q.get s a) := by
    rw [hx, hy]; unfold Spec.weight; rw [← Real.exp_add]; ring_nf
  rw [h2]
  exact mul_le_mul_of_nonneg_left h1 (Real.exp_pos _).le

/-- **C105**, order: cooling makes a best action no less likely. -/
theorem C105_monotone (T U : ℝ) (hT : 0 < T) (hTU : T ≤ U) (q : Arr2 (Ext ℝ)) (sel sel' : Selector ℝ ℝ)
    (hsel : mkSoftmax T = .ok sel) (hsel' : mkSoftmax U = .ok sel') (P P' : Arr2 (Ext ℝ)) (hP : sel.piP q = .ok P)
    (hP' : sel'.piP q = .ok P') (s : Nat) (hs : s < q.d0) (hp : ∀ a, a < q.d1 → q.get s a ≠ .pinf)
    (hf : ∃ a x, a < q.d1 ∧ q.get s a = .fin x) (a : Nat) (ha : Spec.IsBest q s a) :
    ∃ p p', P.get s a = .fin p ∧ P'.get s a = .fin p' ∧ p' ≤ p := by
  have hU : 0 < U := lt_of_lt_of_le hT hTU
  obtain ⟨hpos, h⟩ := C105_exact T hT q sel hsel P hP s hs hp hf
  obtain ⟨hpos', h'⟩ := C105_exact U hU q sel' hsel' P' hP' s hs hp hf
  refine ⟨_, _, h a ha.1, h' a ha.1, ?_⟩
  obtain ⟨m, hm⟩ := best_fin hp hf ha
  rw [div_le_div_iff₀ hpos' hpos, Finset.mul_sum, Finset.mul_sum]
  refine Finset.sum_le_sum fun b hb => ?_
  have hb := Finset.mem_range.1 hb
  cases hq : q.get s b with
  | pinf => exact absurd hq (hp b hb)
  | nan => simp [Spec.weight]
  | ninf => simp [Spec.weight]
  | fin y =>
    have hle := ha.2 b hb
    rw [hq, hm] at hle
    have hle : y ≤ m := hle
    rw [hm]
    unfold Spec.weight
    rw [← Real.exp_add, ← Real.exp_add]
    apply Real.exp_le_exp.2
    have h1 : (m - y) / U ≤ (m - y) / T := div_le_div_of_nonneg_left (by linarith) hT hTU
    have e1 : (m - y) / U = m / U - y / U := by ring
    have e2 : (m - y) / T = m / T - y / T := by ring
    linarith

/-- The limit of the probabilities, given limits of the shifted weights. -/
theorem prob_tendsto {n : Nat} {w : ℝ → Nat → ℝ} {l : Nat → ℝ} {F : Filter ℝ}
    (h : ∀ a, a < n → Tendsto (fun T => w T a) F (𝓝 (l a))) (hl : 0 < ∑ b ∈ Finset.range n, l b) (a : Nat)
    (ha : a < n) :
    Tendsto (fun T => w T a / ∑ b ∈ Finset.range n, w T b) F (𝓝 (l a / ∑ b ∈ Finset.range n, l b)) :=
  (h a ha).div (tendsto_finsetSum _ fun b hb => h b (Finset.mem_range.1 hb)) hl.ne'

/-- Cooling: the weights relative to the best value. -/
theorem cold_weight (m x : ℝ) (h : x ≤ m) :
    Tendsto (fun T => Real.exp ((x - m) / T)) (𝓝[>] 0) (𝓝 (if x = m then 1 else 0)) := by
  split_ifs with he
  · rw [he]; simp
  · have hlt : x - m < 0 := by rcases lt_or_eq_of_le h with h | h; linarith; exact absurd h he
    have h1 : Tendsto (fun T : ℝ => (x - m) * T⁻¹) (𝓝[>] 0) atBot :=
      tendsto_inv_nhdsGT_zero.const_mul_atTop_of_neg hlt
    exact Real.tendsto_exp_atBot.comp h1

/-- Heating: all weights become 1. -/
theorem hot_weight (x : ℝ) : Tendsto (fun T => Real.exp (x / T)) atTop (𝓝 1) := by
  have h1 : Tendsto (fun T : ℝ => x / T) atTop (𝓝 0) := tendsto_const_nhds.div_atTop tendsto_id
  have := (Real.continuous_exp.tendsto 0).comp h1
  rwa [Real.exp_zero] at this

open Classical in
/-- The greedy probabilities of a row, as a quotient. -/
theorem greedy_row {q : Arr2 (Ext ℝ)} {G : Arr2 (Ext ℝ)} (hG : maxSelector.piP q = .ok G) {s : Nat} (hs : s < q.d0)
    (hp : ∀ a, a < q.d1 → q.get s a ≠ .pinf) (hf : ∃ a x, a < q.d1 ∧ q.get s a = .fin x) :
    0 < ∑ b ∈ Finset.range q.d1, (if Spec.IsBest q s b then (1 : ℝ) else 0) ∧ ∀ a, a < q.d1 →
      G.get s a = .fin ((if Spec.IsBest q s a then 1 else 0) /
        ∑ b ∈ Finset.range q.d1, if Spec.IsBest q s b then (1 : ℝ) else 0) := by
  obtain ⟨a0, x0, ha0, hx0⟩ := hf
  have hne : ∃ s, s < q.d0 ∧ ¬ Spec.NoEstimate q s := ⟨s, hs, fun h => by rw [h a0 ha0] at hx0; cases hx0⟩
  obtain ⟨G', h1, -, -, h2⟩ := (C23_max_pi_p q).2 hne
  rw [hG] at h1; cases h1
  obtain ⟨g, g1, g2, -, g4, g5⟩ := (h2 s hs).2 ⟨⟨a0, ha0, by rw [hx0]; simp⟩, fun h => by
    obtain ⟨⟨a, ha, hc⟩, -⟩ := h; exact hp a ha hc⟩
  obtain ⟨k, hk⟩ := exists_best q (s := s) (by omega : 0 < q.d1)
  have hga : ∀ a, a < q.d1 → g a = g k * (if Spec.IsBest q s a then 1 else 0) := by
    intro a ha
    split_ifs with hb
    · rw [g4 a k hb hk, mul_one]
    · rw [g5 a ha hb, mul_zero]
  have hpos : 0 < ∑ b ∈ Finset.range q.d1, (if Spec.IsBest q s b then (1 : ℝ) else 0) :=
    Finset.sum_pos' (fun b _ => by split_ifs <;> norm_num) ⟨k, Finset.mem_range.2 hk.1, by rw [if_pos hk]; norm_num⟩
  refine ⟨hpos, fun a ha => ?_⟩
  rw [g1 a ha, hga a ha]
  rw [Finset.sum_congr rfl fun a ha => hga a (Finset.mem_range.1 ha), ← Finset.mul_sum] at g2
  congr 1
  rw [eq_div_iff hpos.ne', mul_right_comm, g2, one_mul]

/-- The weights relative to a value `m`. -/
theorem weight_shift {n : Nat} (e : Nat → Ext ℝ) (m T : ℝ) (a : Nat) :
    Spec.weight T (e a) / ∑ b ∈ Finset.range n, Spec.weight T (e b) =
      (match e a with | .fin x => Real.exp ((x - m) / T) | _ => 0) /
        ∑ b ∈ Finset.range n, match e b with | .fin x => Real.exp ((x - m) / T) | _ => 0 := by
  have h : ∀ b, Spec.weight T (e b) =
      Real.exp (m / T) * (match e b with | .fin x => Real.exp ((x - m) / T) | _ => 0) := by
    intro b
    cases e b with
    | fin x => simp only [Spec.weight]; rw [← Real.exp_add]; congr 1; ring
    | nan => simp [Spec.weight]
    | ninf => simp [Spec.weight]
    | pinf => simp [Spec.weight]
  rw [h a, Finset.sum_congr rfl fun b _ => h b, ← Finset.mul_sum, mul_div_mul_left _ _ (Real.exp_pos _).ne']

/-- What is eventually true of every state and action is eventually true of all. -/
theorem eventually_rows {F : Filter ℝ} {n k : Nat} {p : ℝ → Nat → Nat → Prop}
    (h : ∀ s, s < n → ∀ a, a < k → ∀ᶠ T in F, p T s a) : ∀ᶠ T in F, ∀ s, s < n → ∀ a, a < k → p T s a := by
  have h1 : ∀ᶠ T in F, ∀ s ∈ Finset.range n, ∀ a ∈ Finset.range k, p T s a :=
    (Filter.eventually_all_finset _).2 fun s hs => (Filter.eventually_all_finset _).2 fun a ha =>
      h s (Finset.mem_range.1 hs) a (Finset.mem_range.1 ha)
  exact h1.mono fun T hT s hs a ha => hT s (Finset.mem_range.2 hs) a (Finset.mem_range.2 ha)

/-- **C105**, cooling: as the temperature goes to 0 the softmax policy becomes the greedy policy, ties included. -/
theorem C105_cold (q : Arr2 (Ext ℝ)) (G : Arr2 (Ext ℝ)) (hG : maxSelector.piP q = .ok G) (ε : ℝ) (hε : 0 < ε) :
    ∃ T0, 0 < T0 ∧ ∀ T, 0 < T → T < T0 → ∃ sel P, mkSoftmax T = .ok sel ∧ sel.piP q = .ok P ∧
      ∀ s, s < q.d0 → (∀ a, a < q.d1 → q.get s a ≠ .pinf) → (∃ a x, a < q.d1 ∧ q.get s a = .fin x) →
        ∀ a, a < q.d1 → ∃ p g, P.get s a = .fin p ∧ G.get s a = .fin g ∧ |p - g| < ε := by
  classical
  have hne : ∃ s, s < q.d0 ∧ ¬ Spec.NoEstimate q s := by
    by_contra hc
    push Not at hc
    rw [(C23_max_pi_p q).1 hc] at hG
    cases hG
  have hev : ∀ᶠ T : ℝ in 𝓝[>] 0, ∀ s, s < q.d0 → ∀ a, a < q.d1 → (∀ a, a < q.d1 → q.get s a ≠ .pinf) →
      (∃ a x, a < q.d1 ∧ q.get s a = .fin x) →
      |Spec.weight T (q.get s a) / (∑ b ∈ Finset.range q.d1, Spec.weight T (q.get s b)) -
        (if Spec.IsBest q s a then 1 else 0) /
          (∑ b ∈ Finset.range q.d1, if Spec.IsBest q s b then (1 : ℝ) else 0)| < ε := by
    refine eventually_rows fun s hs a ha => ?_
    by_cases hp : ∀ a, a < q.d1 → q.get s a ≠ .pinf
    swap
    · exact Filter.Eventually.of_forall fun T h => absurd h hp
    by_cases hf : ∃ a x, a < q.d1 ∧ q.get s a = .fin x
    swap
    · exact Filter.Eventually.of_forall fun T _ h => absurd h hf
    obtain ⟨k, hk⟩ := exists_best q (s := s) (by omega : 0 < q.d1)
    obtain ⟨m, hm⟩ := best_fin hp hf hk
    have hlim : ∀ b, b < q.d1 → Tendsto
        (fun T => match q.get s b with | .fin x => Real.exp ((x - m) / T) | _ => 0) (𝓝[>] (0 : ℝ))
        (𝓝 (if Spec.IsBest q s b then 1 else 0)) := by
      intro b hb
      have hnb := hk.2 b hb
      rw [hm] at hnb
      cases hq : q.get s b with
      | pinf => exact absurd hq (hp b hb)
      | nan =>
        rw [if_neg (fun h => by obtain ⟨m', h'⟩ := best_fin hp hf h; rw [hq] at h'; cases h')]
        exact tendsto_const_nhds
      | ninf =>
        rw [if_neg (fun h => by obtain ⟨m', h'⟩ := best_fin hp hf h; rw [hq] at h'; cases h')]
        exact tendsto_const_nhds
      | fin x =>
        rw [hq] at hnb
        have hle : x ≤ m := hnb
        have hiff : Spec.IsBest q s b ↔ x = m := by
          constructor
          · intro h
            have := h.2 k hk.1
            rw [hm, hq] at this
            exact le_antisymm hle this
          · intro h
            refine ⟨hb, fun c hc => ?_⟩
            rw [hq, h, ← hm]; exact hk.2 c hc
        have := cold_weight m x hle
        by_cases he : x = m
        · rw [if_pos he] at this; rw [if_pos (hiff.2 he)]; exact this
        · rw [if_neg he] at this; rw [if_neg (fun h => he (hiff.1 h))]; exact this
    have h1 := prob_tendsto hlim (greedy_row hG hs hp hf).1 a ha
    have h2 := (Metric.tendsto_nhds.1 h1) ε hε
    refine h2.mono fun T hT _ _ => ?_
    rw [weight_shift (q.get s) m T a]
    rw [Real.dist_eq] at hT
    exact hT
  obtain ⟨T0, hT0, hsub⟩ := mem_nhdsGT_iff_exists_Ioo_subset.1 hev
  refine ⟨T0, hT0, fun T hT hTT => ?_⟩
  obtain ⟨sel, P, h1, h2, -⟩ := C25_softmax_pi_p T hT q hne
  refine ⟨sel, P, h1, h2, fun s hs hp hf a ha => ⟨_, _, (C105_exact T hT q sel h1 P h2 s hs hp hf).2 a ha,
    (greedy_row hG hs hp hf).2 a ha, hsub ⟨hT, hTT⟩ s hs a ha hp hf⟩⟩

theorem choices_eq (q : Arr2 (Ext ℝ)) (s : Nat) : (Spec.choices q s : ℝ) =
    ∑ b ∈ Finset.range q.d1, match q.get s b with | .fin _ => (1 : ℝ) | _ => 0 := by
  unfold Spec.choices
  induction q.d1 with
  | zero => simp
  | succ n ih =>
    rw [List.range_succ, List.filter_append, List.length_append, Finset.sum_range_succ, ← ih]
    push_cast
    congr 1
    cases h : q.get s n <;> simp [h]

/-- **C105**, heating: as the temperature grows, the policy becomes uniform over the actions with a finite
estimate. -/
theorem C105_hot (q : Arr2 (Ext ℝ)) (hne : ∃ s, s < q.d0 ∧ ¬ Spec.NoEstimate q s) (ε : ℝ) (hε : 0 < ε) :
    ∃ T0, 0 < T0 ∧ ∀ T, T0 < T → ∃ sel P, mkSoftmax T = .ok sel ∧ sel.piP q = .ok P ∧
      ∀ s, s < q.d0 → (∀ a, a < q.d1 → q.get s a ≠ .pinf) → ∀ a x, a < q.d1 → q.get s a = .fin x →
        ∃ p, P.get s a = .fin p ∧ |p - 1 / Spec.choices q s| < ε := by
  have hev : ∀ᶠ T : ℝ in atTop, ∀ s, s < q.d0 → ∀ a, a < q.d1 → ∀ x, q.get s a = .fin x →
      |Spec.weight T (q.get s a) / (∑ b ∈ Finset.range q.d1, Spec.weight T (q.get s b)) -
        1 / Spec.choices q s| < ε := by
    refine eventually_rows fun s hs a ha => ?_
    by_cases hx : ∃ x, q.get s a = .fin x
    swap
    · exact Filter.Eventually.of_forall fun T x h => absurd ⟨x, h⟩ hx
    obtain ⟨x, hx⟩ := hx
    have hlim : ∀ b, b < q.d1 → Tendsto (fun T => Spec.weight T (q.get s b)) atTop
        (𝓝 (match q.get s b with | .fin _ => (1 : ℝ) | _ => 0)) := by
      intro b _
      cases q.get s b with
      | fin y => exact hot_weight y
      | nan => exact tendsto_const_nhds
      | ninf => exact tendsto_const_nhds
      | pinf => exact tendsto_const_nhds
    have hpos : 0 < ∑ b ∈ Finset.range q.d1, match q.get s b with | .fin _ => (1 : ℝ) | _ => 0 :=
      Finset.sum_pos' (fun b _ => by cases q.get s b <;> norm_num)
        ⟨a, Finset.mem_range.2 ha, by rw [hx]; norm_num⟩
    have h1 := prob_tendsto hlim hpos a ha
    rw [← choices_eq] at h1
    have h2 := (Metric.tendsto_nhds.1 h1) ε hε
    refine h2.mono fun T hT y _ => ?_
    rw [Real.dist_eq] at hT
    simp only [hx] at hT ⊢
    exact hT
  obtain ⟨T0, hT0⟩ := Filter.eventually_atTop.1 hev
  refine ⟨max T0 1, lt_max_of_lt_right one_pos, fun T hT => ?_⟩
  have hTpos : 0 < T := lt_of_lt_of_le one_pos ((le_max_right _ _).trans hT.le)
  obtain ⟨sel, P, h1, h2, -⟩ := C25_softmax_pi_p T hTpos q hne
  refine ⟨sel, P, h1, h2, fun s hs hp a x ha hx => ⟨_, (C105_exact T hTpos q sel h1 P h2 s hs hp ⟨a, x, ha, hx⟩).2 a ha,
    hT0 T ((le_max_left _ _).trans hT.le) s hs a ha x hx⟩⟩

/-- **C105**, loss: the expected estimate under the softmax policy is below the best one by at most the
temperature times the logarithm of the number of choices. -/
theorem C105_loss (T : ℝ) (hT : 0 < T) (q : Arr2 (Ext ℝ)) (sel : Selector ℝ ℝ) (hsel : mkSoftmax T = .ok sel)
    (P : Arr2 (Ext ℝ)) (hP : sel.piP q = .ok P) (s : Nat) (hs : s < q.d0)
    (hp : ∀ a, a < q.d1 → q.get s a ≠ .pinf) (b : Nat) (y : ℝ) (hb : b < q.d1) (hy : q.get s b = .fin y)
    (val : Nat → ℝ) (hval : ∀ a x, a < q.d1 → q.get s a = .fin x → val a = x) :
    ∃ p : Nat → ℝ, (∀ a, a < q.d1 → P.get s a = .fin (p a)) ∧
      y ≤ ∑ a ∈ Finset.range q.d1, p a * val a + T * Real.log (Spec.choices q s) := by
  obtain ⟨hpos, h⟩ := C105_exact T hT q sel hsel P hP s hs hp ⟨b, y, hb, hy⟩
  refine ⟨_, h, ?_⟩
  set Z := ∑ b ∈ Finset.range q.d1, Spec.weight T (q.get s b) with hZ
  set n : ℝ := (Spec.choices q s : ℝ) with hn
  have hsum : ∑ a ∈ Finset.range q.d1, Spec.weight T (q.get s a) / Z = 1 := by
    rw [← Finset.sum_div, ← hZ, div_self hpos.ne']
  have hne := choices_eq q s
  have hn1 : 0 < n := by
    rw [hn, hne]
    exact Finset.sum_pos' (fun b _ => by cases q.get s b <;> norm_num)
      ⟨b, Finset.mem_range.2 hb, by rw [hy]; norm_num⟩
  have hyZ : y / T ≤ Real.log Z := by
    rw [Real.le_log_iff_exp_le hpos]
    have : Spec.weight T (q.get s b) ≤ Z :=
      Finset.single_le_sum (f := fun b => Spec.weight T (q.get s b)) (fun b _ => weight_nonneg T _)
        (Finset.mem_range.2 hb)
    rw [hy] at this; exact this
  have hterm : ∀ a ∈ Finset.range q.d1, Spec.weight T (q.get s a) / Z * (Real.log Z - val a / T - Real.log n) ≤
      (match q.get s a with | .fin _ => (1 : ℝ) | _ => 0) / n - Spec.weight T (q.get s a) / Z := by
    intro a ha
    have ha := Finset.mem_range.1 ha
    cases hq : q.get s a with
    | pinf => exact absurd hq (hp a ha)
    | nan => simp [Spec.weight]
    | ninf => simp [Spec.weight]
    | fin x =>
      rw [hval a x ha hq]
      simp only [Spec.weight]
      set w := Real.exp (x / T) with hw
      have hwp : 0 < w := Real.exp_pos _
      have h1 : Real.log Z - x / T - Real.log n = Real.log (Z / (w * n)) := by
        rw [Real.log_div hpos.ne' (mul_pos hwp hn1).ne', Real.log_mul hwp.ne' hn1.ne', hw, Real.log_exp]
        ring
      have h2 := Real.log_le_sub_one_of_pos (div_pos hpos (mul_pos hwp hn1))
      rw [h1]
      have h3 := mul_le_mul_of_nonneg_left h2 (div_pos hwp hpos).le
      refine h3.trans (le_of_eq ?_)
      field_simp
  have hall := Finset.sum_le_sum hterm
  rw [Finset.sum_sub_distrib, hsum, ← Finset.sum_div, ← hne, ← hn, div_self hn1.ne', sub_self] at hall
  have he : ∑ a ∈ Finset.range q.d1, Spec.weight T (q.get s a) / Z * (Real.log Z - val a / T - Real.log n) =
      Real.log Z - Real.log n - (∑ a ∈ Finset.range q.d1, Spec.weight T (q.get s a) / Z * val a) / T := by
    have : ∀ a ∈ Finset.range q.d1, Spec.weight T (q.get s a) / Z * (Real.log Z - val a / T - Real.log n) =
        Spec.weight T (q.get s a) / Z * (Real.log Z - Real.log n) - Spec.weight T (q.get s a) / Z * val a / T := by
      intro a _; ring
    rw [Finset.sum_congr rfl this, Finset.sum_sub_distrib, ← Finset.sum_mul, hsum, one_mul, Finset.sum_div]
  rw [he] at hall
  have h4 : y / T ≤ (∑ a ∈ Finset.range q.d1, Spec.weight T (q.get s a) / Z * val a) / T + Real.log n := by linarith
  have h5 := mul_le_mul_of_nonneg_left h4 hT.le
  rw [mul_add, mul_div_cancel₀ _ hT.ne', mul_div_cancel₀ _ hT.ne'] at h5
  exact h5

/-- A table with a state of every kind: two finite estimates and an impossible action, a tie, no estimate. -/
noncomputable def exTemperature : Arr2 (Ext ℝ) := ⟨3, 3, fun s a =>
  if s = 0 then (if a = 0 then .fin 1 else if a = 1 then .fin 3 else .ninf)
  else if s = 1 then (if a = 0 then .fin 2 else if a = 1 then .nan else .fin 2) else .nan⟩

example : (∀ a, a < exTemperature.d1 → exTemperature.get 0 a ≠ .pinf) ∧ exTemperature.get 0 0 = .fin 1 ∧
    exTemperature.get 0 1 = .fin 3 ∧ Spec.IsBest exTemperature 0 1 ∧ Spec.choices exTemperature 0 = 2 ∧
    (∃ G, maxSelector.piP exTemperature = .ok G) ∧
    ∃ sel P, mkSoftmax (1 / 2 : ℝ) = .ok sel ∧ sel.piP exTemperature = .ok P := by
  have hne : ∃ s, s < exTemperature.d0 ∧ ¬ Spec.NoEstimate exTemperature s :=
    ⟨0, by decide, fun h => by simpa [exTemperature] using h 0 (by decide)⟩
  refine ⟨?_, by simp [exTemperature], by simp [exTemperature], ⟨by decide, ?_⟩, ?_, ?_, ?_⟩
  · intro a ha
    have ha : a < 3 := ha
    interval_cases a <;> simp [exTemperature]
  · intro b hb
    have hb : b < 3 := hb
    interval_cases b <;> simp [exTemperature, Spec.NoBetter]
  · simp [Spec.choices, exTemperature, List.range_succ]
  · obtain ⟨G, h, -⟩ := (C23_max_pi_p exTemperature).2 hne
    exact ⟨G, h⟩
  · obtain ⟨sel, P, h1, h2, -⟩ := C25_softmax_pi_p (1 / 2) (by norm_num) exTemperature hne
    exact ⟨sel, P, h1, h2⟩

end MaMDP
