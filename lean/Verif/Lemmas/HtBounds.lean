/- Lemmas for C159: weights learned by hypothesis testing stay in the range of the evidence. -/
import Verif.Lemmas.Hyptest
import Verif.Lemmas.RandomWalk
import Verif.Spec.HtBounds
import Mathlib.Tactic.Linarith

set_option linter.unusedSectionVars false

namespace MaMDP

variable {K : Type} [Field K] [LinearOrder K] [IsStrictOrderedRing K]

/-- A share of the way from `w` to `x` stays between bounds on both. -/
theorem between_of_share {lo hi w x r : K} (h0 : 0 ≤ r) (h1 : r ≤ 1) (hw : lo ≤ w ∧ w ≤ hi) (hx : lo ≤ x ∧ x ≤ hi) :
    lo ≤ w + r * (x - w) ∧ w + r * (x - w) ≤ hi := by
  have e : w + r * (x - w) = (1 - r) * w + r * x := by ring
  rw [e]
  have hr : 0 ≤ 1 - r := by linarith
  constructor
  · have := mul_le_mul_of_nonneg_left hw.1 hr
    have := mul_le_mul_of_nonneg_left hx.1 h0
    nlinarith
  · have := mul_le_mul_of_nonneg_left hw.2 hr
    have := mul_le_mul_of_nonneg_left hx.2 h0
    nlinarith

theorem htRate_nonneg (set : HtSettings K) (hl : 0 ≤ set.lr) (ha : 0 ≤ set.asymmetry) (n : Nat) (x w : K) :
    0 ≤ Spec.htRate set n x w := by
  unfold Spec.htRate
  split_ifs
  · exact hl
  · exact div_nonneg (mul_nonneg hl ha) (pow_nonneg (Nat.cast_nonneg _) _)
  · exact div_nonneg (div_nonneg hl ha) (pow_nonneg (Nat.cast_nonneg _) _)

theorem htRate_le_one (set : HtSettings K) (hl : 0 ≤ set.lr) (ha : 1 ≤ set.asymmetry)
    (h : Spec.Gentle set) (n : Nat) (hn : 1 ≤ n) (x w : K) : Spec.htRate set n x w ≤ 1 := by
  unfold Spec.Gentle at h
  unfold Spec.htRate
  have hp : (1 : K) ≤ (n : K) ^ set.decay := one_le_pow₀ (by exact_mod_cast hn)
  have hp0 : (0 : K) < (n : K) ^ set.decay := lt_of_lt_of_le one_pos hp
  split_ifs with hd hc
  · rwa [if_pos hd] at h
  · rw [if_neg hd] at h
    rw [div_le_one hp0]; exact h.trans hp
  · rw [if_neg hd] at h
    rw [div_le_one hp0]
    refine le_trans ?_ (h.trans hp)
    rw [div_le_iff₀ (lt_of_lt_of_le one_pos ha)]
    have : set.lr * 1 ≤ set.lr * set.asymmetry := mul_le_mul_of_nonneg_left ha hl
    have : set.lr * set.asymmetry * 1 ≤ set.lr * set.asymmetry * set.asymmetry :=
      mul_le_mul_of_nonneg_left ha (mul_nonneg hl (zero_le_one.trans ha))
    linarith

theorem htEstimate_between (set : HtSettings K) (hl : 0 ≤ set.lr) (ha : 1 ≤ set.asymmetry) (h : Spec.Gentle set)
    {lo hi : K} : ∀ (xs : List K) (n : Nat) (w : K), 1 ≤ n → lo ≤ w ∧ w ≤ hi → (∀ x ∈ xs, lo ≤ x ∧ x ≤ hi) →
    lo ≤ Spec.htEstimate set n w xs ∧ Spec.htEstimate set n w xs ≤ hi
  | [], n, w, _, hw, _ => hw
  | x :: xs, n, w, hn, hw, hx => by
    rw [Spec.htEstimate]
    exact htEstimate_between set hl ha h xs (n + 1) _ (by omega)
      (between_of_share (htRate_nonneg set hl (zero_le_one.trans ha) n x w) (htRate_le_one set hl ha h n hn x w) hw
        (hx x List.mem_cons_self)) fun y hy => hx y (List.mem_cons_of_mem _ hy)

/-- Cauchy–Schwarz for a list against the constant one. -/
theorem sq_sum_le : ∀ l : List ℝ, l.sum ^ 2 ≤ l.length * (l.map fun v => v ^ 2).sum
  | [] => by simp
  | a :: l => by
    have ih := sq_sum_le l
    simp only [List.sum_cons, List.length_cons, List.map_cons]
    push_cast
    cases l with
    | nil => simp
    | cons b l =>
      set n : ℝ := ((b :: l).length : ℝ) with hn
      have hn0 : 0 < n := by rw [hn]; exact_mod_cast Nat.succ_pos _
      set S := (b :: l).sum
      set Q := ((b :: l).map fun v => v ^ 2).sum
      have h1 : n * (2 * a * S) ≤ n * (n * a ^ 2 + Q) := by nlinarith [sq_nonneg (n * a - S)]
      have h2 := le_of_mul_le_mul_left h1 hn0
      nlinarith

/-- A standard score among `n` values is at most `√(n - 1)` in size. -/
theorem score_bound (l : List ℝ) (v : ℝ) (hv : v ∈ l) (hs : listStd l ≠ 0) :
    |(v - listMean l) / listStd l| ≤ Real.sqrt ((l.length : ℝ) - 1) := by
  set μ := listMean l with hμ
  have hlen : 0 < l.length := List.length_pos_of_mem hv
  have hlen' : (0 : ℝ) < l.length := by exact_mod_cast hlen
  have hvar : listStd l ^ 2 * l.length = (l.map fun x => (x - μ) ^ 2).sum := by
    unfold listStd
    rw [Real.sq_sqrt]
    · rw [← hμ, listMean, List.length_map]
      field_simp
    · unfold listMean
      refine div_nonneg (List.sum_nonneg ?_) (Nat.cast_nonneg _)
      intro y hy
      obtain ⟨u, _, rfl⟩ := List.mem_map.1 hy
      exact sq_nonneg _
  have hsum0 : (l.map fun x => x - μ).sum = 0 := by
    have h1 : ∀ l : List ℝ, (l.map fun x => x - μ).sum = l.sum - l.length * μ := by
      intro l
      induction l with
      | nil => simp
      | cons a l ih => simp only [List.map_cons, List.sum_cons, ih, List.length_cons]; push_cast; ring
    rw [h1, hμ]
    unfold listMean
    field_simp
    ring
  obtain ⟨A, B, rfl⟩ := List.append_of_mem hv
  have hcs := sq_sum_le ((A ++ B).map fun x => x - μ)
  have e1 : ((A ++ B).map fun x => x - μ).sum = -(v - μ) := by
    simp only [List.map_append, List.map_cons, List.sum_append, List.sum_cons] at hsum0 ⊢
    linarith
  have e2 : (((A ++ B).map fun x => x - μ).map fun x => x ^ 2).sum =
      listStd (A ++ v :: B) ^ 2 * (A ++ v :: B).length - (v - μ) ^ 2 := by
    rw [hvar, List.map_map]
    simp only [List.map_append, List.map_cons, List.sum_append, List.sum_cons, Function.comp_def]
    ring
  have e3 : (((A ++ B).map fun x => x - μ).length : ℝ) = ((A ++ v :: B).length : ℝ) - 1 := by
    simp only [List.length_map, List.length_append, List.length_cons]; push_cast; ring
  rw [e1, e2, e3] at hcs
  have hpos : 0 < listStd (A ++ v :: B) ^ 2 := lt_of_le_of_ne (sq_nonneg _) (Ne.symm (pow_ne_zero 2 hs))
  apply Real.abs_le_sqrt
  rw [div_pow, div_le_iff₀ hpos]
  set n : ℝ := ((A ++ v :: B).length : ℝ)
  have : n * (v - μ) ^ 2 ≤ n * ((n - 1) * listStd (A ++ v :: B) ^ 2) := by nlinarith
  exact le_of_mul_le_mul_left this hlen'

theorem finiteColumn_length (rows : List Nat) (x : Nat → Nat → Ext ℝ) (f : Nat) :
    (finiteColumn rows x f).length ≤ rows.length := by
  unfold finiteColumn
  exact List.length_filterMap_le _ _

/-- Each score is NaN or a number of size at most `√(rows - 1)`. -/
theorem zscore_bound (rows : List Nat) (x : Nat → Nat → Ext ℝ) (a f : Nat) (ha : a ∈ rows) :
    zscore rows x a f = .nan ∨
      ∃ y, zscore rows x a f = .fin y ∧ |y| ≤ Real.sqrt ((rows.length : ℝ) - 1) := by
  unfold zscore
  cases hx : x a f with
  | nan => exact Or.inl rfl
  | ninf => exact Or.inl rfl
  | pinf => exact Or.inl rfl
  | fin v =>
    simp only
    split_ifs with h
    · exact Or.inl rfl
    · refine Or.inr ⟨_, rfl, ?_⟩
      have hv : v ∈ finiteColumn rows x f := by
        unfold finiteColumn
        exact List.mem_filterMap.2 ⟨a, ha, by rw [hx]⟩
      refine (score_bound _ v hv h).trans (Real.sqrt_le_sqrt ?_)
      have := finiteColumn_length rows x f
      have : ((finiteColumn rows x f).length : ℝ) ≤ rows.length := by exact_mod_cast this
      linarith

/-- In a deterministic MDP a state has at most one legal row per action. -/
theorem legalActions_length {M : Trans K} (hM : Spec.SubStochastic M) (hdet : Spec.Deterministic M) {s : Nat}
    (hs : s < M.nS) : (legalActions M s).length ≤ M.nA := by
  have one : ∀ a, a < M.nA → (npWhere M.nS fun t => decide (M.p s a t ≠ 0)).length ≤ 1 := by
    intro a ha
    by_contra hc
    have hnd : (npWhere M.nS fun t => decide (M.p s a t ≠ 0)).Nodup := List.nodup_range.filter _
    have hm : ∀ t ∈ npWhere M.nS (fun t => decide (M.p s a t ≠ 0)), t < M.nS ∧ M.p s a t ≠ 0 := fun t ht => by
      have := mem_npWhere.1 ht
      simpa using this
    revert hc hnd hm
    generalize npWhere M.nS (fun t => decide (M.p s a t ≠ 0)) = l
    intro hc hnd hm
    match l, hc, hnd, hm with
    | [], hc, _, _ => simp at hc
    | [_], hc, _, _ => simp at hc
    | u :: v :: l, _, hnd, hm =>
      have huv : u ≠ v := by
        intro h
        subst h
        simp at hnd
      have hu := hm u (by simp)
      have hv := hm v (by simp)
      have h1 := (hdet s a u hs ha hu.1).resolve_left hu.2
      have h2 := (hdet s a v hs ha hv.1).resolve_left hv.2
      have h3 : ∑ t ∈ ({u, v} : Finset Nat), M.p s a t ≤ ∑ t ∈ Finset.range M.nS, M.p s a t := by
        refine Finset.sum_le_sum_of_subset_of_nonneg ?_ fun t ht _ => hM.nonneg s a t hs ha (Finset.mem_range.1 ht)
        intro t ht
        rcases Finset.mem_insert.1 ht with rfl | ht
        · exact Finset.mem_range.2 hu.1
        · rw [Finset.mem_singleton.1 ht]; exact Finset.mem_range.2 hv.1
      rw [Finset.sum_pair huv, h1, h2] at h3
      have := hM.le_one s a hs ha
      linarith
  unfold legalActions
  have : ∀ k, k ≤ M.nA → ((List.range k).flatMap fun a =>
      (npWhere M.nS fun t => decide (M.p s a t ≠ 0)).map fun _ => a).length ≤ k := by
    intro k
    induction k with
    | zero => intro _; simp
    | succ k ih =>
      intro hk
      rw [List.range_succ, List.flatMap_append, List.length_append]
      have := ih (by omega)
      have := one k (by omega)
      simp only [List.flatMap_cons, List.flatMap_nil, List.append_nil, List.length_map]
      omega
  exact this _ (le_refl _)

theorem firstAction_legal {M : Trans K} {s t a : Nat} (ht : t < M.nS) (h : Spec.FirstAction M s t a) :
    a ∈ legalActions M s := by
  unfold legalActions
  refine List.mem_flatMap.2 ⟨a, List.mem_range.2 h.1, List.mem_map.2 ⟨t, mem_npWhere.2 ⟨ht, ?_⟩, rfl⟩⟩
  simpa using h.2.1

end MaMDP
