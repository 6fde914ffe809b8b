import Verif.Model.ActionSelection
import Verif.Spec.Policy
import Verif.Lemmas.Py
import Mathlib.Tactic.Linarith
import Mathlib.Tactic.FieldSimp
import Mathlib.Algebra.BigOperators.Field

set_option linter.unusedSectionVars false

namespace MaMDP

variable {K : Type} [Field K] [LinearOrder K] [IsStrictOrderedRing K]

theorem forStates_succ {α : Type} (n : Nat) (f : Nat → Py α) (d : α) :
    forStates (n + 1) f d = match forStates n f d with
      | .error e => .error e
      | .ok g => match f n with
        | .error e => .error e
        | .ok x => .ok (upd1 g n x) := by
  unfold forStates
  rw [List.range_succ, List.foldlM_append]
  cases (List.range n).foldlM (m := Except PyErr)
      (fun (g : Nat → α) (s : Nat) => do let x ← f s; pure (upd1 g s x)) (fun (_ : Nat) => d) with
  | error e => rfl
  | ok g =>
    simp only [List.foldlM_cons, List.foldlM_nil, bind_pure]
    show (do let x ← f n; pure (upd1 g n x) : Py _) = _
    cases f n <;> rfl

theorem forStates_spec {α : Type} {f : Nat → Py α} {d : α} : ∀ {n : Nat} {g : Nat → α},
    forStates n f d = .ok g → ∀ s, s < n → f s = .ok (g s)
  | 0, _, _, s, hs => by omega
  | n + 1, g, h, s, hs => by
    rw [forStates_succ] at h
    cases hg : forStates n f d with
    | error e => rw [hg] at h; simp at h
    | ok g' =>
      rw [hg] at h
      cases hf : f n with
      | error e => rw [hf] at h; simp at h
      | ok x =>
        rw [hf] at h
        simp only [Except.ok.injEq] at h
        subst h
        unfold upd1
        by_cases hsn : s = n
        · subst hsn; simp [hf]
        · rw [if_neg hsn]; exact forStates_spec hg s (by omega)

theorem forStates_ok {α : Type} {f : Nat → Py α} (d : α) : ∀ (n : Nat),
    (∀ s, s < n → ∃ x, f s = .ok x) → ∃ g, forStates n f d = .ok g
  | 0, _ => ⟨_, rfl⟩
  | n + 1, h => by
    obtain ⟨g, hg⟩ := forStates_ok d n fun s hs => h s (by omega)
    obtain ⟨x, hx⟩ := h n (by omega)
    rw [forStates_succ, hg, hx]
    exact ⟨_, rfl⟩

/-- The first failing state decides the exception. -/
theorem forStates_error {α : Type} {f : Nat → Py α} (d : α) (e : PyErr) : ∀ (n : Nat),
    (∃ s, s < n ∧ f s = .error e) → (∀ s, s < n → f s = .error e ∨ ∃ x, f s = .ok x) →
    forStates n f d = .error e
  | 0, h, _ => by obtain ⟨s, hs, -⟩ := h; omega
  | n + 1, h, h2 => by
    rw [forStates_succ]
    by_cases hex : ∃ s, s < n ∧ f s = .error e
    · rw [forStates_error d e n hex fun s hs => h2 s (by omega)]
    · obtain ⟨s, hs, hse⟩ := h
      have hsn : s = n := by
        by_contra hne
        exact hex ⟨s, by omega, hse⟩
      subst hsn
      obtain ⟨g, hg⟩ := forStates_ok d s fun t ht =>
        (h2 t (by omega)).resolve_left fun he => hex ⟨t, ht, he⟩
      rw [hg, hse]

theorem noBetter_iff (x y : Ext K) : Spec.NoBetter x y ↔ x.clean ≤ y.clean := by
  cases x <;> cases y <;> simp [Spec.NoBetter, Ext.clean]

theorem mem_maxActions {α : Type} [LinearOrder α] {n : Nat} {x : Nat → α} {a : Nat} :
    a ∈ maxActions n x ↔ a < n ∧ ∀ b, b < n → x b ≤ x a := by
  unfold maxActions
  rw [mem_npWhere]
  refine and_congr_right fun ha => ?_
  simp only [decide_eq_true_eq]
  constructor
  · intro h b hb; rw [h]; exact le_npMax x hb
  · intro h
    exact le_antisymm (le_npMax x ha) (npMax_le x (by omega) h)

theorem maxActions_ne_nil {α : Type} [LinearOrder α] {n : Nat} (x : Nat → α) (h : 0 < n) :
    maxActions n x ≠ [] := by
  have : npArgmax n x ∈ maxActions n x :=
    mem_maxActions.2 ⟨npArgmax_lt x h, fun b hb => le_npArgmax x hb⟩
  exact List.ne_nil_of_mem this

theorem mem_maxActions_isBest {q : Arr2 (Ext K)} {s a : Nat} :
    a ∈ maxActions q.d1 (fun a => (q.get s a).clean) ↔ Spec.IsBest q s a := by
  rw [mem_maxActions]
  unfold Spec.IsBest
  simp only [noBetter_iff]

theorem checkQValues_error {q : Arr2 (Ext K)} :
    checkQValues q = .error .valueError ↔ ∀ s, s < q.d0 → Spec.NoEstimate q s := by
  unfold checkQValues Spec.NoEstimate
  split_ifs with h
  · simpa using h
  · simpa using h

theorem checkQValues_ok {q : Arr2 (Ext K)} :
    checkQValues q = .ok () ↔ ∃ s, s < q.d0 ∧ ¬ Spec.NoEstimate q s := by
  unfold checkQValues Spec.NoEstimate
  split_ifs with h
  · simp only [false_iff, not_exists, not_and, not_not]; exact h
  · simp only [true_iff]; push Not at h ⊢; exact h

theorem nanState_noEstimate {q : Arr2 (Ext K)} {s : Nat} (h : Spec.NoEstimate q s) :
    nanState q s = true := by
  unfold nanState; simp only [decide_eq_true_eq]; exact Or.inl h

theorem nanState_eq_false {q : Arr2 (Ext K)} {s : Nat} :
    nanState q s = false ↔ Spec.HasEstimate q s := by
  unfold nanState Spec.HasEstimate
  simp only [decide_eq_false_iff_not, not_or]
  refine and_congr ?_ Iff.rfl
  push Not
  rfl

/-- The greedy probability table. -/
theorem maxPiP_fold (m : Nat) (q : Nat → Nat → WithBot (WithTop K)) : ∀ (n s a : Nat),
    (List.range n).foldl (fun p s =>
      let best := maxActions m (q s)
      fun s' a => if s' = s ∧ a ∈ best then Ext.fin (1 / (best.length : K)) else p s' a)
      (fun _ _ => Ext.fin 0) s a =
    if s < n ∧ a ∈ maxActions m (q s) then .fin (1 / ((maxActions m (q s)).length : K)) else .fin 0
  | 0, s, a => by simp
  | n + 1, s, a => by
    rw [List.range_succ, List.foldl_append]
    simp only [List.foldl_cons, List.foldl_nil]
    rw [maxPiP_fold m q n s a]
    by_cases hs : s = n
    · subst hs
      by_cases ha : a ∈ maxActions m (q s) <;> simp [ha]
    · rw [if_neg (by tauto)]
      apply if_congr _ rfl rfl
      constructor
      · rintro ⟨h1, h2⟩; exact ⟨by omega, h2⟩
      · rintro ⟨h1, h2⟩; exact ⟨by omega, h2⟩

theorem maxActions_card {α : Type} [LinearOrder α] (n : Nat) (x : Nat → α) :
    (maxActions n x).length = ((Finset.range n).filter fun a => ∀ b, b < n → x b ≤ x a).card := by
  have hnd : (maxActions n x).Nodup := npWhere_nodup _ _
  rw [← List.toFinset_card_of_nodup hnd]
  congr 1
  ext a
  rw [List.mem_toFinset, mem_maxActions, Finset.mem_filter, Finset.mem_range]

/-! ### searching a cumulative sum -/

theorem npCumsum_eq (p : Nat → K) (i : Nat) :
    npCumsum p i = ∑ j ∈ Finset.range i, p j + p i := by
  unfold npCumsum npSum; rw [Finset.sum_range_succ]

theorem searchRight_le (n : Nat) (c : Nat → K) (u : K) : searchRight n c u ≤ n := by
  unfold searchRight
  have := List.findIdx_le_length (xs := List.range n) (p := fun i => decide (u < c i))
  simpa using this

theorem searchRight_eq_iff {n : Nat} {c : Nat → K} {u : K} {i : Nat} (hi : i < n) :
    searchRight n c u = i ↔ u < c i ∧ ∀ j, j < i → c j ≤ u := by
  unfold searchRight
  rw [List.findIdx_eq (by simpa using hi)]
  simp

theorem sum_range_mono {p : Nat → K} {n : Nat} (h : ∀ a, a < n → 0 ≤ p a) {i j : Nat}
    (hij : i ≤ j) (hj : j ≤ n) : ∑ k ∈ Finset.range i, p k ≤ ∑ k ∈ Finset.range j, p k := by
  apply Finset.sum_le_sum_of_subset_of_nonneg
  · intro k hk; simp at hk ⊢; omega
  · intro k hk _; simp at hk; exact h k (by omega)

/-- Searching the cumulative sums of non-negative weights. -/
theorem searchRight_cumsum {p : Nat → K} {n : Nat} (h : ∀ a, a < n → 0 ≤ p a) {u : K} (hu : 0 ≤ u)
    {i : Nat} (hi : i < n) : searchRight n (npCumsum p) u = i ↔ Spec.InSlot p i u := by
  rw [searchRight_eq_iff hi]
  unfold Spec.InSlot
  rw [npCumsum_eq, and_comm]
  refine and_congr_left fun _ => ?_
  constructor
  · intro hj
    cases i with
    | zero => simpa using hu
    | succ i =>
      have := hj i (by omega)
      rw [npCumsum_eq, ← Finset.sum_range_succ] at this
      exact this
  · intro hle j hj
    rw [npCumsum_eq, ← Finset.sum_range_succ]
    exact le_trans (sum_range_mono h (by omega) (by omega)) hle

theorem searchRight_lt {p : Nat → K} {n : Nat} (hn : 0 < n) {u : K}
    (hu : u < ∑ k ∈ Finset.range n, p k) : searchRight n (npCumsum p) u < n := by
  rcases Nat.lt_or_eq_of_le (searchRight_le n (npCumsum p) u) with h | h
  · exact h
  · exfalso
    unfold searchRight at h
    have h' : (List.range n).findIdx (fun i => decide (u < npCumsum p i)) =
        (List.range n).length := by simpa using h
    rw [List.findIdx_eq_length] at h'
    have := h' (n - 1) (by simp; omega)
    simp only [decide_eq_false_iff_not, not_lt] at this
    rw [npCumsum_eq, ← Finset.sum_range_succ] at this
    have hnn : n - 1 + 1 = n := by omega
    rw [hnn] at this
    exact absurd hu (not_lt.2 this)

theorem inSlot_unique {p : Nat → K} {n : Nat} (h : ∀ a, a < n → 0 ≤ p a) {u : K} {i j : Nat}
    (hi : i < n) (hj : j < n) (h1 : Spec.InSlot p i u) (h2 : Spec.InSlot p j u) : i = j := by
  unfold Spec.InSlot at h1 h2
  rw [← Finset.sum_range_succ] at h1 h2
  rcases lt_trichotomy i j with hlt | heq | hgt
  · have := sum_range_mono h (i := i + 1) (j := j) (by omega) (by omega)
    exact absurd h1.2 (not_lt.2 (le_trans this h2.1))
  · exact heq
  · have := sum_range_mono h (i := j + 1) (j := i) (by omega) (by omega)
    exact absurd h2.2 (not_lt.2 (le_trans this h1.1))

theorem npMax_map {α β : Type} [LinearOrder α] [LinearOrder β] {f : α → β} (hf : Monotone f) :
    ∀ (n : Nat) (x : Nat → α), npMax n (fun a => f (x a)) = f (npMax n x)
  | 0, _ => rfl
  | 1, _ => rfl
  | n + 2, x => by
    unfold npMax
    rw [npMax_map hf (n + 1) x, hf.map_max]

theorem finRow_fin (n : Nat) (p : Nat → K) : finRow n (fun a => Ext.fin (p a)) = some p := by
  unfold finRow
  simp only [Ext.isFin, implies_true, if_true]

/-! ### softmax of a row without +inf -/

/-- The weight of an entry relative to the row maximum `m`. -/
theorem expShift_fin (m T x : ℝ) : expShift m T (Ext.fin x).clean = Real.exp ((x - m) / T) := rfl

theorem expShift_of_not_fin (m T : ℝ) {e : Ext ℝ} (h : ∀ x, e ≠ .fin x) :
    expShift m T e.clean = 0 := by
  cases e with
  | fin x => exact absurd rfl (h x)
  | nan => rfl
  | ninf => rfl
  | pinf => rfl

theorem expShift_nonneg (m T : ℝ) (v : WithBot (WithTop ℝ)) : 0 ≤ expShift m T v := by
  unfold expShift
  split
  · exact (Real.exp_pos _).le
  · exact le_refl _

theorem clean_eq_bot {e : Ext ℝ} : e.clean = ⊥ ↔ e = .nan ∨ e = .ninf := by
  cases e <;> simp [Ext.clean]

theorem softmax_row (n : Nat) (e : Nat → Ext ℝ) (T : ℝ) (hp : ∀ a, a < n → e a ≠ .pinf)
    (hf : ∃ a, a < n ∧ ∃ x, e a = .fin x) :
    ∃ m : ℝ, (softmax n (fun a => (e a).clean) T = fun a => .fin (expShift m T (e a).clean /
      npSum n fun b => expShift m T (e b).clean)) ∧
      0 < npSum n (fun b => expShift m T (e b).clean) := by
  obtain ⟨a0, ha0, x0, hx0⟩ := hf
  have hn : 0 < n := by omega
  obtain ⟨k, hk, hmax⟩ := exists_npMax (fun a => (e a).clean) hn
  have hle := le_npMax (fun a => (e a).clean) ha0
  rw [hmax] at hle
  simp only [hx0] at hle
  obtain ⟨m, hm⟩ : ∃ m, e k = .fin m := by
    cases hek : e k with
    | fin m => exact ⟨m, rfl⟩
    | nan => rw [hek] at hle; simp [Ext.clean] at hle
    | ninf => rw [hek] at hle; simp [Ext.clean] at hle
    | pinf => exact absurd hek (hp k hk)
  have hmax' : npMax n (fun a => (e a).clean) = some (some m) := by rw [hmax, hm]; rfl
  refine ⟨m, ?_, ?_⟩
  · unfold softmax
    rw [if_neg, hmax']
    push Not
    exact ⟨a0, ha0, by simp [hx0, Ext.clean]⟩
  · unfold npSum
    apply Finset.sum_pos'
    · intro b _; exact expShift_nonneg _ _ _
    · exact ⟨k, by simpa using hk, by rw [hm, expShift_fin]; exact Real.exp_pos _⟩

theorem softmax_row_unavailable (n : Nat) (e : Nat → Ext ℝ) (T : ℝ)
    (h : ∀ a, a < n → e a = .nan ∨ e a = .ninf) :
    softmax n (fun a => (e a).clean) T = fun _ => .fin (1 / (n : ℝ)) := by
  unfold softmax
  rw [if_pos fun a ha => clean_eq_bot.2 (h a ha)]

theorem softmax_row_pinf (n : Nat) (e : Nat → Ext ℝ) (T : ℝ) (h : ∃ a, a < n ∧ e a = .pinf) :
    softmax n (fun a => (e a).clean) T = fun _ => .nan := by
  obtain ⟨a, ha, hx⟩ := h
  have hle := le_npMax (fun a => (e a).clean) ha
  simp only [hx] at hle
  have hmax' : npMax n (fun a => (e a).clean) = some none := by
    have : ((⊤ : WithTop ℝ) : WithBot (WithTop ℝ)) ≤ npMax n (fun a => (e a).clean) := hle
    exact (top_le_iff (α := WithBot (WithTop ℝ))).1 this
  unfold softmax
  rw [if_neg, hmax']
  push Not
  exact ⟨a, ha, by simp [hx, Ext.clean]⟩

/-- A softmax row without +inf is a probability distribution. -/
theorem softmax_distribution (n : Nat) (hn : 0 < n) (e : Nat → Ext ℝ) (T : ℝ)
    (hp : ∀ a, a < n → e a ≠ .pinf) :
    ∃ p : Nat → ℝ, softmax n (fun a => (e a).clean) T = (fun a => .fin (p a)) ∧
      (∀ a, 0 ≤ p a) ∧ ∑ a ∈ Finset.range n, p a = 1 := by
  by_cases hf : ∃ a, a < n ∧ ∃ x, e a = .fin x
  · obtain ⟨m, h1, h2⟩ := softmax_row n e T hp hf
    refine ⟨_, h1, fun a => div_nonneg (expShift_nonneg _ _ _) h2.le, ?_⟩
    rw [← Finset.sum_div]
    exact div_self h2.ne'
  · refine ⟨fun _ => 1 / (n : ℝ), softmax_row_unavailable n e T ?_, fun a => by positivity, ?_⟩
    · intro a ha
      cases he : e a with
      | fin x => exact absurd ⟨a, ha, x, he⟩ hf
      | nan => exact Or.inl rfl
      | ninf => exact Or.inr rfl
      | pinf => exact absurd he (hp a ha)
    · have : (n : ℝ) ≠ 0 := by exact_mod_cast hn.ne'
      simp [this]

end MaMDP
