import Verif.Spec.RoundedChoice
import Verif.Props.ActionSelection

/-! Lemmas for choices in inexact arithmetic. -/

set_option linter.unusedSectionVars false

namespace MaMDP

namespace FloatOps

variable {fl : FloatOps} {ε η τ : ℝ} {n : Nat}

theorem sum_succ (n : Nat) (x : Nat → ℝ) : fl.sum (n + 1) x = fl.rnd (fl.sum n x + x n) := by
  unfold sum
  rw [List.range_succ, List.foldl_append]
  rfl

theorem sum_fix (h : Spec.RoundsWell fl.rnd ε η) (n : Nat) (x : Nat → ℝ) : fl.rnd (fl.sum n x) = fl.sum n x := by
  cases n with
  | zero => exact h.zero
  | succ n => rw [sum_succ, h.idem]

theorem sum_step (h : Spec.RoundsWell fl.rnd ε η) {x : Nat → ℝ} (hx : 0 ≤ x n) : fl.sum n x ≤ fl.sum (n + 1) x := by
  rw [sum_succ, ← sum_fix h n x]
  refine h.mono ?_
  rw [sum_fix h n x]
  linarith

theorem sum_mono (h : Spec.RoundsWell fl.rnd ε η) {x : Nat → ℝ} {i j : Nat} (hij : i ≤ j) (hx : ∀ a, a < j → 0 ≤ x a) :
    fl.sum i x ≤ fl.sum j x := by
  induction j with
  | zero => rw [Nat.le_zero.1 hij]
  | succ j ih =>
    rcases Nat.lt_or_ge i (j + 1) with hlt | hge
    · exact (ih (by omega) fun a ha => hx a (by omega)).trans (sum_step h (hx j (by omega)))
    · rw [show i = j + 1 by omega]

theorem sum_nonneg (h : Spec.RoundsWell fl.rnd ε η) {x : Nat → ℝ} (hx : ∀ a, a < n → 0 ≤ x a) : 0 ≤ fl.sum n x :=
  sum_mono h (Nat.zero_le n) hx

theorem rounds_nonneg (h : Spec.RoundsWell fl.rnd ε η) : 0 ≤ η := by
  have := h.close 0
  rw [h.zero] at this
  simpa using this

/-- Adding up rounds little. -/
theorem sum_close (h : Spec.RoundsWell fl.rnd ε η) (hε : 0 ≤ ε) : ∀ (n : Nat) (x : Nat → ℝ), (∀ a, a < n → 0 ≤ x a) →
    2 * n * ε ≤ 1 → |fl.sum n x - ∑ a ∈ Finset.range n, x a| ≤ 2 * n * (ε * (∑ a ∈ Finset.range n, x a) + η) := by
  have hη := rounds_nonneg h
  intro n
  induction n with
  | zero => intro x _ _; simp [sum]
  | succ n ih =>
    intro x hx hn
    push_cast at hn ⊢
    have h0 := ih x (fun a ha => hx a (by omega)) (by nlinarith)
    rw [sum_succ, Finset.sum_range_succ]
    set X := ∑ a ∈ Finset.range n, x a with hX
    have hX0 : 0 ≤ X := Finset.sum_nonneg fun a ha => hx a (by have := Finset.mem_range.1 ha; omega)
    have hxn := hx n (by omega)
    set S := fl.sum n x with hS
    have hS0 : 0 ≤ S := sum_nonneg h fun a ha => hx a (by omega)
    have h1 := h.close (S + x n)
    rw [abs_of_nonneg (add_nonneg hS0 hxn)] at h1
    have hn0 : (0 : ℝ) ≤ n := Nat.cast_nonneg n
    have h2 : ε * (2 * n * (ε * X + η)) ≤ ε * X + η := by
      have : 0 ≤ ε * X + η := by positivity
      have h3 : 2 * n * ε ≤ 1 := by nlinarith
      nlinarith
    have h4 : S + x n ≤ X + x n + 2 * n * (ε * X + η) := by linarith [(abs_le.1 h0).2]
    have h5 : ε * (S + x n) ≤ ε * (X + x n) + (ε * X + η) := by nlinarith
    have h6 : 0 ≤ ε * x n := by positivity
    have h7 : 0 ≤ n * (ε * x n) := by positivity
    have h8 : 2 * ((n : ℝ) + 1) * (ε * (X + x n) + η) =
        2 * n * (ε * X + η) + 2 * (ε * X + η) + 2 * (n * (ε * x n)) + 2 * (ε * x n) := by ring
    have h9 : ε * (X + x n) = ε * X + ε * x n := by ring
    rw [h8]
    rw [abs_le] at h0 h1 ⊢
    constructor <;> linarith [h0.1, h0.2, h1.1, h1.2]

/-- Normalising: the sums of the first `j` quotients are near the exact ones. -/
theorem normal (h : Spec.RoundsWell fl.rnd ε η) (hε : 0 ≤ ε) {κ : ℝ} (hκ : n * (ε + η) ≤ κ) (hκ1 : κ ≤ 1 / 100) (hn : 0 < n)
    {x : Nat → ℝ} (hx : ∀ a, a < n → 0 ≤ x a) (hX : 1 / 2 ≤ ∑ a ∈ Finset.range n, x a) :
    0 < fl.sum n x ∧ (∀ a, a < n → 0 ≤ fl.rnd (x a / fl.sum n x)) ∧ ∀ j, j ≤ n →
      |(∑ a ∈ Finset.range j, fl.rnd (x a / fl.sum n x)) -
        (∑ a ∈ Finset.range j, x a) / ∑ a ∈ Finset.range n, x a| ≤ 7 * κ := by
  have hη := rounds_nonneg h
  have hn1 : (1 : ℝ) ≤ n := by exact_mod_cast hn
  have hnε : n * ε ≤ κ := by nlinarith
  have hnη : n * η ≤ κ := by nlinarith
  have hεκ : ε + η ≤ κ := by nlinarith
  have hκ0 : 0 ≤ κ := by nlinarith
  set X := ∑ a ∈ Finset.range n, x a with hXdef
  have hX0 : 0 < X := by linarith
  have hS := sum_close h hε n x hx (by linarith)
  rw [← hXdef] at hS
  set S := fl.sum n x with hSdef
  have hS1 : |S - X| ≤ 4 * κ * X := by
    refine hS.trans ?_
    nlinarith [mul_nonneg (by positivity : (0 : ℝ) ≤ n * η) (by linarith : 0 ≤ 2 * X - 1)]
  have hS2 : (1 - 4 * κ) * X ≤ S := by linarith [(abs_le.1 hS1).1]
  have hS0 : 0 < S := by nlinarith
  have hXS : X / S ≤ 25 / 24 := by
    rw [div_le_iff₀ hS0]
    nlinarith
  refine ⟨hS0, fun a ha => ?_, fun j hj => ?_⟩
  · rw [← h.zero]; exact h.mono (div_nonneg (hx a ha) hS0.le)
  · have hj1 : (j : ℝ) ≤ n := by exact_mod_cast hj
    have hxj : ∀ a ∈ Finset.range j, 0 ≤ x a := fun a ha => hx a (by have := Finset.mem_range.1 ha; omega)
    have hA : ∑ a ∈ Finset.range j, x a ≤ X := sum_range_mono hx hj le_rfl
    set A := ∑ a ∈ Finset.range j, x a with hAdef
    have hA0 : 0 ≤ A := Finset.sum_nonneg hxj
    have h1 : |(∑ a ∈ Finset.range j, fl.rnd (x a / S)) - A / S| ≤ ε * (A / S) + j * η := by
      rw [hAdef, Finset.sum_div, ← Finset.sum_sub_distrib]
      refine (Finset.abs_sum_le_sum_abs _ _).trans ?_
      refine (Finset.sum_le_sum fun a ha => ?_).trans (le_of_eq ?_) (b := ∑ a ∈ Finset.range j, (ε * (x a / S) + η))
      · have := h.close (x a / S)
        rwa [abs_of_nonneg (div_nonneg (hxj a ha) hS0.le)] at this
      · rw [Finset.sum_add_distrib, ← Finset.mul_sum, Finset.sum_const, Finset.card_range, nsmul_eq_mul]
    have h2 : |A / S - A / X| ≤ 5 * κ := by
      have : A / S - A / X = (A / X) * ((X - S) / S) := by field_simp
      rw [this, abs_mul, abs_of_nonneg (div_nonneg hA0 hX0.le), abs_div, abs_of_pos hS0, abs_sub_comm]
      have g1 : A / X ≤ 1 := by rw [div_le_one hX0]; exact hA
      have g2 : |S - X| / S ≤ 5 * κ := by
        rw [div_le_iff₀ hS0]
        have g0 : 24 / 25 * X ≤ S := by nlinarith
        nlinarith [mul_le_mul_of_nonneg_left g0 hκ0, mul_nonneg hκ0 hX0.le]
      have g3 : 0 ≤ |S - X| / S := by positivity
      have g4 : 0 ≤ A / X := by positivity
      nlinarith
    have h3 : A / S ≤ 25 / 24 := le_trans (div_le_div_of_nonneg_right hA hS0.le) hXS
    have h4 : ε * (A / S) + j * η ≤ 2 * κ := by
      have g1 : j * η ≤ n * η := mul_le_mul_of_nonneg_right hj1 hη
      have g2 : ε ≤ n * ε := by nlinarith
      nlinarith
    rw [abs_le] at h1 h2 ⊢
    constructor <;> linarith [h1.1, h1.2, h2.1, h2.2]

/-- What a search of numbers near the sums `F` finds. -/
theorem found {d F : Nat → ℝ} {E u : ℝ} (hE : 0 ≤ E) (hd : ∀ i, i < n → |d i - F (i + 1)| ≤ E) (h0 : F 0 = 0) (hu : 0 ≤ u)
    {i : Nat} (hi : i < n) (h : searchRight n d u = i) : F i - E ≤ u ∧ u < F (i + 1) + E := by
  obtain ⟨h1, h2⟩ := (searchRight_eq_iff hi).1 h
  refine ⟨?_, by linarith [(abs_le.1 (hd i hi)).2]⟩
  cases i with
  | zero => rw [h0]; linarith
  | succ j => linarith [(abs_le.1 (hd j (by omega))).1, h2 j (by omega)]

/-- If the search succeeds, the number found is larger than the one before. -/
theorem search_lt {d : Nat → ℝ} {u : ℝ} (hn : 0 < n) (h : u < d (n - 1)) : searchRight n d u < n := by
  rcases Nat.lt_or_eq_of_le (searchRight_le n d u) with h1 | h1
  · exact h1
  · exfalso
    unfold searchRight at h1
    have h' : (List.range n).findIdx (fun i => decide (u < d i)) = (List.range n).length := by simpa using h1
    rw [List.findIdx_eq_length] at h'
    have := h' (n - 1) (by simp; omega)
    simp only [decide_eq_false_iff_not, not_lt] at this
    exact absurd h (not_lt.2 this)

/-- The cumulative sums of normalised weights. -/
theorem cumulative (h : Spec.RoundsWell fl.rnd ε η) (hε : 0 ≤ ε) {κ : ℝ} (hκ : n * (ε + η) ≤ κ) (hκ1 : κ ≤ 1 / 100) (hn : 0 < n)
    {x : Nat → ℝ} (hx : ∀ a, a < n → 0 ≤ x a) (hX : 1 / 2 ≤ ∑ a ∈ Finset.range n, x a) :
    (∀ a, a < n → 0 ≤ fl.rnd (x a / fl.sum n x)) ∧
    |(∑ a ∈ Finset.range n, fl.rnd (x a / fl.sum n x)) - 1| ≤ 7 * κ ∧ ∀ j, j ≤ n →
      |(fl.sum j fun a => fl.rnd (x a / fl.sum n x)) -
        (∑ a ∈ Finset.range j, x a) / ∑ a ∈ Finset.range n, x a| ≤ 10 * κ := by
  obtain ⟨-, h2, h3⟩ := normal h hε hκ hκ1 hn hx hX
  have hη := rounds_nonneg h
  have hn1 : (1 : ℝ) ≤ n := by exact_mod_cast hn
  have hnε : n * ε ≤ κ := by nlinarith
  have hκ0 : 0 ≤ κ := by nlinarith
  have hX0 : (0 : ℝ) < ∑ a ∈ Finset.range n, x a := by linarith
  have h4 := h3 n le_rfl
  rw [div_self hX0.ne'] at h4
  refine ⟨h2, h4, fun j hj => ?_⟩
  have hj1 : (j : ℝ) ≤ n := by exact_mod_cast hj
  have h5 := sum_close h hε j (fun a => fl.rnd (x a / fl.sum n x)) (fun a ha => h2 a (by omega)) (by nlinarith)
  have h6 : ∑ a ∈ Finset.range j, fl.rnd (x a / fl.sum n x) ≤ ∑ a ∈ Finset.range n, fl.rnd (x a / fl.sum n x) :=
    sum_range_mono h2 hj le_rfl
  have h7 : 0 ≤ ∑ a ∈ Finset.range j, fl.rnd (x a / fl.sum n x) :=
    Finset.sum_nonneg fun a ha => h2 a (by have := Finset.mem_range.1 ha; omega)
  have h3j := h3 j hj
  generalize ∑ a ∈ Finset.range j, fl.rnd (x a / fl.sum n x) = P at *
  have h8 : P ≤ 11 / 10 := by linarith [(abs_le.1 h4).2]
  have hj0 : (0 : ℝ) ≤ j := Nat.cast_nonneg j
  have h9 : 2 * j * (ε * P + η) ≤ 3 * κ := by
    have g1 : ε * P + η ≤ 11 / 10 * (ε + η) := by nlinarith
    have g2 : 0 ≤ ε + η := by linarith
    nlinarith [mul_le_mul_of_nonneg_left g1 hj0, mul_le_mul_of_nonneg_right hj1 g2]
  rw [abs_le] at h5 h3j ⊢
  constructor <;> linarith [h5.1, h5.2, h3j.1, h3j.2]

/-- A weight of zero adds nothing. -/
theorem sum_skip (h : Spec.RoundsWell fl.rnd ε η) {x : Nat → ℝ} {i : Nat} (hi : x i = 0) : fl.sum (i + 1) x = fl.sum i x := by
  rw [sum_succ, hi, add_zero, sum_fix h]

/-- Choosing by weights whose sum is about 1: never refused, and the draw falls about where it should. -/
theorem softmaxChoice_ok (h : Spec.CarefulOps fl ε η τ) (hε : 0 ≤ ε) (hτ : 0 ≤ τ) {κ : ℝ} (hκ : n * (ε + η) ≤ κ)
    (hκ1 : κ ≤ 1 / 100) (htol : 10 * κ + 3 * τ ≤ fl.tol) (hn : 0 < n) {f : Nat → ℝ} (hf : ∀ a, a < n → 0 ≤ f a)
    (hF : 1 / 2 ≤ ∑ a ∈ Finset.range n, f a) {u : ℝ} (hu0 : 0 ≤ u) (hu1 : u < 1) :
    ∃ i, fl.softmaxChoice n (fun a => .fin (f a)) u = .ok i ∧ i < n ∧ 0 < f i ∧
      (∑ a ∈ Finset.range i, f a) / (∑ a ∈ Finset.range n, f a) - 21 * κ ≤ u ∧
      u < (∑ a ∈ Finset.range (i + 1), f a) / (∑ a ∈ Finset.range n, f a) + 21 * κ := by
  have hr := h.rounds
  obtain ⟨h1, h2, h3⟩ := cumulative hr hε hκ hκ1 hn hf hF
  have hη := rounds_nonneg hr
  have hn1 : (1 : ℝ) ≤ n := by exact_mod_cast hn
  have hεκ : ε + η ≤ κ := by nlinarith
  have hκ0 : 0 ≤ κ := by nlinarith
  have hX0 : (0 : ℝ) < ∑ a ∈ Finset.range n, f a := by linarith
  have hnz : ¬ ∀ a, a < n → f a = 0 := fun hz => by
    rw [Finset.sum_eq_zero fun a ha => hz a (Finset.mem_range.1 ha)] at hX0
    exact lt_irrefl _ hX0
  set ps : Nat → ℝ := fun a => fl.rnd (f a / fl.sum n f) with hps
  set c : Nat → ℝ := fun j => fl.sum j ps with hc
  have htot := h.total_close n ps h1
  have hcn := h3 n le_rfl
  rw [div_self hX0.ne'] at hcn
  have hcn0 : 0 < c n := by linarith [(abs_le.1 hcn).1]
  have hcheck : ¬ fl.tol < |fl.rnd (fl.total n ps - 1)| := by
    rw [not_lt]
    refine le_trans ?_ htol
    set P := ∑ a ∈ Finset.range n, ps a with hP
    have hP1 : P ≤ 11 / 10 := by linarith [(abs_le.1 h2).2]
    have g1 : |fl.total n ps - 1| ≤ 8 * κ + 2 * τ := by
      have : τ * P ≤ 2 * τ := by nlinarith
      rw [abs_le] at htot h2 ⊢
      constructor <;> linarith [htot.1, htot.2, h2.1, h2.2]
    have g2 := hr.close (fl.total n ps - 1)
    have g3 : ε * |fl.total n ps - 1| ≤ ε * (8 * κ + 2 * τ) := mul_le_mul_of_nonneg_left g1 hε
    have g4 : ε * (8 * κ + 2 * τ) ≤ 1 / 100 * (8 * κ + 2 * τ) :=
      mul_le_mul_of_nonneg_right (by linarith) (by positivity)
    have g5 := abs_sub_abs_le_abs_sub (fl.rnd (fl.total n ps - 1)) (fl.total n ps - 1)
    linarith
  have hchoice : fl.softmaxChoice n (fun a => .fin (f a)) u =
      .ok (searchRight n (fun i => fl.rnd (c (i + 1) / c n)) u) := by
    unfold softmaxChoice
    rw [finRow_fin]
    simp only
    rw [if_neg hnz]
    unfold choice
    rw [if_neg (fun ⟨a, ha, hneg⟩ => absurd hneg (not_lt.2 (h1 a ha))), if_neg hcheck]
  have hlast : fl.rnd (c (n - 1 + 1) / c n) = 1 := by
    rw [Nat.sub_add_cancel hn, div_self hcn0.ne', hr.one]
  have hlt : searchRight n (fun i => fl.rnd (c (i + 1) / c n)) u < n := search_lt hn (by simp only [hlast]; exact hu1)
  have hclose : ∀ i, i < n → |fl.rnd (c (i + 1) / c n) -
      (∑ a ∈ Finset.range (i + 1), f a) / ∑ a ∈ Finset.range n, f a| ≤ 21 * κ := by
    intro i hi
    have g1 := h3 (i + 1) (by omega)
    have g2 : 0 ≤ c (i + 1) := sum_nonneg hr fun a ha => h1 a (by omega)
    have g3 : c (i + 1) ≤ c n := sum_mono hr (by omega) h1
    change |c (i + 1) - _| ≤ _ at g1
    generalize c (i + 1) = x at *
    have g4 : x / c n ≤ 1 := (div_le_one hcn0).2 g3
    have g5 : 0 ≤ x / c n := by positivity
    have g6 : |x / c n - x| ≤ 10 * κ := by
      have : x / c n - x = x / c n * (1 - c n) := by field_simp
      rw [this, abs_mul, abs_of_nonneg g5, abs_sub_comm]
      calc x / c n * |c n - 1| ≤ 1 * |c n - 1| := mul_le_mul_of_nonneg_right g4 (abs_nonneg _)
        _ ≤ 10 * κ := by rw [one_mul]; exact hcn
    have g7 := hr.close (x / c n)
    rw [abs_of_nonneg g5] at g7
    have g8 : ε * (x / c n) ≤ ε := by nlinarith
    rw [abs_le] at g1 g6 g7 ⊢
    constructor <;> linarith [g1.1, g1.2, g6.1, g6.2, g7.1, g7.2]
  obtain ⟨k1, k2⟩ := found (F := fun j => (∑ a ∈ Finset.range j, f a) / ∑ a ∈ Finset.range n, f a)
    (by linarith) hclose (by simp) hu0 hlt rfl
  refine ⟨_, hchoice, hlt, ?_, k1, k2⟩
  generalize hi : searchRight n (fun i => fl.rnd (c (i + 1) / c n)) u = i at *
  rcases (hf i hlt).lt_or_eq with hpos | hz
  · exact hpos
  · exfalso
    have hz' : ps i = 0 := by simp only [hps, ← hz, zero_div]; exact hr.zero
    have hskip : c (i + 1) = c i := sum_skip hr hz'
    obtain ⟨e1, e2⟩ := (searchRight_eq_iff hlt).1 hi
    rw [hskip] at e1
    cases i with
    | zero =>
      have : c 0 = 0 := rfl
      rw [this, zero_div, hr.zero] at e1
      linarith
    | succ j => linarith [e2 j (by omega)]

/-- `rand_choice_nb`: either the draw falls about where it should, or it is within the error of 1 and nothing is chosen. -/
theorem randChoiceNb_ok (h : Spec.RoundsWell fl.rnd ε η) (hε : 0 ≤ ε) {κ : ℝ} (hκ : n * (ε + η) ≤ κ)
    (hκ1 : κ ≤ 1 / 100) (hn : 0 < n) {f : Nat → ℝ} (hf : ∀ a, a < n → 0 ≤ f a)
    (hF : 1 / 2 ≤ ∑ a ∈ Finset.range n, f a) {u : ℝ} (hu0 : 0 ≤ u) :
    (∃ i, fl.randChoiceNb n f u = .ok i ∧ i < n ∧ 0 < f i ∧
      (∑ a ∈ Finset.range i, f a) / (∑ a ∈ Finset.range n, f a) - 10 * κ ≤ u ∧
      u < (∑ a ∈ Finset.range (i + 1), f a) / (∑ a ∈ Finset.range n, f a) + 10 * κ) ∨
    (fl.randChoiceNb n f u = .error .indexError ∧ 1 - 10 * κ ≤ u) := by
  obtain ⟨h1, h2, h3⟩ := cumulative h hε hκ hκ1 hn hf hF
  have hη := rounds_nonneg h
  have hn1 : (1 : ℝ) ≤ n := by exact_mod_cast hn
  have hκ0 : 0 ≤ κ := by nlinarith
  have hX0 : (0 : ℝ) < ∑ a ∈ Finset.range n, f a := by linarith
  set ps : Nat → ℝ := fun a => fl.rnd (f a / fl.sum n f) with hps
  by_cases hlt : searchRight n (fun i => fl.sum (i + 1) ps) u < n
  · left
    obtain ⟨k1, k2⟩ := found (F := fun j => (∑ a ∈ Finset.range j, f a) / ∑ a ∈ Finset.range n, f a)
      (by linarith) (fun i hi => h3 (i + 1) (by omega)) (by simp) hu0 hlt rfl
    refine ⟨_, by unfold randChoiceNb; simp only; rw [if_pos hlt], hlt, ?_, k1, k2⟩
    generalize hi : searchRight n (fun i => fl.sum (i + 1) ps) u = i at *
    rcases (hf i hlt).lt_or_eq with hpos | hz
    · exact hpos
    · exfalso
      have hz' : ps i = 0 := by simp only [hps, ← hz, zero_div]; exact h.zero
      obtain ⟨e1, e2⟩ := (searchRight_eq_iff hlt).1 hi
      rw [sum_skip h hz'] at e1
      cases i with
      | zero =>
        have : fl.sum 0 ps = 0 := rfl
        rw [this] at e1
        linarith
      | succ j => linarith [e2 j (by omega)]
  · right
    refine ⟨by unfold randChoiceNb; simp only; rw [if_neg hlt], ?_⟩
    by_contra hc
    refine hlt (search_lt hn ?_)
    have := h3 n le_rfl
    rw [div_self hX0.ne'] at this
    simp only [Nat.sub_add_cancel hn]
    linarith [(abs_le.1 this).1]

theorem exp_lipschitz {a b : ℝ} (ha : 0 ≤ a) (hb : 0 ≤ b) : |Real.exp (-a) - Real.exp (-b)| ≤ |a - b| := by
  wlog hab : a ≤ b generalizing a b
  · rw [abs_sub_comm, abs_sub_comm a]; exact this hb ha (le_of_not_ge hab)
  have h1 : Real.exp (-b) = Real.exp (-a) * Real.exp (-(b - a)) := by rw [← Real.exp_add]; ring_nf
  have h2 := Real.add_one_le_exp (-(b - a))
  have h3 : Real.exp (-a) ≤ 1 := Real.exp_le_one_iff.2 (by linarith)
  have h4 := Real.exp_pos (-a)
  have h5 : Real.exp (-b) ≤ Real.exp (-a) := Real.exp_le_exp.2 (by linarith)
  rw [abs_of_nonneg (by linarith), abs_of_nonpos (by linarith), h1]
  nlinarith

theorem exp_relative {y w δ : ℝ} (hy : 0 ≤ y) (hδ : 0 ≤ δ) (hδ1 : δ ≤ 1 / 2) (hw : |w - y| ≤ δ * y) :
    |Real.exp (-w) - Real.exp (-y)| ≤ δ := by
  have hq : y * Real.exp (-(y / 2)) ≤ 1 := by
    have h1 := Real.quadratic_le_exp_of_nonneg (x := y / 2) (by linarith)
    have h2 : y ≤ Real.exp (y / 2) := by nlinarith [sq_nonneg (y - 2)]
    rw [Real.exp_neg, ← div_eq_mul_inv, div_le_one (Real.exp_pos _)]
    exact h2
  rw [abs_le] at hw
  have key : ∀ a b : ℝ, y / 2 ≤ a → a ≤ b → b - a ≤ δ * y → |Real.exp (-a) - Real.exp (-b)| ≤ δ := by
    intro a b ha hab hd
    have h1 : Real.exp (-b) = Real.exp (-a) * Real.exp (-(b - a)) := by rw [← Real.exp_add]; ring_nf
    have h2 := Real.add_one_le_exp (-(b - a))
    have h3 : Real.exp (-a) ≤ Real.exp (-(y / 2)) := Real.exp_le_exp.2 (by linarith)
    have h4 := Real.exp_pos (-a)
    have h5 : Real.exp (-b) ≤ Real.exp (-a) := Real.exp_le_exp.2 (by linarith)
    rw [abs_of_nonneg (by linarith), h1]
    have h6 : Real.exp (-a) - Real.exp (-a) * Real.exp (-(b - a)) ≤ Real.exp (-a) * (b - a) := by nlinarith
    have h7 : Real.exp (-a) * (b - a) ≤ Real.exp (-(y / 2)) * (δ * y) :=
      mul_le_mul h3 hd (by linarith) (Real.exp_pos _).le
    have h8 : Real.exp (-(y / 2)) * (δ * y) = δ * (y * Real.exp (-(y / 2))) := by ring
    nlinarith
  rcases le_total w y with h | h
  · exact key w y (by nlinarith) h (by linarith)
  · rw [abs_sub_comm]; exact key y w (by linarith) h (by linarith)

/-- The exponentials of a row are computed accurately. -/
theorem expShift_close (h : Spec.CarefulOps fl ε η τ) (hε : 0 ≤ ε) (hε1 : ε ≤ 1 / 100) {x m T : ℝ} (hx : x ≤ m) (hT : 0 < T) :
    |fl.expo (fl.rnd (fl.rnd (x - m) / T)) - Real.exp ((x - m) / T)| ≤ 4 * ε + η * (1 + 2 / T) := by
  have hr := h.rounds
  have hη := rounds_nonneg hr
  set z := m - x with hz
  have hz0 : 0 ≤ z := by linarith
  have g0 : fl.rnd (x - m) ≤ 0 := by rw [← hr.zero]; exact hr.mono (by linarith)
  have g1 := hr.close (x - m)
  rw [abs_of_nonpos (by linarith : x - m ≤ 0)] at g1
  set z' := -fl.rnd (x - m) with hz'
  have hz'0 : 0 ≤ z' := by linarith
  have e1 : |z' - z| ≤ ε * z + η := by
    rw [show z' - z = -(fl.rnd (x - m) - (x - m)) by rw [hz', hz]; ring, abs_neg]
    rw [hz]; linarith
  set y := z / T with hy
  have hy0 : 0 ≤ y := by positivity
  set y1 := z' / T with hy1
  have hy10 : 0 ≤ y1 := by positivity
  have e2 : |y1 - y| ≤ ε * y + η / T := by
    rw [hy1, hy, ← sub_div, abs_div, abs_of_pos hT, ← mul_div_assoc, ← add_div]
    exact div_le_div_of_nonneg_right e1 hT.le
  have hneg : fl.rnd (x - m) / T = -y1 := by rw [hy1, hz']; ring
  have g2 := hr.close (-y1)
  rw [abs_neg, abs_of_nonneg hy10] at g2
  have g3 : fl.rnd (-y1) ≤ 0 := by rw [← hr.zero]; exact hr.mono (by linarith)
  set y2 := -fl.rnd (-y1) with hy2
  have hy20 : 0 ≤ y2 := by linarith
  have e3 : |y2 - y1| ≤ ε * y1 + η := by
    rw [show y2 - y1 = -(fl.rnd (-y1) - -y1) by rw [hy2]; ring, abs_neg]
    exact g2
  have hηT : 0 ≤ η / T := by positivity
  have e4 : |y2 - y| ≤ 3 * ε * y + (2 * (η / T) + η) := by
    have k1 : y1 ≤ y + (ε * y + η / T) := by linarith [(abs_le.1 e2).2]
    have k2 : ε * y1 ≤ ε * y + ε * (ε * y + η / T) := by nlinarith
    have k3 : ε * (ε * y + η / T) ≤ 1 * (ε * y + η / T) :=
      mul_le_mul_of_nonneg_right (by linarith) (by positivity)
    rw [abs_le] at e2 e3 ⊢
    constructor <;> linarith [e2.1, e2.2, e3.1, e3.2]
  set θ := 2 * (η / T) + η with hθ
  have hθ0 : 0 ≤ θ := by positivity
  -- a number between, reached by a relative error only
  obtain ⟨w, hw0, hw1, hw2⟩ : ∃ w, 0 ≤ w ∧ |w - y| ≤ 3 * ε * y ∧ |y2 - w| ≤ θ := by
    have hd0 : 0 ≤ 3 * ε * y := by positivity
    have hd1 : 3 * ε * y ≤ y := by nlinarith
    rw [abs_le] at e4
    rcases le_total y2 (y - 3 * ε * y) with c1 | c1
    · refine ⟨y - 3 * ε * y, by linarith, ?_, ?_⟩
      · rw [abs_le]; constructor <;> linarith
      · rw [abs_le]; constructor <;> linarith [e4.1]
    · rcases le_total y2 (y + 3 * ε * y) with c2 | c2
      · refine ⟨y2, hy20, ?_, by rw [sub_self, abs_zero]; exact hθ0⟩
        rw [abs_le]; constructor <;> linarith
      · refine ⟨y + 3 * ε * y, by linarith, ?_, ?_⟩
        · rw [abs_le]; constructor <;> linarith
        · rw [abs_le]; constructor <;> linarith [e4.2]
  have f1 := h.expo_close (fl.rnd (-y1)) g3
  have f2 := exp_lipschitz hy20 hw0
  have f3 := exp_relative hy0 (by positivity : 0 ≤ 3 * ε) (by linarith) hw1
  have hfin : fl.rnd (-y1) = -y2 := by rw [hy2]; ring
  have hxy : (x - m) / T = -y := by rw [hy, hz]; ring
  rw [hneg, hxy]
  rw [hfin] at f1 ⊢
  have hθ' : θ = η * (1 + 2 / T) := by rw [hθ]; ring
  rw [← hθ']
  have f4 := f2.trans hw2
  rw [abs_le] at f1 f3 f4 ⊢
  constructor <;> linarith [f1.1, f1.2, f3.1, f3.2, f4.1, f4.2]

/-- Weights that are near each other have shares that are near each other. -/
theorem share_close {x y : Nat → ℝ} {β : ℝ} (hy : ∀ a, a < n → 0 ≤ y a) (hβ : 0 ≤ β)
    (hxy : ∀ a, a < n → |x a - y a| ≤ β) (hX : 1 ≤ ∑ a ∈ Finset.range n, x a) (hY : 1 ≤ ∑ a ∈ Finset.range n, y a)
    {j : Nat} (hj : j ≤ n) :
    |(∑ a ∈ Finset.range j, x a) / (∑ a ∈ Finset.range n, x a) -
      (∑ a ∈ Finset.range j, y a) / ∑ a ∈ Finset.range n, y a| ≤ 2 * n * β := by
  have hd : ∀ i, i ≤ n → |(∑ a ∈ Finset.range i, x a) - ∑ a ∈ Finset.range i, y a| ≤ n * β := by
    intro i hi
    rw [← Finset.sum_sub_distrib]
    refine (Finset.abs_sum_le_sum_abs _ _).trans ?_
    refine (Finset.sum_le_sum fun a ha => hxy a (by have := Finset.mem_range.1 ha; omega)).trans ?_
    rw [Finset.sum_const, Finset.card_range, nsmul_eq_mul]
    exact mul_le_mul_of_nonneg_right (by exact_mod_cast hi) hβ
  have h1 := hd j hj
  have h2 := hd n le_rfl
  have h3 : ∑ a ∈ Finset.range j, y a ≤ ∑ a ∈ Finset.range n, y a := sum_range_mono hy hj le_rfl
  have h4 : 0 ≤ ∑ a ∈ Finset.range j, y a :=
    Finset.sum_nonneg fun a ha => hy a (by have := Finset.mem_range.1 ha; omega)
  generalize ∑ a ∈ Finset.range j, x a = A at *
  generalize ∑ a ∈ Finset.range j, y a = B at *
  generalize ∑ a ∈ Finset.range n, x a = X at *
  generalize ∑ a ∈ Finset.range n, y a = Y at *
  have hX0 : 0 < X := by linarith
  have hY0 : 0 < Y := by linarith
  have e : A / X - B / Y = (A - B) / X + B / Y * ((Y - X) / X) := by field_simp; ring
  have h5 : B / Y ≤ 1 := (div_le_one hY0).2 h3
  have h6 : 0 ≤ B / Y := by positivity
  have h7 : |(A - B) / X| ≤ n * β := by
    rw [abs_div, abs_of_pos hX0, div_le_iff₀ hX0]
    nlinarith [abs_nonneg (A - B)]
  have h8 : |(Y - X) / X| ≤ n * β := by
    rw [abs_div, abs_of_pos hX0, abs_sub_comm, div_le_iff₀ hX0]
    nlinarith [abs_nonneg (X - Y)]
  rw [e]
  refine (abs_add_le _ _).trans ?_
  rw [abs_mul, abs_of_nonneg h6]
  nlinarith [abs_nonneg ((Y - X) / X)]

/-- `softmax` of a row with a finite entry. -/
theorem softmax_row (h : Spec.CarefulOps fl ε η τ) (hε : 0 ≤ ε) {κ : ℝ} (hκ : n * (ε + η) ≤ κ) (hκ1 : κ ≤ 1 / 100)
    (e : Nat → Ext ℝ) {T : ℝ} (hT : 0 < T) (hp : ∀ a, a < n → e a ≠ .pinf) (hf : ∃ a, a < n ∧ ∃ x, e a = .fin x) :
    ∃ f : Nat → ℝ, (fl.softmax n (fun a => (e a).clean) T = fun a => .fin (f a)) ∧ (∀ a, a < n → 0 ≤ f a) ∧
      (∀ a, a < n → 0 < f a → ∃ x, e a = .fin x) ∧ |(∑ a ∈ Finset.range n, f a) - 1| ≤ 7 * κ ∧
      ∀ j, j ≤ n → |(∑ a ∈ Finset.range j, f a) - (∑ a ∈ Finset.range j, Spec.weight T (e a)) /
        ∑ a ∈ Finset.range n, Spec.weight T (e a)| ≤ 15 * κ + 4 * n * (η / T) := by
  obtain ⟨a0, ha0, x0, hx0⟩ := hf
  have hr := h.rounds
  have hη := rounds_nonneg hr
  have hn : 0 < n := by omega
  have hn1 : (1 : ℝ) ≤ n := by exact_mod_cast hn
  have hεκ : ε + η ≤ κ := by nlinarith
  obtain ⟨k, hk, hmax⟩ := exists_npMax (fun a => (e a).clean) hn
  have hle := le_npMax (fun a => (e a).clean) ha0
  rw [hmax] at hle
  simp only [hx0] at hle
  obtain ⟨m, hm⟩ : ∃ m, e k = .fin m := by
    cases hek : e k with
    | fin m => exact ⟨m, rfl⟩
    | nan => rw [hek] at hle; simp [Ext.clean] at hle
    | ninf => rw [hek] at hle; simp [Ext.clean] at hle
    | pinf => exact absurd hek (hp k hk)
  have hmax' : npMax n (fun a => (e a).clean) = some (some m) := by rw [hmax, hm]; rfl
  have hlem : ∀ a x, a < n → e a = .fin x → x ≤ m := by
    intro a x ha hx
    have := le_npMax (fun a => (e a).clean) ha
    rw [hmax', hx] at this
    exact WithTop.coe_le_coe.1 (WithBot.coe_le_coe.1 this)
  set E : Nat → ℝ := fun a => fl.expShift m T (e a).clean with hE
  set R : Nat → ℝ := fun a => MaMDP.expShift m T (e a).clean with hR
  have hEfin : ∀ a x, e a = .fin x → E a = fl.expo (fl.rnd (fl.rnd (x - m) / T)) := by
    intro a x hx; simp only [hE, hx]; rfl
  have hEno : ∀ a, (∀ x, e a ≠ .fin x) → E a = 0 := by
    intro a ha
    simp only [hE]
    cases hx : e a with
    | fin x => exact absurd hx (ha x)
    | nan => rfl
    | ninf => rfl
    | pinf => rfl
  have hneg : ∀ a x, a < n → e a = .fin x → fl.rnd (fl.rnd (x - m) / T) ≤ 0 := by
    intro a x ha hx
    have h1 : fl.rnd (x - m) ≤ 0 := by rw [← hr.zero]; exact hr.mono (by linarith [hlem a x ha hx])
    rw [← hr.zero]
    exact hr.mono (div_nonpos_of_nonpos_of_nonneg h1 hT.le)
  have hE0 : ∀ a, a < n → 0 ≤ E a := by
    intro a ha
    by_cases hx : ∃ x, e a = .fin x
    · obtain ⟨x, hx⟩ := hx
      rw [hEfin a x hx]
      exact h.expo_nonneg _ (hneg a x ha hx)
    · rw [hEno a fun x hx' => hx ⟨x, hx'⟩]
  have hEk : E k = 1 := by rw [hEfin k m hm, sub_self, hr.zero, zero_div, hr.zero, h.expo_zero]
  have hRk : R k = 1 := by simp only [hR, hm, expShift_fin, sub_self, zero_div, Real.exp_zero]
  have hE1 : 1 ≤ ∑ a ∈ Finset.range n, E a := by
    rw [← hEk]
    exact Finset.single_le_sum (fun a ha => hE0 a (Finset.mem_range.1 ha)) (Finset.mem_range.2 hk)
  have hR1 : 1 ≤ ∑ a ∈ Finset.range n, R a := by
    rw [← hRk]
    exact Finset.single_le_sum (f := R) (fun a _ => expShift_nonneg m T (e a).clean) (Finset.mem_range.2 hk)
  have hclose : ∀ a, a < n → |E a - R a| ≤ 4 * ε + η * (1 + 2 / T) := by
    intro a ha
    have h0 : 0 ≤ 4 * ε + η * (1 + 2 / T) := by positivity
    by_cases hx : ∃ x, e a = .fin x
    · obtain ⟨x, hx⟩ := hx
      rw [hEfin a x hx]
      simp only [hR, hx, expShift_fin]
      exact expShift_close h hε (by linarith) (hlem a x ha hx) hT
    · have hx' : ∀ x, e a ≠ .fin x := fun x h => hx ⟨x, h⟩
      rw [hEno a hx']
      simp only [hR]
      rw [expShift_of_not_fin m T hx', sub_zero, abs_zero]
      exact h0
  obtain ⟨n1, n2, n3⟩ := normal hr hε hκ hκ1 hn hE0 (by linarith)
  refine ⟨fun a => fl.rnd (E a / fl.sum n E), ?_, n2, ?_, ?_, fun j hj => ?_⟩
  · unfold softmax
    rw [if_neg, hmax']
    push Not
    exact ⟨a0, ha0, by simp [hx0, Ext.clean]⟩
  · intro a ha hpos
    by_contra hx
    replace hpos : 0 < fl.rnd (E a / fl.sum n E) := hpos
    rw [hEno a fun x hx' => hx ⟨x, hx'⟩, zero_div, hr.zero] at hpos
    exact lt_irrefl _ hpos
  · have := n3 n le_rfl
    rwa [div_self (by linarith)] at this
  · have hw : ∀ i, (∑ a ∈ Finset.range i, Spec.weight T (e a)) = Real.exp (m / T) * ∑ a ∈ Finset.range i, R a := by
      intro i
      rw [Finset.mul_sum]
      refine Finset.sum_congr rfl fun a _ => ?_
      by_cases hx : ∃ x, e a = .fin x
      · obtain ⟨x, hx⟩ := hx
        simp only [hR, hx, expShift_fin, Spec.weight]
        rw [← Real.exp_add]
        congr 1
        field_simp
        ring
      · have hx' : ∀ x, e a ≠ .fin x := fun x h => hx ⟨x, h⟩
        simp only [hR]
        rw [expShift_of_not_fin m T hx', mul_zero]
        cases hxe : e a with
        | fin x => exact absurd hxe (hx' x)
        | nan => rfl
        | ninf => rfl
        | pinf => rfl
    rw [hw j, hw n, mul_div_mul_left _ _ (Real.exp_pos _).ne']
    have k1 := n3 j hj
    have k2 := share_close (n := n) (fun a _ => expShift_nonneg m T (e a).clean)
      (by positivity : 0 ≤ 4 * ε + η * (1 + 2 / T)) hclose hE1 hR1 hj
    have k3 : 2 * n * (4 * ε + η * (1 + 2 / T)) ≤ 8 * κ + 4 * n * (η / T) := by
      have : 2 * n * (4 * ε + η * (1 + 2 / T)) = 8 * (n * (ε + η)) - 6 * (n * η) + 4 * n * (η / T) := by ring
      have h' : 0 ≤ n * η := by positivity
      linarith
    rw [abs_le] at k1 k2 ⊢
    constructor <;> linarith [k1.1, k1.2, k2.1, k2.2]

/-- Choosing after `softmax`. -/
theorem choose_row (h : Spec.CarefulOps fl ε η τ) (hε : 0 ≤ ε) (hτ : 0 ≤ τ) {κ : ℝ} (hκ : n * (ε + η) ≤ κ) (hκ1 : κ ≤ 1 / 100)
    (htol : 10 * κ + 3 * τ ≤ fl.tol) (e : Nat → Ext ℝ) {T : ℝ} (hT : 0 < T) (hp : ∀ a, a < n → e a ≠ .pinf)
    (hf : ∃ a, a < n ∧ ∃ x, e a = .fin x) {u : ℝ} (hu0 : 0 ≤ u) (hu1 : u < 1) :
    ∃ i, fl.softmaxChoice n (fl.softmax n (fun a => (e a).clean) T) u = .ok i ∧ i < n ∧ (∃ x, e i = .fin x) ∧
      (∑ a ∈ Finset.range i, Spec.weight T (e a)) / (∑ a ∈ Finset.range n, Spec.weight T (e a)) -
        (50 * κ + 4 * n * (η / T)) ≤ u ∧
      u < (∑ a ∈ Finset.range (i + 1), Spec.weight T (e a)) / (∑ a ∈ Finset.range n, Spec.weight T (e a)) +
        (50 * κ + 4 * n * (η / T)) := by
  obtain ⟨f, f1, f2, f3, f4, f5⟩ := softmax_row h hε hκ hκ1 e hT hp hf
  have hn : 0 < n := by obtain ⟨a, ha, -⟩ := hf; omega
  have hn1 : (1 : ℝ) ≤ n := by exact_mod_cast hn
  have hη := rounds_nonneg h.rounds
  have hκ0 : 0 ≤ κ := by nlinarith
  have hF : 1 / 2 ≤ ∑ a ∈ Finset.range n, f a := by linarith [(abs_le.1 f4).1]
  obtain ⟨i, i1, i2, i3, i4, i5⟩ := softmaxChoice_ok h hε hτ hκ hκ1 htol hn f2 hF hu0 hu1
  have hdiff : ∀ j, j ≤ n → |(∑ a ∈ Finset.range j, f a) / (∑ a ∈ Finset.range n, f a) -
      (∑ a ∈ Finset.range j, f a)| ≤ 7 * κ := by
    intro j hj
    have g1 : ∑ a ∈ Finset.range j, f a ≤ ∑ a ∈ Finset.range n, f a := sum_range_mono f2 hj le_rfl
    have g2 : 0 ≤ ∑ a ∈ Finset.range j, f a :=
      Finset.sum_nonneg fun a ha => f2 a (by have := Finset.mem_range.1 ha; omega)
    generalize ∑ a ∈ Finset.range j, f a = A at *
    generalize ∑ a ∈ Finset.range n, f a = B at *
    have hB : 0 < B := by linarith
    have : A / B - A = A / B * (1 - B) := by field_simp
    rw [this, abs_mul, abs_of_nonneg (by positivity), abs_sub_comm]
    calc A / B * |B - 1| ≤ 1 * |B - 1| := mul_le_mul_of_nonneg_right ((div_le_one hB).2 g1) (abs_nonneg _)
      _ ≤ 7 * κ := by rw [one_mul]; exact f4
  refine ⟨i, by rw [f1]; exact i1, i2, f3 i i2 i3, ?_, ?_⟩
  · linarith [(abs_le.1 (hdiff i i2.le)).1, (abs_le.1 (f5 i i2.le)).1]
  · linarith [(abs_le.1 (hdiff (i + 1) (by omega))).2, (abs_le.1 (f5 (i + 1) (by omega))).2]

/-- Choosing in a row without any finite entry. -/
theorem choose_none (h : Spec.CarefulOps fl ε η τ) (hε : 0 ≤ ε) (hτ : 0 ≤ τ) {κ : ℝ} (hκ : n * (ε + η) ≤ κ) (hκ1 : κ ≤ 1 / 100)
    (htol : 10 * κ + 3 * τ ≤ fl.tol) (hn : 0 < n) (e : Nat → Ext ℝ) (T : ℝ) (hp : ∀ a, a < n → (e a).clean = ⊥)
    {u : ℝ} (hu0 : 0 ≤ u) (hu1 : u < 1) :
    (∃ i, fl.softmaxChoice n (fl.softmax n (fun a => (e a).clean) T) u = .ok i ∧ i < n ∧
      (i : ℝ) / n - 21 * κ ≤ u ∧ u < ((i + 1 : ℕ) : ℝ) / n + 21 * κ) ∧
    (fl.softmax n (fun a => (e a).clean) T = fun _ => .fin (fl.rnd (1 / n))) ∧
    0 ≤ fl.rnd (1 / n) ∧ |fl.rnd (1 / n) - 1 / n| ≤ κ := by
  have hr := h.rounds
  have hη := rounds_nonneg hr
  have hn1 : (1 : ℝ) ≤ n := by exact_mod_cast hn
  have hn0 : (0 : ℝ) < n := by linarith
  have h1 := hr.close (1 / n)
  rw [abs_of_pos (by positivity : (0 : ℝ) < 1 / n)] at h1
  have h2 : 0 ≤ fl.rnd (1 / n) := by rw [← hr.zero]; exact hr.mono (by positivity)
  have hle : (1 : ℝ) / n ≤ 1 := (div_le_one hn0).2 hn1
  have hF : 1 / 2 ≤ ∑ a ∈ Finset.range n, (fun _ : Nat => fl.rnd (1 / (n : ℝ))) a := by
    rw [Finset.sum_const, Finset.card_range, nsmul_eq_mul]
    have h3 : 1 / (n : ℝ) - (ε * (1 / n) + η) ≤ fl.rnd (1 / n) := by linarith [(abs_le.1 h1).1]
    have h4 := mul_le_mul_of_nonneg_left h3 hn0.le
    have h5 : (n : ℝ) * (1 / n - (ε * (1 / n) + η)) = 1 - ε - n * η := by field_simp; ring
    nlinarith
  have hs : fl.softmax n (fun a => (e a).clean) T = fun _ => .fin (fl.rnd (1 / n)) := by
    unfold softmax
    rw [if_pos hp]
  obtain ⟨i, i1, i2, i3, i4, i5⟩ := softmaxChoice_ok h hε hτ hκ hκ1 htol hn (f := fun _ => fl.rnd (1 / (n : ℝ))) (fun _ _ => h2)
    hF hu0 hu1
  have hpos : fl.rnd (1 / n) ≠ 0 := ne_of_gt i3
  simp only [Finset.sum_const, Finset.card_range, nsmul_eq_mul] at i4 i5
  rw [mul_div_mul_right _ _ hpos] at i4 i5
  refine ⟨⟨i, by rw [hs]; exact i1, i2, i4, i5⟩, hs, h2, h1.trans ?_⟩
  nlinarith

end FloatOps

end MaMDP
