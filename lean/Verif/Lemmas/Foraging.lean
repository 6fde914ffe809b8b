import Verif.Spec.Foraging
import Verif.Lemmas.Optimality
import Mathlib.Algebra.Order.Archimedean.Basic

/-! # Lemmas on foraging -/

set_option linter.unusedSectionVars false

namespace MaMDP

/-- What there is for agent `a` in state `t`: its features, weighted with its rewards. -/
def food {δ : Type} (e : Env ℝ δ) (a : Agent ℝ δ) (t : Nat) : ℝ :=
  ∑ f ∈ Finset.range a.reward.d0, a.reward.get f * e.mdp.features.get f t

theorem food_nonneg {δ : Type} {e : Env ℝ δ} {a : Agent ℝ δ} {t : Nat} (hlikes : ∀ f, f < a.reward.d0 → 0 ≤ a.reward.get f)
    (h : ∀ f, f < a.reward.d0 → 0 < a.reward.get f → 0 ≤ e.mdp.features.get f t) : 0 ≤ food e a t := by
  refine Finset.sum_nonneg fun f hf => ?_
  have hf := Finset.mem_range.1 hf
  rcases (hlikes f hf).lt_or_eq with hw | hw
  · exact mul_nonneg hw.le (h f hf hw)
  · rw [← hw, zero_mul]

theorem food_zero {δ : Type} {e : Env ℝ δ} {a : Agent ℝ δ} {t : Nat} (hlikes : ∀ f, f < a.reward.d0 → 0 ≤ a.reward.get f)
    (h : ∀ f, f < a.reward.d0 → 0 < a.reward.get f → 0 ≤ e.mdp.features.get f t) (hz : food e a t = 0) {f : Nat}
    (hf : f < a.reward.d0) (hw : 0 < a.reward.get f) : e.mdp.features.get f t = 0 := by
  have hterm := (Finset.sum_eq_zero_iff_of_nonneg (fun f hf => by
    have hf := Finset.mem_range.1 hf
    rcases (hlikes f hf).lt_or_eq with hw | hw
    · exact mul_nonneg hw.le (h f hf hw)
    · rw [← hw, zero_mul])).1 hz f (Finset.mem_range.2 hf)
  exact (mul_eq_zero.1 hterm).resolve_left (ne_of_gt hw)

/-- Moves can be taken back, as on a grid. -/
def CanReturn (M : Trans ℝ) : Prop :=
  ∀ s a t, s < M.nS → a < M.nA → t < M.nS → M.p s a t = 1 → ∃ b, b < M.nA ∧ M.p t b s = 1

theorem reaches_snoc {M : Trans ℝ} {t a u : Nat} (ha : a < M.nA) (hu : u < M.nS) (hp : M.p t a u = 1) :
    ∀ (n s : Nat), Spec.Reaches M s t n → Spec.Reaches M s u (n + 1) := by
  intro n
  induction n with
  | zero =>
    intro s h
    rw [reaches_zero] at h
    subst h
    exact reaches_succ.2 ⟨a, u, ha, hu, hp, reaches_zero.2 rfl⟩
  | succ n ih =>
    intro s h
    obtain ⟨b, v, hb, hv, hq, h⟩ := reaches_succ.1 h
    exact reaches_succ.2 ⟨b, v, hb, hv, hq, ih v h⟩

theorem reaches_trans {M : Trans ℝ} {t u k : Nat} (h2 : Spec.Reaches M t u k) :
    ∀ (n s : Nat), Spec.Reaches M s t n → Spec.Reaches M s u (n + k) := by
  intro n
  induction n with
  | zero =>
    intro s h
    rw [reaches_zero] at h
    subst h
    simpa using h2
  | succ n ih =>
    intro s h
    obtain ⟨b, v, hb, hv, hq, h⟩ := reaches_succ.1 h
    rw [Nat.succ_add_eq_add_succ]
    exact reaches_succ.2 ⟨b, v, hb, hv, hq, ih v h⟩

theorem reaches_lt {M : Trans ℝ} {t : Nat} : ∀ (n s : Nat), s < M.nS → Spec.Reaches M s t n → t < M.nS := by
  intro n
  induction n with
  | zero => intro s hs h; rw [reaches_zero] at h; omega
  | succ n ih =>
    intro s _ h
    obtain ⟨b, v, hb, hv, hq, h⟩ := reaches_succ.1 h
    exact ih v hv h

theorem reaches_back {M : Trans ℝ} (hback : CanReturn M) {t : Nat} :
    ∀ (n s : Nat), s < M.nS → Spec.Reaches M s t n → Spec.Reaches M t s n := by
  intro n
  induction n with
  | zero => intro s _ h; rw [reaches_zero] at h ⊢; exact h.symm
  | succ n ih =>
    intro s hs h
    obtain ⟨b, v, hb, hv, hq, h⟩ := reaches_succ.1 h
    obtain ⟨c, hc, hp⟩ := hback s b v hs hb hv hq
    exact reaches_snoc hc hs hp n t (ih v hv h)

/-- What can be reached with at least one move is worth something. -/
theorem value_reaches {M : Trans ℝ} (hM : Spec.SubStochastic M) (hdet : Spec.Deterministic M) {r V : Nat → ℝ} {γ : ℝ}
    (h0 : 0 < γ) (h1 : γ < 1) (hr : ∀ t, t < M.nS → 0 ≤ r t) (hV : Spec.Bellman M r γ V) {t : Nat} :
    ∀ (n s : Nat), s < M.nS → Spec.Reaches M s t (n + 1) → γ ^ n * r t ≤ V s := by
  have hpos := bellman_nonneg hM h0 h1 hr hV
  intro n
  induction n with
  | zero =>
    intro s hs h
    obtain ⟨a, u, ha, hu, hp, h⟩ := reaches_succ.1 h
    rw [reaches_zero] at h
    subst h
    have e : Spec.Q M r γ V s a = r u + γ * V u := actionValue_det hM hdet r γ V hs ha hu hp
    have := (hV s hs).1 a ha
    have := mul_nonneg h0.le (hpos u hu)
    rw [pow_zero, one_mul]
    linarith
  | succ n ih =>
    intro s hs h
    obtain ⟨a, u, ha, hu, hp, h⟩ := reaches_succ.1 h
    have e : Spec.Q M r γ V s a = r u + γ * V u := actionValue_det hM hdet r γ V hs ha hu hp
    have h2 := (hV s hs).1 a ha
    have h3 := mul_le_mul_of_nonneg_left (ih u hu h) h0.le
    have := hr u hu
    rw [pow_succ]
    nlinarith

/-! ## A run of the forager -/

/-- Positions and what has been eaten, round by round. The rewards `R` depend on what has been eaten. Unless something was in
the state landed on, the values rise. -/
structure Run {ι : Type} (M : Trans ℝ) (η : ℝ) (s : Nat → Nat) (A : Nat → Finset ι) (R : Finset ι → Nat → ℝ)
    (W : (Nat → ℝ) → Nat → ℝ) : Prop where
  lt : ∀ n, s n < M.nS
  grows : ∀ n, A n ⊆ A (n + 1)
  eats : ∀ n, 0 < R (A n) (s (n + 1)) → A n ≠ A (n + 1)
  rises : ∀ n, (∃ t k, Spec.Reaches M (s 0) t k ∧ 0 < R (A n) t) → R (A n) (s (n + 1)) = 0 →
    W (R (A n)) (s n) + η ≤ W (R (A n)) (s (n + 1))

variable {ι : Type} {M : Trans ℝ} {η : ℝ} {s : Nat → Nat} {A : Nat → Finset ι} {R : Finset ι → Nat → ℝ}
  {W : (Nat → ℝ) → Nat → ℝ}

theorem Run.le (h : Run M η s A R W) (n : Nat) : ∀ k, A n ⊆ A (n + k)
  | 0 => Finset.Subset.refl _
  | k + 1 => Finset.Subset.trans (h.le n k) (h.grows (n + k))

/-- If nothing is eaten for `K` rounds, nothing is left. -/
theorem Run.stuck (h : Run M η s A R W) {c : ℝ} (hr : ∀ n t, t < M.nS → 0 ≤ R (A n) t)
    (hW0 : ∀ n t, t < M.nS → 0 ≤ W (R (A n)) t) (hW : ∀ n t, t < M.nS → W (R (A n)) t ≤ c)
    {K : Nat} (hK : c < K * η) (n : Nat) (he : A (n + K) = A n) {t j : Nat} (ht : Spec.Reaches M (s 0) t j) :
    R (A n) t = 0 := by
  have hsame : ∀ k, k ≤ K → A (n + k) = A n := by
    intro k hk
    refine Finset.Subset.antisymm ?_ (h.le n k)
    have := h.le (n + k) (K - k)
    rwa [show n + k + (K - k) = n + K by omega, he] at this
  have hstill : ∀ k, k < K → R (A (n + k)) (s (n + k + 1)) = 0 := by
    intro k hk
    by_contra hne
    refine h.eats (n + k) (lt_of_le_of_ne (hr _ _ (h.lt _)) (Ne.symm hne)) ?_
    rw [hsame k hk.le]
    exact (hsame (k + 1) hk).symm
  by_contra hne
  have hpos : 0 < R (A n) t := lt_of_le_of_ne (hr n t (reaches_lt j _ (h.lt 0) ht)) (Ne.symm hne)
  have hrise : ∀ k, k ≤ K → k * η ≤ W (R (A n)) (s (n + k)) := by
    intro k
    induction k with
    | zero => intro _; simpa using hW0 n (s n) (h.lt n)
    | succ k ih =>
      intro hk
      have := h.rises (n + k) ⟨t, j, ht, by rw [hsame k (by omega)]; exact hpos⟩ (hstill k (by omega))
      rw [hsame k (by omega)] at this
      have := ih (by omega)
      rw [show n + (k + 1) = n + k + 1 from rfl]
      push_cast
      linarith
  have := hrise K le_rfl
  have := hW n (s (n + K)) (h.lt _)
  linarith

/-- In the end nothing is left. -/
theorem Run.ends (h : Run M η s A R W) {c : ℝ} {U : Finset ι} (hU : ∀ n, A n ⊆ U)
    (hr : ∀ n t, t < M.nS → 0 ≤ R (A n) t) (hmono : ∀ n k t, t < M.nS → R (A (n + k)) t ≤ R (A n) t)
    (hW0 : ∀ n t, t < M.nS → 0 ≤ W (R (A n)) t) (hW : ∀ n t, t < M.nS → W (R (A n)) t ≤ c)
    {K : Nat} (hK : c < K * η) {n : Nat} (hn : (U.card + 1) * K ≤ n) {t k : Nat} (ht : Spec.Reaches M (s 0) t k) :
    R (A n) t = 0 := by
  obtain ⟨j, hj, he⟩ : ∃ j, j ≤ U.card ∧ A (j * K + K) = A (j * K) := by
    by_contra hcon
    push Not at hcon
    have key : ∀ j, j ≤ U.card + 1 → j ≤ (A (j * K)).card := by
      intro j
      induction j with
      | zero => intro _; exact Nat.zero_le _
      | succ j ih =>
        intro hj
        have h2 := ih (by omega)
        have h3 := Finset.card_lt_card ((h.le (j * K) K).ssubset_of_ne (Ne.symm (hcon j (by omega))))
        rw [Nat.succ_mul]
        omega
    have := key (U.card + 1) le_rfl
    have := Finset.card_le_card (hU ((U.card + 1) * K))
    omega
  have hz := h.stuck hr hW0 hW hK (j * K) he ht
  have hlt := reaches_lt k _ (h.lt 0) ht
  have hjn : j * K ≤ n := le_trans (Nat.mul_le_mul_right K (by omega)) hn
  have := hmono (j * K) (n - j * K) t hlt
  rw [show j * K + (n - j * K) = n by omega, hz] at this
  exact le_antisymm this (hr n t hlt)

end MaMDP
