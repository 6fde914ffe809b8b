import Verif.Lemmas.Monotone
import Verif.Lemmas.EnvWalk

/-! # How much the future can count (C167) -/

set_option linter.unusedSectionVars false

namespace MaMDP

variable {K : Type} [Field K] [LinearOrder K] [IsStrictOrderedRing K]

/-- Action values stay between the extreme rewards received forever. -/
theorem actionValue_between {M : Trans K} (hM : Spec.SubStochastic M) {r : Nat → K} {γ L U : K} (h0 : 0 < γ) (h1 : γ < 1)
    (hL : 0 ≤ L) (hU : 0 ≤ U) (hr : ∀ t, t < M.nS → -L ≤ r t ∧ r t ≤ U) {v : Nat → K}
    (hv : ∀ t, t < M.nS → -(L / (1 - γ)) ≤ v t ∧ v t ≤ U / (1 - γ)) {s a : Nat} (hs : s < M.nS) (ha : a < M.nA) :
    -(L / (1 - γ)) ≤ actionValue M r γ v s a ∧ actionValue M r γ v s a ≤ U / (1 - γ) := by
  have hg : 0 < 1 - γ := by linarith
  have fix : ∀ x : K, x + γ * (x / (1 - γ)) = x / (1 - γ) := fun x => by field_simp; ring
  have hsum := hM.2 s a hs ha
  have hp := fun t (ht : t < M.nS) => hM.1 s a t hs ha ht
  unfold actionValue npDot
  constructor
  · calc -(L / (1 - γ)) ≤ (∑ t ∈ Finset.range M.nS, M.p s a t) * -(L / (1 - γ)) := by
          have : 0 ≤ L / (1 - γ) := div_nonneg hL hg.le
          nlinarith
      _ = ∑ t ∈ Finset.range M.nS, M.p s a t * -(L / (1 - γ)) := Finset.sum_mul ..
      _ ≤ _ := Finset.sum_le_sum fun t ht => by
          have ht := Finset.mem_range.1 ht
          refine mul_le_mul_of_nonneg_left ?_ (hp t ht)
          have := mul_le_mul_of_nonneg_left (hv t ht).1 h0.le
          have := fix L
          have := (hr t ht).1
          linarith
  · calc _ ≤ ∑ t ∈ Finset.range M.nS, M.p s a t * (U / (1 - γ)) := Finset.sum_le_sum fun t ht => by
          have ht := Finset.mem_range.1 ht
          refine mul_le_mul_of_nonneg_left ?_ (hp t ht)
          have := mul_le_mul_of_nonneg_left (hv t ht).2 h0.le
          have := fix U
          have := (hr t ht).2
          linarith
      _ = (∑ t ∈ Finset.range M.nS, M.p s a t) * (U / (1 - γ)) := (Finset.sum_mul ..).symm
      _ ≤ _ := by
          have : 0 ≤ U / (1 - γ) := div_nonneg hU hg.le
          nlinarith

/-- What value iteration says of an action that leads to `t`: the reward there, plus a future between the extremes. -/
theorem solve_future {M : Trans K} (hM : Spec.SubStochastic M) (hdet : Spec.Deterministic M) (hA : 0 < M.nA)
    {r : Nat → K} {γ tol L U : K} {maxIter : Nat}
    (hL : 0 ≤ L) (hU : 0 ≤ U) (hr : ∀ t, t < M.nS → -L ≤ r t ∧ r t ≤ U) {v : Nat → K} {q : Nat → Nat → Ext K}
    (h : solveHard M r maxIter γ tol = .ok (v, q)) {s : Nat} (hs : s < M.nS) : 0 < γ ∧ γ < 1 ∧
    ∃ w : Nat → K, (∀ t, t < M.nS → -(L / (1 - γ)) ≤ w t ∧ w t ≤ U / (1 - γ)) ∧
      ∀ a t, a < M.nA → t < M.nS → M.p s a t = 1 → q s a = .fin (r t + γ * w t) := by
  obtain ⟨h0, h1, j, -, -, -, hq⟩ := solve_is_sweeps hA h
  have hg : 0 < 1 - γ := by linarith
  have hind := iterV_induct (B := hardBackup M.nA) (M := M) (r := r) (γ := γ) (v := fun _ => 0)
    (fun _ x => -(L / (1 - γ)) ≤ x ∧ x ≤ U / (1 - γ))
    (fun _ _ => ⟨neg_nonpos.2 (div_nonneg hL hg.le), div_nonneg hU hg.le⟩) (fun w u hu hw => by
      obtain ⟨i, hi, e⟩ := exists_npMax (actionValue M r γ w u) hA
      unfold hardBackup
      rw [e]
      exact actionValue_between hM h0 h1 hL hU hr hw hu hi)
  refine ⟨h0, h1, _, fun t ht => (hind (j - 1) t ht).2 s (by omega), fun a t ha ht hp => ?_⟩
  rw [hq s a hs, ← sweeps_eq, actionValue_det hM hdet r γ _ hs ha ht hp, if_neg]
  unfold npSum
  intro hz
  have := (Finset.sum_eq_zero_iff_of_nonneg fun u hu => hM.1 s a u hs ha (Finset.mem_range.1 hu)).1 hz t (Finset.mem_range.2 ht)
  rw [hp] at this
  exact one_ne_zero this

/-- A walk of best actions, one step at a time. -/
theorem greedy_at {M : Trans K} {q : Nat → Nat → Ext K} : ∀ (l : List (Nat × Nat)) (s : Nat), s < M.nS → Spec.Plays M s l →
    Spec.Greedy M.nA q s l → ∀ (i p t : Nat), (s :: l.map (·.2))[i]? = some p → (l.map (·.2))[i]? = some t →
      p < M.nS ∧ t < M.nS ∧ ∃ x, x < M.nA ∧ M.p p x t = 1 ∧ ∀ b, b < M.nA → Spec.NoBetter (q p b) (q p x)
  | [], _, _, _, _, i, p, t, _, h => by simp at h
  | (x, u) :: l, s, hs, ⟨hx, hu, hp, hl⟩, ⟨hb, hg⟩, 0, p, t, h1, h2 => by
    simp only [List.map_cons, List.getElem?_cons_zero, Option.some.injEq] at h1 h2
    subst h1 h2
    exact ⟨hs, hu, x, hx, hp, hb⟩
  | (x, u) :: l, s, hs, ⟨hx, hu, hp, hl⟩, ⟨hb, hg⟩, i + 1, p, t, h1, h2 => by
    simp only [List.map_cons, List.getElem?_cons_succ] at h1 h2
    exact greedy_at l u hu hl hg i p t h1 h2

end MaMDP
