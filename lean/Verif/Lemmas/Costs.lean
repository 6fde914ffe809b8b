import Verif.Lemmas.EnvWalk

/-! Planning with costs. -/

set_option linter.unusedSectionVars false

namespace MaMDP

variable {K : Type} [Field K] [LinearOrder K] [IsStrictOrderedRing K]

/-- A move that costs nothing in every state that can be left keeps values non-negative. -/
theorem bellman_nonneg_free {M : Trans K} (hM : Spec.SubStochastic M) (hdet : Spec.Deterministic M) {r V : Nat → K}
    {γ : K} (h0 : 0 < γ) (h1 : γ < 1) (hV : Spec.Bellman M r γ V)
    (hfree : ∀ s, s < M.nS → Spec.Live M s → ∃ a t, a < M.nA ∧ t < M.nS ∧ M.p s a t = 1 ∧ 0 ≤ r t) :
    ∀ s, s < M.nS → 0 ≤ V s := by
  by_cases hn : 0 < M.nS
  swap
  · intro s hs; omega
  obtain ⟨k, hk, ek⟩ := exists_npMax (fun t => - V t) hn
  have hall : ∀ t, t < M.nS → V k ≤ V t := by
    intro t ht
    have := le_npMax (fun t => - V t) ht
    rw [ek] at this
    linarith
  have hk0 : 0 ≤ V k := by
    by_cases hl : Spec.Live M k
    · obtain ⟨a, t, ha, ht, hp, hrt⟩ := hfree k hk hl
      have h2 := (hV k hk).1 a ha
      have e : Spec.Q M r γ V k a = r t + γ * V t := actionValue_det hM hdet r γ V hk ha ht hp
      rw [e] at h2
      have h3 := mul_le_mul_of_nonneg_left (hall t ht) h0.le
      nlinarith
    · obtain ⟨-, a, ha, ea⟩ := hV k hk
      have e0 : Spec.Q M r γ V k a = 0 :=
        actionValue_impossible hM r γ V hk ha fun hp => hl ⟨a, ha, hp⟩
      rw [← ea, e0]
  intro s hs
  exact hk0.trans (hall s hs)

/-- Then possible actions attain the values. -/
theorem bellman_attained_free {M : Trans K} (hM : Spec.SubStochastic M) (hdet : Spec.Deterministic M)
    {r V : Nat → K} {γ : K} (h0 : 0 < γ) (h1 : γ < 1) (hV : Spec.Bellman M r γ V)
    (hfree : ∀ s, s < M.nS → Spec.Live M s → ∃ a t, a < M.nA ∧ t < M.nS ∧ M.p s a t = 1 ∧ 0 ≤ r t)
    (s a : Nat) (hs : s < M.nS) (ha : a < M.nA) (hp : Spec.Possible M s a) :
    ∃ b, b < M.nA ∧ Spec.Possible M s b ∧ Spec.Q M r γ V s b = V s := by
  obtain ⟨hle, b, hb, eb⟩ := hV s hs
  by_cases hpb : Spec.Possible M s b
  · exact ⟨b, hb, hpb, eb⟩
  · have e0 : Spec.Q M r γ V s b = 0 := actionValue_impossible hM r γ V hs hb hpb
    obtain ⟨c, t, hc, ht, hpt, hrt⟩ := hfree s hs ⟨a, ha, hp⟩
    refine ⟨c, hc, possible_of_one ht hpt, le_antisymm (hle c hc) ?_⟩
    rw [← eb, e0, show Spec.Q M r γ V s c = r t + γ * V t from actionValue_det hM hdet r γ V hs hc ht hpt]
    have := bellman_nonneg_free hM hdet h0 h1 hV hfree t ht
    exact add_nonneg hrt (mul_nonneg h0.le this)

/-- Values bound what walks collect. -/
theorem walk_le {M : Trans K} (hM : Spec.SubStochastic M) (hdet : Spec.Deterministic M) {r V : Nat → K} {γ : K}
    (h0 : 0 < γ) (hV : Spec.Bellman M r γ V) (hpos : ∀ s, s < M.nS → 0 ≤ V s) :
    ∀ (l : List (Nat × Nat)) (s : Nat), s < M.nS → Spec.Plays M s l → Spec.discounted r γ l ≤ V s := by
  intro l
  induction l with
  | nil => intro s hs _; exact hpos s hs
  | cons x l ih =>
    obtain ⟨a, t⟩ := x
    rintro s hs ⟨ha, ht, hp, hl⟩
    have := (hV s hs).1 a ha
    have e : Spec.Q M r γ V s a = r t + γ * V t := actionValue_det hM hdet r γ V hs ha ht hp
    rw [e] at this
    have h2 := mul_le_mul_of_nonneg_left (ih t ht hl) h0.le
    show r t + γ * _ ≤ _
    linarith

/-- If there are costs only and some action is impossible everywhere, the planner sees just the next reward. -/
theorem solve_costs {M : Trans K} (hM : Spec.SubStochastic M) (hdet : Spec.Deterministic M) (hA : 0 < M.nA)
    {r : Nat → K} (hr : ∀ t, t < M.nS → r t ≤ 0)
    (himp : ∀ s, s < M.nS → ∃ a, a < M.nA ∧ ¬ Spec.Possible M s a) {γ tol : K} {maxIter : Nat}
    {v : Nat → K} {q : Nat → Nat → Ext K} (hsol : solveHard M r maxIter γ tol = .ok (v, q)) :
    (∀ s, s < M.nS → v s = 0) ∧ ∀ s a t, s < M.nS → a < M.nA → t < M.nS → M.p s a t = 1 → q s a = .fin (r t) := by
  have h01 : 0 < γ ∧ γ < 1 := by
    rw [solveHard_eq hA] at hsol
    unfold solveVI at hsol
    split_ifs at hsol with h
    exact ⟨h.2, h.1⟩
  obtain ⟨h0, h1⟩ := h01
  have hk : 0 < maxIter := by
    by_contra hc
    have : maxIter = 0 := by omega
    subst this
    rw [(C33_settings M r 0 γ tol).2.1 h0 h1] at hsol
    cases hsol
  obtain ⟨j, e1, e2, e3, e4, e5⟩ := solveVI_spec (hardBackup M.nA) M r h0 h1 tol hk
  have hval : ∀ (w : Nat → K) u, u < M.nS → (∀ t, t < M.nS → w t = 0) → ∀ a t, a < M.nA → t < M.nS →
      M.p u a t = 1 → actionValue M r γ w u a = r t := by
    intro w u hu hw a t ha ht hp
    rw [actionValue_det hM hdet r γ w hu ha ht hp, hw t ht, mul_zero, add_zero]
  have hind := iterV_induct (B := hardBackup M.nA) (M := M) (r := r) (γ := γ) (v := fun _ => 0)
    (fun _ x => x = 0) (fun _ _ => rfl) (fun w u hu hw => by
      show npMax _ _ = 0
      apply le_antisymm
      · refine npMax_le _ hA fun a ha => ?_
        by_cases hp : Spec.Possible M u a
        · obtain ⟨t, ht, hpt⟩ := hp
          rw [hval w u hu hw a t ha ht ((hdet u a t hu ha ht).resolve_left (ne_of_gt hpt))]
          exact hr t ht
        · exact le_of_eq (actionValue_impossible hM r γ w hu ha hp)
      · obtain ⟨a, ha, hp⟩ := himp u hu
        refine le_trans (le_of_eq ?_) (le_npMax _ ha)
        exact (actionValue_impossible hM r γ w hu ha hp).symm)
  rw [solveHard_eq hA, e5] at hsol
  cases hsol
  refine ⟨fun s hs => (hind j s hs).1, fun s a t hs ha ht hp => ?_⟩
  rw [(maskQ_ninf hM _ hs ha).2 (possible_of_one ht hp), sweep_q _ _ _ _ _ s a hs]
  congr 1
  exact hval _ s hs (fun u hu => (hind (j - 1) u hu).2 s (by omega)) a t ha ht hp

end MaMDP
