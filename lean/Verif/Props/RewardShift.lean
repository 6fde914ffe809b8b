import Verif.Lemmas.RewardShift
import Verif.Props.DynamicProgramming
import Verif.Props.RewardChanges

/-! # C135: only differences between rewards matter -/

set_option linter.unusedSectionVars false

namespace MaMDP

/-- **C135**, where it holds: rewards are not negative, before and after, or every action can be taken everywhere. Every state must offer
an action, and actions that can be taken must lead somewhere with probability 1. Then with `c` more reward everywhere
value iteration with enough passes reports `c / (1 - γ)` more for every state and every action, up to its tolerance; so
of two actions whose values differ by more than that the same one is better. -/
theorem C135_partial (M : Trans ℝ) (hM : Spec.SubStochastic M) (hA : 0 < M.nA)
    (hlive : ∀ s, s < M.nS → Spec.Live M s)
    (hone : ∀ s a, s < M.nS → a < M.nA → Spec.Possible M s a → ∑ t ∈ Finset.range M.nS, M.p s a t = 1)
    (r : Nat → ℝ) (c : ℝ)
    (hcase : (∀ s a, s < M.nS → a < M.nA → Spec.Possible M s a) ∨ (∀ t, t < M.nS → 0 ≤ r t ∧ 0 ≤ r t + c))
    (γ tol : ℝ) (h0 : 0 < γ) (h1 : γ < 1) (htol : 0 < tol) :
    ∃ N, ∀ k, N ≤ k → ∃ v q v' q', solveHard M r k γ tol = .ok (v, q) ∧
      solveHard M (fun t => r t + c) k γ tol = .ok (v', q') ∧
      (∀ s, s < M.nS → |v' s - (v s + c / (1 - γ))| < 2 * (tol * γ / (1 - γ))) ∧
      (∀ s a, s < M.nS → a < M.nA → Spec.Possible M s a → ∃ x x', q s a = .fin x ∧ q' s a = .fin x' ∧
        |x' - (x + c / (1 - γ))| < 2 * (tol * γ / (1 - γ))) ∧
      (∀ s a b x y x' y', s < M.nS → a < M.nA → b < M.nA → Spec.Possible M s a → Spec.Possible M s b →
        q s a = .fin x → q s b = .fin y → q' s a = .fin x' → q' s b = .fin y' →
        x + 4 * (tol * γ / (1 - γ)) ≤ y → x' < y') := by
  obtain ⟨V, hV, hV'⟩ : ∃ V, Spec.Bellman M r γ V ∧ Spec.Bellman M (fun t => r t + c) γ fun t => V t + c / (1 - γ) := by
    rcases le_total 0 c with hc | hc
    · obtain ⟨V, hV, -, -, -⟩ := C27_converges M hM hA r γ h0 h1
      exact ⟨V, hV, bellman_shift hM h0 h1 hlive hone (hcase.imp_right fun h => ⟨hc, fun t ht => (h t ht).1⟩) hV⟩
    · obtain ⟨V, hV, -, -, -⟩ := C27_converges M hM hA (fun t => r t + c) γ h0 h1
      have h := bellman_shift (c := -c) hM h0 h1 hlive hone
        (hcase.imp_right fun h => ⟨by linarith, fun t ht => (h t ht).2⟩) hV
      have e : (fun t => r t + c + -c) = r := funext fun t => add_neg_cancel_right (r t) c
      rw [e] at h
      refine ⟨_, h, ?_⟩
      have e' : (fun t => V t + -c / (1 - γ) + c / (1 - γ)) = V := funext fun t => by ring
      rw [e']
      exact hV
  obtain ⟨i, hi⟩ := sweeps_stop hM hA r h0 h1 htol
  obtain ⟨i', hi'⟩ := sweeps_stop hM hA (fun t => r t + c) h0 h1 htol
  refine ⟨i + i' + 1, fun k hk => ?_⟩
  obtain ⟨v, q, e, a1, a2⟩ := C28_accuracy M hM hA r γ tol h0 h1 htol V hV k ⟨i, by omega, hi⟩
  obtain ⟨v', q', e', b1, b2⟩ := C28_accuracy M hM hA _ γ tol h0 h1 htol _ hV' k ⟨i', by omega, hi'⟩
  have hq : ∀ s a, s < M.nS → a < M.nA → Spec.Possible M s a → ∃ x x', q s a = .fin x ∧ q' s a = .fin x' ∧
      |x' - (x + c / (1 - γ))| < 2 * (tol * γ / (1 - γ)) := by
    intro s a hs ha hp
    obtain ⟨x, ex, hx⟩ := a2 s a hs ha hp
    obtain ⟨x', ex', hx'⟩ := b2 s a hs ha hp
    refine ⟨x, x', ex, ex', ?_⟩
    rw [Q_shift h1, hone s a hs ha hp, one_mul] at hx'
    rw [abs_lt] at *
    constructor <;> linarith [hx.1, hx.2, hx'.1, hx'.2]
  refine ⟨v, q, v', q', e, e', fun s hs => ?_, hq, ?_⟩
  · have h := a1 s hs
    have h' := b1 s hs
    rw [abs_lt] at *
    constructor <;> linarith [h.1, h.2, h'.1, h'.2]
  · intro s a b x y x' y' hs ha hb pa pb ex ey ex' ey' hle
    obtain ⟨x₁, x₂, f1, f2, f3⟩ := hq s a hs ha pa
    obtain ⟨y₁, y₂, g1, g2, g3⟩ := hq s b hs hb pb
    cases ex.symm.trans f1
    cases ex'.symm.trans f2
    cases ey.symm.trans g1
    cases ey'.symm.trans g2
    rw [abs_lt] at f3 g3
    linarith [f3.1, f3.2, g3.1, g3.2]

/-- A ring of three states in which rewards may be negative, and the corridor with rewards 1, 0, 0, 10. -/
example : ∃ M : Trans ℝ, Spec.SubStochastic M ∧ 0 < M.nA ∧ M.nS = 3 ∧ (∀ s, s < M.nS → Spec.Live M s) ∧
    (∀ s a, s < M.nS → a < M.nA → ∑ t ∈ Finset.range M.nS, M.p s a t = 1) ∧
    ∀ s a, s < M.nS → a < M.nA → Spec.Possible M s a := by
  have hsum : ∀ k : Nat, ∑ t ∈ Finset.range 3, (if t = k % 3 then (1 : ℝ) else 0) = 1 := by
    intro k
    rw [Finset.sum_ite_eq', if_pos (Finset.mem_range.2 (Nat.mod_lt _ (by decide)))]
  have hp : ∀ k : Nat, ∃ t, t < 3 ∧ (0 : ℝ) < if t = k % 3 then 1 else 0 :=
    fun k => ⟨k % 3, Nat.mod_lt _ (by decide), by simp⟩
  refine ⟨⟨3, 2, fun s a t => if t = (s + 1 + a) % 3 then 1 else 0⟩, ⟨?_, fun s a _ _ => (hsum _).le⟩, by decide, rfl,
    fun s _ => ⟨0, by decide, hp _⟩, fun s a _ _ => hsum _, fun s a _ _ => hp _⟩
  intro s a t _ _ _
  simp only
  split_ifs <;> norm_num

/-- In the corridor 3 more reward everywhere is worth 6 more, at a discount of one half. -/
example : (match solveHard (chain4 ℚ) (fun t => if t = 0 then 1 else if t = 3 then 10 else 0) 40 (1 / 2) (1 / 100),
      solveHard (chain4 ℚ) (fun t => (if t = 0 then 1 else if t = 3 then 10 else 0) + 3) 40 (1 / 2) (1 / 100) with
    | .ok (_, q), .ok (_, q') => match q 1 0, q 1 1, q' 1 0, q' 1 1 with
      | .fin a, .fin b, .fin a', .fin b' => decide (b + 4 * (1 / 100 * (1 / 2) / (1 - 1 / 2)) ≤ a ∧ b' < a' ∧
          |a' - (a + 6)| < 2 / 100 ∧ |b' - (b + 6)| < 2 / 100)
      | _, _, _, _ => false
    | _, _ => false) = true := by decide +kernel

/-- **C135 is false of the code**: an action that cannot be taken counts as worth 0, which matters once rewards are
negative. In a corridor of four states with rewards 1, 0, 0, 10 the plan from the second state goes right, towards the
10. With 100 less everywhere it goes left. -/
theorem C135_refuted : ∃ (r : Nat → ℚ) (v v' : Nat → ℚ) (q q' : Nat → Nat → Ext ℚ),
    solveHard (chain4 ℚ) r 40 (1 / 2) (1 / 100) = .ok (v, q) ∧
    solveHard (chain4 ℚ) (fun t => r t - 100) 40 (1 / 2) (1 / 100) = .ok (v', q') ∧
    Spec.NoBetter (q 1 1) (q 1 0) ∧ ¬ Spec.NoBetter (q 1 0) (q 1 1) ∧
    Spec.NoBetter (q' 1 0) (q' 1 1) ∧ ¬ Spec.NoBetter (q' 1 1) (q' 1 0) := by
  have key : ∀ x y : Py ((Nat → ℚ) × (Nat → Nat → Ext ℚ)),
      (match x, y with
        | .ok (_, q), .ok (_, q') => match q 1 0, q 1 1, q' 1 0, q' 1 1 with
          | .fin a, .fin b, .fin a', .fin b' => decide (b < a ∧ a' < b')
          | _, _, _, _ => false
        | _, _ => false) = true →
      ∃ v q v' q', x = .ok (v, q) ∧ y = .ok (v', q') ∧
        Spec.NoBetter (q 1 1) (q 1 0) ∧ ¬ Spec.NoBetter (q 1 0) (q 1 1) ∧
        Spec.NoBetter (q' 1 0) (q' 1 1) ∧ ¬ Spec.NoBetter (q' 1 1) (q' 1 0) := by
    rintro (_ | ⟨v, q⟩) (_ | ⟨v', q'⟩) h
    · simp at h
    · simp at h
    · simp at h
    · simp only at h
      refine ⟨v, q, v', q', rfl, rfl, ?_⟩
      split at h
      · rename_i a b a' b' h1 h2 h3 h4
        obtain ⟨k1, k2⟩ := of_decide_eq_true h
        rw [h1, h2, h3, h4]
        exact ⟨k1.le, not_le.2 k1, k2.le, not_le.2 k2⟩
      · cases h
  obtain ⟨v, q, v', q', h⟩ := key
    (solveHard (chain4 ℚ) (fun t => if t = 0 then 1 else if t = 3 then 10 else 0) 40 (1 / 2) (1 / 100))
    (solveHard (chain4 ℚ) (fun t => (if t = 0 then 1 else if t = 3 then 10 else 0) - 100) 40 (1 / 2) (1 / 100))
    (by decide +kernel)
  exact ⟨_, v, v', q, q', h⟩

end MaMDP
