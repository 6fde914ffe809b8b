import Verif.Props.DynamicProgramming

/-! # C34: the soft Bellman equation has one solution -/

set_option linter.unusedSectionVars false

namespace MaMDP

/-- The soft Bellman equation has no other solution. -/
theorem C34_unique (M : Trans ℝ) (hM : Spec.SubStochastic M) (r : Nat → ℝ) (γ : ℝ) (h0 : 0 < γ) (h1 : γ < 1) (V W : Nat → ℝ)
    (hV : ∀ s, s < M.nS → V s = Real.log ((∑ a ∈ Finset.range M.nA, Real.exp (Spec.Q M r γ V s a)) + 1 / 10 ^ 200))
    (hW : ∀ s, s < M.nS → W s = Real.log ((∑ a ∈ Finset.range M.nA, Real.exp (Spec.Q M r γ W s a)) + 1 / 10 ^ 200))
    (s : Nat) (hs : s < M.nS) : V s = W s := by
  have seen : ∀ (X : Nat → ℝ) s, Spec.seen X X s = X := fun X s => funext fun t => by simp [Spec.seen]
  have pV : Spec.SoftPass M r γ V V := fun s hs => by rw [seen]; exact hV s hs
  have pW : Spec.SoftPass M r γ W W := fun s hs => by rw [seen]; exact hW s hs
  obtain ⟨d, hd0, hd⟩ := exists_bound M.nS fun t => V t - W t
  have hn : ∀ n t, t < M.nS → |V t - W t| ≤ γ ^ n * d := by
    intro n
    induction n with
    | zero => simpa using hd
    | succ n ih =>
      intro t ht
      have := C34_soft_contraction M hM r γ h0 h1 V W V W pV pW _ ih t ht
      rw [pow_succ']
      linarith
  by_contra hne
  have hpos : 0 < |V s - W s| := abs_pos.2 (sub_ne_zero.2 hne)
  obtain ⟨n, hsmall⟩ := exists_pow_lt_of_lt_one (show 0 < |V s - W s| / (d + 1) by positivity) h1
  have h2 := hn n s hs
  rw [lt_div_iff₀ (by linarith)] at hsmall
  have h3 : 0 < γ ^ n := pow_pos h0 n
  nlinarith

/-- The solution for a chain of two states. -/
example : ∃ V : Nat → ℝ, (∀ s, s < (chain2 ℝ).nS → V s = Real.log ((∑ a ∈ Finset.range (chain2 ℝ).nA,
    Real.exp (Spec.Q (chain2 ℝ) (fun t => if t = 0 then -1 else 2) (9 / 10) V s a)) + 1 / 10 ^ 200)) :=
  (C34_soft_converges (chain2 ℝ) chain2_ok.1 (fun t => if t = 0 then -1 else 2) (9 / 10) (by norm_num) (by norm_num)).imp fun _ h => h.1

end MaMDP
