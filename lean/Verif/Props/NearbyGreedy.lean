import Verif.Props.NearbyValues

/-! # C178: small errors in action values and greedy choices -/

set_option linter.unusedSectionVars false

namespace MaMDP

/-- **C178**, greedy choices: what `MaxActionSelector` chooses from one table is, in a table within `E` of it, at most `2 E`
worse than any other action; and an action that is more than `2 E` better than all others in one table is the only choice
from the other. -/
theorem C178_greedy (E : ℝ) (q q' : Arr2 (Ext ℝ)) (h : Spec.NearTables E q q') (s : Nat) (hs : s < q.d0)
    (hf : ∃ a x, a < q.d1 ∧ q.get s a = .fin x) :
    ∃ P, maxSelector.piP q = .ok P ∧ ∃ p : Nat → ℝ, (∀ a, a < q.d1 → P.get s a = .fin (p a)) ∧
      (∀ a, a < q.d1 → p a ≠ 0 → ∃ y, q'.get s a = .fin y ∧ ∀ b z, b < q.d1 → q'.get s b = .fin z → z ≤ y + 2 * E) ∧
      (∀ a y, a < q.d1 → q'.get s a = .fin y → (∀ b z, b < q.d1 → b ≠ a → q'.get s b = .fin z → z + 2 * E < y) →
        p a = 1 ∧ ∀ b, b < q.d1 → b ≠ a → p b = 0) := by
  obtain ⟨-, -, hn⟩ := h
  obtain ⟨a0, x0, ha0, hx0⟩ := hf
  have hnan : ∀ b, b < q.d1 → q.get s b ≠ .nan ∧ q.get s b ≠ .pinf := by
    intro b hb
    rcases hn s b hs hb with ⟨e, -⟩ | ⟨x, y, e, -, -⟩ <;> rw [e] <;> exact ⟨by simp, by simp⟩
  obtain ⟨P, hP, -, -, hall⟩ := (C23_max_pi_p q).2 ⟨s, hs, fun hno => (hnan a0 ha0).1 (hno a0 ha0)⟩
  obtain ⟨p, p1, p2, p3, p4, p5⟩ := (hall s hs).2 ⟨⟨a0, ha0, (hnan a0 ha0).1⟩,
    fun hp => by obtain ⟨b, hb, e⟩ := hp.1; exact (hnan b hb).2 e⟩
  have good : ∀ a, a < q.d1 → p a ≠ 0 →
      ∃ y, q'.get s a = .fin y ∧ ∀ b z, b < q.d1 → q'.get s b = .fin z → z ≤ y + 2 * E := by
    intro a ha hpa
    have hb : Spec.IsBest q s a := by
      by_contra hc
      exact hpa (p5 a ha hc)
    rcases hn s a hs ha with ⟨e, -⟩ | ⟨x, y, e, e', hd⟩
    · have := hb.2 a0 ha0
      rw [hx0, e] at this
      exact this.elim
    refine ⟨y, e', fun b z hbd hz => ?_⟩
    rcases hn s b hs hbd with ⟨-, f'⟩ | ⟨x2, y2, f, f', hd2⟩
    · rw [hz] at f'; cases f'
    · obtain rfl : y2 = z := by rw [hz] at f'; cases f'; rfl
      have := hb.2 b hbd
      rw [f, e] at this
      have h3 : x2 ≤ x := this
      linarith [(abs_le.1 hd).2, (abs_le.1 hd2).1]
  refine ⟨P, hP, p, p1, good, fun a y ha hy hgap => ?_⟩
  have hzero : ∀ b, b < q.d1 → b ≠ a → p b = 0 := by
    intro b hb hne
    by_contra hc
    obtain ⟨z, hz, hle⟩ := good b hb hc
    have h1 := hle a y ha hy
    have h2 := hgap b z hb hne hz
    linarith
  refine ⟨?_, hzero⟩
  rw [← p2]
  symm
  refine Finset.sum_eq_single_of_mem a (Finset.mem_range.2 ha) fun b hb hne => hzero b (Finset.mem_range.1 hb) hne

/-- In the tables of the example for `C178_choice` the second action is more than 2/10 better than the first. -/
example : ∀ b z, b < 3 → b ≠ 1 →
    (if b = 0 then Ext.fin (1 / 10 : ℝ) else if b = 1 then .fin (19 / 20) else .ninf) = .fin z →
    z + 2 * (1 / 10) < 19 / 20 := by
  intro b z hb hne h
  interval_cases b
  · injection h with h
    rw [← h]
    norm_num
  · exact absurd rfl hne
  · cases h

end MaMDP
