import Verif.Lemmas.MCTSLoop
import Verif.Spec.Hunting

/-! # Lemmas: feature rows of agents during a simulated iteration -/

set_option linter.unusedSectionVars false

namespace MaMDP

variable {K : Type} [Field K] [LinearOrder K] [IsStrictOrderedRing K]

theorem beforeLatest_concat (s t : Nat) (l : List Nat) : Spec.beforeLatest s (l ++ [t]) = l.getLastD s := by
  unfold Spec.beforeLatest
  rw [List.dropLast_concat, List.getLastD_cons]

/-- A move marks the mover in its own row and leaves the other rows alone, except that consumed entries are zero. -/
theorem simMove_features {o : MctsOpts K} {M : Trans K} {A : SimAgents K} {nF : Nat} {V : Nat → K} {N : Nat → Nat}
    {a : Nat} {d : Draw K} {st st' : Sim K} {c : Bool} (h : simMove o M A nF V N a d st = .ok (st', c)) {row here : Nat}
    (hrow : A.featIdx[a]? = some row) (hhere : pyIdx M.nS (st.nodes a) = some here) (f s : Nat) :
    st'.features f s = (if f = row then (if s = here then 1 else 0) else st.features f s) ∨ st'.features f s = 0 := by
  unfold simMove at h
  rw [hrow, hhere] at h
  dsimp only at h
  split at h
  · cases h
  · split at h
    · cases h; exact .inl rfl
    · split at h
      · cases h
      · rename_i st'' hm
        cases h
        split at hm
        · unfold primaryMove at hm
          split at hm
          · cases hm
          · dsimp only at hm
            split at hm
            · obtain ⟨-, -, -, -, -, -, -, g⟩ := consumeAt_same hm
              rw [g]
              dsimp only
              split
              · exact .inr rfl
              · exact .inl rfl
            · cases hm; exact .inl rfl
        · unfold otherMove at hm
          dsimp only at hm
          split at hm
          · split at hm
            · cases hm
            · obtain ⟨-, -, -, -, -, -, -, g⟩ := consumeAt_same hm
              rw [g]
              dsimp only
              split
              · exact .inr rfl
              · exact .inl rfl
          · cases hm; exact .inl rfl

/-- The move of an active opponent, when nothing is cached. -/
theorem simMove_opponent {o : MctsOpts K} {M : Trans K} {A : SimAgents K} {nF : Nat} {V : Nat → K} {N : Nat → Nat}
    {a : Nat} {d : Draw K} {st st' : Sim K} (h : simMove o M A nF V N a d st = .ok (st', false)) (ha : a ≠ 0)
    (hact : st'.active a = true) (hnc : o.caching = false) :
    ∃ (row here t : Nat) (q : Option (QTable K)), A.featIdx[a]? = some row ∧ pyIdx M.nS (st.nodes a) = some here ∧ st'.nodes a = (t : Int) ∧
      opponentNext o M nF (A.rewards a) (fun f s => if f = row then (if s = here then 1 else 0) else st.features f s)
        here none d = .ok (t, q) := by
  obtain ⟨row, here, h1, -, h2, -, hac, -⟩ := simMove_cases h
  refine ⟨row, here, ?_⟩
  unfold simMove at h
  rw [h1, h2] at h
  dsimp only at h
  split at h
  · cases h
  · split at h
    · cases h
    · split at h
      · cases h
      · rename_i st'' hm
        cases h
        unfold otherMove at hm
        dsimp only at hm
        rw [← hac, if_pos hact] at hm
        split at hm
        · cases hm
        · rename_i t cache hopp
          obtain ⟨-, -, -, g4, -⟩ := consumeAt_same hm
          unfold opponentMove at hopp
          rw [hnc] at hopp
          simp only [Bool.false_eq_true, if_false] at hopp
          split at hopp
          · cases hopp
          · split at hopp
            · cases hopp
            · rename_i t' q hon
              cases hopp
              refine ⟨t, q, h1, h2, ?_, hon⟩
              rw [g4]
              show upd1 st.nodes a (t : Int) a = _
              unfold upd1
              rw [if_pos rfl]

theorem follow_invariant_free {σ : Type} {move : Nat → Nat → σ → Py (σ × Bool)} (P : σ → Prop)
    (hP : ∀ i a st st', P st → move i a st = .ok (st', false) → P st') :
    ∀ (l : List Nat) (i : Nat) (st st' : σ), P st → Spec.follow move i l st = .ok (st', false) → P st' := by
  intro l
  induction l with
  | nil => intro i st st' h h'; cases h'; exact h
  | cons a l ih =>
    intro i st st' h h'
    unfold Spec.follow at h'
    split at h'
    · cases h'
    · cases h'
    · rename_i hm; exact ih _ _ _ (hP _ _ _ _ h hm) h'

end MaMDP
