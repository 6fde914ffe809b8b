import Verif.Props.OpponentSettings
import Verif.Lemmas.MCTSLoop

/-! # C181: whole searches with unsupported settings for the opponents -/

set_option linter.unusedSectionVars false

namespace MaMDP

variable {K : Type} [Field K] [LinearOrder K] [IsStrictOrderedRing K]
variable {o : MctsOpts K} {M : Trans K} {A : SimAgents K} {nF : Nat}

/-- With unsupported settings and no cached values an opponent's move fails. -/
theorem opponentMove_unsupported (hT : o.temperature ≠ 0) (hbad : ¬ (o.policy = .random ∨ (o.policy = .solve ∧
      o.algorithm = .valueIteration ∧ (o.selection = .max ∨ o.selection = .softmax))))
    {a : Nat} {d : Draw K} {st : Sim K} (hc : ∀ b key q, st.cache b key ≠ some (some q)) {here : Nat}
    (r : Nat × QCache K) : opponentMove o M A nF a d st here ≠ .ok r := by
  have hno : ∀ r, opponentNext o M nF (A.rewards a) st.features here none d ≠ .ok r := by
    intro r hr
    rcases C181_partial o M nF _ _ here none d hT r hr with h | ⟨h1, h2 | h2, h3⟩
    · exact hbad (.inl h)
    · exact h2 rfl
    · exact hbad (.inr ⟨h1, h2, h3⟩)
  intro h
  unfold opponentMove at h
  split at h
  · cases h
  · split at h
    · rename_i q hq
      have hq' : q = none := by
        rcases q with _ | q
        · rfl
        · split at hq
          · exact absurd hq (hc _ _ _)
          · cases hq
      subst hq'
      split at h
      · cases h
      · rename_i hon; exact hno _ hon
    · split at h
      · cases h
      · rename_i hon; exact hno _ hon

/-- Such a move of the simulation leaves the opponents and the cache alone. -/
theorem simMove_unsupported (hT : o.temperature ≠ 0) (hbad : ¬ (o.policy = .random ∨ (o.policy = .solve ∧
      o.algorithm = .valueIteration ∧ (o.selection = .max ∨ o.selection = .softmax))))
    {V : Nat → K} {N : Nat → Nat} {a : Nat} {d : Draw K} {st st' : Sim K} {c : Bool}
    (hc : ∀ b key q, st.cache b key ≠ some (some q)) (h : simMove o M A nF V N a d st = .ok (st', c)) :
    (∀ b, b ≠ 0 → st'.nodes b = st.nodes b) ∧ st'.others = st.others ∧ st'.cache = st.cache := by
  unfold simMove at h
  split at h
  · split at h
    · cases h
    · dsimp only at h
      generalize checkResult o A st = r at h
      split at h
      · cases h; exact ⟨fun _ _ => rfl, rfl, rfl⟩
      · split at h
        · cases h
        · rename_i st'' hm
          cases h
          by_cases ha : a = 0
          · rw [if_pos ha] at hm
            unfold primaryMove at hm
            split at hm
            · cases hm
            · dsimp only at hm
              split at hm
              · obtain ⟨-, -, -, g4, g5, -, g7, -⟩ := consumeAt_same hm
                exact ⟨fun b hb => by rw [g4]; exact if_neg hb, g5, g7⟩
              · cases hm
                exact ⟨fun b hb => if_neg hb, rfl, rfl⟩
          · rw [if_neg ha] at hm
            unfold otherMove at hm
            dsimp only at hm
            split at hm
            · split at hm
              · cases hm
              · rename_i hopp
                exact absurd hopp (opponentMove_unsupported hT hbad (by exact hc) _)
            · cases hm; exact ⟨fun _ _ => rfl, rfl, rfl⟩
  · cases h

/-- **C181** for one simulated iteration: if the settings of the opponents are not supported ones, an iteration that ends
without an exception has moved none of them. -/
theorem C181_iteration (hT : o.temperature ≠ 0) (hbad : ¬ (o.policy = .random ∨ (o.policy = .solve ∧
      o.algorithm = .valueIteration ∧ (o.selection = .max ∨ o.selection = .softmax))))
    (features : Nat → Nat → K) (nodes : Nat → Int) (V : Nat → K) (N : Nat → Nat) (plan : List (List Nat)) (cache : QCache K)
    (hc : ∀ b key q, cache b key ≠ some (some q)) (draws : Nat → Draw K) (fuel : Nat) (st : Sim K)
    (h : (mctsIteration o M A nF features nodes V N plan cache draws fuel).2.2 = some (.ok st)) :
    (∀ b, b ≠ 0 → st.nodes b = nodes b ∧ st.others b = []) ∧ st.cache = cache := by
  have := simLoop_invariant (P := fun s : Sim K => (∀ b, b ≠ 0 → s.nodes b = nodes b) ∧ (s.others = fun _ => []) ∧
      s.cache = cache) (fun a d s s' c hs hm => by
    obtain ⟨g1, g2, g3⟩ := simMove_unsupported hT hbad (by rw [hs.2.2]; exact hc) hm
    exact ⟨fun b hb => (g1 b hb).trans (hs.1 b hb), g2.trans hs.2.1, g3.trans hs.2.2⟩)
    fuel .start (Sim.start nodes features cache) st ⟨fun _ _ => rfl, rfl, rfl⟩ h
  exact ⟨fun b hb => ⟨this.1 b hb, by rw [this.2.1]⟩, this.2.2⟩

theorem runLoop_unsupported (hT : o.temperature ≠ 0) (hbad : ¬ (o.policy = .random ∨ (o.policy = .solve ∧
      o.algorithm = .valueIteration ∧ (o.selection = .max ∨ o.selection = .softmax))))
    {plan : List (List Nat)} {draws : Nat → Nat → Draw K} {fuel : Nat} :
    ∀ (k i : Nat) (features : Nat → Nat → K) (nodes : Nat → Int) (s s' : Search K),
      (∀ b key q, s.cache b key ≠ some (some q)) → (∀ f ∈ s.others, ∀ b, b ≠ 0 → f b = []) →
      (runLoop o M A nF plan draws fuel k i features nodes s).2.2 = some (.ok s') →
      (∀ f ∈ s'.others, ∀ b, b ≠ 0 → f b = []) ∧ s'.cache = s.cache := by
  intro k
  induction k with
  | zero => intro i features nodes s s' _ ho h; cases h; exact ⟨ho, rfl⟩
  | succ k ih =>
    intro i features nodes s s' hc ho h
    have hit := C181_iteration (M := M) (A := A) (nF := nF) hT hbad features nodes s.V s.N plan s.cache hc (draws i) fuel
    unfold runLoop at h
    rcases hr : mctsIteration o M A nF features nodes s.V s.N plan s.cache (draws i) fuel with ⟨f', n', r⟩
    rw [hr] at h hit
    rcases r with _ | e | st
    · cases h
    · cases h
    · obtain ⟨g1, g2⟩ := hit st rfl
      dsimp only at h
      obtain ⟨k1, k2⟩ := ih _ _ _ _ _ (by dsimp only; rw [g2]; exact hc) (by
        intro f hf b hb
        rcases List.mem_append.1 hf with hf | hf
        · exact ho f hf b hb
        · rw [List.mem_singleton.1 hf]; exact (g1 b hb).2) h
      exact ⟨k1, k2.trans g2⟩

/-- **C181** for a whole search: with unsupported settings a search that ends without an exception has recorded no step of any
opponent in any iteration, and cached nothing. -/
theorem C181_search (hT : o.temperature ≠ 0) (hbad : ¬ (o.policy = .random ∨ (o.policy = .solve ∧
      o.algorithm = .valueIteration ∧ (o.selection = .max ∨ o.selection = .softmax))))
    (nIter : Nat) (features : Nat → Nat → K) (plan : Option (List (List Nat))) (cache : QCache K)
    (hc : ∀ b key q, cache b key ≠ some (some q)) (draws : Nat → Nat → Draw K) (fuel : Nat) (s : Search K)
    (h : (runMcts o M A nF nIter features plan cache draws fuel).2.2 = some (.ok s)) :
    (∀ f ∈ s.others, ∀ b, b ≠ 0 → f b = []) ∧ s.cache = cache := by
  unfold runMcts at h
  rcases plan with _ | plan
  · dsimp only at h
    split at h
    · cases h; exact ⟨fun f hf => (by cases hf), rfl⟩
    · cases h
  · exact runLoop_unsupported hT hbad nIter 0 _ _ _ _ hc (fun f hf => by cases hf) h

/-- Two agents on two states; each minds one feature and nobody consumes anything. -/
def exIdlePair : SimAgents ℚ := ⟨2, fun _ => 0, fun _ _ => false, fun _ _ => false, fun _ => 0, fun _ f => if f = 0 then 1 else 0,
  [1, 2]⟩

/-- A search in which only the primary agent gets to move ends although the algorithm of the opponent is unknown; as soon as the
opponent has a move, `ValueError` is raised. -/
example :
    let o : MctsOpts ℚ := { exColdOpts with
      temperature := 1, algorithm := .other, bonus := (fun _ _ => some 0), interactive := true, returnOthers := true }
    (match (runMcts o (chain2 ℚ) exIdlePair 3 2 (fun f s => if f = 0 ∧ s = 1 then 1 else 0) (some [[1], [0]]) (fun _ _ => none)
        (fun _ _ => ⟨0, 0⟩) 9).2.2 with
      | some (.ok s) => decide (s.visited = [[1], [1]])
      | _ => false) = true ∧
    (match (runMcts o (chain2 ℚ) exIdlePair 3 2 (fun f s => if f = 0 ∧ s = 1 then 1 else 0) (some [[1], [1]]) (fun _ _ => none)
        (fun _ _ => ⟨0, 0⟩) 9).2.2 with
      | some (.error e) => decide (e = .valueError)
      | _ => false) = true := by decide +kernel

end MaMDP
