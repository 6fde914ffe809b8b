import Verif.Model.MCTS
import Verif.Lemmas.IRL
import Verif.Props.DynamicProgramming

/-! # C181: settings for simulated opponents; an error branch of C66 -/

set_option linter.unusedSectionVars false

namespace MaMDP

variable {K : Type} [Field K] [LinearOrder K] [IsStrictOrderedRing K]

/-- An unknown `opponent_policy` is refused. -/
theorem C181_policy (o : MctsOpts K) (M : Trans K) (nF : Nat) (w : Nat → K) (features : Nat → Nat → K) (s : Nat)
    (q : Option (QTable K)) (d : Draw K) (h : o.policy = .other) :
    opponentNext o M nF w features s q d = .error .notImplementedError := by
  unfold opponentNext
  rw [h]

/-- The successor representation is not available to opponents, and unknown algorithms are refused. -/
theorem C181_algorithm (o : MctsOpts K) (M : Trans K) (nF : Nat) (w : Nat → K) (features : Nat → Nat → K) (s : Nat)
    (d : Draw K) (h : o.policy = .solve) :
    (o.algorithm = .sr → opponentNext o M nF w features s none d = .error .notImplementedError) ∧
    (o.algorithm = .other → opponentNext o M nF w features s none d = .error .valueError) := by
  unfold opponentNext opponentQ
  rw [h]
  constructor <;> intro ha <;> rw [ha]

/-- **C181**: when a simulated opponent has moved, its settings were supported ones: it moves at random, or it plans with given
values or value iteration and chooses by `max` or `softmax`. What is missing is an unknown way of choosing with temperature 0,
see `C181_refuted`. -/
theorem C181_partial (o : MctsOpts K) (M : Trans K) (nF : Nat) (w : Nat → K) (features : Nat → Nat → K) (s : Nat)
    (q : Option (QTable K)) (d : Draw K) (hT : o.temperature ≠ 0) (r : Nat × Option (QTable K))
    (h : opponentNext o M nF w features s q d = .ok r) :
    o.policy = .random ∨ (o.policy = .solve ∧ (q ≠ none ∨ o.algorithm = .valueIteration) ∧
      (o.selection = .max ∨ o.selection = .softmax)) := by
  unfold opponentNext at h
  rcases hp : o.policy with _ | _ | _
  · exact .inl rfl
  · refine .inr ⟨rfl, ?_⟩
    rw [hp] at h
    dsimp only at h
    rcases hq : opponentQ o M nF w features q with e | Q
    · rw [hq] at h; cases h
    rw [hq] at h
    dsimp only at h
    constructor
    · rcases q with _ | q
      · unfold opponentQ at hq
        dsimp only at hq
        rcases ha : o.algorithm with _ | _ | _
        · exact .inr rfl
        · rw [ha] at hq; cases hq
        · rw [ha] at hq; cases hq
      · exact .inl (by simp)
    · rcases hs : o.selection with _ | _ | _
      · exact .inl rfl
      · exact .inr rfl
      · unfold opponentAction at h
        rw [if_neg (by rw [hs]; simp [hT]), hs] at h
        cases h
  · rw [hp] at h; cases h

theorem opponentAction_cold (o : MctsOpts K) (M : Trans K) (Q : QTable K) (s : Nat) (d : Draw K)
    (h : o.selection = .max ∨ o.temperature = 0) : opponentAction o M Q s d =
      if M.nA = 0 then .error .valueError else randomMax M.nA (fun a => (Q s a).clean) d.pick := by
  unfold opponentAction
  rw [if_pos h]

/-- With temperature 0 any way of choosing, known or not, is taken for `max`. -/
theorem C181_cold (o : MctsOpts K) (M : Trans K) (nF : Nat) (w : Nat → K) (features : Nat → Nat → K) (s : Nat)
    (q : Option (QTable K)) (d : Draw K) (hT : o.temperature = 0) :
    opponentNext o M nF w features s q d = opponentNext { o with selection := .max } M nF w features s q d := by
  have h : opponentAction o M = fun Q s d =>
      if M.nA = 0 then .error .valueError else randomMax M.nA (fun a => (Q s a).clean) d.pick :=
    funext fun Q => funext fun s => funext fun d => opponentAction_cold o M Q s d (.inr hT)
  have h' : opponentAction { o with selection := .max } M = fun Q s d =>
      if M.nA = 0 then .error .valueError else randomMax M.nA (fun a => (Q s a).clean) d.pick :=
    funext fun Q => funext fun s => funext fun d => opponentAction_cold _ M Q s d (.inl rfl)
  have hq : opponentQ { o with selection := .max } M nF w features q = opponentQ o M nF w features q := rfl
  unfold opponentNext
  rw [h, h', hq]

/-- Settings of an opponent with an unknown way of choosing and temperature 0. -/
def exColdOpts : MctsOpts ℚ := ⟨true, 1, 0, .solve, .valueIteration, .other, 0, false, false, 3, 1/2, 1/100, fun _ _ => none,
  fun _ _ _ _ => .nan⟩

/-- An opponent with an unknown way of choosing moves. -/
theorem C181_refuted : (match opponentNext exColdOpts (chain2 ℚ) 1 (fun _ => 1) (fun _ t => if t = 1 then 1 else 0) 0 none ⟨0, 0⟩ with
    | .ok (t, some _) => decide (t = 1) && decide (exColdOpts.selection = .other)
    | _ => false) = true := by decide +kernel

/-- With another temperature the same opponent is refused. -/
example : (match opponentNext { exColdOpts with temperature := 1 } (chain2 ℚ) 1 (fun _ => 1)
      (fun _ t => if t = 1 then 1 else 0) 0 none ⟨0, 0⟩ with
    | .error e => decide (e = .notImplementedError)
    | _ => false) = true := by decide +kernel

theorem startCounts_bad (n : Nat) : ∀ (ts : List (List Int)) (v : Nat → K),
    (∃ t ∈ ts, ∀ i l, t = i :: l → ¬ Spec.InRange n i) → startCounts n ts v = .error .indexError
  | [], _, h => by obtain ⟨t, ht, -⟩ := h; cases ht
  | [] :: _, _, _ => rfl
  | (i :: l) :: ts, v, h => by
    unfold startCounts
    rw [incAt_eq]
    by_cases hi : Spec.InRange n i
    · rw [if_pos hi]
      obtain ⟨t, ht, hb⟩ := h
      rcases List.mem_cons.1 ht with rfl | ht
      · exact absurd hi (hb i l rfl)
      · exact startCounts_bad n ts _ ⟨t, ht, hb⟩
    · rw [if_neg hi]

/-- **C66**, error branch: a trajectory that is empty or starts outside the MDP makes the expectation raise `IndexError`, once
planning has succeeded. -/
theorem C66_start_error {δ : Type} (m : Mdp K) (solve : (Nat → K) → Py ((Nat → K) × (Nat → Nat → Ext K))) (sel : Selector K δ)
    (ts : List (List Int)) (n : Nat) (θ v : Nat → K) (q : Nat → Nat → Ext K) (P : Arr2 (Ext K)) (h1 : solve θ = .ok (v, q))
    (h2 : sel.piP ⟨m.nStates, m.nActions, q⟩ = .ok P) (h : ∃ t ∈ ts, ∀ i l, t = i :: l → ¬ Spec.InRange m.nStates i) :
    mceExpected m solve sel ts n θ = .error .indexError := by
  unfold mceExpected
  rw [h1]
  dsimp only
  rw [h2]
  dsimp only
  rw [startCounts_bad m.nStates ts _ h]

end MaMDP
