import Verif.Props.IRL
import Verif.Props.Environment

/-! # C169: learners without a first guess start from nothing, not from one -/

set_option linter.unusedSectionVars false

namespace MaMDP

variable {K : Type} [Field K] [LinearOrder K] [IsStrictOrderedRing K]

/-- **C169**, what holds of `MaxCausalEntIRL`: without a guess, `fit` gives (or fails with) what it gives for the guess 0
for each feature. Missing: the documented guess of 1, see `C169_refuted_mce`. -/
theorem C169_mce_partial (set : IrlSettings K) (lr : K) (o o' : MceIrl K) (ho : MceIrl.init set lr none = .ok o)
    (ho' : MceIrl.init set lr (some fun _ => 0) = .ok o') (m : Mdp K) (ts : List (List Int)) (ign : Ignore)
    (expected : (Nat → K) → Py (Nat → K)) :
    (o.fit m ts ign expected).2 = (o'.fit m ts ign expected).2 := by
  unfold MceIrl.init at ho ho'
  by_cases hl : 0 < lr
  · rw [if_neg (not_not.2 hl)] at ho ho'
    cases ho
    cases ho'
    unfold MceIrl.fit
    split
    · rfl
    · rfl
    · split
      · rfl
      · split
        · rfl
        · simp only
          unfold MceIrl.fit.run
          split
          · rfl
          · rename_i x _
            simp only
            rcases irlLoop set m.nFeatures ign expected _ set.maxIter 0 ⟨x, lr, []⟩ with ⟨st, e | u⟩
            · rfl
            · simp only
              split_ifs <;> rfl
  · rw [if_pos hl] at ho
    cases ho

/-- **C169**, what holds of `HyptestIRL`: the same. -/
theorem C169_hyptest_partial (set : HtSettings K) (o o' : HtIrl K) (ho : HtIrl.init set none = .ok o)
    (ho' : HtIrl.init set (some fun _ => .fin 0) = .ok o') (z : List Nat → (Nat → Nat → Ext K) → Nat → Nat → Ext K)
    (data : List (Mdp K × Py (Nat → Nat → Nat → Ext K) × List Int)) :
    (o.fit z data).2 = (o'.fit z data).2 := by
  unfold HtIrl.init at ho ho'
  by_cases hl : 0 < set.lr
  · by_cases hb : 1 < set.asymmetry
    · rw [if_neg (not_not.2 hl), if_neg (not_not.2 hb)] at ho ho'
      cases ho
      cases ho'
      unfold HtIrl.fit
      split
      · rfl
      · simp only
        split
        · rename_i h
          rw [h]
        · rename_i h
          rw [h]
          simp only
          split_ifs <;> rfl
    · rw [if_neg (not_not.2 hl), if_pos hb] at ho
      cases ho
  · rw [if_pos hl] at ho
    cases ho

/-- The weight of feature 0 that a learner with this guess reports after one iteration, in the corridor. -/
def exGuess (guess : Option (Nat → Rat)) : Py Rat := match exMdp, MceIrl.init ⟨0, 1, 1 / 100⟩ (1 / 2) guess with
  | .ok m, .ok o => match (o.fit m [[0, 1, 2]] (.list []) (mceHard m 2 (1 / 2) (1 / 100) [[0, 1, 2]])).2 with
    | .ok x => .ok (x 0)
    | .error e => .error e
  | _, _ => .error .typeError

/-- **C169 is false of the code** for `MaxCausalEntIRL`: in the corridor, after one iteration, a learner without a guess
reports something other than one with the guess 1 for each feature. -/
theorem C169_refuted_mce : ∃ x y, exGuess none = .ok x ∧ exGuess (some fun _ => 0) = .ok x ∧
    exGuess (some fun _ => 1) = .ok y ∧ x ≠ y := by
  have h : (match exGuess none, exGuess (some fun _ => 0), exGuess (some fun _ => 1) with
    | .ok x, .ok x', .ok y => decide (x = x' ∧ x ≠ y)
    | _, _, _ => false) = true := by decide +kernel
  revert h
  cases exGuess none <;> cases exGuess (some fun _ => 0) <;> cases exGuess (some fun _ => 1) <;> intro h
  all_goals first
    | cases h
    | (obtain ⟨rfl, h2⟩ := of_decide_eq_true h; exact ⟨_, _, rfl, rfl, rfl, h2⟩)

/-- The weight of feature 0 that hypothesis testing with this guess reports after one move, in the corridor. -/
def exHtGuess (guess : Option (Nat → Ext Rat)) : Py (Ext Rat) :=
  match exMdp, HtIrl.init ⟨1 / 2, 0, 2, .other⟩ guess with
  | .ok m, .ok o => match (o.fit (fun _ _ _ _ => .nan) [(m, htQ m.nFeatures [] (fun w => solveHard m.trans
      (stateReward m.nFeatures w m.features.get) 2 (1 / 2) (1 / 100)), [0, 1])]).2 with
    | .ok x => .ok (x 0)
    | .error e => .error e
  | _, _ => .error .typeError

/-- **C169 is false of the code** for `HyptestIRL`. -/
theorem C169_refuted_hyptest : ∃ x y : Rat, exHtGuess none = .ok (.fin x) ∧ exHtGuess (some fun _ => .fin 0) = .ok (.fin x) ∧
    exHtGuess (some fun _ => .fin 1) = .ok (.fin y) ∧ x ≠ y := by
  have h : (match exHtGuess none, exHtGuess (some fun _ => .fin 0), exHtGuess (some fun _ => .fin 1) with
    | .ok (.fin x), .ok (.fin x'), .ok (.fin y) => decide (x = x' ∧ x ≠ y)
    | _, _, _ => false) = true := by decide +kernel
  split at h
  · rename_i x x' y e1 e2 e3
    obtain ⟨rfl, h2⟩ := of_decide_eq_true h
    exact ⟨_, _, e1, e2, e3, h2⟩
  · cases h

end MaMDP
