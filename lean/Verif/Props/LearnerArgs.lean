import Verif.Spec.LearnerArgs

/-! # Settings that learners accept: C122 -/

set_option linter.unusedSectionVars false

namespace MaMDP

variable {K : Type} [Field K] [LinearOrder K] [IsStrictOrderedRing K]

/-- Maximum causal entropy learning accepts exactly positive learning rates with a decay that is not negative; the
object keeps them, and anything else is an `AssertionError`. -/
theorem C122_mce (lr : K) (decay : Int) (maxIter : Nat) (tol : K) (theta : Option (Nat → K)) :
    (Spec.Accepted (MceIrl.create lr decay maxIter tol theta) ↔ 0 < lr ∧ 0 ≤ decay) ∧
    (Spec.Asserts (MceIrl.create lr decay maxIter tol theta) ↔ ¬ (0 < lr ∧ 0 ≤ decay)) ∧
    ∀ o, MceIrl.create lr decay maxIter tol theta = .ok o →
      o.lr = lr ∧ (o.set.decay : Int) = decay ∧ o.set.maxIter = maxIter ∧ o.set.tol = tol ∧
      o.theta = match theta with | none => .none | some x => .vec x := by
  unfold Spec.Accepted Spec.Asserts MceIrl.create
  by_cases h1 : 0 < lr
  · by_cases h2 : 0 ≤ decay
    · rw [if_neg (by simpa using h1), if_neg (by simpa using h2)]
      unfold MceIrl.init
      rw [if_neg (by simpa using h1)]
      refine ⟨⟨fun _ => ⟨h1, h2⟩, fun _ => ⟨_, rfl⟩⟩, ⟨fun h => (by cases h), fun h => absurd ⟨h1, h2⟩ h⟩, ?_⟩
      intro o ho
      cases ho
      exact ⟨rfl, Int.toNat_of_nonneg h2, rfl, rfl, rfl⟩
    · rw [if_neg (by simpa using h1), if_pos h2]
      exact ⟨⟨fun ⟨o, h⟩ => (by cases h), fun h => absurd h.2 h2⟩, ⟨fun _ h => h2 h.2, fun _ => rfl⟩,
        fun o h => by cases h⟩
  · rw [if_pos h1]
    exact ⟨⟨fun ⟨o, h⟩ => (by cases h), fun h => absurd h.1 h1⟩, ⟨fun _ h => h1 h.1, fun _ => rfl⟩,
      fun o h => by cases h⟩

/-- Temporal difference learning of policies likewise, with integer or float decays. -/
theorem C122_td (lr : K) (decay : Decay K) (q : Option (Arr1 K)) (kernel : Option (Nat → Nat → Nat → K)) :
    (Spec.Accepted (TdLearner.init lr decay q kernel) ↔ 0 < lr ∧ Spec.DecayFine decay) ∧
    (Spec.Asserts (TdLearner.init lr decay q kernel) ↔ ¬ (0 < lr ∧ Spec.DecayFine decay)) ∧
    ∀ o, TdLearner.init lr decay q kernel = .ok o →
      o.lr = lr ∧ o.decay = decay ∧ o.kernel = kernel ∧
      o.q = match q with | none => .none | some x => .vec x := by
  have hd : decay.negative ↔ ¬ Spec.DecayFine decay := by
    cases decay <;> exact not_le.symm
  unfold Spec.Accepted Spec.Asserts TdLearner.init
  by_cases h1 : 0 < lr
  · by_cases h2 : Spec.DecayFine decay
    · rw [if_neg (by simpa using h1), if_neg (fun h => (hd.1 h) h2)]
      refine ⟨⟨fun _ => ⟨h1, h2⟩, fun _ => ⟨_, rfl⟩⟩, ⟨fun h => (by cases h), fun h => absurd ⟨h1, h2⟩ h⟩, ?_⟩
      intro o ho
      cases ho
      exact ⟨rfl, rfl, rfl, rfl⟩
    · rw [if_neg (by simpa using h1), if_pos (hd.2 h2)]
      exact ⟨⟨fun ⟨o, h⟩ => (by cases h), fun h => absurd h.2 h2⟩, ⟨fun _ h => h2 h.2, fun _ => rfl⟩,
        fun o h => by cases h⟩
  · rw [if_pos h1]
    exact ⟨⟨fun ⟨o, h⟩ => (by cases h), fun h => absurd h.1 h1⟩, ⟨fun _ h => h1 h.1, fun _ => rfl⟩,
      fun o h => by cases h⟩

/-- Hypothesis testing: everything accepted is as the messages say, everything refused stops at an `assert`, and
settings as the messages say with an asymmetry other than 1 are accepted. Missing from the full claim: an asymmetry of
exactly 1, which the message allows and the code refuses (`C122_refuted`). -/
theorem C122_partial (lr : K) (decay : Int) (asymmetry : K) (norm : Normalisation) (theta : Option (Nat → Ext K)) :
    (asymmetry ≠ 1 → (Spec.Accepted (HtIrl.create lr decay asymmetry norm theta) ↔
      0 < lr ∧ 0 ≤ decay ∧ Spec.AsymmetryAsSaid asymmetry)) ∧
    (¬ Spec.Accepted (HtIrl.create lr decay asymmetry norm theta) →
      Spec.Asserts (HtIrl.create lr decay asymmetry norm theta)) ∧
    ∀ o, HtIrl.create lr decay asymmetry norm theta = .ok o →
      0 < lr ∧ 0 ≤ decay ∧ Spec.AsymmetryAsSaid asymmetry ∧ o.set.lr = lr ∧ (o.set.decay : Int) = decay ∧
      o.set.asymmetry = asymmetry ∧ o.set.norm = norm ∧
      o.theta = match theta with | none => .none | some x => .vec x := by
  unfold Spec.Accepted Spec.Asserts Spec.AsymmetryAsSaid HtIrl.create
  by_cases h1 : 0 < lr
  · by_cases h2 : 0 ≤ decay
    · rw [if_neg (by simpa using h1), if_neg (by simpa using h2)]
      unfold HtIrl.init
      rw [if_neg (by simpa using h1)]
      by_cases h3 : 1 < asymmetry
      · rw [if_neg (by simpa using h3)]
        refine ⟨fun _ => ⟨fun _ => ⟨h1, h2, h3.le⟩, fun _ => ⟨_, rfl⟩⟩, fun h => absurd ⟨_, rfl⟩ h, ?_⟩
        intro o ho
        cases ho
        exact ⟨h1, h2, h3.le, rfl, Int.toNat_of_nonneg h2, rfl, rfl, rfl⟩
      · rw [if_pos h3]
        exact ⟨fun hne => ⟨fun ⟨o, h⟩ => (by cases h), fun h => absurd (lt_of_le_of_ne h.2.2 (Ne.symm hne)) h3⟩,
          fun _ => rfl, fun o h => by cases h⟩
    · rw [if_neg (by simpa using h1), if_pos h2]
      exact ⟨fun _ => ⟨fun ⟨o, h⟩ => (by cases h), fun h => absurd h.2.1 h2⟩, fun _ => rfl, fun o h => by cases h⟩
  · rw [if_pos h1]
    exact ⟨fun _ => ⟨fun ⟨o, h⟩ => (by cases h), fun h => absurd h.1 h1⟩, fun _ => rfl, fun o h => by cases h⟩

/-- The claim is false: an asymmetry of 1 is as the message says, and always refused. -/
theorem C122_refuted (lr : K) (decay : Int) (norm : Normalisation) (theta : Option (Nat → Ext K)) :
    Spec.AsymmetryAsSaid (1 : K) ∧ Spec.Asserts (HtIrl.create lr decay 1 norm theta) := by
  refine ⟨le_rfl, ?_⟩
  unfold Spec.Asserts HtIrl.create
  split
  · rfl
  · rename_i h1
    split
    · rfl
    · unfold HtIrl.init
      rw [if_neg h1, if_pos (lt_irrefl _)]

/-- Accepted: learning rate 1/2, decay 1, asymmetry 2. Refused: learning rate 0, and decay -1. -/
example : Spec.Accepted (HtIrl.create (1 / 2 : ℚ) 1 2 .other none) ∧ Spec.Asserts (HtIrl.create (0 : ℚ) 1 2 .other none) ∧
    Spec.Asserts (HtIrl.create (1 / 2 : ℚ) (-1) 2 .other none) := by
  refine ⟨((C122_partial _ _ _ _ _).1 (by norm_num)).2 ⟨by norm_num, by norm_num, ?_⟩, ?_, ?_⟩
  · unfold Spec.AsymmetryAsSaid
    norm_num
  · unfold Spec.Asserts HtIrl.create
    rw [if_pos (by norm_num)]
  · unfold Spec.Asserts HtIrl.create
    rw [if_neg (by norm_num), if_pos (by norm_num)]

/-- The same for the other two. -/
example : Spec.Accepted (MceIrl.create (1 / 2 : ℚ) 0 20 (1 / 100) none) ∧
    Spec.Accepted (TdLearner.init (1 / 2 : ℚ) (.int 0) none none) :=
  ⟨(C122_mce _ _ _ _ _).1.2 ⟨by norm_num, le_rfl⟩, (C122_td _ _ _ _).1.2 ⟨by norm_num, le_refl (0 : Int)⟩⟩

end MaMDP
