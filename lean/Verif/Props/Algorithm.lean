import Verif.Model.Algorithm
import Verif.Lemmas.DynamicProgramming
import Verif.Props.Grid

/-! # C82: `Algorithm.fit`, and value iteration on grid MDPs -/

set_option linter.unusedSectionVars false

namespace MaMDP

/-- **C82**: whatever the algorithm's `_fit` returns, a call of `fit` either raises and leaves the
object as it was, or succeeds; success means the reward was a vector with one entry per feature and
the object is marked fitted and stores what `_fit` returned: one value per state and a Q table with
one row per state and one column per action. -/
theorem C82_fit {K : Type} (fit : Arr1 K → Py (PyArr (Ext K) × PyArr (Ext K))) (nF nS nA : Nat)
    (reward : PyArr K) (st : AlgState K) :
    (∃ e, algFit fit nF nS nA reward st = (st, .error e)) ∨
    (∃ st' w v q, algFit fit nF nS nA reward st = (st', .ok ()) ∧ reward = .nd [nF] w ∧
      fit ⟨nF, fun i => w [i]⟩ = .ok (.nd [nS] v, .nd [nS, nA] q) ∧
      st' = ⟨true, some ⟨nS, fun i => v [i]⟩, some ⟨nS, nA, fun i j => q [i, j]⟩⟩) := by
  unfold algFit
  split
  · exact .inl ⟨_, rfl⟩
  · rename_i w hw
    unfold checkReward at hw
    split at hw
    · simp at hw
    · split_ifs at hw with hn
      cases hw
      subst hn
      split
      · exact .inl ⟨_, rfl⟩
      · rename_i v q hfit
        split
        · exact .inl ⟨_, rfl⟩
        · rename_i v' q' hout
          unfold checkOutput at hout
          split at hout
          · split_ifs at hout with h1
            split at hout
            · split_ifs at hout with h2 h3
              cases hout
              push Not at h1 h2 h3
              subst h1 h2 h3
              exact .inr ⟨_, _, _, _, rfl, rfl, hfit, rfl⟩
            · simp at hout
          · simp at hout
    · simp at hw

/-- **C82**, rejections: a reward that is not an array raises `TypeError`, one of the wrong length or
rank `AttributeError`, both before `_fit` runs (so whatever `_fit` is); wrongly shaped results raise
`AssertionError`. -/
theorem C82_rejects {K : Type} (fit : Arr1 K → Py (PyArr (Ext K) × PyArr (Ext K))) (nF nS nA : Nat)
    (st : AlgState K) :
    algFit fit nF nS nA .notArray st = (st, .error .typeError) ∧
    (∀ shape get, shape ≠ [nF] → algFit fit nF nS nA (.nd shape get) st = (st, .error .attributeError)) ∧
    (∀ get v q, fit ⟨nF, fun i => get [i]⟩ = .ok (v, q) →
      ((∀ x, v ≠ .nd [nS] x) ∨ (∀ x, q ≠ .nd [nS, nA] x)) →
      algFit fit nF nS nA (.nd [nF] get) st = (st, .error .assertionError)) := by
  refine ⟨rfl, fun shape get hne => ?_, fun get v q hfit hbad => ?_⟩
  · have : checkReward nF (.nd shape get) = .error .attributeError := by
      unfold checkReward
      split
      · simp_all
      · rename_i n g heq
        cases heq
        rw [if_neg]
        rintro rfl
        exact hne rfl
      · rfl
    unfold algFit
    rw [this]
  · have h1 : checkReward nF (.nd [nF] get) = .ok ⟨nF, fun i => get [i]⟩ := by
      simp [checkReward]
    have h2 : checkOutput nS nA v q = .error .assertionError := by
      unfold checkOutput
      split
      · rename_i n vget
        split_ifs with hn
        · rfl
        · push Not at hn
          subst hn
          split
          · rename_i a b qget
            split_ifs with h3 h4
            · rfl
            · rfl
            · push Not at h3 h4
              subst h3 h4
              rcases hbad with hb | hb
              · exact absurd rfl (hb _)
              · exact absurd rfl (hb _)
          · rfl
      · rfl
    unfold algFit
    rw [h1]
    simp only [hfit, h2]

/-- A fit that returns a Q table with a missing column is rejected; `Null` is accepted. -/
example : (algFit (K := ℚ) (fun _ => .ok (.nd [3] fun _ => .fin 0, .nd [3, 1] fun _ => .fin 0)) 2 3 4
    (.nd [2] fun _ => 1) .fresh).2 = .error .assertionError ∧
    (algFit (K := ℚ) (nullFit 3 4) 2 3 4 (.nd [2] fun _ => 1) .fresh).2 = .ok () := by
  constructor <;> rfl

variable {K : Type} [Field K] [LinearOrder K] [IsStrictOrderedRing K]

/-- **C27/C32 apply to grids**: in every reachable state of a square or hex grid MDP, whatever walls
were set, the transition array is deterministic with rows summing to at most 1. -/
theorem C27_grid (kind : GridKind) (W H : Nat) (selfT : Bool) (m : Mdp K)
    (h : Mdp.GridReach kind W H selfT m) :
    Spec.SubStochastic m.trans ∧ Spec.Deterministic m.trans ∧ 0 < m.trans.nA ∧ 0 < m.trans.nS := by
  have ok := h.ok
  have hS : m.trans.nS = W * H := ok.nStates
  have h01 : ∀ s a t, s < m.trans.nS → t < m.trans.nS → m.trans.p s a t = 0 ∨ m.trans.p s a t = 1 := by
    intro s a t hs ht
    rw [hS] at hs ht
    show m.sas s a t = 0 ∨ m.sas s a t = 1
    rw [ok.sas s a t hs ht]
    split_ifs <;> simp
  refine ⟨⟨?_, ?_⟩, fun s a t hs _ ht => h01 s a t hs ht, ?_, by rw [hS]; exact ok.pos⟩
  · intro s a t hs _ ht
    rcases h01 s a t hs ht with e | e <;> rw [e]
    exact zero_le_one
  · intro s a hs ha
    by_cases hex : ∃ t, t < m.trans.nS ∧ m.trans.p s a t = 1
    · obtain ⟨t, ht, et⟩ := hex
      rw [Finset.sum_eq_single t]
      · rw [et]
      · intro u hu hne
        have hu' := Finset.mem_range.1 hu
        rcases h01 s a u hs hu' with e | e
        · exact e
        · exfalso
          have e1 : m.sas s a t ≠ 0 := by
            have : m.sas s a t = 1 := et
            rw [this]; exact one_ne_zero
          have e2 : m.sas s a u ≠ 0 := by
            have : m.sas s a u = 1 := e
            rw [this]; exact one_ne_zero
          exact hne ((C04_deterministic kind W H selfT m h).2.2 s a u t hs ha hu' ht e2 e1)
      · intro hn; exact absurd (Finset.mem_range.2 ht) hn
    · push Not at hex
      rw [Finset.sum_eq_zero]
      · exact zero_le_one
      · intro t ht
        exact (h01 s a t hs (Finset.mem_range.1 ht)).resolve_right (hex t (Finset.mem_range.1 ht))
  · show 0 < m.nActions
    rw [ok.nActions]
    have := Mdp.GridKind.nMoves_pos kind
    omega

/-- **C82**, value iteration: on every reachable grid MDP, with a valid discount and a positive
iteration limit, `ValueIteration.fit` succeeds exactly for reward vectors with one entry per feature. -/
theorem C82_value_iteration (kind : GridKind) (W H : Nat) (selfT : Bool) (m : Mdp K)
    (h : Mdp.GridReach kind W H selfT m) (maxIter : Nat) (hk : 0 < maxIter) (γ tol : K) (h0 : 0 < γ)
    (h1 : γ < 1) (reward : PyArr K) (st : AlgState K) :
    (m.fitVI maxIter γ tol reward st).2 = .ok () ↔ ∃ get, reward = .nd [m.features.d0] get := by
  obtain ⟨hM, -, hA, -⟩ := C27_grid kind W H selfT m h
  constructor
  · intro hok
    rcases C82_fit (valueIterationFit m maxIter γ tol) m.nFeatures m.nStates m.nActions reward st with
      ⟨e, he⟩ | ⟨_, w, _, _, _, hr, _⟩
    · rw [Mdp.fitVI, he] at hok; simp at hok
    · exact ⟨w, hr⟩
  · rintro ⟨get, rfl⟩
    obtain ⟨j, -, -, -, -, e⟩ := solveVI_spec (hardBackup m.trans.nA) m.trans
      (stateReward m.features.d0 (fun i => get [i]) m.features.get) h0 h1 tol hk
    rw [← solveHard_eq hA] at e
    have h2 : checkReward m.nFeatures (.nd [m.features.d0] get) =
        .ok ⟨m.features.d0, fun i => get [i]⟩ := by simp [checkReward, Mdp.nFeatures]
    unfold Mdp.fitVI algFit
    rw [h2]
    simp only [valueIterationFit, e, PyArr.of1, PyArr.of2, checkOutput, ne_eq, not_true_eq_false,
      if_false]

end MaMDP
