import Verif.Spec.FeatureNumbers
import Verif.Lemmas.IRL
import Verif.Lemmas.Hyptest
import Verif.Lemmas.DynamicProgramming
import Mathlib.Algebra.BigOperators.Group.Finset.Basic

/-! # Features under other numbers -/

set_option linter.unusedSectionVars false

namespace MaMDP

variable {K : Type} [Field K] [LinearOrder K] [IsStrictOrderedRing K] {δ : Type}

theorem npSum_def (n : Nat) (f : Nat → K) : npSum n f = ∑ i ∈ Finset.range n, f i := rfl

theorem npDot_def (n : Nat) (f g : Nat → K) : npDot n f g = ∑ i ∈ Finset.range n, f i * g i := rfl

/-- A sum over the features that vanishes on features without counterpart. -/
theorem sum_moved {n n' : Nat} {σ : Nat → Nat} (hlt : ∀ f, f < n → σ f < n')
    (hinj : ∀ f g, f < n → g < n → σ f = σ g → f = g) {F F' : Nat → K} (h : ∀ f, f < n → F' (σ f) = F f)
    (h0 : ∀ g, g < n' → (∀ f, f < n → σ f ≠ g) → F' g = 0) :
    ∑ g ∈ Finset.range n', F' g = ∑ f ∈ Finset.range n, F f := by
  have himg : ∑ g ∈ (Finset.range n).image σ, F' g = ∑ f ∈ Finset.range n, F f := by
    rw [Finset.sum_image fun f hf g hg => hinj f g (Finset.mem_range.1 hf) (Finset.mem_range.1 hg)]
    exact Finset.sum_congr rfl fun f hf => h f (Finset.mem_range.1 hf)
  rw [← himg]
  symm
  refine Finset.sum_subset ?_ ?_
  · intro g hg
    obtain ⟨f, hf, rfl⟩ := Finset.mem_image.1 hg
    exact Finset.mem_range.2 (hlt f (Finset.mem_range.1 hf))
  · intro g hg hn
    refine h0 g (Finset.mem_range.1 hg) fun f hf e => hn ?_
    exact Finset.mem_image.2 ⟨f, Finset.mem_range.2 hf, e⟩

theorem moved_surj {n : Nat} {σ : Nat → Nat} (hlt : ∀ f, f < n → σ f < n)
    (hinj : ∀ f g, f < n → g < n → σ f = σ g → f = g) {g : Nat} (hg : g < n) : ∃ f, f < n ∧ σ f = g := by
  have hi : (Finset.range n).image σ = Finset.range n := by
    refine Finset.eq_of_subset_of_card_le ?_ ?_
    · intro x hx
      obtain ⟨f, hf, rfl⟩ := Finset.mem_image.1 hx
      exact Finset.mem_range.2 (hlt f (Finset.mem_range.1 hf))
    · rw [Finset.card_image_of_injOn fun f hf g hg =>
        hinj f g (Finset.mem_range.1 hf) (Finset.mem_range.1 hg)]
  have : g ∈ (Finset.range n).image σ := by rw [hi]; exact Finset.mem_range.2 hg
  obtain ⟨f, hf, e⟩ := Finset.mem_image.1 this
  exact ⟨f, Finset.mem_range.1 hf, e⟩

/-! ## Rewards and plans -/

theorem actionValue_eq {M : Trans K} {r r' : Nat → K} (h : ∀ t, t < M.nS → r' t = r t) :
    actionValue M r' = actionValue M r := by
  funext γ v s a
  show npDot M.nS _ _ = npDot M.nS _ _
  rw [npDot_def, npDot_def]
  exact Finset.sum_congr rfl fun t ht => by rw [h t (Finset.mem_range.1 ht)]

theorem solveVI_eq {B : (Nat → K) → K} {M : Trans K} {r r' : Nat → K} (h : ∀ t, t < M.nS → r' t = r t) :
    solveVI B M r' = solveVI B M r := by
  have hs : sweepStep B M r' = sweepStep B M r := by
    funext γ st s
    unfold sweepStep
    rw [actionValue_eq h]
  have hw : sweep B M r' = sweep B M r := by
    funext γ v
    unfold sweep
    rw [hs]
  have hl : ∀ (γ tol : K) k v q, viLoop B M r' γ tol k v q = viLoop B M r γ tol k v q := by
    intro γ tol k
    induction k with
    | zero => intro v q; rfl
    | succ k ih =>
      intro v q
      unfold viLoop
      simp only [hw, ih]
  funext maxIter γ tol
  unfold solveVI
  rw [hl]

theorem solveHard_rewards {M : Trans K} {r r' : Nat → K} (h : ∀ t, t < M.nS → r' t = r t) :
    solveHard M r' = solveHard M r := by
  funext maxIter γ tol
  unfold solveHard
  rw [solveVI_eq h]

theorem solveSoft_rewards {M : Trans ℝ} {r r' : Nat → ℝ} (h : ∀ t, t < M.nS → r' t = r t) :
    solveSoft M r' = solveSoft M r := by
  funext maxIter γ tol
  unfold solveSoft
  rw [solveVI_eq h]

namespace Spec.FeaturesMoved

variable {σ : Nat → Nat} {m m' : Mdp K} (h : Spec.FeaturesMoved σ m m')
include h

theorem nStates : m'.nStates = m.nStates := congrArg Trans.nS h.trans
theorem nActions : m'.nActions = m.nActions := congrArg Trans.nA h.trans
theorem sas : m'.sas = m.sas := congrArg Trans.p h.trans

theorem reward {θ θ' : Nat → K} (hθ : Spec.Moved m.nFeatures σ θ θ') {s : Nat} (hs : s < m.nStates) :
    stateReward m'.nFeatures θ' m'.features.get s = stateReward m.nFeatures θ m.features.get s := by
  unfold stateReward
  rw [npDot_def, npDot_def]
  refine sum_moved h.number h.inj (fun f hf => ?_) fun g hg hn => ?_
  · rw [hθ f hf, h.row f s hf hs]
  · rw [h.absent g s hg hn hs, mul_zero]

theorem counts {D : Nat → K} : Spec.Moved m.nFeatures σ (featureCounts m D) (featureCounts m' D) := by
  intro f hf
  unfold featureCounts
  rw [h.nStates, npSum_def, npSum_def]
  exact Finset.sum_congr rfl fun s hs => by rw [h.row f s hf (Finset.mem_range.1 hs)]

theorem counts_absent {D : Nat → K} {g : Nat} (hg : g < m'.nFeatures) (hn : ∀ f, f < m.nFeatures → σ f ≠ g) :
    featureCounts m' D g = 0 := by
  unfold featureCounts
  rw [h.nStates, npSum_def]
  exact Finset.sum_eq_zero fun s hs => by rw [h.absent g s hg hn (Finset.mem_range.1 hs), zero_mul]

end Spec.FeaturesMoved

/-! ## Max-causal-entropy learning -/

/-- Feature counts in both worlds: alike, and 0 for features that are nowhere. -/
def CountsAlike (σ : Nat → Nat) (n n' : Nat) : Py (Nat → K) → Py (Nat → K) → Prop
  | .ok x, .ok x' => Spec.Moved n σ x x' ∧ ∀ g, g < n' → (∀ f, f < n → σ f ≠ g) → x' g = 0
  | .error e, .error e' => e = e'
  | _, _ => False

theorem mceExpected_moved {σ : Nat → Nat} {m m' : Mdp K} (h : Spec.FeaturesMoved σ m m')
    {solve solve' : (Nat → K) → Py ((Nat → K) × (Nat → Nat → Ext K))}
    (hs : ∀ θ θ', Spec.Moved m.nFeatures σ θ θ' → solve' θ' = solve θ) (sel : Selector K δ) (ts : List (List Int)) (n : Nat)
    {θ θ' : Nat → K} (hθ : Spec.Moved m.nFeatures σ θ θ') :
    CountsAlike σ m.nFeatures m'.nFeatures (mceExpected m solve sel ts n θ) (mceExpected m' solve' sel ts n θ') := by
  unfold mceExpected
  rw [hs θ θ' hθ, h.nStates, h.nActions]
  cases solve θ with
  | error e => exact rfl
  | ok r =>
    simp only
    cases sel.piP ⟨m.nStates, m.nActions, r.2⟩ with
    | error e => exact rfl
    | ok P =>
      simp only
      cases startCounts m.nStates ts (fun _ => (0 : K)) with
      | error e => exact rfl
      | ok p =>
        simp only [h.trans]
        exact ⟨h.counts, fun g hg hn => h.counts_absent hg hn⟩

theorem mceHard_moved {σ : Nat → Nat} {m m' : Mdp K} (h : Spec.FeaturesMoved σ m m') (n : Nat) (γ tol : K)
    (ts : List (List Int)) {θ θ' : Nat → K} (hθ : Spec.Moved m.nFeatures σ θ θ') :
    CountsAlike σ m.nFeatures m'.nFeatures (mceHard m n γ tol ts θ) (mceHard m' n γ tol ts θ') :=
  mceExpected_moved h (fun θ θ' hθ => by
    rw [h.trans, solveHard_rewards fun t ht => h.reward hθ ht]) _ ts n hθ

theorem mceSoft_moved {σ : Nat → Nat} {m m' : Mdp ℝ} (h : Spec.FeaturesMoved σ m m') (n : Nat) (γ tol : ℝ)
    (ts : List (List Int)) {θ θ' : Nat → ℝ} (hθ : Spec.Moved m.nFeatures σ θ θ') :
    CountsAlike σ m.nFeatures m'.nFeatures (mceSoft m n γ tol ts θ) (mceSoft m' n γ tol ts θ') :=
  mceExpected_moved h (fun θ θ' hθ => by
    rw [h.trans, solveSoft_rewards fun t ht => h.reward hθ ht]) _ ts n hθ

/-- What ignoring features does to a vector. -/
theorem zeroAt_moved {σ : Nat → Nat} {n n' : Nat} (hlt : ∀ f, f < n → σ f < n')
    (hinj : ∀ f g, f < n → g < n → σ f = σ g → f = g) {ign ign' : Ignore} (hi : Spec.IgnoreMoved n σ ign ign')
    {x x' : Nat → K} (hx : Spec.Moved n σ x x') :
    ∃ y y', zeroAt n x ign = .ok y ∧ zeroAt n' x' ign' = .ok y' ∧ Spec.Moved n σ y y' ∧
      ∀ g, (∀ f, f < n → σ f ≠ g) → (ign' = .tuple [] ∧ y' g = 0) ∨ y' g = x' g := by
  rcases hi with ⟨rfl, rfl⟩ | ⟨k, hk, rfl, rfl⟩ | ⟨l, hl, rfl, rfl⟩
  · exact ⟨_, _, rfl, rfl, fun f hf => rfl, fun g _ => Or.inl ⟨rfl, rfl⟩⟩
  · refine ⟨upd1 x k 0, upd1 x' (σ k) 0, ?_, ?_, ?_, ?_⟩
    · simp [zeroAt, hk]
    · simp [zeroAt, hlt k hk]
    · intro f hf
      unfold upd1
      by_cases e : f = k
      · simp [e]
      · have : σ f ≠ σ k := fun h => e (hinj f k hf hk h)
        simp [e, this, hx f hf]
    · intro g hg
      refine Or.inr ?_
      simp [upd1, (hg k hk).symm]
  · have e1 : ∀ f, (∃ i ∈ l.map fun (f : Nat) => (f : Int), pyIdx n i = some f) ↔ f ∈ l := by
      intro f
      constructor
      · rintro ⟨i, hi, e⟩
        obtain ⟨k, hk, rfl⟩ := List.mem_map.1 hi
        rw [pyIdx_nat, if_pos (hl k hk)] at e
        cases e
        exact hk
      · intro hf
        exact ⟨f, List.mem_map.2 ⟨f, hf, rfl⟩, by rw [pyIdx_nat, if_pos (hl f hf)]⟩
    have e2 : ∀ g, (∃ i ∈ l.map fun (f : Nat) => (σ f : Int), pyIdx n' i = some g) ↔ ∃ f ∈ l, σ f = g := by
      intro g
      constructor
      · rintro ⟨i, hi, e⟩
        obtain ⟨k, hk, rfl⟩ := List.mem_map.1 hi
        rw [pyIdx_nat, if_pos (hlt k (hl k hk))] at e
        cases e
        exact ⟨k, hk, rfl⟩
      · rintro ⟨f, hf, rfl⟩
        exact ⟨σ f, List.mem_map.2 ⟨f, hf, rfl⟩, by rw [pyIdx_nat, if_pos (hlt f (hl f hf))]⟩
    have n1 : ¬ ∃ i ∈ l.map fun (f : Nat) => (f : Int), pyIdx n i = none := by
      rintro ⟨i, hi, e⟩
      obtain ⟨k, hk, rfl⟩ := List.mem_map.1 hi
      rw [pyIdx_nat, if_pos (hl k hk)] at e
      cases e
    have n2 : ¬ ∃ i ∈ l.map fun (f : Nat) => (σ f : Int), pyIdx n' i = none := by
      rintro ⟨i, hi, e⟩
      obtain ⟨k, hk, rfl⟩ := List.mem_map.1 hi
      rw [pyIdx_nat, if_pos (hlt k (hl k hk))] at e
      cases e
    refine ⟨_, _, by simp only [zeroAt]; rw [if_neg n1], by simp only [zeroAt]; rw [if_neg n2], ?_, ?_⟩
    · intro f hf
      simp only [e1, e2]
      by_cases hfl : f ∈ l
      · rw [if_pos hfl, if_pos ⟨f, hfl, rfl⟩]
      · rw [if_neg hfl, if_neg, hx f hf]
        rintro ⟨k, hk, e⟩
        exact hfl (hinj k f (hl k hk) hf e ▸ hk)
    · intro g hg
      refine Or.inr ?_
      simp only [e2]
      rw [if_neg]
      rintro ⟨k, hk, e⟩
      exact hg k (hl k hk) e

/-- The loops of two learners run alike, until the second stops. -/
theorem irlLoop_moved {σ : Nat → Nat} {n n' : Nat} (hn : 0 < n) (hlt : ∀ f, f < n → σ f < n')
    (hinj : ∀ f g, f < n → g < n → σ f = σ g → f = g) {ign ign' : Ignore} (hi : Spec.IgnoreMoved n σ ign ign')
    {set set' : IrlSettings K} (hd : set'.decay = set.decay) (htol : set'.tol = set.tol)
    {ex ex' : (Nat → K) → Py (Nat → K)}
    (hex : ∀ θ θ', Spec.Moved n σ θ θ' → CountsAlike σ n n' (ex θ) (ex' θ')) {tF tF' : Nat → K}
    (ht : Spec.Moved n σ tF tF') (ht0 : ∀ g, g < n' → (∀ f, f < n → σ f ≠ g) → tF' g = 0) :
    ∀ (k i : Nat) (st st' : IrlState K), Spec.Moved n σ st.theta st'.theta → st'.lr = st.lr →
      ∃ j, j ≤ k ∧ (0 < k → 0 < j) ∧ (n' = n ∨ set.tol ≤ 0 → j = k) ∧
      (irlLoop set' n' ign' ex' tF' k i st').2 = (irlLoop set n ign ex tF j i st).2 ∧
      Spec.Moved n σ (irlLoop set n ign ex tF j i st).1.theta (irlLoop set' n' ign' ex' tF' k i st').1.theta ∧
      ∀ g, g < n' → (∀ f, f < n → σ f ≠ g) → (irlLoop set' n' ign' ex' tF' k i st').1.theta g = st'.theta g := by
  have hn' : 0 < n' := Nat.lt_of_le_of_lt (Nat.zero_le _) (hlt 0 hn)
  have hle : n ≤ n' := by
    have : (Finset.range n).card ≤ (Finset.range n').card :=
      Finset.card_le_card_of_injOn σ (fun f hf => Finset.mem_coe.2 (Finset.mem_range.2 (hlt f (Finset.mem_range.1 hf))))
        fun f hf g hg => hinj f g (Finset.mem_range.1 hf) (Finset.mem_range.1 hg)
    simpa using this
  intro k
  induction k with
  | zero => exact fun i st st' h1 h2 => ⟨0, le_refl _, id, fun _ => rfl, rfl, h1, fun _ _ _ => rfl⟩
  | succ k ih =>
    intro i st st' h1 h2
    have hc := hex _ _ h1
    cases he : ex st.theta with
    | error e =>
      cases he' : ex' st'.theta with
      | error e' =>
        rw [he, he'] at hc
        refine ⟨k + 1, le_refl _, id, fun _ => rfl, ?_⟩
        unfold irlLoop
        rw [he, he']
        exact ⟨by simp only; rw [show e = e' from hc], h1, fun _ _ _ => rfl⟩
      | ok d' => rw [he, he'] at hc; exact hc.elim
    | ok d =>
      cases he' : ex' st'.theta with
      | error e' => rw [he, he'] at hc; exact hc.elim
      | ok d' =>
        rw [he, he'] at hc
        obtain ⟨hd1, hd0⟩ := hc
        obtain ⟨y, y', z1, z2, z3, z4⟩ := zeroAt_moved hlt hinj hi hd1
        have herr : ∀ f, f < n → tF' (σ f) - y' (σ f) = tF f - y f := fun f hf => by rw [ht f hf, z3 f hf]
        have herr0 : ∀ g, g < n' → (∀ f, f < n → σ f ≠ g) → tF' g - y' g = 0 := by
          intro g hg hno
          have hy : y' g = 0 := by
            rcases z4 g hno with ⟨-, e⟩ | e
            · exact e
            · rw [e, hd0 g hg hno]
          rw [ht0 g hg hno, hy, sub_zero]
        have hsum : npSum n' (fun f => |tF' f - y' f|) = npSum n (fun f => |tF f - y f|) := by
          rw [npSum_def, npSum_def]
          refine sum_moved hlt hinj (fun f hf => by rw [herr f hf]) fun g hg hno => ?_
          rw [herr0 g hg hno, abs_zero]
        have hpos : 0 ≤ npSum n (fun f => |tF f - y f|) := by
          rw [npSum_def]; exact Finset.sum_nonneg fun f _ => abs_nonneg _
        have hcond : npSum n (fun f => |tF f - y f|) / (n : K) < set.tol →
            npSum n' (fun f => |tF' f - y' f|) / (n' : K) < set'.tol := by
          intro hh
          rw [hsum, htol]
          exact lt_of_le_of_lt (div_le_div_of_nonneg_left hpos (by exact_mod_cast hn) (by exact_mod_cast hle)) hh
        have hcond' : n' = n ∨ set.tol ≤ 0 → npSum n' (fun f => |tF' f - y' f|) / (n' : K) < set'.tol →
            npSum n (fun f => |tF f - y f|) / (n : K) < set.tol := by
          intro hh hs
          rw [hsum, htol] at hs
          rcases hh with hh | hh
          · rwa [hh] at hs
          · exact absurd (lt_of_lt_of_le hs hh) (not_lt.2 (div_nonneg hpos (Nat.cast_nonneg _)))
        have hrate : irlRate set'.decay i st'.lr = irlRate set.decay i st.lr := by rw [hd, h2]
        have hmoved : Spec.Moved n σ (fun f => st.theta f + (irlRate set.decay i st.lr).2 * (tF f - y f))
            (fun f => st'.theta f + (irlRate set.decay i st.lr).2 * (tF' f - y' f)) := by
          intro f hf
          simp only [h1 f hf, herr f hf]
        have step : ∀ j, irlLoop set n ign ex tF (j + 1) i st =
            if npSum n (fun f => |tF f - y f|) / (n : K) < set.tol then
              (⟨fun f => st.theta f + (irlRate set.decay i st.lr).2 * (tF f - y f), (irlRate set.decay i st.lr).1,
                st.errors ++ [fun f => tF f - y f]⟩, .ok ())
            else irlLoop set n ign ex tF j (i + 1) ⟨fun f => st.theta f + (irlRate set.decay i st.lr).2 * (tF f - y f),
              (irlRate set.decay i st.lr).1, st.errors ++ [fun f => tF f - y f]⟩ := by
          intro j
          rw [irlLoop]
          simp only [he, z1]
        have step' : irlLoop set' n' ign' ex' tF' (k + 1) i st' =
            if npSum n' (fun f => |tF' f - y' f|) / (n' : K) < set'.tol then
              (⟨fun f => st'.theta f + (irlRate set.decay i st.lr).2 * (tF' f - y' f), (irlRate set.decay i st.lr).1,
                st'.errors ++ [fun f => tF' f - y' f]⟩, .ok ())
            else irlLoop set' n' ign' ex' tF' k (i + 1) ⟨fun f => st'.theta f + (irlRate set.decay i st.lr).2 * (tF' f - y' f),
              (irlRate set.decay i st.lr).1, st'.errors ++ [fun f => tF' f - y' f]⟩ := by
          rw [irlLoop]
          simp only [he', z2, hrate]
        by_cases hstop : npSum n' (fun f => |tF' f - y' f|) / (n' : K) < set'.tol
        · rw [step', if_pos hstop]
          have hab : ∀ g, g < n' → (∀ f, f < n → σ f ≠ g) →
              st'.theta g + (irlRate set.decay i st.lr).2 * (tF' g - y' g) = st'.theta g := fun g hg hno => by
            rw [herr0 g hg hno, mul_zero, add_zero]
          by_cases hx : n' = n ∨ set.tol ≤ 0
          · refine ⟨k + 1, le_refl _, id, fun _ => rfl, ?_⟩
            rw [step, if_pos (hcond' hx hstop)]
            exact ⟨rfl, hmoved, hab⟩
          · refine ⟨1, by omega, fun _ => one_pos, fun hh => absurd hh hx, ?_⟩
            rw [step]
            split_ifs
            · exact ⟨rfl, hmoved, hab⟩
            · exact ⟨rfl, hmoved, hab⟩
        · obtain ⟨j, j1, j2, j3, k1, k2, k3⟩ := ih (i + 1)
            ⟨_, (irlRate set.decay i st.lr).1, st.errors ++ [fun f => tF f - y f]⟩
            ⟨_, (irlRate set.decay i st.lr).1, st'.errors ++ [fun f => tF' f - y' f]⟩ hmoved rfl
          refine ⟨j + 1, by omega, fun _ => Nat.succ_pos _, fun hh => by rw [j3 hh], ?_⟩
          rw [step', if_neg hstop, step, if_neg fun hc => hstop (hcond hc)]
          refine ⟨k1, k2, fun g hg hno => ?_⟩
          rw [k3 g hg hno]
          simp only [herr0 g hg hno, mul_zero, add_zero]

/-- `fit` of two max-causal-entropy learners. -/
theorem mceFit_moved {σ : Nat → Nat} {m m' : Mdp K} (h : Spec.FeaturesMoved σ m m') (hn : 0 < m.nFeatures)
    {ign ign' : Ignore} (hi : Spec.IgnoreMoved m.nFeatures σ ign ign') {o o' : MceIrl K}
    (hset : o'.set = o.set) (hlr : o'.lr = o.lr)
    (hθ : Spec.StartMoved m.nFeatures σ o.theta o'.theta) (ts : List (List Int)) {ex ex' : (Nat → K) → Py (Nat → K)}
    (hex : ∀ θ θ', Spec.Moved m.nFeatures σ θ θ' → CountsAlike σ m.nFeatures m'.nFeatures (ex θ) (ex' θ')) :
    (∃ j, j ≤ o.set.maxIter ∧ (0 < o.set.maxIter → 0 < j) ∧
      (m'.nFeatures = m.nFeatures ∨ o.set.tol ≤ 0 → j = o.set.maxIter) ∧
      Spec.ResultMoved m.nFeatures σ
        (({ o with set := { o.set with maxIter := j } } : MceIrl K).fit m ts ign ex).2 (o'.fit m' ts ign' ex').2) ∧
    ∀ θ', (o'.fit m' ts ign' ex').2 = .ok θ' → ∀ g, g < m'.nFeatures → (∀ f, f < m.nFeatures → σ f ≠ g) →
      (ign' = .tuple [] ∧ θ' g = 0) ∨ (∃ x', o'.theta = .vec x' ∧ θ' g = x' g) ∨ (o'.theta = .none ∧ θ' g = 0) := by
  have hrun : ∀ (o o' : MceIrl K) (tF tF' x x' : Nat → K), o'.set = o.set → o'.lr = o.lr →
      Spec.Moved m.nFeatures σ tF tF' →
      (∀ g, g < m'.nFeatures → (∀ f, f < m.nFeatures → σ f ≠ g) → tF' g = 0) → Spec.Moved m.nFeatures σ x x' →
      (∃ j, j ≤ o.set.maxIter ∧ (0 < o.set.maxIter → 0 < j) ∧
        (m'.nFeatures = m.nFeatures ∨ o.set.tol ≤ 0 → j = o.set.maxIter) ∧
        Spec.ResultMoved m.nFeatures σ
          (MceIrl.fit.run m ign ex ({ o with set := { o.set with maxIter := j } } : MceIrl K) tF x).2
          (MceIrl.fit.run m' ign' ex' o' tF' x').2) ∧
      ∀ θ', (MceIrl.fit.run m' ign' ex' o' tF' x').2 = .ok θ' → ∀ g, g < m'.nFeatures →
        (∀ f, f < m.nFeatures → σ f ≠ g) → (ign' = .tuple [] ∧ θ' g = 0) ∨ θ' g = x' g := by
    intro o o' tF tF' x x' hset hlr h1 h2 h3
    obtain ⟨y, y', z1, z2, z3, z4⟩ := zeroAt_moved h.number h.inj hi h3
    have key := fun k => irlLoop_moved (set := { o.set with maxIter := k }) (set' := o'.set) hn h.number h.inj hi
      (by rw [hset]) (by rw [hset]) hex h1 h2 o.set.maxIter 0 ⟨y, o.lr, []⟩ ⟨y', o'.lr, []⟩ z3 hlr
    obtain ⟨j, j1, j2, j3, k1, k2, k4⟩ := key o.set.maxIter
    have hcongr : ∀ (k i : Nat) (st : IrlState K), irlLoop { o.set with maxIter := j } m.nFeatures ign ex tF k i st =
        irlLoop o.set m.nFeatures ign ex tF k i st := by
      intro k
      induction k with
      | zero => exact fun _ _ => rfl
      | succ k ih => intro i st; rw [irlLoop, irlLoop]; simp only [ih]
    have hmax : o'.set.maxIter = o.set.maxIter := by rw [hset]
    refine ⟨⟨j, j1, j2, j3, ?_⟩, ?_⟩
    · unfold MceIrl.fit.run
      simp only [z1, z2, hmax, hcongr]
      change (irlLoop o'.set m'.nFeatures ign' ex' tF' o.set.maxIter 0 ⟨y', o'.lr, []⟩).2 =
        (irlLoop o.set m.nFeatures ign ex tF j 0 ⟨y, o.lr, []⟩).2 at k1
      change Spec.Moved m.nFeatures σ (irlLoop o.set m.nFeatures ign ex tF j 0 ⟨y, o.lr, []⟩).1.theta _ at k2
      generalize irlLoop o.set m.nFeatures ign ex tF j 0 ⟨y, o.lr, []⟩ = A at k1 k2 ⊢
      generalize irlLoop o'.set m'.nFeatures ign' ex' tF' o.set.maxIter 0 ⟨y', o'.lr, []⟩ = A' at k1 k2 ⊢
      obtain ⟨st, r⟩ := A
      obtain ⟨st', r'⟩ := A'
      simp only at k1 k2
      subst k1
      cases r' with
      | error e => exact rfl
      | ok _ =>
        simp only
        by_cases h0 : o.set.maxIter = 0
        · rw [if_pos (show j = 0 by omega), if_pos h0]
          exact rfl
        · rw [if_neg (by have := j2 (by omega); omega), if_neg h0]
          exact k2
    · unfold MceIrl.fit.run
      simp only [z2, hmax]
      generalize irlLoop o'.set m'.nFeatures ign' ex' tF' o.set.maxIter 0 ⟨y', o'.lr, []⟩ = A' at k4 ⊢
      obtain ⟨st', r'⟩ := A'
      cases r' with
      | error e => exact fun θ' e => by cases e
      | ok _ =>
        simp only
        by_cases h0 : o.set.maxIter = 0
        · rw [if_pos h0]
          exact fun θ' e => by cases e
        · rw [if_neg h0]
          intro θ' e g hg hno
          cases e
          rw [k4 g hg hno]
          exact z4 g hno
  unfold MceIrl.fit
  have triv : ∀ e : PyErr, (∃ j, j ≤ o.set.maxIter ∧ (0 < o.set.maxIter → 0 < j) ∧
      (m'.nFeatures = m.nFeatures ∨ o.set.tol ≤ 0 → j = o.set.maxIter) ∧
      Spec.ResultMoved (X := K) m.nFeatures σ (.error e) (.error e)) := fun e => ⟨_, le_refl _, id, fun _ => rfl, rfl⟩
  match ts with
  | [] => exact ⟨triv _, fun θ' e => by cases e⟩
  | [] :: _ => exact ⟨triv _, fun θ' e => by cases e⟩
  | (s :: t) :: ts =>
    simp only [h.nStates]
    cases (empirical m.nStates ((s :: t) :: ts) : Py (Nat → K)) with
    | error e => exact ⟨triv _, fun θ' e => by cases e⟩
    | ok D =>
      simp only
      obtain ⟨y, y', z1, z2, z3, z4⟩ := zeroAt_moved h.number h.inj hi (h.counts (D := D))
      have z5 : ∀ g, g < m'.nFeatures → (∀ f, f < m.nFeatures → σ f ≠ g) → y' g = 0 := by
        intro g hg hno
        rcases z4 g hno with ⟨-, e⟩ | e
        · exact e
        · rw [e, h.counts_absent hg hno]
      simp only [z1, z2]
      cases hx : o.theta with
      | none =>
        cases hx' : o'.theta with
        | none =>
          obtain ⟨a1, a2⟩ := hrun { o with aliased := false } { o' with aliased := false } y y' (fun _ => 0) (fun _ => 0)
            hset hlr z3 z5 (fun _ _ => rfl)
          refine ⟨a1, fun θ' e g hg hno => ?_⟩
          rcases a2 θ' e g hg hno with b | b
          · exact Or.inl b
          · exact Or.inr (Or.inr ⟨rfl, b⟩)
        | vec x' => rw [hx, hx'] at hθ; exact hθ.elim
        | obj => rw [hx, hx'] at hθ; exact hθ.elim
      | vec x =>
        cases hx' : o'.theta with
        | none => rw [hx, hx'] at hθ; exact hθ.elim
        | vec x' =>
          rw [hx, hx'] at hθ
          obtain ⟨a1, a2⟩ := hrun o o' y y' x x' hset hlr z3 z5 hθ
          refine ⟨by rw [hx] at a1; exact a1, fun θ' e g hg hno => ?_⟩
          rcases a2 θ' e g hg hno with b | b
          · exact Or.inl b
          · exact Or.inr (Or.inl ⟨x', rfl, b⟩)
        | obj => rw [hx, hx'] at hθ; exact hθ.elim
      | obj =>
        cases hx' : o'.theta with
        | none => rw [hx, hx'] at hθ; exact hθ.elim
        | vec x' => rw [hx, hx'] at hθ; exact hθ.elim
        | obj =>
          simp only
          rcases hi with ⟨rfl, rfl⟩ | ⟨k, hk, rfl, rfl⟩ | ⟨l, hl, rfl, rfl⟩
          · exact ⟨triv _, fun θ' e => by cases e⟩
          · exact ⟨triv _, fun θ' e => by cases e⟩
          · exact ⟨triv _, fun θ' e => by cases e⟩

/-! ## Hypothesis testing -/

theorem zscore_column {rows : List Nat} {x x' : Nat → Nat → Ext ℝ} {f f' : Nat} (h : ∀ a, x' a f' = x a f) (a : Nat) :
    zscore rows x' a f' = zscore rows x a f := by
  have hc : finiteColumn rows x' f' = finiteColumn rows x f := by
    unfold finiteColumn
    simp only [h]
  unfold zscore
  rw [h a, hc]

/-- Tables of action values for each hypothesis, alike. -/
def TablesMoved (n : Nat) (σ : Nat → Nat) (Q Q' : Nat → Nat → Nat → Ext ℝ) : Prop :=
  ∀ s a f, f < n → Q' s a (σ f) = Q s a f

theorem singleMove_moved {n : Nat} {σ : Nat → Nat} {Q Q' : Nat → Nat → Nat → Ext ℝ} (hQ : TablesMoved n σ Q Q')
    (set : HtSettings ℝ) (M : Trans ℝ) (s t : Int) :
    Spec.ResultMoved n σ (singleMove set M zscore Q s t) (singleMove set M zscore Q' s t) := by
  unfold singleMove
  cases pyIdx M.nS s with
  | none => exact rfl
  | some i =>
    cases pyIdx M.nS t with
    | none => exact rfl
    | some j =>
      simp only
      cases npWhere M.nA (fun a => decide (M.p i a j ≠ 0)) with
      | nil => exact rfl
      | cons a l =>
        simp only
        cases set.norm with
        | zscore => exact fun f hf => zscore_column (fun x => hQ i x f hf) a
        | relative => exact rfl
        | other => exact fun f hf => hQ i a f hf

theorem htUpdate_moved {n : Nat} {σ : Nat → Nat} {R R' S S' : Nat → Ext ℝ} (hR : Spec.Moved n σ R R')
    (hS : Spec.Moved n σ S S') (set : HtSettings ℝ) (k : Nat) :
    Spec.Moved n σ (htUpdate set k R S) (htUpdate set k R' S') := by
  intro f hf
  unfold htUpdate
  rw [hR f hf, hS f hf]

theorem htPairs_moved {n : Nat} {σ : Nat → Nat} {Q Q' : Nat → Nat → Nat → Ext ℝ} (hQ : TablesMoved n σ Q Q')
    (set : HtSettings ℝ) (obj : Bool) (M : Trans ℝ) : ∀ (l : List Int) (k : Nat) (S S' : Nat → Ext ℝ), Spec.Moved n σ S S' →
      (htPairs set obj M zscore (.ok Q') l k S').2 = (htPairs set obj M zscore (.ok Q) l k S).2 ∧
      (htPairs set obj M zscore (.ok Q') l k S').1.1 = (htPairs set obj M zscore (.ok Q) l k S).1.1 ∧
      Spec.Moved n σ (htPairs set obj M zscore (.ok Q) l k S).1.2 (htPairs set obj M zscore (.ok Q') l k S').1.2
  | [], k, S, S', h => ⟨rfl, rfl, h⟩
  | [_], k, S, S', h => ⟨rfl, rfl, h⟩
  | s :: t :: l, k, S, S', h => by
    unfold htPairs
    cases pyIdx M.nS s with
    | none => exact ⟨rfl, rfl, h⟩
    | some i =>
      cases pyIdx M.nS t with
      | none => exact ⟨rfl, rfl, h⟩
      | some j =>
        simp only
        cases npWhere M.nA (fun a => decide (M.p i a j ≠ 0)) with
        | nil => exact ⟨rfl, rfl, h⟩
        | cons a as =>
          simp only
          have hs := singleMove_moved hQ set M s t
          cases h1 : singleMove set M zscore Q s t with
          | error e =>
            cases h2 : singleMove set M zscore Q' s t with
            | error e' =>
              rw [h1, h2] at hs
              exact ⟨by simp only; rw [show e = e' from hs], rfl, h⟩
            | ok R' => rw [h1, h2] at hs; exact hs.elim
          | ok R =>
            cases h2 : singleMove set M zscore Q' s t with
            | error e' => rw [h1, h2] at hs; exact hs.elim
            | ok R' =>
              rw [h1, h2] at hs
              simp only
              cases obj with
              | true => exact ⟨rfl, rfl, h⟩
              | false =>
                simp only [Bool.false_eq_true, if_false]
                exact htPairs_moved hQ set false M (t :: l) (k + 1) _ _ (htUpdate_moved hs h set k)

/-- What is given to two learners: the same trajectories, in worlds that differ in the numbers of the features. -/
def DataMoved (n n' : Nat) (σ : Nat → Nat) (d d' : Mdp ℝ × Py (Nat → Nat → Nat → Ext ℝ) × List Int) : Prop :=
  Spec.FeaturesMoved σ d.1 d'.1 ∧ d.1.nFeatures = n ∧ d'.1.nFeatures = n' ∧ d'.2.2 = d.2.2 ∧
    ∃ Q Q', d.2.1 = .ok Q ∧ d'.2.1 = .ok Q' ∧ TablesMoved n σ Q Q'

theorem htLoop_moved {n n' : Nat} {σ : Nat → Nat} (set : HtSettings ℝ) (obj : Bool) :
    ∀ (l l' : List (Mdp ℝ × Py (Nat → Nat → Nat → Ext ℝ) × List Int)) (k : Nat) (S S' : Nat → Ext ℝ),
      List.Forall₂ (DataMoved n n' σ) l l' → Spec.Moved n σ S S' →
      (htLoop set obj zscore l' k S').2 = (htLoop set obj zscore l k S).2 ∧
      (htLoop set obj zscore l' k S').1.1 = (htLoop set obj zscore l k S).1.1 ∧
      Spec.Moved n σ (htLoop set obj zscore l k S).1.2 (htLoop set obj zscore l' k S').1.2 := by
  intro l l' k S S' hl
  induction hl generalizing k S S' with
  | nil => exact fun h => ⟨rfl, rfl, h⟩
  | @cons d d' l l' hd hl ih =>
    intro h
    obtain ⟨m, Qp, t⟩ := d
    obtain ⟨m', Qp', t'⟩ := d'
    obtain ⟨h1, h2, h3, h4, Q, Q', h5, h6, h7⟩ := hd
    simp only at h1 h2 h3 h4 h5 h6
    subst h4 h5 h6
    obtain ⟨a1, a2, a3⟩ := htPairs_moved h7 set obj m.trans t' k S S' h
    unfold htLoop
    rw [h1.trans]
    generalize htPairs set obj m.trans zscore (.ok Q) t' k S = A at a1 a2 a3 ⊢
    generalize htPairs set obj m.trans zscore (.ok Q') t' k S' = A' at a1 a2 a3 ⊢
    obtain ⟨⟨i, R⟩, r⟩ := A
    obtain ⟨⟨i', R'⟩, r'⟩ := A'
    simp only at a1 a2 a3
    subst a1 a2
    cases r' with
    | error e => exact ⟨rfl, rfl, a3⟩
    | ok _ => exact ih i' R R' a3

theorem htFit_moved {n n' : Nat} {σ : Nat → Nat} {o o' : HtIrl ℝ} (hset : o'.set = o.set)
    (hθ : Spec.StartMoved n σ o.theta o'.theta)
    {l l' : List (Mdp ℝ × Py (Nat → Nat → Nat → Ext ℝ) × List Int)} (hl : List.Forall₂ (DataMoved n n' σ) l l') :
    Spec.ResultMoved n σ (o.fit zscore l).2 (o'.fit zscore l').2 := by
  have hmem : ∀ d' ∈ l', ∃ d ∈ l, DataMoved n n' σ d d' := by
    clear hθ
    induction hl with
    | nil => intro d' h; cases h
    | @cons d d' l l' h _ ih =>
      intro x hx
      rcases List.mem_cons.1 hx with rfl | hx
      · exact ⟨d, List.mem_cons_self .., h⟩
      · obtain ⟨y, hy, h⟩ := ih x hx
        exact ⟨y, List.mem_cons_of_mem _ hy, h⟩
  have hmem' : ∀ d ∈ l, ∃ d' ∈ l', DataMoved n n' σ d d' := by
    clear hθ hmem
    induction hl with
    | nil => intro d' h; cases h
    | @cons d d' l l' h _ ih =>
      intro x hx
      rcases List.mem_cons.1 hx with rfl | hx
      · exact ⟨d', List.mem_cons_self .., h⟩
      · obtain ⟨y, hy, h⟩ := ih x hx
        exact ⟨y, List.mem_cons_of_mem _ hy, h⟩
  have hchk : htChecks l' = htChecks l := by
    match l, l', hl with
    | [], [], _ => rfl
    | (m, Q, t) :: l, (m', Q', t') :: l', .cons h _ =>
      obtain ⟨h1, h2, h3, h4, -⟩ := h
      simp only at h1 h2 h3 h4
      subst h4
      cases t' with
      | nil => rfl
      | cons s t =>
        unfold htChecks
        simp only
        have e1 : (∃ d ∈ (m', Q', s :: t) :: l', ¬ (d.1.nStates = m'.nStates ∧ d.1.nActions = m'.nActions)) ↔
            ∃ d ∈ (m, Q, s :: t) :: l, ¬ (d.1.nStates = m.nStates ∧ d.1.nActions = m.nActions) := by
          constructor
          · rintro ⟨d', hd', hx⟩
            obtain ⟨d, hd, k1, -⟩ := hmem d' hd'
            refine ⟨d, hd, ?_⟩
            rwa [k1.nStates, k1.nActions, h1.nStates, h1.nActions] at hx
          · rintro ⟨d, hd, hx⟩
            obtain ⟨d', hd', k1, -⟩ := hmem' d hd
            refine ⟨d', hd', ?_⟩
            rwa [k1.nStates, k1.nActions, h1.nStates, h1.nActions]
        have e2 : (∃ d ∈ (m', Q', s :: t) :: l',
              ¬ (d.1.features.d0 = m'.features.d0 ∧ d.1.features.d1 = m'.features.d1)) ↔
            ∃ d ∈ (m, Q, s :: t) :: l,
              ¬ (d.1.features.d0 = m.features.d0 ∧ d.1.features.d1 = m.features.d1) := by
          have g3 : m'.features.d0 = n' := h3
          have g2 : m.features.d0 = n := h2
          constructor
          · rintro ⟨d', hd', hx⟩
            obtain ⟨d, hd, k1, k2, k3, -⟩ := hmem d' hd'
            refine ⟨d, hd, fun hh => hx ⟨?_, ?_⟩⟩
            · exact (show d'.1.features.d0 = n' from k3).trans g3.symm
            · rw [k1.columns', h1.columns', k1.nStates, h1.nStates, ← k1.columns, ← h1.columns]
              exact hh.2
          · rintro ⟨d, hd, hx⟩
            obtain ⟨d', hd', k1, k2, k3, -⟩ := hmem' d hd
            refine ⟨d', hd', fun hh => hx ⟨?_, ?_⟩⟩
            · exact (show d.1.features.d0 = n from k2).trans g2.symm
            · have := hh.2
              rwa [k1.columns', h1.columns', k1.nStates, h1.nStates, ← k1.columns, ← h1.columns] at this
        simp only [e1, e2]
  unfold HtIrl.fit
  rw [hchk, hset]
  cases htChecks l with
  | error e => exact rfl
  | ok _ =>
    simp only
    cases hx : o.theta with
    | none =>
      cases hx' : o'.theta with
      | none =>
        obtain ⟨a1, a2, a3⟩ := htLoop_moved o.set false l l' 1 (fun _ => .fin 0) (fun _ => .fin 0) hl fun _ _ => rfl
        simp only
        generalize htLoop o.set false zscore l 1 (fun _ => .fin 0) = A at a1 a2 a3 ⊢
        generalize htLoop o.set false zscore l' 1 (fun _ => .fin 0) = A' at a1 a2 a3 ⊢
        obtain ⟨⟨i, R⟩, r⟩ := A
        obtain ⟨⟨i', R'⟩, r'⟩ := A'
        simp only at a1 a2 a3
        subst a1 a2
        cases r' with
        | error e => exact rfl
        | ok _ =>
          simp only
          split_ifs
          · exact rfl
          · exact a3
      | vec x' => rw [hx, hx'] at hθ; exact hθ.elim
      | obj => rw [hx, hx'] at hθ; exact hθ.elim
    | vec x =>
      cases hx' : o'.theta with
      | none => rw [hx, hx'] at hθ; exact hθ.elim
      | vec x' =>
        rw [hx, hx'] at hθ
        obtain ⟨a1, a2, a3⟩ := htLoop_moved o.set false l l' 1 x x' hl hθ
        simp only
        generalize htLoop o.set false zscore l 1 x = A at a1 a2 a3 ⊢
        generalize htLoop o.set false zscore l' 1 x' = A' at a1 a2 a3 ⊢
        obtain ⟨⟨i, R⟩, r⟩ := A
        obtain ⟨⟨i', R'⟩, r'⟩ := A'
        simp only at a1 a2 a3
        subst a1 a2
        cases r' with
        | error e => exact rfl
        | ok _ =>
          simp only
          split_ifs
          · exact rfl
          · exact a3
      | obj => rw [hx, hx'] at hθ; exact hθ.elim
    | obj =>
      cases hx' : o'.theta with
      | none => rw [hx, hx'] at hθ; exact hθ.elim
      | vec x' => rw [hx, hx'] at hθ; exact hθ.elim
      | obj =>
        obtain ⟨a1, -, -⟩ := htLoop_moved o.set true l l' 1 (fun _ => .nan) (fun _ => .nan) hl fun _ _ => rfl
        simp only
        generalize htLoop o.set true zscore l 1 (fun _ => .nan) = A at a1 ⊢
        generalize htLoop o.set true zscore l' 1 (fun _ => .nan) = A' at a1 ⊢
        obtain ⟨st, r⟩ := A
        obtain ⟨st', r'⟩ := A'
        simp only at a1
        subst a1
        cases r' <;> exact rfl

/-- The tables are alike. -/
theorem htQ_moved {σ : Nat → Nat} {m m' : Mdp ℝ} (h : Spec.FeaturesMoved σ m m') (hA : 0 < m.nActions) (k : Nat)
    (hk : 0 < k) (γ tol : ℝ) (h0 : 0 < γ) (h1 : γ < 1) (excl : List Nat) (hx : ∀ f ∈ excl, f < m.nFeatures) :
    ∃ Q Q', htQ m.nFeatures (excl.map fun (f : Nat) => (f : Int))
        (fun w => solveHard m.trans (stateReward m.nFeatures w m.features.get) k γ tol) = .ok Q ∧
      htQ m'.nFeatures (excl.map fun (f : Nat) => (σ f : Int))
        (fun w => solveHard m'.trans (stateReward m'.nFeatures w m'.features.get) k γ tol) = .ok Q' ∧
      TablesMoved m.nFeatures σ Q Q' := by
  have hsol : ∀ (m : Mdp ℝ), 0 < m.nActions → ∀ w : Nat → ℝ, ∃ r : (Nat → ℝ) × (Nat → Nat → Ext ℝ),
      solveHard m.trans (stateReward m.nFeatures w m.features.get) k γ tol = .ok r := by
    intro m hA w
    obtain ⟨j, -, -, -, -, e⟩ := solveVI_spec (hardBackup m.trans.nA) m.trans
      (stateReward m.nFeatures w m.features.get) h0 h1 tol hk
    exact ⟨_, (solveHard_eq hA _ _ _ _).trans e⟩
  choose r hr using hsol m hA
  choose r' hr' using hsol m' (by rw [h.nActions]; exact hA)
  refine ⟨_, _, htQ_ok m.nFeatures _ _ (fun f => (r fun g => if g = f then 1 else 0).1)
      (fun f => (r fun g => if g = f then 1 else 0).2) fun f _ => hr _,
    htQ_ok m'.nFeatures _ _ (fun f => (r' fun g => if g = f then 1 else 0).1)
      (fun f => (r' fun g => if g = f then 1 else 0).2) fun f _ => hr' _, ?_⟩
  intro s a f hf
  have hmem : ((σ f : Nat) : Int) ∈ (excl.map fun (f : Nat) => (σ f : Int)) ↔
      (f : Int) ∈ (excl.map fun (f : Nat) => (f : Int)) := by
    constructor
    · intro hm
      obtain ⟨g, hg, e⟩ := List.mem_map.1 hm
      have : σ g = σ f := by exact_mod_cast e
      have := h.inj g f (hx g hg) hf this
      subst this
      exact List.mem_map.2 ⟨g, hg, rfl⟩
    · intro hm
      obtain ⟨g, hg, e⟩ := List.mem_map.1 hm
      have : g = f := by exact_mod_cast e
      subst this
      exact List.mem_map.2 ⟨g, hg, rfl⟩
  have hunit : Spec.Moved m.nFeatures σ (fun g => if g = f then (1 : ℝ) else 0) (fun g => if g = σ f then (1 : ℝ) else 0) := by
    intro g hg
    simp only
    by_cases e : g = f
    · simp [e]
    · rw [if_neg e, if_neg fun e' => e (h.inj g f hg hf e')]
  have hrr : r' (fun g => if g = σ f then 1 else 0) = r (fun g => if g = f then 1 else 0) := by
    have e1 := hr' (fun g => if g = σ f then 1 else 0)
    rw [h.trans, solveHard_rewards (r := stateReward m.nFeatures (fun g => if g = f then 1 else 0) m.features.get)
      fun t ht => h.reward hunit ht, hr] at e1
    exact (Except.ok.inj e1).symm
  simp only [hmem, hf, h.number f hf, hrr, true_and]

/-! ## Feature matching -/

theorem laterCounts_moved {σ : Nat → Nat} {m m' : Mdp K} (h : Spec.FeaturesMoved σ m m') :
    ∀ t : List Int, CountsAlike σ m.nFeatures m'.nFeatures (laterCounts m t) (laterCounts m' t)
  | [] => ⟨fun _ _ => rfl, fun _ _ _ => rfl⟩
  | s :: t => by
    have ih := laterCounts_moved h t
    unfold laterCounts
    rw [h.columns', h.nStates, h.columns]
    cases hs : pyIdx m.nStates s with
    | none => exact rfl
    | some k =>
      have hk := pyIdx_lt hs
      simp only
      revert ih
      cases laterCounts m t with
      | error e => cases laterCounts m' t with
        | error e' => exact id
        | ok v' => exact fun e => e.elim
      | ok v => cases laterCounts m' t with
        | error e' => exact fun e => e.elim
        | ok v' =>
          intro ih
          exact ⟨fun f hf => by simp only [h.row f k hf hk, ih.1 f hf],
            fun g hg hno => by simp only [h.absent g k hg hno hk, ih.2 g hg hno, add_zero]⟩

/-- Rows of the array, alike. -/
def RowsAlike (σ : Nat → Nat) (n n' : Nat) : Py (List (Nat → K)) → Py (List (Nat → K)) → Prop
  | .error e, .error e' => e = e'
  | .ok l, .ok l' => List.Forall₂ (fun x x' => Spec.Moved n σ x x' ∧ ∀ g, g < n' → (∀ f, f < n → σ f ≠ g) → x' g = 0) l l'
  | _, _ => False

theorem matchRows_moved {n n' : Nat} {σ : Nat → Nat} : ∀ (l l' : List (Mdp K)) (ts : List (List Int)),
    Spec.ManyMoved n n' σ l l' → RowsAlike σ n n' (matchRows n (l.zip ts)) (matchRows n' (l'.zip ts))
  | [], [], ts, _ => by simp [matchRows, RowsAlike]
  | m :: l, m' :: l', [], _ => by simp [matchRows, RowsAlike]
  | m :: l, m' :: l', t :: ts, hl => by
    cases hl with
    | cons h hl =>
      obtain ⟨h1, h2, h3⟩ := h
      have ih := matchRows_moved l l' ts hl
      have hc := laterCounts_moved h1 (t.drop 1)
      have g2 : m.features.d0 = n := h2
      have g3 : m'.features.d0 = n' := h3
      rw [h2, h3] at hc
      simp only [List.zip_cons_cons, matchRows, g2, g3]
      revert ih hc
      cases laterCounts m (t.drop 1) with
      | error e => cases laterCounts m' (t.drop 1) with
        | error e' => exact fun _ e => e
        | ok v' => exact fun _ e => e.elim
      | ok v => cases laterCounts m' (t.drop 1) with
        | error e' => exact fun _ e => e.elim
        | ok v' =>
          cases matchRows n (l.zip ts) with
          | error e => cases matchRows n' (l'.zip ts) with
            | error e' => intro ih _; simpa [RowsAlike] using ih
            | ok v' => exact fun e _ => e.elim
          | ok r => cases matchRows n' (l'.zip ts) with
            | error e' => exact fun e _ => e.elim
            | ok r' =>
              intro ih hc
              simp only [ne_eq, not_true_eq_false, false_and, if_false, if_true]
              exact .cons hc ih

theorem getD_alike {n n' : Nat} {σ : Nat → Nat} {l l' : List (Nat → K)} (h : List.Forall₂ (fun x x' => Spec.Moved n σ x x' ∧
    ∀ g, g < n' → (∀ f, f < n → σ f ≠ g) → x' g = 0) l l') : ∀ i,
      Spec.Moved n σ (l.getD i fun _ => 0) (l'.getD i fun _ => 0) ∧
      ∀ g, g < n' → (∀ f, f < n → σ f ≠ g) → (l'.getD i fun _ => 0) g = 0 := by
  induction h with
  | nil => exact fun i => ⟨fun _ _ => rfl, fun _ _ _ => rfl⟩
  | cons h _ ih =>
    intro i
    cases i with
    | zero => exact h
    | succ i => exact ih i

/-- Feature matching, alike. -/
theorem matchFit_moved {n n' : Nat} {σ : Nat → Nat} {l l' : List (Mdp K)} (hl : Spec.ManyMoved n n' σ l l')
    (ts : List (List Int)) (ign : List Int) :
    (∃ e, matchFit (.inr l) ts ign = .error e ∧ matchFit (.inr l') ts ign = .error e) ∨
    ∃ x x', matchFit (.inr l) ts ign = .ok ⟨n, x⟩ ∧ matchFit (.inr l') ts ign = .ok ⟨n', x'⟩ ∧
      Spec.Moved n σ x x' ∧ ∀ g, g < n' → (∀ f, f < n → σ f ≠ g) → x' g = 0 := by
  have hlen : l.length = l'.length := hl.length_eq
  have hr := matchRows_moved l l' ts hl
  match ts with
  | [] => exact Or.inl ⟨_, rfl, rfl⟩
  | [] :: _ => exact Or.inl ⟨_, rfl, rfl⟩
  | (s :: t) :: ts =>
    unfold matchFit
    by_cases hx : ((s :: t) :: ts).length = l.length
    · simp only [if_pos hx, if_pos (hx.trans hlen)]
      match l, l', hl with
      | [], [], _ => exact Or.inl ⟨_, rfl, rfl⟩
      | m :: l, m' :: l', .cons h _ =>
        simp only [h.2.1, h.2.2]
        revert hr
        cases matchRows n ((m :: l).zip ((s :: t) :: ts)) with
        | error e => cases matchRows n' ((m' :: l').zip ((s :: t) :: ts)) with
          | error e' => intro hr; exact Or.inl ⟨e, rfl, by rw [show e = e' from hr]⟩
          | ok r' => exact fun e => e.elim
        | ok r => cases matchRows n' ((m' :: l').zip ((s :: t) :: ts)) with
          | error e' => exact fun e => e.elim
          | ok r' =>
            intro hr
            have hr : List.Forall₂ (fun x x' => Spec.Moved n σ x x' ∧
              ∀ g, g < n' → (∀ f, f < n → σ f ≠ g) → x' g = 0) r r' := hr
            simp only
            split_ifs
            · exact Or.inl ⟨_, rfl, rfl⟩
            · refine Or.inr ⟨_, _, rfl, rfl, fun f hf => ?_, fun g hg hno => ?_⟩
              · simp only [hr.length_eq, npSum_def]
                exact Finset.sum_congr rfl fun i _ => by rw [(getD_alike hr i).1 f hf]
              · simp only [npSum_def]
                refine Finset.sum_eq_zero fun i _ => ?_
                rw [(getD_alike hr i).2 g hg hno, ite_self]
    · simp only [if_neg hx, if_neg (fun e : ((s :: t) :: ts).length = l'.length => hx (e.trans hlen.symm))]
      exact Or.inl ⟨_, rfl, rfl⟩

/-! ## Eyelines -/

/-- Counts in both worlds, if the loop ends. -/
def EndsAlike (σ : Nat → Nat) (n n' : Nat) : Option (Py (Nat → K)) → Option (Py (Nat → K)) → Prop
  | none, none => True
  | some x, some x' => CountsAlike σ n n' x x'
  | _, _ => False

/-- Both at once: alike, and 0 for features that are nowhere. -/
def Alike (σ : Nat → Nat) (n n' : Nat) (x x' : Nat → K) : Prop :=
  Spec.Moved n σ x x' ∧ ∀ g, g < n' → (∀ f, f < n → σ f ≠ g) → x' g = 0

section Eye

variable {σ : Nat → Nat} {m m' : Mdp K} (h : Spec.FeaturesMoved σ m m')
include h

theorem pairToAction_moved (s t : Nat) : irlPairToAction m' s t = irlPairToAction m s t := by
  unfold irlPairToAction
  rw [h.nActions, h.sas]

theorem eyeStates_moved (a : Nat) : ∀ k s, eyeStates m' a k s = eyeStates m a k s
  | 0, _ => rfl
  | k + 1, s => by
    unfold eyeStates
    rw [h.nStates, h.sas, eyeStates_moved a k]

omit h in
theorem eyeStates_lt (m : Mdp K) (a : Nat) : ∀ k s, s < m.nStates → ∀ l, eyeStates m a k s = some l → ∀ t ∈ l, t < m.nStates
  | 0, _, _, _, e => by cases e
  | k + 1, s, hs, l, e => by
    unfold eyeStates at e
    split_ifs at e
    · rw [Option.map_eq_some_iff] at e
      obtain ⟨l', e1, rfl⟩ := e
      intro t ht
      rcases List.mem_cons.1 ht with rfl | ht
      · exact hs
      · exact eyeStates_lt m a k _ (npArgmax_lt _ (Nat.lt_of_le_of_lt (Nat.zero_le _) hs)) l' e1 t ht
    · cases e
      intro t ht
      rw [List.mem_singleton] at ht
      rw [ht]; exact hs

theorem sumFeatures_moved (l : List Nat) (hl : ∀ t ∈ l, t < m.nStates) :
    Alike σ m.nFeatures m'.nFeatures (sumFeatures m l) (sumFeatures m' l) := by
  constructor
  · intro f hf
    unfold sumFeatures
    exact congrArg List.sum (List.map_congr_left fun t ht => h.row f t hf (hl t ht))
  · intro g hg hno
    unfold sumFeatures
    rw [List.map_congr_left (g := fun _ => (0 : K)) fun t ht => h.absent g t hg hno (hl t ht)]
    simp

omit h in
theorem Alike.add {n n' : Nat} {x x' y y' : Nat → K} (h1 : Alike σ n n' x x') (h2 : Alike σ n n' y y') :
    Alike σ n n' (fun f => x f + y f) (fun f => x' f + y' f) :=
  ⟨fun f hf => by simp only [h1.1 f hf, h2.1 f hf], fun g hg hno => by simp only [h1.2 g hg hno, h2.2 g hg hno, add_zero]⟩

omit h in
theorem Alike.sub {n n' : Nat} {x x' y y' : Nat → K} (h1 : Alike σ n n' x x') (h2 : Alike σ n n' y y') :
    Alike σ n n' (fun f => x f - y f) (fun f => x' f - y' f) :=
  ⟨fun f hf => by simp only [h1.1 f hf, h2.1 f hf], fun g hg hno => by simp only [h1.2 g hg hno, h2.2 g hg hno, sub_zero]⟩

theorem normalise_moved {c c' : Nat → K} (hc : Alike σ m.nFeatures m'.nFeatures c c') :
    Alike σ m.nFeatures m'.nFeatures (normaliseCounts m.nFeatures c) (normaliseCounts m'.nFeatures c') := by
  have hz : (∀ f, f < m'.nFeatures → c' f = 0) ↔ ∀ f, f < m.nFeatures → c f = 0 := by
    constructor
    · intro hh f hf
      rw [← hc.1 f hf]
      exact hh _ (h.number f hf)
    · intro hh g hg
      by_cases hno : ∀ f, f < m.nFeatures → σ f ≠ g
      · exact hc.2 g hg hno
      · push Not at hno
        obtain ⟨f, hf, rfl⟩ := hno
        rw [hc.1 f hf, hh f hf]
  have hsum : npSum m'.nFeatures c' = npSum m.nFeatures c := by
    rw [npSum_def, npSum_def]
    exact sum_moved h.number h.inj hc.1 hc.2
  unfold normaliseCounts
  by_cases e : ∀ f, f < m.nFeatures → c f = 0
  · rw [if_pos e, if_pos (hz.2 e)]
    exact hc
  · rw [if_neg e, if_neg fun e' => e (hz.1 e')]
    exact ⟨fun f hf => by simp only [hc.1 f hf, hsum], fun g hg hno => by simp only [hc.2 g hg hno, zero_div]⟩

theorem eyeFeatures_moved (k s a : Nat) (hs : s < m.nStates) :
    (eyeFeatures m k s a = none ∧ eyeFeatures m' k s a = none) ∨ ∃ v v', eyeFeatures m k s a = some v ∧
      eyeFeatures m' k s a = some v' ∧ Alike σ m.nFeatures m'.nFeatures v v' := by
  unfold eyeFeatures
  rw [eyeStates_moved h]
  cases e : eyeStates m a k s with
  | none => exact Or.inl ⟨rfl, rfl⟩
  | some l => exact Or.inr ⟨_, _, rfl, rfl, sumFeatures_moved h l (eyeStates_lt m a k s hs l e)⟩

theorem eyeCounts_moved (k : Nat) : ∀ (l : List Nat) (c c' : Nat → K), (∀ s ∈ l, s < m.nStates) →
    Alike σ m.nFeatures m'.nFeatures c c' → EndsAlike σ m.nFeatures m'.nFeatures (eyeCounts m k l c) (eyeCounts m' k l c')
  | [], c, c', _, hc => hc
  | [_], c, c', _, hc => hc
  | s :: t :: l, c, c', hl, hc => by
    unfold eyeCounts
    rw [pairToAction_moved h]
    cases irlPairToAction m s t with
    | error e => exact rfl
    | ok a =>
      simp only
      rcases eyeFeatures_moved h k s a (hl s (List.mem_cons_self ..)) with ⟨e1, e2⟩ | ⟨v, v', e1, e2, hv⟩
      · rw [e1, e2]; trivial
      · rw [e1, e2]
        exact eyeCounts_moved k (t :: l) _ _ (fun x hx => hl x (List.mem_cons_of_mem _ hx)) (hc.add hv)

theorem eyeTrajectories_moved (k : Nat) : ∀ (ts : List (List Nat)) (c c' : Nat → K), (∀ t ∈ ts, ∀ s ∈ t, s < m.nStates) →
    Alike σ m.nFeatures m'.nFeatures c c' →
    EndsAlike σ m.nFeatures m'.nFeatures (eyeTrajectories m k ts c) (eyeTrajectories m' k ts c')
  | [], c, c', _, hc => hc
  | t :: ts, c, c', hl, hc => by
    have h1 := eyeCounts_moved h k t c c' (hl t (List.mem_cons_self ..)) hc
    unfold eyeTrajectories
    revert h1
    cases eyeCounts m k t c with
    | none => cases eyeCounts m' k t c' with
      | none => exact fun _ => trivial
      | some r => exact fun e => e.elim
    | some r => cases eyeCounts m' k t c' with
      | none => exact fun e => e.elim
      | some r' =>
        intro h1
        cases r with
        | error e => cases r' with
          | error e' => exact h1
          | ok _ => exact h1.elim
        | ok d => cases r' with
          | error e' => exact h1.elim
          | ok d' => exact eyeTrajectories_moved k ts d d' (fun x hx => hl x (List.mem_cons_of_mem _ hx)) h1

theorem trajectoryEyeline_moved (k : Nat) (ts : List (List Nat)) (hl : ∀ t ∈ ts, ∀ s ∈ t, s < m.nStates) (norm : Bool) :
    EndsAlike σ m.nFeatures m'.nFeatures (trajectoryEyeline m k ts norm) (trajectoryEyeline m' k ts norm) := by
  have h1 := eyeTrajectories_moved h k ts (fun _ => 0) (fun _ => 0) hl ⟨fun _ _ => rfl, fun _ _ _ => rfl⟩
  unfold trajectoryEyeline
  revert h1
  cases eyeTrajectories m k ts (fun _ => 0) with
  | none => cases eyeTrajectories m' k ts (fun _ => 0) with
    | none => exact fun _ => trivial
    | some r => exact fun e => e.elim
  | some r => cases eyeTrajectories m' k ts (fun _ => 0) with
    | none => exact fun e => e.elim
    | some r' =>
      intro h1
      cases r with
      | error e => cases r' with
        | error e' => exact h1
        | ok _ => exact h1.elim
      | ok d => cases r' with
        | error e' => exact h1.elim
        | ok d' =>
          cases norm with
          | false => exact h1
          | true => exact normalise_moved h h1

theorem diffActions_moved (k s chosen : Nat) (hs : s < m.nStates) : ∀ (l : List Nat) (c u c' u' : Nat → K),
    Alike σ m.nFeatures m'.nFeatures c c' → Alike σ m.nFeatures m'.nFeatures u u' →
    (diffActions m k s chosen l (c, u) = none ∧ diffActions m' k s chosen l (c', u') = none) ∨
    ∃ d d', diffActions m k s chosen l (c, u) = some d ∧ diffActions m' k s chosen l (c', u') = some d' ∧
      Alike σ m.nFeatures m'.nFeatures d.1 d'.1 ∧ Alike σ m.nFeatures m'.nFeatures d.2 d'.2
  | [], c, u, c', u', hc, hu => Or.inr ⟨_, _, rfl, rfl, hc, hu⟩
  | a :: l, c, u, c', u', hc, hu => by
    unfold diffActions
    rcases eyeFeatures_moved h k s a hs with ⟨e1, e2⟩ | ⟨v, v', e1, e2, hv⟩
    · rw [e1, e2]; exact Or.inl ⟨rfl, rfl⟩
    · rw [e1, e2]
      by_cases ha : a = chosen
      · simp only [if_pos ha]
        exact diffActions_moved k s chosen hs l _ _ _ _ (hc.add hv) hu
      · simp only [if_neg ha]
        exact diffActions_moved k s chosen hs l _ _ _ _ hc (hu.add hv)

theorem diffCounts_moved (k : Nat) : ∀ (l : List Nat) (c u c' u' : Nat → K), (∀ s ∈ l, s < m.nStates) →
    Alike σ m.nFeatures m'.nFeatures c c' → Alike σ m.nFeatures m'.nFeatures u u' →
    (diffCounts m k l (c, u) = none ∧ diffCounts m' k l (c', u') = none) ∨
    (∃ e, diffCounts m k l (c, u) = some (.error e) ∧ diffCounts m' k l (c', u') = some (.error e)) ∨
    ∃ d d', diffCounts m k l (c, u) = some (.ok d) ∧ diffCounts m' k l (c', u') = some (.ok d') ∧
      Alike σ m.nFeatures m'.nFeatures d.1 d'.1 ∧ Alike σ m.nFeatures m'.nFeatures d.2 d'.2
  | [], c, u, c', u', _, hc, hu => Or.inr (Or.inr ⟨_, _, rfl, rfl, hc, hu⟩)
  | [_], c, u, c', u', _, hc, hu => Or.inr (Or.inr ⟨_, _, rfl, rfl, hc, hu⟩)
  | s :: t :: l, c, u, c', u', hl, hc, hu => by
    unfold diffCounts
    rw [pairToAction_moved h, h.nActions]
    cases irlPairToAction m s t with
    | error e => exact Or.inr (Or.inl ⟨e, rfl, rfl⟩)
    | ok a =>
      simp only
      rcases diffActions_moved h k s a (hl s (List.mem_cons_self ..)) (List.range (m.nActions - 1)) c u c' u' hc hu with
        ⟨e1, e2⟩ | ⟨d, d', e1, e2, hd, hd'⟩
      · rw [e1, e2]; exact Or.inl ⟨rfl, rfl⟩
      · rw [e1, e2]
        exact diffCounts_moved k (t :: l) d.1 d.2 d'.1 d'.2 (fun x hx => hl x (List.mem_cons_of_mem _ hx)) hd hd'

theorem eyelineDiff_moved (k : Nat) (t : List Nat) (hl : ∀ s ∈ t, s < m.nStates) :
    EndsAlike σ m.nFeatures m'.nFeatures (trajectoryEyelineDiff m k t) (trajectoryEyelineDiff m' k t) := by
  unfold trajectoryEyelineDiff
  rcases diffCounts_moved h k t (fun _ => 0) (fun _ => 0) (fun _ => 0) (fun _ => 0) hl ⟨fun _ _ => rfl, fun _ _ _ => rfl⟩
    ⟨fun _ _ => rfl, fun _ _ _ => rfl⟩ with ⟨e1, e2⟩ | ⟨e, e1, e2⟩ | ⟨d, d', e1, e2, hd, hd'⟩
  · rw [e1, e2]; trivial
  · rw [e1, e2]; exact rfl
  · rw [e1, e2]
    exact (normalise_moved h hd).sub (normalise_moved h hd')

end Eye

end MaMDP
