import Verif.Lemmas.ActionSelection
import Mathlib.Tactic.NormNum
import Mathlib.Tactic.IntervalCases

/-! # C23 - C26: action selection -/

set_option linter.unusedSectionVars false

namespace MaMDP

variable {K : Type} [Field K] [LinearOrder K] [IsStrictOrderedRing K]

/-- A Q table used by the examples: one state with two tied best actions, an impossible and an
unestimated one; one state with no estimate; one whose only estimate is -inf. -/
def exampleQ : Arr2 (Ext Rat) := ⟨3, 4, fun s a =>
  if s = 0 then (if a = 0 then .fin 2 else if a = 1 then .ninf else if a = 2 then .fin 2 else .nan)
  else if s = 1 then .nan
  else if a = 0 then .ninf else .nan⟩

/-! ## C23 -/

/-- Greedy probabilities: uniform over the best actions, zero elsewhere, NaN without estimates;
`ValueError` exactly when nothing is estimated. -/
theorem C23_max_pi_p (q : Arr2 (Ext K)) :
    ((∀ s, s < q.d0 → Spec.NoEstimate q s) → maxSelector.piP q = .error .valueError) ∧
    ((∃ s, s < q.d0 ∧ ¬ Spec.NoEstimate q s) →
      ∃ P, maxSelector.piP q = .ok P ∧ P.d0 = q.d0 ∧ P.d1 = q.d1 ∧ ∀ s, s < q.d0 →
        (Spec.NoEstimate q s → ∀ a, a < q.d1 → P.get s a = .nan) ∧
        (Spec.HasEstimate q s → ∃ p : Nat → K, (∀ a, a < q.d1 → P.get s a = .fin (p a)) ∧
          ∑ a ∈ Finset.range q.d1, p a = 1 ∧
          (∀ a, Spec.IsBest q s a → 0 < p a) ∧
          (∀ a b, Spec.IsBest q s a → Spec.IsBest q s b → p a = p b) ∧
          (∀ a, a < q.d1 → ¬ Spec.IsBest q s a → p a = 0))) := by
  constructor
  · intro h
    unfold Selector.piP
    rw [checkQValues_error.2 h]
  · intro h
    unfold Selector.piP
    rw [checkQValues_ok.2 h]
    refine ⟨_, rfl, rfl, rfl, ?_⟩
    intro s hs
    refine ⟨fun hn a _ => ?_, fun he => ?_⟩
    · simp only [nanState_noEstimate hn, if_true]
    · have hd : 0 < q.d1 := by obtain ⟨⟨a, ha, -⟩, -⟩ := he; omega
      simp only [nanState_eq_false.2 he, Bool.false_eq_true, if_false, maxPiP_fold, hs, true_and]
      set best := maxActions q.d1 (fun a => (q.get s a).clean) with hbest
      have hlen : 0 < best.length := List.length_pos_of_ne_nil (maxActions_ne_nil _ hd)
      have hm : ∀ a, a ∈ best ↔ Spec.IsBest q s a := fun a => mem_maxActions_isBest
      have hK : (0 : K) < best.length := by exact_mod_cast hlen
      refine ⟨fun a => if a ∈ best then 1 / (best.length : K) else 0, ?_, ?_, ?_, ?_, ?_⟩
      · intro a _
        simp only
        split_ifs <;> rfl
      · rw [← Finset.sum_filter, Finset.sum_const, nsmul_eq_mul]
        have : ((Finset.range q.d1).filter fun a => a ∈ best).card = best.length := by
          have hnd : best.Nodup := npWhere_nodup _ _
          rw [← List.toFinset_card_of_nodup hnd]
          congr 1
          ext a
          rw [List.mem_toFinset, Finset.mem_filter, Finset.mem_range, hbest, mem_maxActions]
          tauto
        rw [this]
        field_simp
      · intro a ha
        simp only [hm, ha, if_true]; positivity
      · intro a b ha hb
        simp only [hm, ha, hb, if_true]
      · intro a _ ha
        simp only [hm, ha, if_false]

example : Spec.HasEstimate exampleQ 0 ∧ Spec.NoEstimate exampleQ 1 ∧ Spec.HasEstimate exampleQ 2 ∧
    Spec.IsBest exampleQ 0 2 ∧ ¬ Spec.IsBest exampleQ 0 1 := by
  refine ⟨⟨⟨0, by decide, by decide⟩, by decide⟩, fun a _ => by simp [exampleQ],
    ⟨⟨0, by decide, by decide⟩, by decide⟩, ⟨by decide, ?_⟩, ?_⟩
  · intro b hb
    have hb : b < 4 := hb
    interval_cases b <;> simp [exampleQ, Spec.NoBetter]
  · intro h
    have := h.2 0 (by decide)
    simp [exampleQ, Spec.NoBetter] at this

/-! ## C24 -/

/-- Whatever the generator returns, the greedy action is a best action; states without estimates
get -1; an action without an estimate is never chosen when some action has a finite value. -/
theorem C24_max_pi (q : Arr2 (Ext K)) (draws : Nat → Nat)
    (h : ∃ s, s < q.d0 ∧ ¬ Spec.NoEstimate q s) :
    ∃ pi, maxSelector.pi q draws = .ok pi ∧ pi.d0 = q.d0 ∧ ∀ s, s < q.d0 →
      (Spec.NoEstimate q s → pi.get s = -1) ∧
      (Spec.HasEstimate q s → ∃ a, pi.get s = (a : Nat) ∧ Spec.IsBest q s a ∧
        ((∃ b x, b < q.d1 ∧ q.get s b = .fin x) → q.get s a ≠ .nan ∧ q.get s a ≠ .ninf)) := by
  have hd : 0 < q.d1 := by
    obtain ⟨s, -, hn⟩ := h
    by_contra hc
    exact hn fun a ha => by omega
  obtain ⟨g, hg⟩ := forStates_ok (f := fun s =>
    randomMax q.d1 (fun a => (q.get s a).clean) (draws s)) 0 q.d0 (fun s _ => by
      obtain ⟨x, hx⟩ := rngChoice_ok (maxActions_ne_nil (fun a => (q.get s a).clean) hd) (draws s)
      exact ⟨x, hx.2⟩)
  refine ⟨⟨q.d0, fun s => if nanState q s then -1 else (g s : Int)⟩, ?_, rfl, ?_⟩
  · unfold Selector.pi
    rw [checkQValues_ok.2 h]
    simp only [maxSelector, hg]
  · intro s hs
    refine ⟨fun hn => by simp only [nanState_noEstimate hn, if_true], fun he => ?_⟩
    simp only [nanState_eq_false.2 he, Bool.false_eq_true, if_false]
    have hbest := mem_maxActions_isBest.1 (rngChoice_mem (forStates_spec hg s hs))
    refine ⟨g s, rfl, hbest, ?_⟩
    rintro ⟨b, x, hb, hx⟩
    have := hbest.2 b hb
    rw [hx] at this
    constructor <;> (intro hc; rw [hc] at this; exact this)

/-- Every combination of best actions is possible. -/
theorem C24_every_best_action (q : Arr2 (Ext K)) (h : ∃ s, s < q.d0 ∧ ¬ Spec.NoEstimate q s)
    (a : Nat → Nat) (ha : ∀ s, s < q.d0 → Spec.HasEstimate q s → Spec.IsBest q s (a s)) :
    ∃ draws pi, maxSelector.pi q draws = .ok pi ∧
      ∀ s, s < q.d0 → Spec.HasEstimate q s → pi.get s = (a s : Int) := by
  have hex : ∀ s, ∃ d, s < q.d0 → Spec.HasEstimate q s →
      rngChoice (maxActions q.d1 (fun a => (q.get s a).clean)) d = .ok (a s) := by
    intro s
    by_cases hs : s < q.d0 ∧ Spec.HasEstimate q s
    · obtain ⟨d, hd⟩ := rngChoice_surj (mem_maxActions_isBest.2 (ha s hs.1 hs.2))
      exact ⟨d, fun _ _ => hd⟩
    · exact ⟨0, fun h1 h2 => absurd ⟨h1, h2⟩ hs⟩
  choose draws hdraws using hex
  obtain ⟨pi, h1, -, h2⟩ := C24_max_pi q draws h
  refine ⟨draws, pi, h1, fun s hs he => ?_⟩
  unfold Selector.pi at h1
  rw [checkQValues_ok.2 h] at h1
  simp only [maxSelector] at h1
  cases hg : forStates q.d0 (fun s => randomMax q.d1 (fun a => (q.get s a).clean) (draws s)) 0 with
  | error e => rw [hg] at h1; simp at h1
  | ok g =>
    rw [hg] at h1
    simp only [Except.ok.injEq] at h1
    subst h1
    simp only [nanState_eq_false.2 he, Bool.false_eq_true, if_false]
    have e1 := forStates_spec hg s hs
    have e2 := hdraws s hs he
    unfold randomMax at e1
    rw [e2] at e1
    simp only [Except.ok.injEq] at e1
    rw [e1]

theorem C24_max_pi_error (q : Arr2 (Ext K)) (draws : Nat → Nat)
    (h : ∀ s, s < q.d0 → Spec.NoEstimate q s) : maxSelector.pi q draws = .error .valueError := by
  unfold Selector.pi
  rw [checkQValues_error.2 h]

example : ∃ s, s < exampleQ.d0 ∧ ¬ Spec.NoEstimate exampleQ s :=
  ⟨0, by decide, fun h => by simpa [exampleQ] using h 0 (by decide)⟩

/-! ## C25 -/

/-- Softmax probabilities for every state with an estimate (no +inf in its row). -/
theorem C25_softmax_pi_p (T : ℝ) (hT : 0 < T) (q : Arr2 (Ext ℝ))
    (h : ∃ s, s < q.d0 ∧ ¬ Spec.NoEstimate q s) :
    ∃ sel P, mkSoftmax T = .ok sel ∧ sel.piP q = .ok P ∧ P.d0 = q.d0 ∧ P.d1 = q.d1 ∧
      ∀ s, s < q.d0 → (Spec.NoEstimate q s → ∀ a, a < q.d1 → P.get s a = .nan) ∧
      (Spec.HasEstimate q s → (∀ a, a < q.d1 → q.get s a ≠ .pinf) →
        ∃ p : Nat → ℝ, (∀ a, a < q.d1 → P.get s a = .fin (p a) ∧ 0 ≤ p a) ∧
          ∑ a ∈ Finset.range q.d1, p a = 1 ∧
          ((∃ a x, a < q.d1 ∧ q.get s a = .fin x) → ∀ a, a < q.d1 →
            (q.get s a = .ninf ∨ q.get s a = .nan ↔ p a = 0)) ∧
          ((¬ ∃ a x, a < q.d1 ∧ q.get s a = .fin x) → ∀ a, a < q.d1 → p a = 1 / (q.d1 : ℝ)) ∧
          (∀ a b x y, a < q.d1 → b < q.d1 → q.get s a = .fin x → q.get s b = .fin y →
            p a = p b * Real.exp ((x - y) / T) ∧ (y < x → p b < p a))) := by
  have e : (softmaxSelector T).piP q = .ok ⟨q.d0, q.d1, fun s a =>
      if nanState q s then .nan else softmax q.d1 (fun a => (q.get s a).clean) T a⟩ := by
    unfold Selector.piP; rw [checkQValues_ok.2 h]; rfl
  refine ⟨softmaxSelector T, _, by unfold mkSoftmax; rw [if_neg (not_le.2 hT)], e, rfl, rfl, ?_⟩
  intro s hs
  refine ⟨fun hn a _ => by simp only [nanState_noEstimate hn, if_true], fun he hp => ?_⟩
  simp only [nanState_eq_false.2 he, Bool.false_eq_true, if_false]
  by_cases hf : ∃ a x, a < q.d1 ∧ q.get s a = .fin x
  · obtain ⟨a0, x0, ha0, hx0⟩ := hf
    obtain ⟨m, h1, h2⟩ := softmax_row q.d1 (q.get s) T hp ⟨a0, ha0, x0, hx0⟩
    set D := npSum q.d1 (fun b => expShift m T (q.get s b).clean) with hD
    refine ⟨fun a => expShift m T (q.get s a).clean / D, ?_, ?_, ?_, ?_, ?_⟩
    · intro a _
      exact ⟨by rw [h1], div_nonneg (expShift_nonneg _ _ _) h2.le⟩
    · rw [← Finset.sum_div]; exact div_self h2.ne'
    · intro _ a ha
      constructor
      · intro hna
        simp only
        rw [expShift_of_not_fin m T (by intro x hx; rw [hx] at hna; simp at hna), zero_div]
      · intro hz
        cases hq : q.get s a with
        | ninf => exact Or.inl rfl
        | nan => exact Or.inr rfl
        | pinf => exact absurd hq (hp a ha)
        | fin x =>
          simp only [hq, expShift_fin] at hz
          exact absurd hz (div_pos (Real.exp_pos _) h2).ne'
    · intro hc; exact absurd ⟨a0, x0, ha0, hx0⟩ hc
    · intro a b x y ha hb hx hy
      simp only [hx, hy, expShift_fin]
      constructor
      · rw [div_mul_eq_mul_div, ← Real.exp_add]
        congr 2
        field_simp; ring
      · intro hlt
        apply div_lt_div_of_pos_right _ h2
        apply Real.exp_lt_exp.2
        apply div_lt_div_of_pos_right _ hT
        linarith
  · have hu : ∀ a, a < q.d1 → q.get s a = .nan ∨ q.get s a = .ninf := by
      intro a ha
      cases hq : q.get s a with
      | fin x => exact absurd ⟨a, x, ha, hq⟩ hf
      | nan => exact Or.inl rfl
      | ninf => exact Or.inr rfl
      | pinf => exact absurd hq (hp a ha)
    have hd : 0 < q.d1 := by obtain ⟨⟨a, ha, -⟩, -⟩ := he; omega
    have hR : (q.d1 : ℝ) ≠ 0 := by exact_mod_cast hd.ne'
    refine ⟨fun _ => 1 / (q.d1 : ℝ), ?_, ?_, ?_, ?_, ?_⟩
    · intro a _
      exact ⟨by rw [softmax_row_unavailable q.d1 (q.get s) T hu], by positivity⟩
    · simp [hR]
    · intro hc; exact absurd hc hf
    · intro _ _ _; rfl
    · intro a b x y ha hb hx _
      exact absurd ⟨a, x, ha, hx⟩ hf

/-- Adding a constant to every estimate changes no probability. -/
theorem C25_shift_invariance (T : ℝ) (q : Arr2 (Ext ℝ)) (c : ℝ) (P : Arr2 (Ext ℝ))
    (h : (softmaxSelector T).piP q = .ok P) :
    ∃ P', (softmaxSelector T).piP ⟨q.d0, q.d1, fun s a => match q.get s a with
        | .fin x => .fin (x + c)
        | e => e⟩ = .ok P' ∧
      ∀ s a, s < q.d0 → a < q.d1 → P'.get s a = P.get s a := by
  set sh : Ext ℝ → Ext ℝ := fun e => match e with
    | .fin x => .fin (x + c)
    | e => e with hsh
  have shn : ∀ e, sh e = .nan ↔ e = .nan := by intro e; cases e <;> simp [hsh]
  have shi : ∀ e, sh e = .ninf ↔ e = .ninf := by intro e; cases e <;> simp [hsh]
  have shp : ∀ e, sh e = .pinf ↔ e = .pinf := by intro e; cases e <;> simp [hsh]
  show ∃ P', (softmaxSelector T).piP ⟨q.d0, q.d1, fun s a => sh (q.get s a)⟩ = .ok P' ∧ _
  have hck : checkQValues (⟨q.d0, q.d1, fun s a => sh (q.get s a)⟩ : Arr2 (Ext ℝ)) =
      checkQValues q := by
    unfold checkQValues; simp only [shn]
  have hns : ∀ s, nanState (⟨q.d0, q.d1, fun s a => sh (q.get s a)⟩ : Arr2 (Ext ℝ)) s =
      nanState q s := by
    intro s; unfold nanState; simp only [shn, shi, shp]
  unfold Selector.piP at h ⊢
  rw [hck]
  cases hc : checkQValues q with
  | error e => rw [hc] at h; simp at h
  | ok u =>
    rw [hc] at h
    simp only [softmaxSelector, Except.ok.injEq] at h ⊢
    refine ⟨_, rfl, ?_⟩
    intro s a hs ha
    subst h
    simp only [hns]
    split_ifs with hnan
    · rfl
    · by_cases hp : ∃ b, b < q.d1 ∧ q.get s b = .pinf
      · rw [softmax_row_pinf q.d1 (q.get s) T hp,
          softmax_row_pinf q.d1 (fun a => sh (q.get s a)) T (by
            obtain ⟨b, hb, hx⟩ := hp; exact ⟨b, hb, (shp _).2 hx⟩)]
      · push Not at hp
        have hp' : ∀ b, b < q.d1 → sh (q.get s b) ≠ .pinf := fun b hb hx => hp b hb ((shp _).1 hx)
        by_cases hf : ∃ b, b < q.d1 ∧ ∃ x, q.get s b = .fin x
        · obtain ⟨m, h1, h2⟩ := softmax_row q.d1 (q.get s) T hp hf
          obtain ⟨m', h1', h2'⟩ := softmax_row q.d1 (fun a => sh (q.get s a)) T hp' (by
            obtain ⟨b, hb, x, hx⟩ := hf; exact ⟨b, hb, x + c, by rw [hx]⟩)
          rw [h1, h1']
          have key : ∀ b, expShift m' T (sh (q.get s b)).clean =
              expShift m T (q.get s b).clean * Real.exp ((m + c - m') / T) := by
            intro b
            cases hq : q.get s b with
            | fin x =>
              show expShift m' T (Ext.fin (x + c)).clean = _
              rw [expShift_fin, expShift_fin, ← Real.exp_add]
              congr 1
              ring
            | nan => rw [expShift_of_not_fin, expShift_of_not_fin, zero_mul] <;> simp [hsh]
            | ninf => rw [expShift_of_not_fin, expShift_of_not_fin, zero_mul] <;> simp [hsh]
            | pinf => rw [expShift_of_not_fin, expShift_of_not_fin, zero_mul] <;> simp [hsh]
          simp only [key]
          congr 1
          unfold npSum
          rw [← Finset.sum_mul]
          exact mul_div_mul_right _ _ (Real.exp_pos _).ne'
        · have hu : ∀ b, b < q.d1 → q.get s b = .nan ∨ q.get s b = .ninf := by
            intro b hb
            cases hq : q.get s b with
            | fin x => exact absurd ⟨b, hb, x, hq⟩ hf
            | nan => exact Or.inl rfl
            | ninf => exact Or.inr rfl
            | pinf => exact absurd hq (hp b hb)
          rw [softmax_row_unavailable q.d1 (q.get s) T hu,
            softmax_row_unavailable q.d1 (fun a => sh (q.get s a)) T (fun b hb => by
              simp only [shn, shi]; exact hu b hb)]

/-- Errors: a temperature that is not positive, or a table without any estimate. -/
theorem C25_errors (T : ℝ) :
    (T ≤ 0 → mkSoftmax T = .error .valueError) ∧
    (∀ q : Arr2 (Ext ℝ), (∀ s, s < q.d0 → Spec.NoEstimate q s) →
      (softmaxSelector T).piP q = .error .valueError) := by
  constructor
  · intro h; unfold mkSoftmax; rw [if_pos h]
  · intro q h; unfold Selector.piP; rw [checkQValues_error.2 h]

/-- A row with finite, -inf and NaN entries satisfies the hypotheses. -/
example : ∃ q : Arr2 (Ext ℝ), Spec.HasEstimate q 0 ∧ (∀ a, a < q.d1 → q.get 0 a ≠ .pinf) ∧
    q.get 0 0 = .fin 1 ∧ q.get 0 1 = .fin 2 ∧ q.get 0 2 = .ninf ∧ q.get 0 3 = .nan := by
  refine ⟨⟨1, 4, fun _ a => if a = 0 then .fin 1 else if a = 1 then .fin 2 else
    if a = 2 then .ninf else .nan⟩, ⟨⟨0, by simp, by simp⟩, ?_⟩, ?_, by simp, by simp, by simp, by simp⟩
  · rintro ⟨⟨a, -, ha⟩, -⟩
    simp only at ha
    split_ifs at ha
  · intro a _ ha
    simp only at ha
    split_ifs at ha

/-! ## C26 -/

/-- `rand_choice_nb`: with non-negative weights of positive total and any draw in [0,1), exactly
one outcome, the one whose interval of length `p i / total` contains the draw. -/
theorem C26_rand_choice (n : Nat) (p : Nat → K) (hp : ∀ a, a < n → 0 ≤ p a)
    (hs : 0 < ∑ a ∈ Finset.range n, p a) (u : K) (h0 : 0 ≤ u) (h1 : u < 1) :
    ∃ i, randChoiceNb n p u = .ok i ∧ i < n ∧ 0 < p i ∧
      ∀ j, j < n → (j = i ↔ Spec.InSlot (fun a => p a / ∑ b ∈ Finset.range n, p b) j u) := by
  have hn : 0 < n := by
    by_contra hc
    have : n = 0 := by omega
    subst this
    simp at hs
  set p' : Nat → K := fun a => p a / ∑ b ∈ Finset.range n, p b with hp'
  have hpos : ∀ a, a < n → 0 ≤ p' a := fun a ha => div_nonneg (hp a ha) hs.le
  have hsum : ∑ a ∈ Finset.range n, p' a = 1 := by
    rw [hp', ← Finset.sum_div]; exact div_self hs.ne'
  have hlt : searchRight n (npCumsum p') u < n := searchRight_lt hn (by rw [hsum]; exact h1)
  refine ⟨searchRight n (npCumsum p') u, ?_, hlt, ?_, ?_⟩
  · show (if searchRight n (npCumsum p') u < n then _ else _) = _
    rw [if_pos hlt]
    rfl
  · have hin := (searchRight_cumsum hpos h0 hlt).1 rfl
    unfold Spec.InSlot at hin
    have : 0 < p' (searchRight n (npCumsum p') u) := by linarith [hin.1, hin.2]
    exact (div_pos_iff_of_pos_right hs).1 this
  · intro j hj
    rw [← searchRight_cumsum hpos h0 hj, eq_comm]

/-- Softmax sampling: the action chosen in each estimated state is `i` exactly when the state's
draw lies in the `i`-th interval of the probabilities returned by `get_pi_p`. -/
theorem C26_softmax_pi (T : ℝ) (q : Arr2 (Ext ℝ))
    (h : ∃ s, s < q.d0 ∧ ¬ Spec.NoEstimate q s)
    (hp : ∀ s a, s < q.d0 → a < q.d1 → q.get s a ≠ .pinf)
    (u : Nat → ℝ) (hu : ∀ s, s < q.d0 → 0 ≤ u s ∧ u s < 1) :
    ∃ P pi, (softmaxSelector T).piP q = .ok P ∧ (softmaxSelector T).pi q u = .ok pi ∧
      pi.d0 = q.d0 ∧ ∀ s, s < q.d0 → (Spec.NoEstimate q s → pi.get s = -1) ∧
      (Spec.HasEstimate q s → ∃ p : Nat → ℝ, (∀ a, a < q.d1 → P.get s a = .fin (p a)) ∧
        ∃ i, pi.get s = (i : Nat) ∧ i < q.d1 ∧ 0 < p i ∧
          ∀ j, j < q.d1 → (j = i ↔ Spec.InSlot p j (u s))) := by
  have hd : 0 < q.d1 := by
    obtain ⟨s, -, hn⟩ := h
    by_contra hc
    exact hn fun a ha => by omega
  have key : ∀ s, s < q.d0 → ∃ p : Nat → ℝ,
      softmax q.d1 (fun a => (q.get s a).clean) T = (fun a => .fin (p a)) ∧
      softmaxChoice q.d1 (softmax q.d1 (fun a => (q.get s a).clean) T) (u s) =
        .ok (searchRight q.d1 (npCumsum p) (u s)) ∧ (∀ a, 0 ≤ p a) ∧
      ∑ a ∈ Finset.range q.d1, p a = 1 := by
    intro s hs
    obtain ⟨p, e1, e2, e3⟩ := softmax_distribution q.d1 hd (q.get s) T fun a ha => hp s a hs ha
    refine ⟨p, e1, ?_, e2, e3⟩
    rw [e1]
    unfold softmaxChoice
    rw [finRow_fin]
    simp only
    rw [if_neg]
    · unfold weightedChoice
      have e4 : npSum q.d1 p = 1 := e3
      simp only [e4, div_one]
    · intro hz
      rw [Finset.sum_eq_zero fun a ha => hz a (by simpa using ha)] at e3
      exact zero_ne_one e3
  obtain ⟨g, hg⟩ := forStates_ok (f := fun s =>
    softmaxChoice q.d1 (softmax q.d1 (fun a => (q.get s a).clean) T) (u s)) 0 q.d0 (fun s hs => by
      obtain ⟨p, -, e, -⟩ := key s hs
      exact ⟨_, e⟩)
  have e : (softmaxSelector T).piP q = .ok ⟨q.d0, q.d1, fun s a =>
      if nanState q s then .nan else softmax q.d1 (fun a => (q.get s a).clean) T a⟩ := by
    unfold Selector.piP; rw [checkQValues_ok.2 h]; rfl
  refine ⟨_, ⟨q.d0, fun s => if nanState q s then -1 else (g s : Int)⟩, e, ?_, rfl, ?_⟩
  · unfold Selector.pi
    rw [checkQValues_ok.2 h]
    simp only [softmaxSelector, hg]
  · intro s hs
    refine ⟨fun hn => by simp only [nanState_noEstimate hn, if_true], fun he => ?_⟩
    simp only [nanState_eq_false.2 he, Bool.false_eq_true, if_false]
    obtain ⟨p, e1, e2, e3, e4⟩ := key s hs
    have e5 := forStates_spec hg s hs
    rw [e2] at e5
    simp only [Except.ok.injEq] at e5
    have hlt : g s < q.d1 := by
      rw [← e5]; exact searchRight_lt hd (by rw [e4]; exact (hu s hs).2)
    have hslot : ∀ j, j < q.d1 → (j = g s ↔ Spec.InSlot p j (u s)) := by
      intro j hj
      rw [← searchRight_cumsum (fun a _ => e3 a) (hu s hs).1 hj, ← e5, eq_comm]
    refine ⟨p, fun a _ => by rw [e1], g s, rfl, hlt, ?_, hslot⟩
    have hin := (hslot (g s) hlt).1 rfl
    unfold Spec.InSlot at hin
    linarith [hin.1, hin.2]

/-- A +inf estimate makes softmax sampling raise `ValueError`. -/
theorem C26_pinf_error (T : ℝ) (q : Arr2 (Ext ℝ)) (s a : Nat) (hs : s < q.d0) (ha : a < q.d1)
    (hq : q.get s a = .pinf) (u : Nat → ℝ) : (softmaxSelector T).pi q u = .error .valueError := by
  have hd : 0 < q.d1 := by omega
  have h : ∃ s, s < q.d0 ∧ ¬ Spec.NoEstimate q s :=
    ⟨s, hs, fun h => by have := h a ha; rw [hq] at this; cases this⟩
  have herr : ∀ t, (∃ b, b < q.d1 ∧ q.get t b = .pinf) →
      softmaxChoice q.d1 (softmax q.d1 (fun a => (q.get t a).clean) T) (u t) = .error .valueError := by
    intro t ht
    rw [softmax_row_pinf q.d1 (q.get t) T ht]
    unfold softmaxChoice finRow
    rw [if_neg]
    intro hc
    have := hc 0 hd
    simp [Ext.isFin] at this
  unfold Selector.pi
  rw [checkQValues_ok.2 h]
  simp only [softmaxSelector]
  rw [forStates_error 0 .valueError q.d0 ⟨s, hs, herr s ⟨a, ha, hq⟩⟩]
  intro t _
  by_cases ht : ∃ b, b < q.d1 ∧ q.get t b = .pinf
  · exact Or.inl (herr t ht)
  · right
    push Not at ht
    obtain ⟨p, e1, -⟩ := softmax_distribution q.d1 hd (q.get t) T ht
    rw [e1]
    unfold softmaxChoice
    rw [finRow_fin]
    exact ⟨_, rfl⟩

/-- A concrete weight vector with a zero entry, and a draw. -/
example : (∀ a, a < 3 → (0 : Rat) ≤ (if a = 1 then 0 else 2)) ∧
    (0 : Rat) < ∑ a ∈ Finset.range 3, (if a = 1 then 0 else 2) ∧
    randChoiceNb 3 (fun a => if a = 1 then (0 : Rat) else 2) (1 / 2) = .ok 2 := by
  refine ⟨fun a _ => by split_ifs <;> norm_num, by simp [Finset.sum_range_succ], by decide +kernel⟩

end MaMDP
