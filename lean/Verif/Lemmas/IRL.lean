import Verif.Spec.IRL
import Verif.Lemmas.Py
import Mathlib.Algebra.BigOperators.Field
import Mathlib.Algebra.BigOperators.Ring.Finset
import Mathlib.Tactic.Ring
import Mathlib.Tactic.FieldSimp
import Mathlib.Tactic.Linarith
import Mathlib.Tactic.Positivity

/-! # Lemmas about the IRL model -/

set_option linter.unusedSectionVars false

namespace MaMDP

variable {K : Type} [Field K] [LinearOrder K] [IsStrictOrderedRing K] {δ : Type}

/-! ## State visitation -/

theorem foldl_addAt (g : Nat → K) : ∀ (n : Nat) (D : Nat → K),
    (List.range n).foldl (fun D' t => upd1 D' t (D' t + g t)) D = fun t => if t < n then D t + g t else D t
  | 0, D => by simp
  | n + 1, D => by
    rw [List.range_succ, List.foldl_append, foldl_addAt g n D]
    funext t
    simp only [List.foldl_cons, List.foldl_nil, upd1]
    rcases lt_trichotomy t n with h | h | h
    · rw [if_neg (by omega), if_pos h, if_pos (by omega)]
    · subst h; simp
    · rw [if_neg (by omega), if_neg (by omega), if_neg (by omega)]

theorem foldl_add (n : Nat) (F : (Nat → K) → Nat → (Nat → K)) (g : Nat → Nat → K) (m : Nat)
    (hF : ∀ D i t, F D i t = if t < m then D t + g i t else D t) : ∀ (k : Nat) (D : Nat → K) (t : Nat),
    (List.range k).foldl F D t = if t < m then D t + ∑ i ∈ Finset.range k, g i t else D t
  | 0, D, t => by simp
  | k + 1, D, t => by
    rw [List.range_succ, List.foldl_append, Finset.sum_range_succ]
    simp only [List.foldl_cons, List.foldl_nil]
    rw [hF, foldl_add n F g m hF k D t]
    split_ifs <;> ring

theorem visitPass_eq (M : Trans K) (pi : Nat → Nat → K) (p0 D : Nat → K) (t : Nat) (ht : t < M.nS) :
    visitPass M pi p0 D t =
      p0 t + ∑ s ∈ Finset.range M.nS, D s * ∑ a ∈ Finset.range M.nA, pi s a * M.p s a t := by
  unfold visitPass
  rw [foldl_add M.nS _ (fun s t => ∑ a ∈ Finset.range M.nA, D s * pi s a * M.p s a t) M.nS, if_pos ht]
  · congr 1
    refine Finset.sum_congr rfl fun s _ => ?_
    rw [Finset.mul_sum]
    exact Finset.sum_congr rfl fun a _ => by ring
  · intro D' s t
    rw [foldl_add M.nS _ (fun a t => D s * pi s a * M.p s a t) M.nS]
    intro D'' a t
    rw [foldl_addAt (fun t => D s * pi s a * M.p s a t)]

theorem visitation_eq (M : Trans K) (pi : Nat → Nat → K) (p0 : Nat → K) : ∀ (n t : Nat), t < M.nS →
    visitation M pi p0 n t = ∑ k ∈ Finset.range n, Spec.stateDist M pi p0 k t
  | 0, t, _ => by simp [visitation]
  | n + 1, t, ht => by
    rw [visitation, visitPass_eq M pi p0 _ t ht, Finset.sum_range_succ']
    simp only [Spec.stateDist]
    rw [Finset.sum_comm, add_comm]
    congr 1
    refine Finset.sum_congr rfl fun s hs => ?_
    rw [visitation_eq M pi p0 n s (Finset.mem_range.1 hs), Finset.sum_mul]

theorem stateDist_nonneg {M : Trans K} (hM : Spec.SubStochastic M) {pi : Nat → Nat → K} {p0 : Nat → K}
    (hpi : ∀ s a, s < M.nS → a < M.nA → 0 ≤ pi s a) (h0 : ∀ s, s < M.nS → 0 ≤ p0 s) :
    ∀ k t, t < M.nS → 0 ≤ Spec.stateDist M pi p0 k t
  | 0, t, ht => h0 t ht
  | k + 1, t, ht => Finset.sum_nonneg fun s hs => mul_nonneg
      (stateDist_nonneg hM hpi h0 k s (Finset.mem_range.1 hs)) (Finset.sum_nonneg fun a ha => mul_nonneg
        (hpi s a (Finset.mem_range.1 hs) (Finset.mem_range.1 ha))
        (hM.nonneg s a t (Finset.mem_range.1 hs) (Finset.mem_range.1 ha) ht))

/-- Mass flowing out of a state. -/
theorem stateDist_succ_sum (M : Trans K) (pi : Nat → Nat → K) (p0 : Nat → K) (k : Nat) :
    ∑ t ∈ Finset.range M.nS, Spec.stateDist M pi p0 (k + 1) t =
      ∑ s ∈ Finset.range M.nS, Spec.stateDist M pi p0 k s *
        ∑ a ∈ Finset.range M.nA, pi s a * ∑ t ∈ Finset.range M.nS, M.p s a t := by
  simp only [Spec.stateDist]
  rw [Finset.sum_comm]
  refine Finset.sum_congr rfl fun s _ => ?_
  rw [← Finset.mul_sum]
  congr 1
  rw [Finset.sum_comm]
  exact Finset.sum_congr rfl fun a _ => by rw [Finset.mul_sum]

/-! ## Indexing -/

theorem pyIdx_stateOf {n : Nat} {i : Int} : pyIdx n i = if Spec.InRange n i then some (Spec.stateOf n i) else none := by
  unfold pyIdx Spec.InRange Spec.stateOf
  split_ifs <;> first | rfl | omega | (congr 1; omega)

theorem incAt_eq {n : Nat} {v : Nat → K} {i : Int} : incAt n v i =
    if Spec.InRange n i then .ok (fun s => v s + if Spec.stateOf n i = s then 1 else 0) else .error .indexError := by
  unfold incAt
  rw [pyIdx_stateOf]
  split_ifs with h
  · simp only
    congr 1
    funext s
    unfold upd1
    by_cases e : s = Spec.stateOf n i
    · subst e; simp
    · rw [if_neg e, if_neg (Ne.symm e), add_zero]
  · rfl

theorem visits_cons (n : Nat) (i : Int) (t : List Int) (s : Nat) :
    Spec.visits n (i :: t) s = Spec.visits n t s + if Spec.stateOf n i = s then 1 else 0 := by
  unfold Spec.visits
  rw [List.map_cons, List.count_cons]
  congr 1
  by_cases h : Spec.stateOf n i = s <;> simp [h]

theorem countStates_eq (n : Nat) : ∀ (t : List Int) (v : Nat → K), countStates n t v =
    if ∀ i ∈ t, Spec.InRange n i then .ok (fun s => v s + (Spec.visits n t s : K)) else .error .indexError
  | [], v => by simp [countStates, Spec.visits]
  | i :: t, v => by
    rw [countStates, incAt_eq]
    by_cases hi : Spec.InRange n i
    · rw [if_pos hi]
      simp only
      rw [countStates_eq n t]
      by_cases ht : ∀ j ∈ t, Spec.InRange n j
      · rw [if_pos ht, if_pos (by simpa using ⟨hi, ht⟩)]
        congr 1
        funext s
        rw [visits_cons]
        push_cast
        split_ifs <;> ring
      · rw [if_neg ht, if_neg (fun h => ht fun j hj => h j (List.mem_cons_of_mem _ hj))]
    · rw [if_neg hi, if_neg (fun h => hi (h i List.mem_cons_self))]

/-- Product of the lengths. -/
def lens (ts : List (List Int)) : K := (ts.map fun t => (t.length : K)).prod

theorem lens_cons (t : List Int) (ts : List (List Int)) : (lens (t :: ts) : K) = t.length * lens ts := by
  simp [lens]

theorem countTrajectories_eq (n : Nat) : ∀ (ts : List (List Int)) (v : Nat → K), countTrajectories n ts v =
    if ∀ t ∈ ts, ∀ i ∈ t, Spec.InRange n i then .ok (fun s => v s / lens ts + Spec.nestedVisits n ts s)
    else .error .indexError
  | [], v => by simp [countTrajectories, Spec.nestedVisits, lens]
  | t :: ts, v => by
    rw [countTrajectories, countStates_eq]
    by_cases h : ∀ i ∈ t, Spec.InRange n i
    · rw [if_pos h]
      simp only
      rw [countTrajectories_eq n ts]
      by_cases hs : ∀ t ∈ ts, ∀ i ∈ t, Spec.InRange n i
      · rw [if_pos hs, if_pos (by intro t' ht'; rcases List.mem_cons.1 ht' with rfl | h'; exacts [h, hs t' h'])]
        congr 1
        funext s
        rw [Spec.nestedVisits, lens_cons]
        change _ = _ + (_ / lens (t :: ts) + _)
        rw [lens_cons, div_div, add_div]
        ring
      · rw [if_neg hs, if_neg (fun h' => hs fun t' ht' => h' t' (List.mem_cons_of_mem _ ht'))]
    · rw [if_neg h, if_neg (fun h' => h (h' t List.mem_cons_self))]

theorem empirical_eq (n : Nat) (ts : List (List Int)) : empirical (K := K) n ts =
    if ∀ t ∈ ts, ∀ i ∈ t, Spec.InRange n i then .ok (fun s => Spec.nestedVisits n ts s / (ts.length : K))
    else .error .indexError := by
  unfold empirical
  rw [countTrajectories_eq]
  split_ifs <;> simp

theorem stateOf_lt {n : Nat} {i : Int} (h : Spec.InRange n i) : Spec.stateOf n i < n := by
  unfold Spec.InRange at h
  unfold Spec.stateOf
  split_ifs <;> omega

theorem sum_visits (n : Nat) : ∀ (t : List Int), (∀ i ∈ t, Spec.InRange n i) →
    ∑ s ∈ Finset.range n, (Spec.visits n t s : K) = t.length
  | [], _ => by simp [Spec.visits]
  | i :: t, h => by
    have ih := sum_visits n t fun j hj => h j (List.mem_cons_of_mem _ hj)
    simp only [visits_cons]
    push_cast
    rw [Finset.sum_add_distrib, ih, Finset.sum_ite_eq, if_pos (Finset.mem_range.2 (stateOf_lt (h i List.mem_cons_self)))]
    simp

theorem lens_pos {ts : List (List Int)} (h : ∀ t ∈ ts, t ≠ []) : (1 : K) ≤ lens ts := by
  induction ts with
  | nil => simp [lens]
  | cons t ts ih =>
    rw [lens_cons]
    have h1 : (1 : K) ≤ t.length := by
      have := List.length_pos_iff.2 (h t List.mem_cons_self)
      exact_mod_cast this
    have h2 := ih fun u hu => h u (List.mem_cons_of_mem _ hu)
    nlinarith

theorem lens_eq_one {ts : List (List Int)} (h : ∀ t ∈ ts, t ≠ []) :
    (lens ts : K) = 1 ↔ ∀ t ∈ ts, t.length = 1 := by
  induction ts with
  | nil => simp [lens]
  | cons t ts ih =>
    have hp : 0 < t.length := List.length_pos_iff.2 (h t List.mem_cons_self)
    have h1 : (1 : K) ≤ t.length := by exact_mod_cast hp
    have h2 : (1 : K) ≤ lens ts := lens_pos fun u hu => h u (List.mem_cons_of_mem _ hu)
    have ih' := ih fun u hu => h u (List.mem_cons_of_mem _ hu)
    rw [lens_cons]
    constructor
    · intro e
      have e1 : (t.length : K) = 1 := by nlinarith
      have e2 : (lens ts : K) = 1 := by rw [e1, one_mul] at e; exact e
      intro u hu
      rcases List.mem_cons.1 hu with rfl | hu
      · exact_mod_cast e1
      · exact ih'.1 e2 u hu
    · intro e
      rw [ih'.2 fun u hu => e u (List.mem_cons_of_mem _ hu), e t List.mem_cons_self]
      simp

/-- Total of the nested frequencies. -/
theorem sum_nested (n : Nat) : ∀ (ts : List (List Int)), (∀ t ∈ ts, ∀ i ∈ t, Spec.InRange n i) →
    (∀ t ∈ ts, t ≠ []) → ∑ s ∈ Finset.range n, Spec.nestedVisits (K := K) n ts s ≤ ts.length ∧
      (∑ s ∈ Finset.range n, Spec.nestedVisits (K := K) n ts s = ts.length ↔ ∀ t ∈ ts.tail, t.length = 1)
  | [], _, _ => by simp [Spec.nestedVisits]
  | t :: ts, h, hne => by
    have hne' : ∀ t ∈ ts, t ≠ [] := fun u hu => hne u (List.mem_cons_of_mem _ hu)
    obtain ⟨i1, i2⟩ := sum_nested n ts (fun u hu => h u (List.mem_cons_of_mem _ hu)) hne'
    have hl : (1 : K) ≤ lens ts := lens_pos hne'
    have ht : (0 : K) < t.length := by
      have := List.length_pos_iff.2 (hne t List.mem_cons_self); exact_mod_cast this
    have e : ∑ s ∈ Finset.range n, Spec.nestedVisits (K := K) n (t :: ts) s =
        1 / lens ts + ∑ s ∈ Finset.range n, Spec.nestedVisits (K := K) n ts s := by
      simp only [Spec.nestedVisits]
      rw [Finset.sum_add_distrib, ← Finset.sum_div, sum_visits n t (h t List.mem_cons_self)]
      congr 1
      change _ / lens (t :: ts) = _
      rw [lens_cons]
      field_simp
    have hle : 1 / (lens ts : K) ≤ 1 := (div_le_one (by linarith)).2 hl
    rw [e]
    simp only [List.length_cons, List.tail_cons]
    push_cast
    refine ⟨by linarith, fun hh => ?_, fun hh => ?_⟩
    · have h1 : 1 / (lens ts : K) = 1 := by linarith
      rw [div_eq_one_iff_eq (by positivity)] at h1
      exact (lens_eq_one hne').1 h1.symm
    · rw [(lens_eq_one hne').2 hh, i2.2 fun u hu => hh u (List.mem_of_mem_tail hu)]
      ring

theorem sum_average (n : Nat) (ts : List (List Int)) (h : ∀ t ∈ ts, ∀ i ∈ t, Spec.InRange n i)
    (hne : ∀ t ∈ ts, t ≠ []) (h0 : ts ≠ []) : ∑ s ∈ Finset.range n, Spec.averageVisits (K := K) n ts s = 1 := by
  have key : ∀ ts : List (List Int), (∀ t ∈ ts, ∀ i ∈ t, Spec.InRange n i) → (∀ t ∈ ts, t ≠ []) →
      ∑ s ∈ Finset.range n, (ts.map fun t => (Spec.visits n t s : K) / (t.length : K)).sum = ts.length := by
    intro ts
    induction ts with
    | nil => simp
    | cons t ts ih =>
      intro h hne
      have ht : (t.length : K) ≠ 0 := by
        have := List.length_pos_iff.2 (hne t List.mem_cons_self); exact_mod_cast this.ne'
      simp only [List.map_cons, List.sum_cons, List.length_cons]
      rw [Finset.sum_add_distrib, ih (fun u hu => h u (List.mem_cons_of_mem _ hu))
        (fun u hu => hne u (List.mem_cons_of_mem _ hu)), ← Finset.sum_div, sum_visits n t (h t List.mem_cons_self),
        div_self ht]
      push_cast
      ring
  unfold Spec.averageVisits
  rw [← Finset.sum_div, key ts h hne, div_self]
  have := List.length_pos_iff.2 h0
  exact_mod_cast this.ne'

theorem nested_eq_average (n : Nat) : ∀ (ts : List (List Int)), (∀ t ∈ ts.tail, t.length = 1) → ∀ s,
    Spec.nestedVisits (K := K) n ts s = (ts.map fun t => (Spec.visits n t s : K) / (t.length : K)).sum
  | [], _, s => by simp [Spec.nestedVisits]
  | t :: ts, h, s => by
    rw [Spec.nestedVisits, nested_eq_average n ts (fun u hu => h u (List.mem_of_mem_tail hu)) s]
    have hl : (lens ts : K) = 1 := (lens_eq_one (fun u hu e => by have := h u hu; simp [e] at this)).2 h
    change _ / lens (t :: ts) + _ = _
    rw [lens_cons, hl]
    simp

/-! ## The ascent -/

theorem zeroAt_valid {n : Nat} {x : Nat → K} {ign : Ignore} (h : Spec.ValidIgnore n ign) :
    zeroAt n x ign = .ok (fun f => if Spec.Ignored n ign f then 0 else x f) := by
  match ign, h with
  | .tuple [], _ => unfold zeroAt Spec.Ignored; simp
  | .tuple [i], h =>
    have h : Spec.InRange n i := h
    have e : ∀ f, Spec.Ignored n (.tuple [i]) f ↔ f = Spec.stateOf n i := fun f => by
      simp only [Spec.Ignored, Spec.Names, List.mem_singleton, exists_eq_left, h, true_and]; exact eq_comm
    simp only [zeroAt, pyIdx_stateOf, if_pos h]
    congr 1
    funext f
    simp only [upd1, e]
  | .list l, h =>
    have h : ∀ i ∈ l, Spec.InRange n i := h
    simp only [zeroAt]
    rw [if_neg]
    · congr 1
      funext f
      have : (∃ i ∈ l, pyIdx n i = some f) ↔ Spec.Ignored n (.list l) f := by
        constructor
        · rintro ⟨i, hi, e⟩
          rw [pyIdx_stateOf, if_pos (h i hi)] at e
          exact ⟨i, hi, h i hi, Option.some.inj e⟩
        · rintro ⟨i, hi, hr, e⟩
          exact ⟨i, hi, by rw [pyIdx_stateOf, if_pos hr, e]⟩
      simp only [this]
    · rintro ⟨i, hi, e⟩
      rw [pyIdx_stateOf, if_pos (h i hi)] at e
      cases e

theorem zeroAt_invalid {n : Nat} {x : Nat → K} {ign : Ignore} (h : ¬ Spec.ValidIgnore n ign) :
    zeroAt n x ign = .error .indexError := by
  match ign, h with
  | .tuple [], h => exact absurd trivial h
  | .tuple [i], h =>
    have h : ¬ Spec.InRange n i := h
    simp only [zeroAt, pyIdx_stateOf, if_neg h]
  | .tuple (_ :: _ :: _), _ => rfl
  | .list l, h =>
    simp only [zeroAt]
    simp only [Spec.ValidIgnore, not_forall] at h
    obtain ⟨i, hi, hr⟩ := h
    rw [if_pos ⟨i, hi, by rw [pyIdx_stateOf, if_neg hr]⟩]

/-- Learning rate held after `i` iterations. -/
def lrAfter (lr : K) (d i : Nat) : K := lr / (i.factorial : K) ^ d

theorem irlRate_eq (d i : Nat) (lr : K) :
    irlRate d i (lrAfter lr d i) = (lrAfter lr d (i + 1), Spec.actualRate lr d (i + 1)) := by
  unfold irlRate lrAfter Spec.actualRate
  by_cases h : d = 0
  · subst h; simp
  · rw [if_neg h]
    have e : lr / (i.factorial : K) ^ d / ((i + 1 : Nat) : K) ^ d = lr / ((i + 1).factorial : K) ^ d := by
      rw [Nat.factorial_succ, div_div, ← mul_pow]
      push_cast
      ring
    simp only [e, div_div]

/-- Error of iteration `i` along an ascent. -/
def errAt (ignored : Nat → Prop) [DecidablePred ignored] (observed : Nat → K) (E : (Nat → K) → Nat → K)
    (w : Nat → Nat → K) (i : Nat) : Nat → K := fun f => if ignored f then 0 else observed f - E (w i) f

/-- Mean absolute error of iteration `i`. -/
def meanErr (nF : Nat) (ignored : Nat → Prop) [DecidablePred ignored] (observed : Nat → K)
    (E : (Nat → K) → Nat → K) (w : Nat → Nat → K) (i : Nat) : K :=
  (∑ f ∈ Finset.range nF, |errAt ignored observed E w i f|) / nF

theorem irlLoop_spec (set : IrlSettings K) (nF : Nat) (ign : Ignore) (hv : Spec.ValidIgnore nF ign)
    (expected : (Nat → K) → Py (Nat → K)) (E : (Nat → K) → Nat → K) (hE : ∀ x, expected x = .ok (E x))
    (observed start : Nat → K) (lr : K) (w : Nat → Nat → K)
    (hw : w = Spec.ascend (Spec.Ignored nF ign) (Spec.actualRate lr set.decay) observed E start) :
    ∀ (k i : Nat) (errs : List (Nat → K)), ∃ N, i ≤ N ∧ N ≤ i + k ∧ (0 < k → i < N) ∧
      irlLoop set nF ign expected (fun f => if Spec.Ignored nF ign f then 0 else observed f) k i
        ⟨w i, lrAfter lr set.decay i, errs⟩ =
        (⟨w N, lrAfter lr set.decay N,
          errs ++ (List.range' i (N - i)).map (errAt (Spec.Ignored nF ign) observed E w)⟩, .ok ()) ∧
      (N < i + k → meanErr nF (Spec.Ignored nF ign) observed E w (N - 1) < set.tol) ∧
      (∀ j, i ≤ j → j + 1 < N → ¬ meanErr nF (Spec.Ignored nF ign) observed E w j < set.tol)
  | 0, i, errs => ⟨i, le_refl _, le_refl _, by simp, by simp [irlLoop], by simp, fun j h1 h2 => by omega⟩
  | k + 1, i, errs => by
    have hth : ∀ f, w i f + Spec.actualRate lr set.decay (i + 1) *
        ((if Spec.Ignored nF ign f then 0 else observed f) - (if Spec.Ignored nF ign f then 0 else E (w i) f)) =
        w (i + 1) f := by
      intro f
      rw [hw]
      by_cases hf : Spec.Ignored nF ign f
      · have h0 : ∀ j, Spec.ascend (Spec.Ignored nF ign) (Spec.actualRate lr set.decay) observed E start j f = 0 := by
          intro j; cases j <;> simp [Spec.ascend, hf]
        rw [h0, h0]; simp [hf]
      · simp [Spec.ascend, hf]
    have herr : (fun f => (if Spec.Ignored nF ign f then 0 else observed f) -
        (if Spec.Ignored nF ign f then 0 else E (w i) f)) = errAt (Spec.Ignored nF ign) observed E w i := by
      funext f; unfold errAt; split_ifs <;> simp
    rw [irlLoop]
    simp only [hE, zeroAt_valid hv, irlRate_eq, hth]
    simp only [herr]
    have hm : (npSum nF fun f => |(if Spec.Ignored nF ign f then 0 else observed f) -
        (if Spec.Ignored nF ign f then 0 else E (w i) f)|) / (nF : K) =
        meanErr nF (Spec.Ignored nF ign) observed E w i := by
      unfold meanErr npSum
      rw [← herr]
    simp only [hm]
    by_cases hc : meanErr nF (Spec.Ignored nF ign) observed E w i < set.tol
    · rw [if_pos hc]
      refine ⟨i + 1, by omega, by omega, fun _ => by omega, ?_, fun _ => by simpa using hc, fun j h1 h2 => by omega⟩
      simp
    · rw [if_neg hc]
      obtain ⟨N, h1, h2, -, h4, h5, h6⟩ := irlLoop_spec set nF ign hv expected E hE observed start lr w hw k (i + 1)
        (errs ++ [errAt (Spec.Ignored nF ign) observed E w i])
      refine ⟨N, by omega, by omega, fun _ => by omega, ?_, fun h => h5 (by omega), fun j h7 h8 => ?_⟩
      · rw [h4]
        have : N - i = (N - (i + 1)) + 1 := by omega
        rw [this, List.range'_succ]
        simp
      · rcases Nat.eq_or_lt_of_le h7 with rfl | h
        · exact hc
        · exact h6 j h h8

/-! ## Expected feature counts -/

theorem startCounts_eq (n : Nat) : ∀ (ts : List (List Int)) (v : Nat → K),
    (∀ t ∈ ts, ∃ i l, t = i :: l ∧ Spec.InRange n i) → startCounts n ts v =
      .ok fun s => v s + ((ts.map fun t => Spec.stateOf n (t.headD 0)).count s : K)
  | [], v, _ => by simp [startCounts]
  | t :: ts, v, h => by
    obtain ⟨i, l, rfl, hi⟩ := h _ List.mem_cons_self
    rw [startCounts, incAt_eq, if_pos hi]
    simp only
    rw [startCounts_eq n ts _ fun t ht => h t (List.mem_cons_of_mem _ ht)]
    congr 1
    funext s
    rw [List.map_cons, List.count_cons, List.headD_cons]
    by_cases e : Spec.stateOf n i = s
    · simp [e]; ring
    · simp [e]

theorem sum_count (n : Nat) : ∀ (l : List Nat), (∀ s ∈ l, s < n) →
    ∑ s ∈ Finset.range n, (l.count s : K) = l.length
  | [], _ => by simp
  | x :: l, h => by
    have e : ∀ s, ((x :: l).count s : K) = (l.count s : K) + if x = s then 1 else 0 := fun s => by
      rw [List.count_cons]
      by_cases e : x = s <;> simp [e]
    simp only [e]
    rw [Finset.sum_add_distrib, sum_count n l fun s hs => h s (List.mem_cons_of_mem _ hs), Finset.sum_ite_eq,
      if_pos (Finset.mem_range.2 (h x List.mem_cons_self))]
    simp

/-- The expectation as a sum over the steps of the policy. -/
theorem mceExpected_ok (m : Mdp K) (solve : (Nat → K) → Py ((Nat → K) × (Nat → Nat → Ext K)))
    (sel : Selector K δ) (ts : List (List Int)) (n : Nat) (θ : Nat → K) (v : Nat → K) (q : Nat → Nat → Ext K)
    (P : Arr2 (Ext K)) (hts : ∀ t ∈ ts, ∃ i l, t = i :: l ∧ Spec.InRange m.nStates i)
    (hs : solve θ = .ok (v, q)) (hP : sel.piP ⟨m.nStates, m.nActions, q⟩ = .ok P) :
    ∃ g, mceExpected m solve sel ts n θ = .ok g ∧ ∀ f, g f = ∑ s ∈ Finset.range m.nStates, m.features.get f s *
      ∑ k ∈ Finset.range n, Spec.stateDist m.trans (fun s a => (P.get s a).toK) (Spec.startShare m.nStates ts) k s := by
  unfold mceExpected
  rw [hs]
  simp only
  rw [hP]
  simp only
  rw [startCounts_eq m.nStates ts _ hts]
  refine ⟨_, rfl, fun f => ?_⟩
  have e : (fun s => (0 + ((ts.map fun t => Spec.stateOf m.nStates (t.headD 0)).count s : K)) /
      npSum m.nStates fun s => (0 + ((ts.map fun t => Spec.stateOf m.nStates (t.headD 0)).count s : K))) =
      Spec.startShare m.nStates ts := by
    funext s
    simp only [zero_add]
    unfold npSum Spec.startShare
    rw [sum_count, List.length_map]
    intro s hs
    obtain ⟨t, ht, rfl⟩ := List.mem_map.1 hs
    obtain ⟨i, l, rfl, hi⟩ := hts t ht
    exact stateOf_lt hi
  rw [e]
  unfold featureCounts npSum
  refine Finset.sum_congr rfl fun s hs => ?_
  beta_reduce
  rw [visitation_eq m.trans _ _ n s (Finset.mem_range.1 hs)]

theorem sum_startShare (n : Nat) (ts : List (List Int)) (h0 : ts ≠ [])
    (hts : ∀ t ∈ ts, ∃ i l, t = i :: l ∧ Spec.InRange n i) :
    ∑ s ∈ Finset.range n, Spec.startShare (K := K) n ts s = 1 := by
  unfold Spec.startShare
  rw [← Finset.sum_div, sum_count, List.length_map, div_self]
  · have := List.length_pos_iff.2 h0
    exact_mod_cast this.ne'
  · intro s hs
    obtain ⟨t, ht, rfl⟩ := List.mem_map.1 hs
    obtain ⟨i, l, rfl, hi⟩ := hts t ht
    exact stateOf_lt hi

/-- Mass is kept by policies that only take possible actions. -/
theorem stateDist_sum {M : Trans K} (hD : Spec.NoDeadEnds M) {π : Nat → Nat → K} (hπ : Spec.IsPolicy M π)
    (hp : Spec.TakesPossible M π) (p0 : Nat → K) (h0 : ∑ s ∈ Finset.range M.nS, p0 s = 1) :
    ∀ k, ∑ s ∈ Finset.range M.nS, Spec.stateDist M π p0 k s = 1
  | 0 => h0
  | k + 1 => by
    rw [stateDist_succ_sum, ← stateDist_sum hD hπ hp p0 h0 k]
    refine Finset.sum_congr rfl fun s hs => ?_
    have hs' := Finset.mem_range.1 hs
    have : ∑ a ∈ Finset.range M.nA, π s a * ∑ t ∈ Finset.range M.nS, M.p s a t = 1 := by
      rw [← (hπ s hs').2]
      refine Finset.sum_congr rfl fun a ha => ?_
      by_cases e : π s a = 0
      · simp [e]
      · rw [(hD s hs').2 a (Finset.mem_range.1 ha)
          (hp s hs' (hD s hs').1 a (Finset.mem_range.1 ha) e), mul_one]
    rw [this, mul_one]

end MaMDP
