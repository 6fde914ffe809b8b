import Verif.Spec.Walled
import Verif.Lemmas.DynamicProgramming

/-! Lemmas for C165: value iteration with states that can be neither entered nor left. -/

set_option linter.unusedSectionVars false

namespace MaMDP

variable {K : Type} [Field K] [LinearOrder K] [IsStrictOrderedRing K]

namespace Spec.Embedded

variable {M M' : Trans K} {σ : Nat → Nat}

theorem inj (h : Embedded M M' σ) {s t : Nat} (hs : s < M.nS) (ht : t < M.nS) (e : σ s = σ t) : s = t := by
  rcases lt_trichotomy s t with hlt | he | hlt
  · have := h.order s t hlt ht; omega
  · exact he
  · have := h.order t s hlt hs; omega

theorem lt_iff (h : Embedded M M' σ) {s t : Nat} (hs : s < M.nS) (ht : t < M.nS) : σ s < σ t ↔ s < t := by
  constructor
  · intro hlt
    rcases lt_trichotomy s t with h1 | h1 | h1
    · exact h1
    · subst h1; omega
    · have := h.order t s h1 hs; omega
  · exact fun h1 => h.order s t h1 ht

theorem sum (h : Embedded M M' σ) (f : Nat → K) (hf : ∀ t, t < M'.nS → ¬ Among M.nS σ t → f t = 0) :
    ∑ t ∈ Finset.range M'.nS, f t = ∑ t ∈ Finset.range M.nS, f (σ t) := by
  rw [← Finset.sum_image (f := f) (g := σ) fun s hs t ht =>
    h.inj (by simpa using hs) (by simpa using ht)]
  refine (Finset.sum_subset (fun x hx => ?_) fun x hx hn => ?_).symm
  · obtain ⟨s, hs, rfl⟩ := Finset.mem_image.1 hx
    exact Finset.mem_range.2 (h.state s (Finset.mem_range.1 hs))
  · refine hf x (Finset.mem_range.1 hx) fun ⟨s, hs, e⟩ => hn ?_
    exact Finset.mem_image.2 ⟨s, Finset.mem_range.2 hs, e⟩

theorem actionValue (h : Embedded M M' σ) {r r' : Nat → K} (hr : ∀ t, t < M.nS → r' (σ t) = r t) (γ : K) {v v' : Nat → K}
    (hv : ∀ t, t < M.nS → v' (σ t) = v t) {s a : Nat} (hs : s < M.nS) (ha : a < M.nA) :
    MaMDP.actionValue M' r' γ v' (σ s) a = MaMDP.actionValue M r γ v s a := by
  unfold MaMDP.actionValue npDot
  rw [h.sum (fun t => M'.p (σ s) a t * (r' t + γ * v' t)) fun t ht hn => by
    rw [h.out (σ s) a t (h.state s hs) ha ht fun hc => hn hc.2, zero_mul]]
  refine Finset.sum_congr rfl fun t ht => ?_
  have ht := Finset.mem_range.1 ht
  rw [h.p s a t hs ha ht, hr t ht, hv t ht]

theorem actionValue_out (h : Embedded M M' σ) (r' : Nat → K) (γ : K) (v' : Nat → K) {s a : Nat} (hs : s < M'.nS)
    (hn : ¬ Among M.nS σ s) (ha : a < M.nA) : MaMDP.actionValue M' r' γ v' s a = 0 := by
  unfold MaMDP.actionValue npDot
  refine Finset.sum_eq_zero fun t ht => ?_
  rw [h.out s a t hs ha (Finset.mem_range.1 ht) fun hc => hn hc.1, zero_mul]

/-- The same values, changes and action values. -/
structure SweepIn (M M' : Trans K) (σ : Nat → Nat) (st st' : SweepState K) : Prop where
  values : ∀ s, s < M.nS → st'.values (σ s) = st.values s
  other : ∀ s, s < M'.nS → ¬ Among M.nS σ s → st'.values s = 0
  delta : st'.delta = st.delta
  delta0 : 0 ≤ st.delta
  q : ∀ s a, s < M.nS → a < M.nA → st'.q (σ s) a = st.q s a

theorem sweepStep_in (h : Embedded M M' σ) (hA : 0 < M.nA) {r r' : Nat → K} (hr : ∀ t, t < M.nS → r' (σ t) = r t) (γ : K)
    {st st' : SweepState K} (hst : SweepIn M M' σ st st') {s : Nat} (hs : s < M.nS) :
    SweepIn M M' σ (sweepStep (hardBackup M.nA) M r γ st s) (sweepStep (hardBackup M'.nA) M' r' γ st' (σ s)) := by
  have hb : hardBackup M'.nA (MaMDP.actionValue M' r' γ st'.values (σ s)) =
      hardBackup M.nA (MaMDP.actionValue M r γ st.values s) := by
    unfold hardBackup
    rw [h.nA]
    exact npMax_congr hA fun a ha => h.actionValue hr γ hst.values hs ha
  unfold sweepStep
  constructor
  · intro t ht
    show upd1 _ _ _ _ = upd1 _ _ _ _
    unfold upd1
    by_cases hts : t = s
    · rw [if_pos (by rw [hts]), if_pos hts, hb]
    · rw [if_neg fun e => hts (h.inj ht hs e), if_neg hts, hst.values t ht]
  · intro t ht hn
    show upd1 _ _ _ _ = _
    unfold upd1
    rw [if_neg fun e => hn ⟨s, hs, e.symm⟩, hst.other t ht hn]
  · show max _ _ = max _ _
    rw [hst.delta, hst.values s hs, hb]
  · exact le_max_of_le_left hst.delta0
  · intro t a ht ha
    show (if σ t = σ s then _ else _) = if t = s then _ else _
    by_cases hts : t = s
    · rw [if_pos (by rw [hts]), if_pos hts, h.actionValue hr γ hst.values hs ha]
    · rw [if_neg fun e => hts (h.inj ht hs e), if_neg hts, hst.q t a ht ha]

theorem sweepStep_out (h : Embedded M M' σ) (hA : 0 < M.nA) {r' : Nat → K} (γ : K)
    {st st' : SweepState K} (hst : SweepIn M M' σ st st') {s : Nat} (hs : s < M'.nS) (hn : ¬ Among M.nS σ s) :
    SweepIn M M' σ st (sweepStep (hardBackup M'.nA) M' r' γ st' s) := by
  have hb : hardBackup M'.nA (MaMDP.actionValue M' r' γ st'.values s) = 0 := by
    unfold hardBackup
    rw [h.nA, npMax_eq]
    exact h.actionValue_out r' γ _ hs hn (npArgmax_lt _ hA)
  unfold sweepStep
  constructor
  · intro t ht
    show upd1 _ _ _ _ = _
    unfold upd1
    rw [if_neg fun e => hn ⟨t, ht, e⟩, hst.values t ht]
  · intro t ht hn
    show upd1 _ _ _ _ = _
    unfold upd1
    split_ifs
    · exact hb
    · exact hst.other t ht hn
  · show max _ _ = _
    rw [hst.delta, hst.other s hs hn, hb, sub_zero, abs_zero, max_eq_left hst.delta0]
  · exact hst.delta0
  · intro t a ht ha
    show (if σ t = s then _ else _) = _
    rw [if_neg fun e => hn ⟨t, ht, e⟩, hst.q t a ht ha]

theorem sweep_in (h : Embedded M M' σ) (hA : 0 < M.nA) {r r' : Nat → K} (hr : ∀ t, t < M.nS → r' (σ t) = r t) (γ : K)
    {v v' : Nat → K} (hv : ∀ s, s < M.nS → v' (σ s) = v s) (hv0 : ∀ s, s < M'.nS → ¬ Among M.nS σ s → v' s = 0) :
    SweepIn M M' σ (sweep (hardBackup M.nA) M r γ v) (sweep (hardBackup M'.nA) M' r' γ v') := by
  have key : ∀ k', k' ≤ M'.nS → ∃ k, k ≤ M.nS ∧ (∀ s, s < M.nS → (s < k ↔ σ s < k')) ∧
      SweepIn M M' σ ((List.range k).foldl (sweepStep (hardBackup M.nA) M r γ) ⟨v, 0, fun _ _ => 0⟩)
        ((List.range k').foldl (sweepStep (hardBackup M'.nA) M' r' γ) ⟨v', 0, fun _ _ => 0⟩) := by
    intro k'
    induction k' with
    | zero => exact fun _ => ⟨0, Nat.zero_le _, fun s _ => by simp, ⟨hv, hv0, rfl, le_rfl, fun _ _ _ _ => rfl⟩⟩
    | succ k' ih =>
      intro hk'
      obtain ⟨k, hk, hiff, hin⟩ := ih (by omega)
      by_cases hn : Among M.nS σ k'
      · obtain ⟨s, hs, rfl⟩ := hn
        have hsk : s = k := by
          rcases lt_trichotomy s k with h1 | h1 | h1
          · have := (hiff s hs).1 h1; omega
          · exact h1
          · have := (hiff k (by omega)).2 ((h.lt_iff (by omega) hs).2 h1); omega
        subst hsk
        refine ⟨s + 1, hs, fun t ht => ?_, ?_⟩
        · constructor
          · intro h1
            rcases Nat.lt_succ_iff_lt_or_eq.1 h1 with h2 | h2
            · have := (hiff t ht).1 h2; omega
            · rw [h2]; omega
          · intro h1
            by_contra hc
            have := (h.lt_iff hs ht).2 (by omega)
            omega
        · rw [List.range_succ, List.range_succ, List.foldl_append, List.foldl_append]
          exact h.sweepStep_in hA hr γ hin hs
      · refine ⟨k, hk, fun t ht => ?_, ?_⟩
        · have : σ t ≠ k' := fun e => hn ⟨t, ht, e⟩
          rw [hiff t ht]; omega
        · rw [List.range_succ, List.foldl_append]
          exact h.sweepStep_out hA γ hin (by omega) hn
  obtain ⟨k, hk, hiff, hin⟩ := key M'.nS le_rfl
  have : k = M.nS := by
    by_contra hne
    have h1 : k < M.nS := by omega
    have := (hiff k h1).2 (h.state k h1)
    omega
  rw [this] at hin
  exact hin

theorem viLoop_in (h : Embedded M M' σ) (hA : 0 < M.nA) {r r' : Nat → K} (hr : ∀ t, t < M.nS → r' (σ t) = r t) (γ tol : K) :
    ∀ (n : Nat) (v v' : Nat → K) (q q' : Option (Nat → Nat → K)), (∀ s, s < M.nS → v' (σ s) = v s) →
      (∀ s, s < M'.nS → ¬ Among M.nS σ s → v' s = 0) →
      (q = none ∧ q' = none ∨ ∃ x x', q = some x ∧ q' = some x' ∧ ∀ s a, s < M.nS → a < M.nA → x' (σ s) a = x s a) →
      (∀ s, s < M.nS → (viLoop (hardBackup M'.nA) M' r' γ tol n v' q').1 (σ s) =
        (viLoop (hardBackup M.nA) M r γ tol n v q).1 s) ∧
      (∀ s, s < M'.nS → ¬ Among M.nS σ s → (viLoop (hardBackup M'.nA) M' r' γ tol n v' q').1 s = 0) ∧
      ((viLoop (hardBackup M.nA) M r γ tol n v q).2 = none ∧ (viLoop (hardBackup M'.nA) M' r' γ tol n v' q').2 = none ∨
        ∃ x x', (viLoop (hardBackup M.nA) M r γ tol n v q).2 = some x ∧
          (viLoop (hardBackup M'.nA) M' r' γ tol n v' q').2 = some x' ∧
          ∀ s a, s < M.nS → a < M.nA → x' (σ s) a = x s a) := by
  intro n
  induction n with
  | zero => exact fun v v' q q' h1 h2 h3 => ⟨h1, h2, h3⟩
  | succ n ih =>
    intro v v' q q' h1 h2 _
    have hin := h.sweep_in hA hr γ h1 h2
    simp only [viLoop, hin.delta]
    by_cases hd : (sweep (hardBackup M.nA) M r γ v).delta < tol
    · rw [if_pos hd, if_pos hd]
      exact ⟨hin.values, hin.other, .inr ⟨_, _, rfl, rfl, hin.q⟩⟩
    · rw [if_neg hd, if_neg hd]
      exact ih _ _ _ _ hin.values hin.other (.inr ⟨_, _, rfl, rfl, hin.q⟩)

theorem npSum_in (h : Embedded M M' σ) {s a : Nat} (hs : s < M.nS) (ha : a < M.nA) :
    npSum M'.nS (M'.p (σ s) a) = npSum M.nS (M.p s a) := by
  unfold npSum
  rw [h.sum _ fun t ht hn => h.out (σ s) a t (h.state s hs) ha ht fun hc => hn hc.2]
  exact Finset.sum_congr rfl fun t ht => h.p s a t hs ha (Finset.mem_range.1 ht)

theorem npSum_out (h : Embedded M M' σ) {s a : Nat} (hs : s < M'.nS) (hn : ¬ Among M.nS σ s) (ha : a < M.nA) :
    npSum M'.nS (M'.p s a) = 0 := by
  unfold npSum
  exact Finset.sum_eq_zero fun t ht => h.out s a t hs ha (Finset.mem_range.1 ht) fun hc => hn hc.1

/-- The action taken leads to the same place. -/
theorem argmax (h : Embedded M M' σ) {s a : Nat} (hs : s < M.nS) (ha : a < M.nA) (hp : ∃ t, t < M.nS ∧ 0 < M.p s a t) :
    npArgmax M'.nS (M'.p (σ s) a) = σ (npArgmax M.nS (M.p s a)) := by
  obtain ⟨u, hu, hup⟩ := hp
  have hn : 0 < M.nS := by omega
  have ht := npArgmax_lt (M.p s a) hn
  have hpos : 0 < M.p s a (npArgmax M.nS (M.p s a)) := lt_of_lt_of_le hup (le_npArgmax _ hu)
  refine npArgmax_eq _ (h.state _ ht) (fun t' ht' => ?_) fun t' ht' => ?_
  · rw [h.p s a _ hs ha ht]
    by_cases hin : Among M.nS σ t'
    · obtain ⟨t, kt, rfl⟩ := hin
      rw [h.p s a t hs ha kt]
      exact le_npArgmax _ kt
    · rw [h.out (σ s) a t' (h.state s hs) ha ht' fun hc => hin hc.2]
      exact hpos.le
  · rw [h.p s a _ hs ha ht]
    by_cases hin : Among M.nS σ t'
    · obtain ⟨t, kt, rfl⟩ := hin
      rw [h.p s a t hs ha kt]
      exact npArgmax_first _ ((h.lt_iff kt ht).1 ht')
    · rw [h.out (σ s) a t' (h.state s hs) ha (lt_trans ht' (h.state _ ht)) fun hc => hin hc.2]
      exact hpos

end Spec.Embedded

end MaMDP
