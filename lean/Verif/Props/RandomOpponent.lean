import Verif.Props.OpponentSettings
import Verif.Lemmas.MCTSLoop

/-! # C183: opponents assumed to move at random -/

set_option linter.unusedSectionVars false

namespace MaMDP

variable {K : Type} [Field K] [LinearOrder K] [IsStrictOrderedRing K]

theorem opponentNext_random {o : MctsOpts K} (ho : o.policy = .random) {M : Trans K} {s : Nat} (hp : ∀ a t, 0 ≤ M.p s a t) (nF : Nat)
    (w : Nat → K) (features : Nat → Nat → K) (q : Option (QTable K)) (d : Draw K) :
    opponentNext o M nF w features s q d = match rngChoice (nextStates M s) d.pick with
      | .error e => .error e
      | .ok t => .ok (t, q) := by
  unfold opponentNext
  rw [ho]
  dsimp only
  cases hr : rngChoice (nextStates M s) d.pick with
  | error e => rfl
  | ok t =>
    obtain ⟨-, a, ha, h0⟩ := mem_nextStates.1 (rngChoice_mem hr)
    dsimp only
    rw [if_pos]
    exact List.any_eq_true.2 ⟨a, List.mem_range.2 ha, decide_eq_true (lt_of_le_of_ne (hp a t) (Ne.symm h0))⟩

/-- **C183**: an opponent assumed to move at random can get to exactly the states one action away. -/
theorem C183_support (o : MctsOpts K) (ho : o.policy = .random) (M : Trans K) (s : Nat) (hp : ∀ a t, 0 ≤ M.p s a t) (nF : Nat)
    (w : Nat → K) (features : Nat → Nat → K) (q : Option (QTable K)) (u : K) (t : Nat) :
    (∃ i, opponentNext o M nF w features s q ⟨i, u⟩ = .ok (t, q)) ↔ Spec.Successor M s t := by
  have hmem : t ∈ nextStates M s ↔ Spec.Successor M s t := by
    rw [mem_nextStates]
    exact and_congr_right fun _ => exists_congr fun a => and_congr_right fun _ =>
      ⟨fun h => lt_of_le_of_ne (hp a t) (Ne.symm h), fun h => ne_of_gt h⟩
  rw [← hmem]
  constructor
  · rintro ⟨i, h⟩
    rw [opponentNext_random ho hp] at h
    cases hr : rngChoice (nextStates M s) i with
    | error e => rw [hr] at h; cases h
    | ok t' => rw [hr] at h; cases h; exact rngChoice_mem hr
  · intro h
    obtain ⟨i, hi⟩ := rngChoice_surj h
    exact ⟨i, by rw [opponentNext_random ho hp, hi]⟩

/-- **C183**: where nothing leads anywhere, `ValueError` is raised. -/
theorem C183_dead_end (o : MctsOpts K) (ho : o.policy = .random) (M : Trans K) (s : Nat) (nF : Nat)
    (w : Nat → K) (features : Nat → Nat → K) (q : Option (QTable K)) (d : Draw K)
    (h : ∀ a t, a < M.nA → t < M.nS → M.p s a t = 0) : opponentNext o M nF w features s q d = .error .valueError := by
  have hn : nextStates M s = [] := by
    rw [List.eq_nil_iff_forall_not_mem]
    intro t ht
    obtain ⟨h1, a, ha, h0⟩ := mem_nextStates.1 ht
    exact h0 (h a t ha h1)
  unfold opponentNext
  rw [ho, hn]
  dsimp only
  rw [rngChoice_nil]

theorem count_draws (t : Nat) (l : List Nat) :
    ((Finset.range l.length).filter fun i => l[i]? = some t).card = l.count t := by
  induction l using List.reverseRecOn with
  | nil => rfl
  | append_singleton l x ih =>
    rw [List.length_append, List.length_singleton, Finset.range_add_one, Finset.filter_insert, List.count_append, ← ih]
    have hrest : ((Finset.range l.length).filter fun i => (l ++ [x])[i]? = some t) =
        (Finset.range l.length).filter fun i => l[i]? = some t := by
      apply Finset.filter_congr
      intro i hi
      rw [List.getElem?_append_left (Finset.mem_range.1 hi)]
    rw [hrest]
    have hlast : (l ++ [x])[l.length]? = some x := by simp
    rw [hlast]
    by_cases hx : x = t
    · subst hx
      rw [if_pos rfl, Finset.card_insert_of_notMem (by simp)]
      simp
    · rw [if_neg (by simpa using hx)]
      simp [hx]

theorem count_nextStates (M : Trans K) (s t : Nat) (ht : t < M.nS) :
    (nextStates M s).count t = ((Finset.range M.nA).filter fun a => M.p s a t ≠ 0).card := by
  have h : ∀ n, (((List.range n).flatMap fun a => (npWhere M.nS fun t => decide (M.p s a t ≠ 0)).map fun t => (a, t)).map
      (·.2)).count t = ((Finset.range n).filter fun a => M.p s a t ≠ 0).card := by
    intro n
    induction n with
    | zero => rfl
    | succ n ih =>
      rw [List.range_succ, List.flatMap_append, List.map_append, List.count_append, ih, Finset.range_add_one,
        Finset.filter_insert]
      have hlast : ((([n].flatMap fun a => (npWhere M.nS fun t => decide (M.p s a t ≠ 0)).map fun t => (a, t)).map
          (·.2)).count t) = if M.p s n t ≠ 0 then 1 else 0 := by
        rw [List.flatMap_singleton, List.map_map]
        have hid : ((fun x : Nat × Nat => x.2) ∘ fun t => (n, t)) = id := rfl
        rw [hid, List.map_id]
        unfold npWhere
        have hnd : ((List.range M.nS).filter fun t => decide (M.p s n t ≠ 0)).Nodup := List.nodup_range.filter _
        by_cases h0 : M.p s n t ≠ 0
        · rw [if_pos h0]
          exact List.count_eq_one_of_mem hnd (by simp [ht, h0])
        · rw [if_neg h0]
          exact List.count_eq_zero_of_not_mem (by simpa using fun _ => not_not.1 h0)
      rw [hlast]
      by_cases h0 : M.p s n t ≠ 0
      · rw [if_pos h0, if_pos h0, Finset.card_insert_of_notMem (by simp)]
      · rw [if_neg h0, if_neg h0, Nat.add_zero]
  exact h M.nA

/-- **C183**: of the equally likely draws, as many lead to a state as there are actions that can lead there; so with
deterministic transitions every available action is equally likely. Rewards, features, cached values and the other settings
play no part. -/
theorem C183_frequency (o : MctsOpts K) (ho : o.policy = .random) (M : Trans K) (s : Nat) (hp : ∀ a t, 0 ≤ M.p s a t) (nF : Nat)
    (w : Nat → K) (features : Nat → Nat → K) (q : Option (QTable K)) (u : K) (t : Nat) (ht : t < M.nS) (n : Nat)
    (hn : n = ∑ a ∈ Finset.range M.nA, ((Finset.range M.nS).filter fun t => 0 < M.p s a t).card) :
    Nat.card {i : Nat // i < n ∧ opponentNext o M nF w features s q ⟨i, u⟩ = .ok (t, q)} =
      ((Finset.range M.nA).filter fun a => 0 < M.p s a t).card := by
  have hpos : ∀ a t, 0 < M.p s a t ↔ M.p s a t ≠ 0 := fun a t =>
    ⟨fun h => ne_of_gt h, fun h => lt_of_le_of_ne (hp a t) (Ne.symm h)⟩
  simp only [hpos] at hn ⊢
  have hlen : n = (nextStates M s).length := by
    have hnp : ∀ a, (npWhere M.nS fun t => decide (M.p s a t ≠ 0)).length =
        ((Finset.range M.nS).filter fun t => M.p s a t ≠ 0).card := by
      intro a
      unfold npWhere
      rw [← List.toFinset_card_of_nodup (List.nodup_range.filter _), List.toFinset_filter, List.toFinset_range]
      simp
    rw [hn]
    unfold nextStates actionsStates
    rw [List.length_map]
    generalize M.nA = k
    induction k with
    | zero => rfl
    | succ k ih =>
      rw [Finset.sum_range_succ, List.range_succ, List.flatMap_append, List.length_append, ← ih, List.flatMap_singleton,
        List.length_map, hnp]
  rw [← count_nextStates M s t ht, ← count_draws, hlen, Nat.card_congr (Equiv.subtypeEquivRight (q := fun i => i ∈
    (Finset.range (nextStates M s).length).filter fun i => (nextStates M s)[i]? = some t) ?_)]
  · rw [Nat.card_eq_fintype_card, Fintype.card_coe]
  · intro i
    rw [Finset.mem_filter, Finset.mem_range]
    apply and_congr_right
    intro hi
    rw [opponentNext_random ho hp]
    unfold rngChoice
    rw [Nat.mod_eq_of_lt hi, List.getElem?_eq_getElem hi]
    simp

/-- Two states: from the first, one action leads to the second; a random opponent goes there. -/
example : Spec.Successor (chain2 ℚ) 0 1 ∧
    (match opponentNext { exColdOpts with policy := .random } (chain2 ℚ) 1 (fun _ => 1) (fun _ _ => 0) 0 none ⟨3, 0⟩ with
    | .ok (t, none) => decide (t = 1)
    | _ => false) = true := ⟨⟨by decide +kernel, 0, by decide +kernel, by decide +kernel⟩, by decide +kernel⟩

end MaMDP
