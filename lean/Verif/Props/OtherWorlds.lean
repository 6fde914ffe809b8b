import Verif.Props.PolicyLearning

/-! # C139: learning preferences from worlds with other actions -/

set_option linter.unusedSectionVars false

namespace MaMDP

variable {K : Type} [Field K] [LinearOrder K] [IsStrictOrderedRing K]

theorem action_length (n : Nat) (o : TdLearner K) (ms : List (Mdp K)) (i a : Nat)
    (h1 : ∃ x, o.q = .vec ⟨n, x⟩) (h2 : ∃ x, o.original = .vec ⟨n, x⟩) :
    (∃ x, (o.action ms i a).1.q = .vec ⟨n, x⟩) ∧ ∃ x, (o.action ms i a).1.original = .vec ⟨n, x⟩ := by
  obtain ⟨x, hx⟩ := h1
  unfold TdLearner.action
  split
  · exact ⟨⟨x, hx⟩, h2⟩
  · split
    · exact ⟨⟨x, hx⟩, h2⟩
    · split
      · exact ⟨⟨x, hx⟩, h2⟩
      · exact ⟨⟨x, hx⟩, h2⟩
      · rename_i q hq
        rw [hx] at hq
        cases hq
        split_ifs
        · exact ⟨⟨x, hx⟩, h2⟩
        all_goals
          dsimp only
          try split
        all_goals first
          | exact ⟨⟨x, hx⟩, h2⟩
          | (refine ⟨⟨_, rfl⟩, ?_⟩
             simp only [TdLearner.write]
             split_ifs
             · exact ⟨_, rfl⟩
             · exact h2)

theorem actions_length (n : Nat) (ms : List (Mdp K)) : ∀ (l : List Nat) (i : Nat) (o : TdLearner K),
    (∃ x, o.q = .vec ⟨n, x⟩) → (∃ x, o.original = .vec ⟨n, x⟩) →
    (∃ x, (TdLearner.actions ms l i o).1.q = .vec ⟨n, x⟩) ∧ ∃ x, (TdLearner.actions ms l i o).1.original = .vec ⟨n, x⟩
  | [], _, _, h1, h2 => ⟨h1, h2⟩
  | a :: l, i, o, h1, h2 => by
    have h3 := action_length n o ms i a h1 h2
    rw [TdLearner.actions]
    split
    · rename_i h'; rw [h'] at h3; exact h3
    · rename_i h'; rw [h'] at h3; exact actions_length n ms l (i + 1) _ h3.1 h3.2

theorem trajectories_length (n : Nat) (ms : List (Mdp K)) : ∀ (l : List (Mdp K × List Int)) (o : TdLearner K),
    (∃ x, o.q = .vec ⟨n, x⟩) → (∃ x, o.original = .vec ⟨n, x⟩) →
    (∃ x, (TdLearner.trajectories ms l o).1.q = .vec ⟨n, x⟩) ∧ ∃ x, (TdLearner.trajectories ms l o).1.original = .vec ⟨n, x⟩
  | [], _, h1, h2 => ⟨h1, h2⟩
  | (m, t) :: l, o, h1, h2 => by
    rw [TdLearner.trajectories]
    split_ifs
    · exact trajectories_length n ms l o h1 h2
    · split
      · exact ⟨h1, h2⟩
      · rename_i sa _
        have h3 := actions_length n ms (sa.map Prod.snd) 0 o h1 h2
        split
        · rename_i h'; rw [h'] at h3; exact h3
        · rename_i h'; rw [h'] at h3; exact trajectories_length n ms l _ h3.1 h3.2

/-- Whatever is done with a learner that was given `n` preferences, in whatever worlds, it has `n` preferences. -/
theorem C139_length (lr : K) (decay : Decay K) (q : Arr1 K) (kernel : Option (Nat → Nat → Nat → K))
    (o : TdLearner K) (h : TdLearner.init lr decay (some q) kernel = .ok o) (ops : List (TdOp K)) :
    ∃ x, (o.runOps ops).q = .vec ⟨q.d0, x⟩ := by
  have key : ∀ (ops : List (TdOp K)) (o : TdLearner K), (∃ x, o.q = .vec ⟨q.d0, x⟩) →
      (∃ x, o.original = .vec ⟨q.d0, x⟩) → ∃ x, (o.runOps ops).q = .vec ⟨q.d0, x⟩ := by
    intro ops
    induction ops with
    | nil => exact fun o h _ => h
    | cons op ops ih =>
      intro o h1 h2
      refine (fun hh => ih (o.call op) hh.1 hh.2 : _ ∧ _ → _) ?_
      cases op with
      | reset => exact ⟨h2, h2⟩
      | resetLr => exact ⟨h1, h2⟩
      | fit mdps ts =>
        show (∃ x, (o.fit mdps ts).1.q = _) ∧ ∃ x, (o.fit mdps ts).1.original = _
        unfold TdLearner.fit
        dsimp only
        split
        · exact ⟨h1, h2⟩
        · rename_i ms _
          have h3 : (∃ x, (o.fitTd ms ts).1.q = .vec ⟨q.d0, x⟩) ∧ ∃ x, (o.fitTd ms ts).1.original = .vec ⟨q.d0, x⟩ := by
            obtain ⟨x, hx⟩ := h1
            unfold TdLearner.fitTd
            rw [hx]
            exact trajectories_length _ _ _ _ ⟨x, rfl⟩ h2
          split
          · rename_i h'; rw [h'] at h3; exact h3
          · rename_i h'; rw [h'] at h3; exact h3
  unfold TdLearner.init at h
  split_ifs at h
  obtain rfl := Except.ok.inj h
  exact key ops _ ⟨q.get, rfl⟩ ⟨q.get, rfl⟩

/-- The first step of a trajectory, after any number of empty trajectories. -/
theorem fit_firstStep (o : TdLearner K) (m : Mdp K) (k : Nat) (t : List Nat) (ts : List (List Int))
    (ht : Spec.IsTrajectory m t) (hl : 2 ≤ t.length) {q : Arr1 K} (hq : o.q = .vec q) :
    ∃ a as, Spec.Follows m t (a :: as) ∧
      ∀ o' e, TdLearner.action { o with nSeen := 1 } (List.replicate (k + 1 + ts.length) m) 0 a = (o', .error e) →
        o.fit (.inl m) (List.replicate k [] ++ t.map (fun (n : Nat) => (n : Int)) :: ts) = (o', .error e) := by
  obtain ⟨sa, e1, e2⟩ := reads_follow m t ht
  have hne : (t.map fun (n : Nat) => (n : Int)) ≠ [] := by
    intro h'; rw [List.map_eq_nil_iff] at h'; subst h'; simp at hl
  have e3 : m.trajectoryToStateAction (t.map fun (n : Nat) => (n : Int)) = .ok sa := by
    unfold Mdp.trajectoryToStateAction; rw [if_neg hne, e1]
  have hlen := e2.1
  match hsa : sa.map Prod.snd, hlen, e2 with
  | [], hlen, _ => simp at hlen; omega
  | a :: as, _, e2 =>
    refine ⟨a, as, e2, fun o' e he => ?_⟩
    unfold TdLearner.fit TdLearner.fitTd
    have hn : (List.replicate k [] ++ t.map (fun (n : Nat) => (n : Int)) :: ts).length = k + 1 + ts.length := by
      simp; omega
    simp only [hn, hq]
    have hz : ∀ (ms : List (Mdp K)) (k' : Nat), TdLearner.trajectories ms ((List.replicate (k' + 1 + ts.length) m).zip
        (List.replicate k' [] ++ t.map (fun (n : Nat) => (n : Int)) :: ts)) { o with nSeen := 1 } =
        TdLearner.trajectories ms ((m, t.map (fun (n : Nat) => (n : Int))) :: (List.replicate ts.length m).zip ts)
          { o with nSeen := 1 } := by
      intro ms k'
      induction k' with
      | zero =>
        rw [show 0 + 1 + ts.length = ts.length + 1 by omega, List.replicate_succ]
        rfl
      | succ k' ih =>
        rw [show k' + 1 + 1 + ts.length = k' + 1 + ts.length + 1 by omega, List.replicate_succ, List.replicate_succ,
          List.cons_append, List.zip_cons_cons, TdLearner.trajectories, if_pos rfl]
        exact ih
    simp only [hq] at hz
    rw [hq] at he
    rw [hz, TdLearner.trajectories, if_neg hne, e3]
    simp only
    rw [hsa, TdLearner.actions, he]

/-- **C139, what holds.** If the first step is observed in a world whose number of actions is neither that of the
preferences nor one, `fit` raises `ValueError`, and preferences, saved preferences and the flag stay as they were. -/
theorem C139_partial (o : TdLearner K) (m : Mdp K) (q : Arr1 K) (hq : o.q = .vec q) (hn : m.nActions ≠ q.d0)
    (h1 : m.nActions ≠ 1) (k : Nat) (t : List Nat) (ts : List (List Int)) (ht : Spec.IsTrajectory m t)
    (hl : 2 ≤ t.length) :
    ∃ o', o.fit (.inl m) (List.replicate k [] ++ t.map (fun (n : Nat) => (n : Int)) :: ts) = (o', .error .valueError) ∧
      o'.q = .vec q ∧ o'.original = o.original ∧ o'.fitted = o.fitted := by
  obtain ⟨a, as, hf, key⟩ := fit_firstStep o m k t ts ht hl hq
  have ha : a < m.nActions := follows_lt hf a List.mem_cons_self
  have htr : ∃ f, TdLearner.trial { o with nSeen := 1 } m a = .ok ⟨m.nActions, f⟩ := by
    unfold TdLearner.trial
    cases o.kernel with
    | none => simp only [if_pos ha]; exact ⟨_, rfl⟩
    | some k => exact ⟨_, rfl⟩
  obtain ⟨f, hf⟩ := htr
  have hact : ∃ o', TdLearner.action { o with nSeen := 1 } (List.replicate (k + 1 + ts.length) m) 0 a =
      (o', .error .valueError) ∧ o'.q = .vec q ∧ o'.original = o.original ∧ o'.fitted = o.fitted := by
    unfold TdLearner.action
    rw [show k + 1 + ts.length = k + ts.length + 1 by omega, List.replicate_succ]
    simp only [List.getElem?_cons_zero]
    rw [hf]
    simp only [hq]
    by_cases c1 : m.nActions ≠ q.d0 ∧ m.nActions ≠ 1 ∧ q.d0 ≠ 1
    · rw [if_pos c1]
      exact ⟨_, rfl, rfl, rfl, rfl⟩
    · rw [if_neg c1]
      have c2 : m.nActions ≠ q.d0 ∧ m.nActions ≠ 1 := ⟨hn, h1⟩
      simp only [if_pos c2]
      by_cases c3 : o.decay.positive
      · simp only [if_pos c3]
        cases hp : o.decay.power 1 with
        | error e =>
          have : e = .valueError := by
            unfold Decay.power at hp
            split at hp
            · split_ifs at hp
              cases hp; rfl
            · cases hp
          subst this
          exact ⟨_, rfl, rfl, rfl, rfl⟩
        | ok p => exact ⟨_, rfl, rfl, rfl, rfl⟩
      · simp only [if_neg c3]
        exact ⟨_, rfl, rfl, rfl, rfl⟩
  obtain ⟨o', h2, h3⟩ := hact
  exact ⟨o', key o' _ h2, h3⟩

/-- **C139 is false of the code.** A world with a single action is accepted whatever the number of preferences, and one
step in it pulls every preference towards 1. -/
theorem C139_refuted (lr : K) (hlr : 0 < lr) (q : Arr1 K) (m : Mdp K) (h1 : m.nActions = 1) (hn : q.d0 ≠ 1)
    (s t : Nat) (ht : Spec.IsTrajectory m [s, t]) :
    ∃ o o', TdLearner.init lr (.int 0) (some q) none = .ok o ∧ o.fit (.inl m) (toInts [[s, t]]) = (o', .ok ()) ∧
      o'.q = .vec ⟨q.d0, fun j => q.get j + lr * (1 - q.get j)⟩ := by
  obtain ⟨sa, e1, e2⟩ := reads_follow m _ ht
  have e3 : m.trajectoryToStateAction ([s, t].map fun (n : Nat) => (n : Int)) = .ok sa := by
    unfold Mdp.trajectoryToStateAction; rw [if_neg (by simp), e1]
  have hlen := e2.1
  have hlt := follows_lt e2
  match hsa : sa.map Prod.snd, hlen, hlt with
  | [], hlen, _ => simp at hlen
  | _ :: _ :: _, hlen, _ => simp at hlen
  | [a], _, hlt =>
    have ha : a = 0 := by have := hlt a List.mem_cons_self; omega
    subst ha
    refine ⟨_, ⟨lr, .int 0, none, lr, 2, .vec ⟨q.d0, fun j => q.get j + lr * (1 - q.get j)⟩, .vec q, false, true⟩,
      by unfold TdLearner.init; rw [if_neg (not_not.2 hlr), if_neg (by simp [Decay.negative])], ?_, rfl⟩
    unfold TdLearner.fit TdLearner.fitTd
    simp only [List.map_cons, List.map_nil] at e3
    simp only [toInts, List.map_cons, List.map_nil, List.length_cons, List.length_nil, Nat.zero_add, List.replicate_one,
      List.zip_cons_cons, List.zip_nil_left, TdLearner.trajectories, e3, hsa, TdLearner.actions, TdLearner.action,
      TdLearner.trial, List.getElem?_cons_zero, h1]
    simp [Decay.positive, hn, Ne.symm hn, TdLearner.write]

/-- The strip of three cells after assigning transitions with one action, which leads to the last cell. -/
def oneAction : Py (Mdp ℚ) :=
  match exStrip with
  | .error e => .error e
  | .ok m => .ok (m.apply (.setSas ⟨3, 1, 3, fun _ _ t => if t = 2 then 1 else 0⟩))

/-- One step in it raises the preferences for all four actions of another world from 0 to 1/2. -/
example : (match oneAction, TdLearner.init (1/2 : ℚ) (.int 0) (some ⟨4, fun _ => 0⟩) none with
    | .ok m, .ok o => match o.fit (.inl m) [[0, 2]] with
      | (o', .ok ()) => match o'.q with
        | .vec x => decide (m.nActions = 1 ∧ x.d0 = 4 ∧ ∀ j : Fin 4, x.get j = 1/2)
        | _ => false
      | _ => false
    | _, _ => false) = true := by decide +kernel

/-- Three preferences and the strip with four actions: refused. -/
example : (match exStrip, TdLearner.init (1/2 : ℚ) (.int 0) (some ⟨3, fun _ => 0⟩) none with
    | .ok m, .ok o => match o.fit (.inl m) [[], [0, 1]] with
      | (o', .error e) => match o'.q with
        | .vec x => decide (m.nActions = 4 ∧ e = .valueError ∧ x.d0 = 3 ∧ ∀ j : Fin 3, x.get j = 0)
        | _ => false
      | _ => false
    | _, _ => false) = true := by decide +kernel

end MaMDP
