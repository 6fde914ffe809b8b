import Verif.Spec.RewardChanges
import Verif.Model.Environment
import Verif.Props.Optimality

/-! # C110, C111: plans and changed rewards -/

set_option linter.unusedSectionVars false

namespace MaMDP

section Scale

variable {K : Type} [Field K] [LinearOrder K] [IsStrictOrderedRing K]

/-- A strictly increasing function of the entries does not change where the maximum is. -/
theorem npArgmax_mono {α β : Type} [LinearOrder α] [LinearOrder β] {φ : α → β} (h : StrictMono φ) :
    ∀ (n : Nat) (x : Nat → α), npArgmax n (fun a => φ (x a)) = npArgmax n x := by
  intro n x
  rcases Nat.eq_zero_or_pos n with rfl | hn
  · rfl
  · refine npArgmax_eq _ (npArgmax_lt x hn) (fun i hi => ?_) (fun i hi => ?_)
    · exact h.monotone (le_npArgmax x hi)
    · exact h (npArgmax_first x hi)

theorem npMax_mono {α β : Type} [LinearOrder α] [LinearOrder β] {φ : α → β} (h : StrictMono φ)
    (n : Nat) (x : Nat → α) : npMax n (fun a => φ (x a)) = φ (npMax n x) := by
  rw [npMax_eq, npMax_eq, npArgmax_mono h]

theorem maxActions_mono {α β : Type} [LinearOrder α] [LinearOrder β] {φ : α → β} (h : StrictMono φ)
    (n : Nat) (x : Nat → α) : maxActions n (fun a => φ (x a)) = maxActions n x := by
  unfold maxActions
  rw [npMax_mono h]
  congr 1
  funext a
  rw [decide_eq_decide]
  exact h.injective.eq_iff

/-- Cleaning commutes with a positive factor. -/
def cleanTimes (c : K) : WithBot (WithTop K) → WithBot (WithTop K) := WithBot.map (WithTop.map fun x => c * x)

theorem cleanTimes_mono {c : K} (hc : 0 < c) : StrictMono (cleanTimes c) := by
  have h : StrictMono fun x : K => c * x := fun x y hxy => mul_lt_mul_of_pos_left hxy hc
  exact h.withTop_map.withBot_map

theorem clean_times (c : K) (x : Ext K) : (Spec.times c x).clean = cleanTimes c x.clean := by
  cases x <;> rfl

theorem times_nan {c : K} {x : Ext K} : Spec.times c x = .nan ↔ x = .nan := by cases x <;> simp [Spec.times]
theorem times_ninf {c : K} {x : Ext K} : Spec.times c x = .ninf ↔ x = .ninf := by cases x <;> simp [Spec.times]
theorem times_pinf {c : K} {x : Ext K} : Spec.times c x = .pinf ↔ x = .pinf := by cases x <;> simp [Spec.times]

theorem actionValue_times (M : Trans K) (r : Nat → K) (γ c : K) (v : Nat → K) (s a : Nat) :
    actionValue M (fun t => c * r t) γ (fun t => c * v t) s a = c * actionValue M r γ v s a := by
  unfold actionValue npDot
  rw [Finset.mul_sum]
  exact Finset.sum_congr rfl fun t _ => by ring_nf

/-- One step of a pass with everything times `c`. -/
theorem sweepStep_times {c : K} (hc : 0 < c) (M : Trans K) (r : Nat → K) (γ : K) (st : SweepState K) (s : Nat) :
    sweepStep (hardBackup M.nA) M (fun t => c * r t) γ ⟨fun t => c * st.values t, c * st.delta, fun s a => c * st.q s a⟩ s =
      ⟨fun t => c * (sweepStep (hardBackup M.nA) M r γ st s).values t, c * (sweepStep (hardBackup M.nA) M r γ st s).delta,
        fun u a => c * (sweepStep (hardBackup M.nA) M r γ st s).q u a⟩ := by
  have hmono : StrictMono fun x : K => c * x := fun x y hxy => mul_lt_mul_of_pos_left hxy hc
  have hb : hardBackup M.nA (actionValue M (fun t => c * r t) γ (fun t => c * st.values t) s) =
      c * hardBackup M.nA (actionValue M r γ st.values s) := by
    unfold hardBackup
    rw [show actionValue M (fun t => c * r t) γ (fun t => c * st.values t) s =
      fun a => c * actionValue M r γ st.values s a from funext fun a => actionValue_times M r γ c st.values s a]
    exact npMax_mono hmono _ _
  unfold sweepStep
  simp only [hb, SweepState.mk.injEq]
  refine ⟨?_, ?_, ?_⟩
  · funext t
    unfold upd1
    split_ifs <;> rfl
  · rw [← mul_sub, abs_mul, abs_of_pos hc, mul_max_of_nonneg _ _ hc.le]
  · funext u a
    rw [actionValue_times]
    split_ifs <;> rfl

theorem sweep_times {c : K} (hc : 0 < c) (M : Trans K) (r : Nat → K) (γ : K) (v : Nat → K) :
    sweep (hardBackup M.nA) M (fun t => c * r t) γ (fun t => c * v t) =
      ⟨fun t => c * (sweep (hardBackup M.nA) M r γ v).values t, c * (sweep (hardBackup M.nA) M r γ v).delta,
        fun u a => c * (sweep (hardBackup M.nA) M r γ v).q u a⟩ := by
  have key : ∀ (l : List Nat) (st : SweepState K),
      l.foldl (sweepStep (hardBackup M.nA) M (fun t => c * r t) γ)
        ⟨fun t => c * st.values t, c * st.delta, fun s a => c * st.q s a⟩ =
      ⟨fun t => c * (l.foldl (sweepStep (hardBackup M.nA) M r γ) st).values t,
        c * (l.foldl (sweepStep (hardBackup M.nA) M r γ) st).delta,
        fun u a => c * (l.foldl (sweepStep (hardBackup M.nA) M r γ) st).q u a⟩ := by
    intro l
    induction l with
    | nil => intro st; rfl
    | cons s l ih =>
      intro st
      simp only [List.foldl_cons]
      rw [sweepStep_times hc, ih]
  have := key (List.range M.nS) ⟨v, 0, fun _ _ => 0⟩
  simp only [mul_zero] at this
  exact this

theorem viLoop_times {c : K} (hc : 0 < c) (M : Trans K) (r : Nat → K) (γ tol : K) :
    ∀ (k : Nat) (v : Nat → K) (q : Option (Nat → Nat → K)),
      viLoop (hardBackup M.nA) M (fun t => c * r t) γ (c * tol) k (fun t => c * v t)
        (q.map fun q s a => c * q s a) =
      (fun t => c * (viLoop (hardBackup M.nA) M r γ tol k v q).1 t,
        (viLoop (hardBackup M.nA) M r γ tol k v q).2.map fun q s a => c * q s a) := by
  intro k
  induction k with
  | zero => intro v q; rfl
  | succ k ih =>
    intro v q
    simp only [viLoop, sweep_times hc]
    by_cases h : (sweep (hardBackup M.nA) M r γ v).delta < tol
    · rw [if_pos h, if_pos (mul_lt_mul_of_pos_left h hc)]
      rfl
    · rw [if_neg h, if_neg (fun hn => h (lt_of_mul_lt_mul_left hn hc.le))]
      have := ih (sweep (hardBackup M.nA) M r γ v).values (some (sweep (hardBackup M.nA) M r γ v).q)
      simpa using this

/-- **C110**: the unit in which rewards are measured does not matter. With all rewards and the tolerance times
`c`, value iteration fails in the same way or returns the same values and action values times `c`. -/
theorem C110_values (M : Trans K) (r : Nat → K) (maxIter : Nat) (γ tol c : K) (hc : 0 < c) :
    (∀ err, solveHard M (fun t => c * r t) maxIter γ (c * tol) = .error err ↔ solveHard M r maxIter γ tol = .error err) ∧
    ∀ v q, solveHard M r maxIter γ tol = .ok (v, q) →
      solveHard M (fun t => c * r t) maxIter γ (c * tol) =
        .ok (fun s => c * v s, fun s a => Spec.times c (q s a)) := by
  have hmask : ∀ q : Nat → Nat → K, maskQ M (fun s a => c * q s a) = fun s a => Spec.times c (maskQ M q s a) := by
    intro q
    funext s a
    unfold maskQ
    split_ifs <;> rfl
  have hloop := viLoop_times hc M r γ tol maxIter (fun _ => 0) none
  simp only [mul_zero, Option.map_none] at hloop
  have key : solveHard M (fun t => c * r t) maxIter γ (c * tol) =
      match solveHard M r maxIter γ tol with
      | .error err => .error err
      | .ok (v, q) => .ok (fun s => c * v s, fun s a => Spec.times c (q s a)) := by
    unfold solveHard
    by_cases h1 : (γ < 1 ∧ 0 < γ) ∧ M.nA = 0 ∧ 0 < M.nS ∧ 0 < maxIter
    · rw [if_pos h1, if_pos h1]
    · rw [if_neg h1, if_neg h1]
      unfold solveVI
      by_cases h2 : ¬ (γ < 1 ∧ 0 < γ)
      · rw [if_pos h2, if_pos h2]
      · rw [if_neg h2, if_neg h2, hloop]
        rcases viLoop (hardBackup M.nA) M r γ tol maxIter (fun _ => 0) none with ⟨v, _ | q⟩
        · rfl
        · simp only [Option.map_some, hmask]
  rw [key]
  constructor
  · intro err
    rcases solveHard M r maxIter γ tol with e | ⟨v, q⟩ <;> simp
  · intro v q h
    rw [h]

/-- The greedy selector decides the same on action values times `c`, with the same probabilities. -/
theorem C110_greedy (q : Arr2 (Ext K)) (c : K) (hc : 0 < c) (draws : Nat → Nat) :
    maxSelector.piP (Spec.timesAll c q) = maxSelector.piP q ∧
    maxSelector.pi (Spec.timesAll c q) draws = maxSelector.pi q draws := by
  have hcheck : checkQValues (Spec.timesAll c q) = checkQValues q := by
    unfold checkQValues
    simp only [Spec.timesAll, times_nan]
  have hnan : ∀ s, nanState (Spec.timesAll c q) s = nanState q s := by
    intro s
    unfold nanState
    simp only [Spec.timesAll, times_nan, times_ninf, times_pinf]
  have hbest : ∀ s, maxActions q.d1 (fun a => ((Spec.timesAll c q).get s a).clean) =
      maxActions q.d1 (fun a => (q.get s a).clean) := by
    intro s
    simp only [Spec.timesAll, clean_times]
    exact maxActions_mono (cleanTimes_mono hc) _ _
  constructor
  · unfold Selector.piP
    rw [hcheck]
    simp only [maxSelector, hnan]
    simp only [show (Spec.timesAll c q).d0 = q.d0 from rfl, show (Spec.timesAll c q).d1 = q.d1 from rfl, hbest]
  · unfold Selector.pi
    rw [hcheck]
    simp only [maxSelector, hnan, randomMax]
    simp only [show (Spec.timesAll c q).d0 = q.d0 from rfl, show (Spec.timesAll c q).d1 = q.d1 from rfl, hbest]

/-- Two agents that differ in the unit of their rewards, and whose selectors decide alike on action values in
their own units, act alike. -/
theorem fit_times {δ : Type} (a b : Agent K δ) (m : Mdp K) (c : K) (hc : 0 < c)
    (hb : b = { a with reward := ⟨a.reward.d0, fun f => c * a.reward.get f⟩, selector := b.selector })
    (d : Nat → δ) (hP : ∀ q, b.selector.piP (Spec.timesAll c q) = a.selector.piP q)
    (hp : ∀ q, b.selector.pi (Spec.timesAll c q) d = a.selector.pi q d) (maxIter : Nat) (γ tol : K) :
    (b.fit m (valueIterationFit m maxIter γ (c * tol)) d).2 = (a.fit m (valueIterationFit m maxIter γ tol) d).2 ∧
    (b.fit m (valueIterationFit m maxIter γ (c * tol)) d).1.pi =
      (a.fit m (valueIterationFit m maxIter γ tol) d).1.pi ∧
    (b.fit m (valueIterationFit m maxIter γ (c * tol)) d).1.piP =
      (a.fit m (valueIterationFit m maxIter γ tol) d).1.piP := by
  have hr : stateReward a.reward.d0 (fun f => c * a.reward.get f) m.features.get =
      fun t => c * stateReward a.reward.d0 a.reward.get m.features.get t := by
    funext t
    unfold stateReward npDot
    rw [Finset.mul_sum]
    exact Finset.sum_congr rfl fun f _ => by ring
  have e1 : b.reward = ⟨a.reward.d0, fun f => c * a.reward.get f⟩ := by rw [hb]
  have e2 : b.alg = a.alg := by rw [hb]
  have e3 : b.pi = a.pi := by rw [hb]
  have e4 : b.piP = a.piP := by rw [hb]
  obtain ⟨herr, hok⟩ := C110_values m.trans (stateReward a.reward.d0 a.reward.get m.features.get) maxIter γ tol c hc
  unfold Agent.fit algFit
  rw [e1]
  simp only [PyArr.of1, checkReward]
  by_cases hd : a.reward.d0 = m.nFeatures
  · simp only [if_pos hd, valueIterationFit, List.getD_cons_zero, hr]
    rcases hs : solveHard m.trans (stateReward a.reward.d0 a.reward.get m.features.get) maxIter γ tol with err | ⟨v, q⟩
    · rw [(herr err).2 hs]
      exact ⟨rfl, e3, e4⟩
    · rw [hok v q hs]
      simp only [PyArr.of1, PyArr.of2, checkOutput, ne_eq, not_true_eq_false, if_false]
      unfold Agent.getPolicy
      simp only
      have h1 := hP ⟨m.nStates, m.nActions, q⟩
      have h2 := hp ⟨m.nStates, m.nActions, q⟩
      unfold Spec.timesAll at h1 h2
      simp only [List.getD_cons_zero, List.getD_cons_succ] at h1 h2 ⊢
      rw [h1, h2]
      rcases a.selector.piP ⟨m.nStates, m.nActions, q⟩ with err | P
      · exact ⟨rfl, e3, e4⟩
      · rcases a.selector.pi ⟨m.nStates, m.nActions, q⟩ d with err | p
        · exact ⟨rfl, e3, rfl⟩
        · exact ⟨rfl, rfl, rfl⟩
  · simp only [if_neg hd]
    exact ⟨trivial, e3, e4⟩

/-- **C110** for agents: multiply the reward weights and the tolerance by `c`, and fitting a greedy agent by value
iteration succeeds or fails as before, with the same choices and probabilities. -/
theorem C110_agent (a : Agent K Nat) (m : Mdp K) (c : K) (hc : 0 < c) (hsel : a.selector = maxSelector)
    (b : Agent K Nat) (hb : b = { a with reward := ⟨a.reward.d0, fun f => c * a.reward.get f⟩ })
    (maxIter : Nat) (γ tol : K) (d : Nat → Nat) :
    (b.fit m (valueIterationFit m maxIter γ (c * tol)) d).2 = (a.fit m (valueIterationFit m maxIter γ tol) d).2 ∧
    (b.fit m (valueIterationFit m maxIter γ (c * tol)) d).1.pi =
      (a.fit m (valueIterationFit m maxIter γ tol) d).1.pi ∧
    (b.fit m (valueIterationFit m maxIter γ (c * tol)) d).1.piP =
      (a.fit m (valueIterationFit m maxIter γ tol) d).1.piP := by
  have hs : b.selector = a.selector := by rw [hb]
  refine fit_times a b m c hc (by rw [hs]; exact hb) d (fun q => ?_) (fun q => ?_) maxIter γ tol
  · rw [hs, hsel]; exact (C110_greedy q c hc d).1
  · rw [hs, hsel]; exact (C110_greedy q c hc d).2

/-- A corridor of four states: action 0 goes right, action 1 goes left. -/
def chain4 (K : Type) [Zero K] [One K] : Trans K where
  nS := 4
  nA := 2
  p s a t := if (a = 0 ∧ t = s + 1) ∨ (a = 1 ∧ s = t + 1) then 1 else 0

/-- In the corridor with reward 1/4 at the left end and 1 at the right end, in units of a third. -/
example : (match solveHard (chain4 ℚ) (fun t => if t = 0 then 1 / 4 else if t = 3 then 1 else 0) 20 (1 / 2) (1 / 10),
      solveHard (chain4 ℚ) (fun t => 3 * if t = 0 then 1 / 4 else if t = 3 then 1 else 0) 20 (1 / 2) (3 * (1 / 10)) with
    | .ok (v, _), .ok (v', _) => decide (v 1 ≠ 0 ∧ v' 1 = 3 * v 1)
    | _, _ => false) = true := by decide +kernel

/-- The tolerance must change with the unit: with rewards a hundredth as large and the same tolerance the plan from
the second state of the corridor goes left instead of right. -/
theorem C110_tolerance : ∃ (r : Nat → ℚ) (v v' : Nat → ℚ) (q q' : Nat → Nat → Ext ℚ),
    solveHard (chain4 ℚ) r 20 (1 / 2) (1 / 10) = .ok (v, q) ∧
    solveHard (chain4 ℚ) (fun t => 1 / 100 * r t) 20 (1 / 2) (1 / 10) = .ok (v', q') ∧
    Spec.NoBetter (q 1 1) (q 1 0) ∧ ¬ Spec.NoBetter (q 1 0) (q 1 1) ∧
    Spec.NoBetter (q' 1 0) (q' 1 1) ∧ ¬ Spec.NoBetter (q' 1 1) (q' 1 0) := by
  have key : ∀ x y : Py ((Nat → ℚ) × (Nat → Nat → Ext ℚ)),
      (match x, y with
        | .ok (_, q), .ok (_, q') => match q 1 0, q 1 1, q' 1 0, q' 1 1 with
          | .fin a, .fin b, .fin a', .fin b' => decide (b < a ∧ a' < b')
          | _, _, _, _ => false
        | _, _ => false) = true →
      ∃ v q v' q', x = .ok (v, q) ∧ y = .ok (v', q') ∧
        Spec.NoBetter (q 1 1) (q 1 0) ∧ ¬ Spec.NoBetter (q 1 0) (q 1 1) ∧
        Spec.NoBetter (q' 1 0) (q' 1 1) ∧ ¬ Spec.NoBetter (q' 1 1) (q' 1 0) := by
    rintro (_ | ⟨v, q⟩) (_ | ⟨v', q'⟩) h
    · simp at h
    · simp at h
    · simp at h
    · simp only at h
      refine ⟨v, q, v', q', rfl, rfl, ?_⟩
      split at h
      · rename_i a b a' b' h1 h2 h3 h4
        obtain ⟨k1, k2⟩ := of_decide_eq_true h
        rw [h1, h2, h3, h4]
        exact ⟨k1.le, not_le.2 k1, k2.le, not_le.2 k2⟩
      · cases h
  obtain ⟨v, q, v', q', h⟩ := key (solveHard (chain4 ℚ) (fun t => if t = 0 then 1 / 4 else if t = 3 then 1 else 0) 20
      (1 / 2) (1 / 10))
    (solveHard (chain4 ℚ) (fun t => 1 / 100 * if t = 0 then 1 / 4 else if t = 3 then 1 else 0) 20 (1 / 2) (1 / 10))
    (by decide +kernel)
  exact ⟨_, v, v', q, q', h⟩

end Scale

/-- Softmax of values times `c` at a temperature times `c`. -/
theorem softmax_times (n : Nat) (x : Nat → WithBot (WithTop ℝ)) (T c : ℝ) (hc : 0 < c) :
    softmax n (fun a => cleanTimes c (x a)) (c * T) = softmax n x T := by
  have hbot : ∀ y : WithBot (WithTop ℝ), cleanTimes c y = ⊥ ↔ y = ⊥ := by
    intro y
    unfold cleanTimes
    exact WithBot.map_eq_bot_iff
  have hexp : ∀ (mx : ℝ) (y : WithBot (WithTop ℝ)), expShift (c * mx) (c * T) (cleanTimes c y) = expShift mx T y := by
    intro mx y
    match y with
    | none => rfl
    | some none => rfl
    | some (some z) =>
      change Real.exp ((c * z - c * mx) / (c * T)) = Real.exp ((z - mx) / T)
      rw [← mul_sub, mul_div_mul_left _ _ hc.ne']
  unfold softmax
  simp only [hbot, npMax_mono (cleanTimes_mono hc)]
  split_ifs
  · rfl
  · match npMax n x with
    | none => rfl
    | some none => rfl
    | some (some mx) =>
      change (fun a => Ext.fin (expShift (c * mx) (c * T) (cleanTimes c (x a)) /
        npSum n fun b => expShift (c * mx) (c * T) (cleanTimes c (x b)))) = _
      simp only [hexp]

/-- The softmax selector decides the same on action values times `c` at a temperature times `c`. -/
theorem C110_softmax (q : Arr2 (Ext ℝ)) (T c : ℝ) (hc : 0 < c) (draws : Nat → ℝ) :
    (softmaxSelector (c * T)).piP (Spec.timesAll c q) = (softmaxSelector T).piP q ∧
    (softmaxSelector (c * T)).pi (Spec.timesAll c q) draws = (softmaxSelector T).pi q draws := by
  have hcheck : checkQValues (Spec.timesAll c q) = checkQValues q := by
    unfold checkQValues
    simp only [Spec.timesAll, times_nan]
  have hnan : ∀ s, nanState (Spec.timesAll c q) s = nanState q s := by
    intro s
    unfold nanState
    simp only [Spec.timesAll, times_nan, times_ninf, times_pinf]
  have hsm : ∀ s, softmax q.d1 (fun a => ((Spec.timesAll c q).get s a).clean) (c * T) =
      softmax q.d1 (fun a => (q.get s a).clean) T := by
    intro s
    simp only [Spec.timesAll, clean_times]
    exact softmax_times _ _ T c hc
  constructor
  · unfold Selector.piP
    rw [hcheck]
    simp only [softmaxSelector, hnan]
    simp only [show (Spec.timesAll c q).d0 = q.d0 from rfl, show (Spec.timesAll c q).d1 = q.d1 from rfl, hsm]
  · unfold Selector.pi
    rw [hcheck]
    simp only [softmaxSelector, hnan]
    simp only [show (Spec.timesAll c q).d0 = q.d0 from rfl, show (Spec.timesAll c q).d1 = q.d1 from rfl, hsm]

/-- For an agent with a softmax selector the temperature is in the same unit as the rewards. -/
theorem C110_softmax_agent (a : Agent ℝ ℝ) (m : Mdp ℝ) (T c : ℝ) (hc : 0 < c) (hsel : a.selector = softmaxSelector T)
    (b : Agent ℝ ℝ) (hb : b = { a with
      reward := ⟨a.reward.d0, fun f => c * a.reward.get f⟩, selector := softmaxSelector (c * T) })
    (maxIter : Nat) (γ tol : ℝ) (d : Nat → ℝ) :
    (b.fit m (valueIterationFit m maxIter γ (c * tol)) d).2 = (a.fit m (valueIterationFit m maxIter γ tol) d).2 ∧
    (b.fit m (valueIterationFit m maxIter γ (c * tol)) d).1.pi =
      (a.fit m (valueIterationFit m maxIter γ tol) d).1.pi ∧
    (b.fit m (valueIterationFit m maxIter γ (c * tol)) d).1.piP =
      (a.fit m (valueIterationFit m maxIter γ tol) d).1.piP := by
  have hs : b.selector = softmaxSelector (c * T) := by rw [hb]
  refine fit_times a b m c hc (by rw [hs]; exact hb) d (fun q => ?_) (fun q => ?_) maxIter γ tol
  · rw [hs, hsel]; exact (C110_softmax q T c hc d).1
  · rw [hs, hsel]; exact (C110_softmax q T c hc d).2

end MaMDP
