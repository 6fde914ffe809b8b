import Verif.Lemmas.Habits

/-! # C156: a policy learner comes to expect a habit -/

set_option linter.unusedSectionVars false

namespace MaMDP

/-- **C156, what holds.** A learner without decay, in any state, that observes `k` moves, all of them action `a`: its
preference for every action has moved to the reward of `a` but for a share `(1 - learning_rate) ** k` of the distance. -/
theorem C156_partial (o : TdLearner ℝ) (m : Mdp ℝ) (hd : Spec.MovesDiffer m.trans) (h : o.Ready m.nActions)
    (hdec : ¬ o.decay.positive) (ts ass : List (List Nat)) (h0 : ts ≠ []) (ht : Spec.Observed m ts)
    (hshort : ∀ t ∈ ts, t.length ≤ ts.length + 1) (hfol : List.Forall₂ (Spec.Follows m) ts ass)
    (a k : Nat) (hk : ass.flatten = List.replicate k a) :
    ∃ o' x, o.fit (.inl m) (toInts ts) = (o', .ok ()) ∧ o'.q = .vec ⟨m.nActions, x⟩ ∧
      ∀ j, x j = o.reward m.nActions a j + (1 - o.lr) ^ k * (o.start j - o.reward m.nActions a j) := by
  obtain ⟨o', bss, e, -, hb, hq⟩ := C74_partial o m h ts h0 ht hshort
  obtain rfl := forall₂_follows_unique hd ht hfol hb
  refine ⟨o', _, e, hq, fun j => ?_⟩
  rw [hk]
  exact tdEstimate_habit _ o.lr a (fun n => if_neg hdec) j k 1 o.start

/-- **C156, what holds: the habit is expected.** Without decay and kernel, with a learning rate up to 1 and preferences
between 0 and 1: once `(1 - learning_rate) ** k < 1/2`, the action observed `k` times in a row is preferred to every other,
whatever was observed before; its preference tends to 1 and the others to 0. -/
theorem C156_expected_partial (o : TdLearner ℝ) (m : Mdp ℝ) (hd : Spec.MovesDiffer m.trans) (h : o.Ready m.nActions)
    (hdec : ¬ o.decay.positive) (hker : o.kernel = none) (hlr : 0 < o.lr) (hlr1 : o.lr ≤ 1)
    (hs : ∀ j, 0 ≤ o.start j ∧ o.start j ≤ 1) (a : Nat) :
    (∀ (ts ass : List (List Nat)) (k : Nat), ts ≠ [] → Spec.Observed m ts → (∀ t ∈ ts, t.length ≤ ts.length + 1) →
      List.Forall₂ (Spec.Follows m) ts ass → ass.flatten = List.replicate k a →
      ∃ o' x, o.fit (.inl m) (toInts ts) = (o', .ok ()) ∧ o'.q = .vec ⟨m.nActions, x⟩ ∧
        1 - (1 - o.lr) ^ k ≤ x a ∧ (∀ j, j ≠ a → x j ≤ (1 - o.lr) ^ k) ∧
        ((1 - o.lr) ^ k < 1 / 2 → ∀ j, j ≠ a → x j < x a)) ∧
    ∀ ε, 0 < ε → ∃ N : Nat, ∀ k, N ≤ k → (1 - o.lr) ^ k < ε := by
  refine ⟨fun ts ass k h0 ht hshort hfol hk => ?_, fun ε hε => ?_⟩
  · obtain ⟨o', x, e, hq, hx⟩ := C156_partial o m hd h hdec ts ass h0 ht hshort hfol a k hk
    have hw : o.reward m.nActions a = Spec.oneHot a := by unfold TdLearner.reward; rw [hker]
    have hp : 0 ≤ (1 - o.lr) ^ k := pow_nonneg (by linarith) k
    have ha : 1 - (1 - o.lr) ^ k ≤ x a := by
      rw [hx a, hw, show (Spec.oneHot a a : ℝ) = 1 from if_pos rfl]
      nlinarith [mul_nonneg hp (hs a).1]
    have hj : ∀ j, j ≠ a → x j ≤ (1 - o.lr) ^ k := fun j hj => by
      rw [hx j, hw, show (Spec.oneHot a j : ℝ) = 0 from if_neg hj]
      nlinarith [mul_nonneg hp (sub_nonneg.2 (hs j).2)]
    exact ⟨o', x, e, hq, ha, hj, fun hlt j hne => by have := hj j hne; linarith⟩
  · obtain ⟨N, hN⟩ := exists_pow_lt_of_lt_one hε (show 1 - o.lr < 1 by linarith)
    exact ⟨N, fun k hk => (pow_le_pow_of_le_one (by linarith) (by linarith) hk).trans_lt hN⟩

/-- **C156 is false of the code, with the default decay.** A new learner with decay 0.5 and a learning rate up to 0.4 (the
default is 0.3) that first observes action `a` twice and then another action `b` as often as you like prefers `a`. -/
theorem C156_refuted (lr : ℝ) (hlr : 0 < lr) (hlr1 : lr ≤ 2 / 5) (o : TdLearner ℝ)
    (ho : TdLearner.init lr (Decay.real (1 / 2)) none none = .ok o) (m : Mdp ℝ) (hd : Spec.MovesDiffer m.trans)
    (ts ass : List (List Nat)) (h0 : ts ≠ []) (ht : Spec.Observed m ts) (hshort : ∀ t ∈ ts, t.length ≤ ts.length + 1)
    (hfol : List.Forall₂ (Spec.Follows m) ts ass) (a b k : Nat) (hab : a ≠ b)
    (hk : ass.flatten = a :: a :: List.replicate k b) :
    ∃ o' x, o.fit (.inl m) (toInts ts) = (o', .ok ()) ∧ o'.q = .vec ⟨m.nActions, x⟩ ∧ x b < x a := by
  obtain rfl : o = ⟨lr, Decay.real (1 / 2), none, lr, 1, .none, .obj, false, false⟩ := by
    unfold TdLearner.init at ho
    rw [if_neg (by simpa using hlr), if_neg (show ¬ (Decay.real (1 / 2)).negative from not_lt.2 (by norm_num))] at ho
    exact (Except.ok.inj ho).symm
  obtain ⟨o', bss, e, hb, hq, -⟩ := C69_td_exact ⟨lr, Decay.real (1 / 2), none, lr, 1, .none, .obj, false, false⟩ (1 / 2)
    (by norm_num) rfl m ⟨trivial, .inl rfl, by simp⟩ ts h0 ht hshort
  obtain rfl := forall₂_follows_unique hd ht hfol hb
  refine ⟨o', _, e, hq, ?_⟩
  rw [hk]
  set rate : Nat → ℝ := fun n => lr * (n.factorial : ℝ) ^ (-(1 / 2 : ℝ)) with hrate
  have hfac : ∀ n : Nat, 0 ≤ (n.factorial : ℝ) ^ (-(1 / 2 : ℝ)) ∧ (n.factorial : ℝ) ^ (-(1 / 2 : ℝ)) ≤ 1 := fun n =>
    ⟨Real.rpow_nonneg (by positivity) _, Real.rpow_le_one_of_one_le_of_nonpos
      (by exact_mod_cast Nat.factorial_pos n) (by norm_num)⟩
  have hr : ∀ n, 0 ≤ rate n ∧ rate n ≤ 1 := fun n => by
    have := hfac n
    constructor
    · exact mul_nonneg hlr.le this.1
    · calc rate n ≤ lr * 1 := mul_le_mul_of_nonneg_left this.2 hlr.le
        _ ≤ 1 := by linarith
  have r1 : rate 1 = lr := by simp [hrate]
  have r2 : 7 / 10 * lr ≤ rate 2 := by
    have h2 : (7 / 10 : ℝ) ≤ ((2 : Nat).factorial : ℝ) ^ (-(1 / 2 : ℝ)) := by
      rw [Nat.factorial_two, Real.rpow_neg (by positivity), ← Real.sqrt_eq_rpow]
      have hs : Real.sqrt ((2 : Nat) : ℝ) ≤ 10 / 7 := Real.sqrt_le_iff.2 ⟨by norm_num, by norm_num⟩
      have hpos : 0 < Real.sqrt ((2 : Nat) : ℝ) := Real.sqrt_pos.2 (by norm_num)
      have := inv_anti₀ hpos hs
      norm_num at this ⊢
      exact this
    have := mul_le_mul_of_nonneg_left h2 hlr.le
    simp only [hrate]
    linarith
  have hT : ∑ i ∈ Finset.range k, rate (3 + i) ≤ lr * (82 / 100) := by
    simp only [hrate, ← Finset.mul_sum]
    exact mul_le_mul_of_nonneg_left (sqrt_factorial_rates k) hlr.le
  change Spec.tdEstimate rate Spec.oneHot 1 (a :: a :: List.replicate k b) (fun _ => 0) b <
    Spec.tdEstimate rate Spec.oneHot 1 (a :: a :: List.replicate k b) (fun _ => 0) a
  simp only [Spec.tdEstimate]
  set q : Nat → ℝ := fun j => 0 + rate 1 * (Spec.oneHot a j - 0) + rate (1 + 1) * (Spec.oneHot a j -
    (0 + rate 1 * (Spec.oneHot a j - 0))) with hqd
  have qb : q b = 0 := by
    have : (Spec.oneHot a b : ℝ) = 0 := if_neg (Ne.symm hab)
    simp [hqd, this]
  have qa : q a = lr + rate 2 * (1 - lr) := by
    have : (Spec.oneHot a a : ℝ) = 1 := if_pos rfl
    simp [hqd, this, r1]
  have qa0 : lr + 7 / 10 * lr * (1 - lr) ≤ q a := by
    rw [qa]
    have := mul_le_mul_of_nonneg_right r2 (show 0 ≤ 1 - lr by linarith)
    linarith
  have qa1 : q a ≤ 1 := by
    rw [qa]
    have := mul_le_mul_of_nonneg_right (hr 2).2 (show 0 ≤ 1 - lr by linarith)
    linarith
  have hA := (tdEstimate_between oneHot_between hr a (List.replicate k b) (1 + 1 + 1) q (by nlinarith) qa1).2.2.1
  have hB := (tdEstimate_between oneHot_between hr b (List.replicate k b) (1 + 1 + 1) q qb.ge (by rw [qb]; norm_num)).2.2.2
  rw [List.length_replicate] at hA hB
  have hP := one_sub_sum_le (x := fun i => rate (3 + i)) (fun i => hr (3 + i)) k
  have hq0 : 0 ≤ q a := by nlinarith
  have hlow : (1 - lr * (82 / 100)) * (lr + 7 / 10 * lr * (1 - lr)) ≤
      (∏ i ∈ Finset.range k, (1 - rate (3 + i))) * q a := by
    refine mul_le_mul (by linarith) qa0 ?_ ?_
    · nlinarith
    · exact Finset.prod_nonneg fun i _ => sub_nonneg.2 (hr _).2
  have hgap : lr * (82 / 100) < (1 - lr * (82 / 100)) * (lr + 7 / 10 * lr * (1 - lr)) := by
    have : 0 < lr * ((1 - lr * (82 / 100)) * (1 + 7 / 10 * (1 - lr)) - 82 / 100) := mul_pos hlr (by nlinarith)
    linarith
  calc _ ≤ q b + ∑ i ∈ Finset.range k, rate (1 + 1 + 1 + i) := hB
    _ ≤ lr * (82 / 100) := by rw [qb, zero_add]; exact hT
    _ < _ := hgap
    _ ≤ _ := hlow.trans hA

/-- **C156 is false of the code, with any decay.** A new learner with a learning rate below 1 and a decay `d > 0` never
becomes sure: however often an action is observed in a fit, its preference stays below a bound less than 1. -/
theorem C156_never_sure (lr d : ℝ) (hlr : 0 < lr) (hlr1 : lr < 1) (hd0 : 0 < d) (o : TdLearner ℝ)
    (ho : TdLearner.init lr (Decay.real d) none none = .ok o) : ∃ c, c < 1 ∧
    ∀ (m : Mdp ℝ) (ts : List (List Nat)), ts ≠ [] → Spec.Observed m ts → (∀ t ∈ ts, t.length ≤ ts.length + 1) →
      ∃ o' x, o.fit (.inl m) (toInts ts) = (o', .ok ()) ∧ o'.q = .vec ⟨m.nActions, x⟩ ∧ ∀ j, x j ≤ c := by
  obtain rfl : o = ⟨lr, Decay.real d, none, lr, 1, .none, .obj, false, false⟩ := by
    unfold TdLearner.init at ho
    rw [if_neg (by simpa using hlr), if_neg (show ¬ (Decay.real d).negative from not_lt.2 hd0.le)] at ho
    exact (Except.ok.inj ho).symm
  refine ⟨1 - Real.exp (-(lr * (1 / (1 - 2 ^ (-d))) / (1 - lr))), sub_lt_self _ (Real.exp_pos _), ?_⟩
  intro m ts h0 ht hshort
  obtain ⟨o', ass, e, -, hq, -⟩ := C69_td_exact ⟨lr, Decay.real d, none, lr, 1, .none, .obj, false, false⟩ d
    hd0 rfl m ⟨trivial, .inl rfl, by simp⟩ ts h0 ht hshort
  refine ⟨o', _, e, hq, fun j => ?_⟩
  set rate : Nat → ℝ := fun n => lr * (n.factorial : ℝ) ^ (-d) with hrate
  have hr : ∀ n, 0 ≤ rate n ∧ rate n ≤ lr := fun n => by
    refine ⟨mul_nonneg hlr.le (Real.rpow_nonneg (by positivity) _), ?_⟩
    have := mul_le_mul_of_nonneg_left (Real.rpow_le_one_of_one_le_of_nonpos (x := (n.factorial : ℝ)) (z := -d)
      (by exact_mod_cast Nat.factorial_pos n) (by linarith)) hlr.le
    simpa [hrate] using this
  have hE := (tdEstimate_between oneHot_between (fun n => ⟨(hr n).1, (hr n).2.trans hlr1.le⟩) j ass.flatten 1
    (fun _ => (0 : ℝ)) le_rfl zero_le_one).2.1
  have hP := exp_le_prod hlr1 (x := fun i => rate (1 + i)) (fun i => hr (1 + i)) ass.flatten.length
  have hS : ∑ i ∈ Finset.range ass.flatten.length, rate (1 + i) ≤ lr * (1 / (1 - 2 ^ (-d))) := by
    simp only [hrate, ← Finset.mul_sum]
    exact mul_le_mul_of_nonneg_left (factorial_rates hd0 _) hlr.le
  have hX : Real.exp (-(lr * (1 / (1 - 2 ^ (-d))) / (1 - lr))) ≤
      Real.exp (-((∑ i ∈ Finset.range ass.flatten.length, rate (1 + i)) / (1 - lr))) :=
    Real.exp_le_exp.2 (neg_le_neg (div_le_div_of_nonneg_right hS (by linarith)))
  rw [sub_zero, mul_one] at hE
  change Spec.tdEstimate rate Spec.oneHot 1 ass.flatten (fun _ => 0) j ≤ _
  linarith

/-- A corridor of three cells over the reals: it can be walked to and fro, and every move tells its action. -/
theorem exCorridorReal : ∃ m : Mdp ℝ, Spec.MovesDiffer m.trans ∧ m.nActions = 4 ∧
    Spec.IsTrajectory m [0, 1] ∧ Spec.Follows m [0, 1] [0] ∧ Spec.IsTrajectory m [1, 0] ∧ Spec.Follows m [1, 0] [2] := by
  obtain ⟨m, h, g, -, -, -, -, -, hw⟩ := Mdp.initGrid_ok (K := ℝ) (kind := .square) (W := 1) (H := 3)
    (selfT := false) (f := ⟨0, 3, fun _ _ => 0⟩) (w := none) (by decide) rfl (by simp)
  have hS : m.nStates = 3 := g.nStates
  have hA : m.nActions = 4 := g.nActions
  have key : ∀ s a t, s < 3 → t < 3 → GridKind.square.Move 3 false s a t → 0 < m.sas s a t :=
    fun s a t hs ht hm => (g.sas_pos hs ht).2 ⟨by simp [hw], by simp [hw], hm⟩
  have k1 := key 0 0 1 (by decide) (by decide) (by decide)
  have k2 := key 1 2 0 (by decide) (by decide) (by decide)
  have tr : ∀ s a t, s < 3 → t < 3 → a < 4 → 0 < m.sas s a t →
      Spec.IsTrajectory m [s, t] ∧ Spec.Follows m [s, t] [a] := by
    intro s a t hs ht ha hp
    refine ⟨⟨fun x hx => ?_, fun i hi => ?_⟩, rfl, fun i s' a' u' e1 e2 e3 => ?_⟩
    · rw [hS]; simp at hx; omega
    · have : i = 0 := by simpa using hi
      subst this
      exact ⟨a, by rw [hA]; exact ha, by simpa using hp⟩
    · cases i with
      | zero => simp at e1 e2 e3; subst e1 e2 e3; exact ⟨by rw [hA]; exact ha, hp⟩
      | succ i => simp at e2
  exact ⟨m, grid_movesDiffer (.init h), hA, (tr 0 0 1 (by decide) (by decide) (by decide) k1).1,
    (tr 0 0 1 (by decide) (by decide) (by decide) k1).2, (tr 1 2 0 (by decide) (by decide) (by decide) k2).1,
    (tr 1 2 0 (by decide) (by decide) (by decide) k2).2⟩

/-- Whoever was seen to step right twice and then to step left for as long as you like is expected to step right. -/
example : ∃ m : Mdp ℝ, ∀ k, ∃ o o' x, TdLearner.init (3 / 10 : ℝ) (Decay.real (1 / 2)) none none = .ok o ∧
    o.fit (.inl m) (toInts ([0, 1] :: [0, 1] :: List.replicate k [1, 0])) = (o', .ok ()) ∧
      o'.q = .vec ⟨m.nActions, x⟩ ∧ x 2 < x 0 := by
  obtain ⟨m, hd, -, t1, f1, t2, f2⟩ := exCorridorReal
  refine ⟨m, fun k => ?_⟩
  have ho : TdLearner.init (3 / 10 : ℝ) (Decay.real (1 / 2)) none none =
      .ok ⟨3 / 10, Decay.real (1 / 2), none, 3 / 10, 1, .none, .obj, false, false⟩ := by
    unfold TdLearner.init
    rw [if_neg (by norm_num), if_neg (show ¬ (Decay.real (1 / 2)).negative from not_lt.2 (by norm_num))]
  obtain ⟨o', x, e, hq, hx⟩ := C156_refuted (3 / 10) (by norm_num) (by norm_num) _ ho m hd
    ([0, 1] :: [0, 1] :: List.replicate k [1, 0]) ([0] :: [0] :: List.replicate k [2]) (by simp)
    (by
      intro t ht
      simp only [List.mem_cons, List.mem_replicate] at ht
      rcases ht with rfl | rfl | ⟨-, rfl⟩
      · exact .inr t1
      · exact .inr t1
      · exact .inr t2)
    (by
      intro t ht
      simp only [List.mem_cons, List.mem_replicate] at ht
      rcases ht with rfl | rfl | ⟨-, rfl⟩ <;> simp)
    (.cons f1 (.cons f1 (by
      induction k with
      | zero => exact .nil
      | succ k ih => exact .cons f2 ih)))
    0 2 k (by decide) (by
      simp only [List.flatten_cons, List.singleton_append]
      congr 2
      induction k with
      | zero => rfl
      | succ k ih => rw [List.replicate_succ, List.flatten_cons, ih]; rfl)
  exact ⟨_, o', x, ho, e, hq, hx⟩

/-- Without decay the change of habit is noticed. -/
example : ∃ (m : Mdp ℝ) (o o' : TdLearner ℝ) (x : Nat → ℝ),
    TdLearner.init (3 / 10 : ℝ) (.int 0) (some ⟨4, fun j => if j = 0 then 1 else 0⟩) none = .ok o ∧
    o.fit (.inl m) (toInts [[1, 0], [1, 0]]) = (o', .ok ()) ∧ o'.q = .vec ⟨m.nActions, x⟩ ∧ x 0 < x 2 := by
  obtain ⟨m, hd, hA, -, -, t2, f2⟩ := exCorridorReal
  have ho : TdLearner.init (3 / 10 : ℝ) (.int 0) (some ⟨4, fun j => if j = 0 then 1 else 0⟩) none =
      .ok ⟨3 / 10, .int 0, none, 3 / 10, 1, .vec ⟨4, fun j => if j = 0 then 1 else 0⟩,
        .vec ⟨4, fun j => if j = 0 then 1 else 0⟩, false, false⟩ := by
    unfold TdLearner.init
    rw [if_neg (by norm_num), if_neg (show ¬ (Decay.int 0 : Decay ℝ).negative from lt_irrefl _)]
  obtain ⟨o', x, e, hq, -, -, hx⟩ := (C156_expected_partial
    (⟨3 / 10, .int 0, none, 3 / 10, 1, .vec ⟨4, fun j => if j = 0 then 1 else 0⟩,
        .vec ⟨4, fun j => if j = 0 then 1 else 0⟩, false, false⟩ : TdLearner ℝ) m hd
    ⟨le_rfl, .inr ⟨_, by rw [hA]⟩, by simp⟩ (lt_irrefl _) rfl (by norm_num) (by norm_num)
    (fun j => by simp only [TdLearner.start]; split_ifs <;> norm_num) 2).1 [[1, 0], [1, 0]] [[2], [2]] 2 (by simp)
    (by intro t ht; simp at ht; subst ht; exact .inr t2) (by simp) (.cons f2 (.cons f2 .nil)) rfl
  exact ⟨m, _, o', x, ho, e, hq, hx (by norm_num) 0 (by decide)⟩

end MaMDP
