import Verif.Props.PolicyLearning

/-! # Learning a policy in batches (C126) -/

set_option linter.unusedSectionVars false

namespace MaMDP

variable {K : Type} [Field K] [LinearOrder K] [IsStrictOrderedRing K]

/-- What `fit` computes and keeps when it succeeds. -/
theorem fit_ready (o : TdLearner K) (m : Mdp K) (ts : List (List Nat)) (ass : List (List Nat))
    (h : o.Ready m.nActions) (h0 : ts ≠ [])
    (hr : List.Forall₂ (fun p as => ReadsAs p.1 p.2 as) ((List.replicate ts.length m).zip (toInts ts)) ass)
    (h2 : List.Forall₂ (Spec.Follows m) ts ass) (hshort : ∀ t ∈ ts, t.length ≤ ts.length + 1) :
    ∃ o', o.fit (.inl m) (toInts ts) = (o', .ok ()) ∧ o'.Ready m.nActions ∧ o'.lr = o.lr ∧ o'.decay = o.decay ∧
      o'.kernel = o.kernel ∧
      o'.q = .vec ⟨m.nActions, Spec.tdEstimate (o.rate o.adjusted) (o.reward m.nActions) 1 ass.flatten o.start⟩ ∧
      (o.decay.positive → o'.adjusted = o.rate o.adjusted ass.flatten.length) := by
  have hlen : (toInts ts).length = ts.length := by simp [toInts]
  have hms : ∀ m' ∈ List.replicate ts.length m, m'.nActions = m.nActions := fun m' hm' => by
    rw [(List.mem_replicate.1 hm').2]
  have ha : ∀ as ∈ ass, as.length ≤ (List.replicate ts.length m).length ∧ ∀ a ∈ as, a < m.nActions := by
    intro as has
    obtain ⟨i, hi, e⟩ := List.mem_iff_getElem.1 has
    have := List.forall₂_iff_get.1 h2
    have hi' : i < ts.length := by omega
    have hf := this.2 i hi' hi
    simp only [List.get_eq_getElem] at hf
    rw [e] at hf
    refine ⟨?_, follows_lt hf⟩
    have hs := hshort ts[i] (List.getElem_mem hi')
    have := hf.1
    rw [List.length_replicate]
    omega
  obtain ⟨o1, e1, e2, e3, e4, e5⟩ := fitTd_start o m.nActions (List.replicate ts.length m) h (by simpa using h0) hms
    (toInts ts)
  have hrate : o1.rate = o.rate := by funext a n; unfold TdLearner.rate; rw [e1, e2]
  have hrew : o1.reward = o.reward := by funext n a; unfold TdLearner.reward; rw [e3]
  have ht := trajectories_ok o1 (e1 ▸ h.usable) o.adjusted m.nActions _ hms _ ass 0 o.start hr ha
  refine ⟨{ o1.at o.adjusted (0 + ass.flatten.length) m.nActions (Spec.tdEstimate (o1.rate o.adjusted)
    (o1.reward m.nActions) (0 + 1) ass.flatten o.start) with fitted := true }, ?_, ⟨?_, .inr ⟨_, rfl⟩, ?_⟩, e2, e1, e3,
    ?_, ?_⟩
  · rw [fit_single]
    unfold TdLearner.fit
    simp only [List.length_replicate, hlen, if_true]
    rw [e5, ht]
  · show o1.decay.usable
    rw [e1]; exact h.usable
  · intro hal
    show (if o1.aliased = true then _ else o1.original) = _
    rw [if_pos (show o1.aliased = true from hal)]
    rfl
  · show QArr.vec _ = _
    rw [hrate, hrew]
  · intro hp
    show (if o1.decay.positive then _ else o1.adjusted) = _
    rw [e1, if_pos hp]
    unfold TdLearner.rate
    rw [if_pos hp, zero_add]

theorem readable_append {m : Mdp K} {ts us : List (List Nat)} {as bs : List (List Nat)}
    (h1 : List.Forall₂ (fun p as => ReadsAs p.1 p.2 as) ((List.replicate ts.length m).zip (toInts ts)) as)
    (h2 : List.Forall₂ (fun p as => ReadsAs p.1 p.2 as) ((List.replicate us.length m).zip (toInts us)) bs) :
    List.Forall₂ (fun p as => ReadsAs p.1 p.2 as) ((List.replicate (ts ++ us).length m).zip (toInts (ts ++ us)))
      (as ++ bs) := by
  have : (List.replicate (ts ++ us).length m).zip (toInts (ts ++ us)) =
      (List.replicate ts.length m).zip (toInts ts) ++ (List.replicate us.length m).zip (toInts us) := by
    rw [List.length_append, List.replicate_add, toInts, List.map_append, List.zip_append (by simp)]
    rfl
  rw [this]
  exact List.rel_append h1 h2

theorem tdEstimate_const (rate rate' : Nat → K) (reward : Nat → Nat → K) (c : K) (h : ∀ n, rate n = c)
    (h' : ∀ n, rate' n = c) : ∀ (l : List Nat) (n n' : Nat) (q : Nat → K),
    Spec.tdEstimate rate reward n l q = Spec.tdEstimate rate' reward n' l q
  | [], _, _, _ => rfl
  | a :: l, n, n', q => by
    rw [Spec.tdEstimate, Spec.tdEstimate, h, h']
    exact tdEstimate_const rate rate' reward c h h' l _ _ _

/-- **C126, what holds (policy learner).** Without decay, two batches of trajectories, none with more steps than its
batch has trajectories, give the same values whether fitted one after the other or at once. -/
theorem C126_td_partial (o : TdLearner K) (m : Mdp K) (h : o.Ready m.nActions) (hd : ¬ o.decay.positive)
    (ts us : List (List Nat)) (h1 : ts ≠ []) (h2 : us ≠ []) (ht : Spec.Observed m ts) (hu : Spec.Observed m us)
    (st : ∀ t ∈ ts, t.length ≤ ts.length + 1) (su : ∀ t ∈ us, t.length ≤ us.length + 1) :
    ∃ o₁ o₂ o₃ x, o.fit (.inl m) (toInts ts) = (o₁, .ok ()) ∧ o₁.fit (.inl m) (toInts us) = (o₂, .ok ()) ∧
      o.fit (.inl m) (toInts (ts ++ us)) = (o₃, .ok ()) ∧ o₂.q = .vec x ∧ o₃.q = .vec x := by
  obtain ⟨as, a1, a2⟩ := readable m ts ht
  obtain ⟨bs, b1, b2⟩ := readable m us hu
  obtain ⟨o₁, e1, r1, l1, d1, k1, q1, -⟩ := fit_ready o m ts as h h1 a1 a2 st
  obtain ⟨o₂, e2, -, -, -, -, q2, -⟩ := fit_ready o₁ m us bs r1 h2 b1 b2 su
  obtain ⟨o₃, e3, -, -, -, -, q3, -⟩ := fit_ready o m (ts ++ us) (as ++ bs) h (by simp [h1]) (readable_append a1 b1)
    (List.rel_append a2 b2) (by
      intro t ht
      rw [List.length_append]
      rcases List.mem_append.1 ht with ht | ht
      · have := st t ht; omega
      · have := su t ht; omega)
  refine ⟨o₁, o₂, o₃, _, e1, e2, e3, q2, ?_⟩
  have hstart : o₁.start = Spec.tdEstimate (o.rate o.adjusted) (o.reward m.nActions) 1 as.flatten o.start := by
    unfold TdLearner.start; rw [q1]; rfl
  have hr : ∀ n, o.rate o.adjusted n = o.lr := fun n => if_neg hd
  have hr' : ∀ n, o₁.rate o₁.adjusted n = o.lr := fun n => by
    unfold TdLearner.rate; rw [d1, if_neg hd, l1]
  have hw : o₁.reward m.nActions = o.reward m.nActions := by funext a; unfold TdLearner.reward; rw [k1]
  rw [q3, List.flatten_append, tdEstimate_append, hstart, hw]
  congr 2
  exact tdEstimate_const _ _ _ o.lr hr hr' _ _ _ _

/-- **C126 is false of the code (policy learner, one trajectory at a time).** A trajectory of two steps or more cannot be
fitted on its own, although a fit of enough trajectories together takes all of them. -/
theorem C126_td_refuted (o : TdLearner K) (m : Mdp K) (h : o.Ready m.nActions) (ts : List (List Nat)) (h0 : ts ≠ [])
    (ht : Spec.Observed m ts) (hshort : ∀ t ∈ ts, t.length ≤ ts.length + 1) (hlong : ∀ t ∈ ts, 2 < t.length) :
    (o.fit (.inl m) (toInts ts)).2 = .ok () ∧
      ∀ t ∈ ts, (o.fit (.inl m) (toInts [t])).2 = .error .indexError := by
  constructor
  · obtain ⟨o', ass, e, -⟩ := C74_partial o m h ts h0 ht hshort
    rw [e]
  · intro t htm
    exact C74_refuted o m h [t] (fun u hu => by rw [List.mem_singleton.1 hu]; exact ht t htm)
      ⟨t, List.mem_singleton.2 rfl, by simpa using hlong t htm⟩

/-- **C126 is false of the code (policy learner with decay).** The count of steps begins anew with every fit while the
decayed rate is kept: a new learner with rate in (0, 1), shown one step in each of two fits, ends with a larger value of
the action taken last than when both steps are shown in one fit. -/
theorem C126_td_refuted_decay (lr d : ℝ) (hlr : 0 < lr) (hlr1 : lr < 1) (hd : 0 < d) (o : TdLearner ℝ)
    (h : TdLearner.init lr (Decay.real d) none none = .ok o) (m : Mdp ℝ) (t u : List Nat) (ht : Spec.IsTrajectory m t)
    (hu : Spec.IsTrajectory m u) (lt : t.length = 2) (lu : u.length = 2) :
    ∃ o₁ o₂ o₃ x y b, o.fit (.inl m) (toInts [t]) = (o₁, .ok ()) ∧ o₁.fit (.inl m) (toInts [u]) = (o₂, .ok ()) ∧
      o.fit (.inl m) (toInts [t, u]) = (o₃, .ok ()) ∧ o₂.q = .vec x ∧ o₃.q = .vec y ∧ Spec.Follows m u [b] ∧
      y.get b < x.get b := by
  obtain rfl : o = ⟨lr, Decay.real d, none, lr, 1, .none, .obj, false, false⟩ := by
    unfold TdLearner.init at h
    rw [if_neg (by simpa using hlr), if_neg (show ¬ (Decay.real d).negative from not_lt.2 hd.le)] at h
    exact (Except.ok.inj h).symm
  set o : TdLearner ℝ := ⟨lr, Decay.real d, none, lr, 1, .none, .obj, false, false⟩ with ho
  have hready : o.Ready m.nActions := ⟨trivial, .inl rfl, by simp [ho]⟩
  obtain ⟨as, a1, a2⟩ := readable m [t] fun v hv => by rw [List.mem_singleton.1 hv]; exact Or.inr ht
  obtain ⟨bs, b1, b2⟩ := readable m [u] fun v hv => by rw [List.mem_singleton.1 hv]; exact Or.inr hu
  obtain ⟨o₁, e1, r1, l1, d1, k1, q1, j1⟩ := fit_ready o m [t] as hready (by simp) a1 a2 (by simp [lt])
  obtain ⟨o₂, e2, -, -, -, -, q2, -⟩ := fit_ready o₁ m [u] bs r1 (by simp) b1 b2 (by simp [lu])
  obtain ⟨o₃, e3, -, -, -, -, q3, -⟩ := fit_ready o m ([t] ++ [u]) (as ++ bs) hready (by simp)
    (readable_append a1 b1) (List.rel_append a2 b2) (by simp [lt, lu])
  cases a2 with
  | @cons _ a _ _ fa a2 =>
    cases a2
    cases b2 with
    | @cons _ b _ _ fb b2 =>
      cases b2
      have la := fa.1
      have lb := fb.1
      rw [lt] at la
      rw [lu] at lb
      obtain ⟨a, rfl⟩ := List.length_eq_one_iff.1 la
      obtain ⟨b, rfl⟩ := List.length_eq_one_iff.1 lb
      refine ⟨o₁, o₂, o₃, _, _, b, e1, e2, e3, q2, q3, fb, ?_⟩
      have hp : o.decay.positive := hd
      have f1 : o.decay.fac 1 = 1 := by show ((1 : ℕ) : ℝ) ^ (-d) = 1; simp
      have f2 : o.decay.fac 2 < 1 := Real.rpow_lt_one_of_one_lt_of_neg (by norm_num) (neg_neg_of_pos hd)
      have hadj : o.adjusted = lr := rfl
      have hr1 : o.rate o.adjusted 1 = lr := by
        unfold TdLearner.rate
        rw [if_pos hp, hadj]
        simp [f1]
      have hr2 : o.rate o.adjusted 2 = lr * o.decay.fac 2 := by
        unfold TdLearner.rate
        rw [if_pos hp, hadj]
        simp [Finset.prod_range_succ, f1]
      have hj := j1 hp
      simp only [List.flatten_cons, List.flatten_nil, List.append_nil, List.length_singleton] at hj
      rw [hr1] at hj
      have hr1' : o₁.rate o₁.adjusted 1 = lr := by
        unfold TdLearner.rate
        rw [d1, if_pos hp, hj]
        simp [f1]
      have hstart : o₁.start = Spec.tdEstimate (o.rate o.adjusted) (o.reward m.nActions) 1 [a] o.start := by
        unfold TdLearner.start; rw [q1]; rfl
      have hw : ∀ c j, o.reward m.nActions c j = Spec.oneHot c j := fun _ _ => rfl
      have hw' : ∀ c j, o₁.reward m.nActions c j = Spec.oneHot c j := fun c j => by
        unfold TdLearner.reward; rw [k1]
      simp only [List.flatten_cons, List.flatten_nil, List.append_nil, List.singleton_append, Spec.tdEstimate, hstart,
        hr1, hr1', hr2, hw, hw', Nat.reduceAdd]
      have hs0 : o.start b = 0 := rfl
      rw [hs0]
      have hb : (Spec.oneHot b b : ℝ) = 1 := if_pos rfl
      have hv : 0 + lr * (Spec.oneHot a b - 0) < (1 : ℝ) := by
        unfold Spec.oneHot
        split_ifs <;> linarith
      rw [hb]
      nlinarith [mul_pos (mul_pos hlr (sub_pos.2 hv)) (sub_pos.2 f2)]

/-- On a strip of three states without decay: 0 → 1 and 1 → 2 in two fits or in one give the same values; the walk
0 → 1 → 2 can be fitted twice at once, but not on its own. -/
example : (match Mdp.initGrid (K := ℚ) .square 1 3 false ⟨1, 3, fun _ _ => 1⟩ none,
      TdLearner.init (K := ℚ) (1/2) (.int 0) none none with
    | .ok m, .ok o =>
      let two := (o.fit (.inl m) (toInts [[0, 1]])).1.fit (.inl m) (toInts [[1, 2]])
      match two.1.q, (o.fit (.inl m) (toInts [[0, 1], [1, 2]])).1.q with
      | .vec x, .vec y => ((List.range m.nActions).all fun a => decide (x.get a = y.get a)) &&
          (List.range m.nActions).any (fun a => decide (x.get a = 3/4)) &&
          decide ((o.fit (.inl m) (toInts [[0, 1, 2], [0, 1, 2]])).2 = .ok ()) &&
          decide ((o.fit (.inl m) (toInts [[0, 1, 2]])).2 = .error .indexError)
      | _, _ => false
    | _, _ => false) = true := by decide +kernel

end MaMDP
