import Verif.Spec.PolicyLearning

/-! # Lemmas about policy learning -/

set_option linter.unusedSectionVars false

namespace MaMDP

variable {K : Type} [Field K] [LinearOrder K] [IsStrictOrderedRing K]

/-- The learner after estimates `x` and `k` updates. -/
def TdLearner.at (o : TdLearner K) (adj : K) (k nA : Nat) (x : Nat → K) : TdLearner K :=
  { o.write ⟨nA, x⟩ with
    nSeen := k + 1
    adjusted := if o.decay.positive then adj * ∏ i ∈ Finset.range k, o.decay.fac (i + 1) else o.adjusted }

theorem TdLearner.at_rate (o : TdLearner K) (adj : K) (k nA : Nat) (x : Nat → K) :
    (o.at adj k nA x).rate = o.rate ∧ (o.at adj k nA x).reward = o.reward := ⟨rfl, rfl⟩

theorem TdLearner.at_at (o : TdLearner K) (adj : K) (k k' nA : Nat) (x y : Nat → K) :
    (o.at adj k nA x).at adj k' nA y = o.at adj k' nA y := by
  unfold TdLearner.at TdLearner.write
  simp only
  congr 1
  · split_ifs <;> rfl
  · split_ifs <;> rfl

theorem action_ok (o : TdLearner K) (hu : o.decay.usable) (adj : K) (k nA : Nat) (x : Nat → K) (ms : List (Mdp K))
    (hms : ∀ m ∈ ms, m.nActions = nA) (i a : Nat) (hi : i < ms.length) (ha : a < nA) :
    (o.at adj k nA x).action ms i a = (o.at adj (k + 1) nA
      (fun j => x j + o.rate adj (k + 1) * (o.reward nA a j - x j)), .ok ()) := by
  have hm := hms ms[i] (List.getElem_mem hi)
  have htr : (o.at adj k nA x).trial ms[i] a = .ok ⟨nA, o.reward nA a⟩ := by
    unfold TdLearner.trial TdLearner.reward
    show (match o.kernel with | none => _ | some k => _) = _
    cases o.kernel with
    | none => simp only [hm, if_pos ha]; rfl
    | some k => simp only [hm]
  unfold TdLearner.action
  rw [List.getElem?_eq_getElem hi]
  simp only [htr]
  have hq : (o.at adj k nA x).q = .vec ⟨nA, x⟩ := rfl
  simp only [hq]
  rw [if_neg (by simp)]
  have hd : (o.at adj k nA x).decay = o.decay := rfl
  have hn : (o.at adj k nA x).nSeen = k + 1 := rfl
  have hl : (o.at adj k nA x).lr = o.lr := rfl
  simp only [hd, hn, hl]
  by_cases hp : o.decay.positive
  · have hpow : o.decay.power (k + 1) = .ok (o.decay.fac (k + 1)) := by
      cases hdec : o.decay with
      | int d =>
        rw [hdec] at hu hp
        exact absurd hp (not_lt.2 hu)
      | float d fac => rfl
    have ha' : (o.at adj k nA x).adjusted = adj * ∏ i ∈ Finset.range k, o.decay.fac (i + 1) := by
      show (if o.decay.positive then _ else _) = _
      rw [if_pos hp]
    simp only [if_pos hp, hpow, ha']
    have hr : o.rate adj (k + 1) = adj * (∏ i ∈ Finset.range k, o.decay.fac (i + 1)) * o.decay.fac (k + 1) := by
      unfold TdLearner.rate
      rw [if_pos hp, Finset.prod_range_succ, mul_assoc]
    rw [← hr]
    simp only [ne_eq, not_true, false_and, if_false, if_true]
    congr 1
    unfold TdLearner.at TdLearner.write
    simp only [if_pos hp]
    congr 1
    · rw [Finset.prod_range_succ, ← mul_assoc]; exact hr
    · split_ifs <;> rfl
  · simp only [if_neg hp]
    have hr : o.rate adj (k + 1) = o.lr := by unfold TdLearner.rate; rw [if_neg hp]
    rw [← hr]
    simp only [ne_eq, not_true, false_and, if_false, if_true]
    congr 1
    unfold TdLearner.at TdLearner.write
    simp only [if_neg hp]
    congr 1
    · split_ifs <;> rfl

theorem actions_ok (o : TdLearner K) (hu : o.decay.usable) (adj : K) (nA : Nat) (ms : List (Mdp K))
    (hms : ∀ m ∈ ms, m.nActions = nA) : ∀ (l : List Nat) (i k : Nat) (x : Nat → K), i + l.length ≤ ms.length →
    (∀ a ∈ l, a < nA) →
    TdLearner.actions ms l i (o.at adj k nA x) = (o.at adj (k + l.length) nA
      (Spec.tdEstimate (o.rate adj) (o.reward nA) (k + 1) l x), .ok ())
  | [], i, k, x, _, _ => rfl
  | a :: l, i, k, x, hl, ha => by
    rw [List.length_cons] at hl
    rw [TdLearner.actions, action_ok o hu adj k nA x ms hms i a (by omega) (ha a List.mem_cons_self)]
    simp only
    rw [actions_ok o hu adj nA ms hms l (i + 1) (k + 1) _ (by omega) fun b hb => ha b (List.mem_cons_of_mem _ hb)]
    rw [List.length_cons, Spec.tdEstimate]
    congr 2
    omega

theorem actions_error (o : TdLearner K) (hu : o.decay.usable) (adj : K) (nA : Nat) (ms : List (Mdp K))
    (hms : ∀ m ∈ ms, m.nActions = nA) : ∀ (l : List Nat) (i k : Nat) (x : Nat → K), ms.length < i + l.length →
    i ≤ ms.length → (∀ a ∈ l, a < nA) →
    (TdLearner.actions ms l i (o.at adj k nA x)).2 = .error .indexError
  | [], i, k, x, hl, hi, _ => by simp at hl; omega
  | a :: l, i, k, x, hl, hi, ha => by
    rw [List.length_cons] at hl
    rw [TdLearner.actions]
    by_cases he : i < ms.length
    · rw [action_ok o hu adj k nA x ms hms i a he (ha a List.mem_cons_self)]
      simp only
      exact actions_error o hu adj nA ms hms l (i + 1) (k + 1) _ (by omega) (by omega)
        fun b hb => ha b (List.mem_cons_of_mem _ hb)
    · unfold TdLearner.action
      rw [List.getElem?_eq_none (by omega)]

theorem tdEstimate_append (rate : Nat → K) (reward : Nat → Nat → K) : ∀ (l l' : List Nat) (n : Nat) (q : Nat → K),
    Spec.tdEstimate rate reward n (l ++ l') q =
      Spec.tdEstimate rate reward (n + l.length) l' (Spec.tdEstimate rate reward n l q)
  | [], l', n, q => rfl
  | a :: l, l', n, q => by
    rw [List.cons_append, Spec.tdEstimate, tdEstimate_append, Spec.tdEstimate, List.length_cons]
    congr 1
    omega

/-- The actions read off a trajectory; none from the empty one. -/
def ReadsAs (m : Mdp K) (t : List Int) (as : List Nat) : Prop :=
  if t = [] then as = [] else ∃ sa, m.trajectoryToStateAction t = .ok sa ∧ as = sa.map Prod.snd

theorem trajectories_ok (o : TdLearner K) (hu : o.decay.usable) (adj : K) (nA : Nat) (ms : List (Mdp K))
    (hms : ∀ m ∈ ms, m.nActions = nA) : ∀ (l : List (Mdp K × List Int)) (ass : List (List Nat)) (k : Nat)
    (x : Nat → K), List.Forall₂ (fun p as => ReadsAs p.1 p.2 as) l ass →
    (∀ as ∈ ass, as.length ≤ ms.length ∧ ∀ a ∈ as, a < nA) →
    TdLearner.trajectories ms l (o.at adj k nA x) = (o.at adj (k + ass.flatten.length) nA
      (Spec.tdEstimate (o.rate adj) (o.reward nA) (k + 1) ass.flatten x), .ok ())
  | [], _, k, x, h, _ => by cases h; rfl
  | (m, t) :: l, _, k, x, h, ha => by
    cases h with
    | @cons _ as _ ass h1 h2 =>
      have hrest := fun k x => trajectories_ok o hu adj nA ms hms l ass k x h2
        fun as has => ha as (List.mem_cons_of_mem _ has)
      rw [TdLearner.trajectories]
      unfold ReadsAs at h1
      simp only at h1
      by_cases ht : t = []
      · rw [if_pos ht] at h1 ⊢
        subst h1
        exact hrest k x
      · rw [if_neg ht] at h1 ⊢
        obtain ⟨sa, e1, rfl⟩ := h1
        obtain ⟨h3, h4⟩ := ha _ List.mem_cons_self
        rw [e1]
        simp only
        rw [actions_ok o hu adj nA ms hms _ 0 k x (by omega) h4]
        simp only
        rw [hrest, List.flatten_cons, tdEstimate_append, List.length_append]
        congr 2
        · omega
        · congr 1
          omega

theorem trajectories_error (o : TdLearner K) (hu : o.decay.usable) (adj : K) (nA : Nat) (ms : List (Mdp K))
    (hms : ∀ m ∈ ms, m.nActions = nA) : ∀ (l : List (Mdp K × List Int)) (ass : List (List Nat)) (k : Nat)
    (x : Nat → K), List.Forall₂ (fun p as => ReadsAs p.1 p.2 as) l ass →
    (∀ as ∈ ass, ∀ a ∈ as, a < nA) → (∃ as ∈ ass, ms.length < as.length) →
    (TdLearner.trajectories ms l (o.at adj k nA x)).2 = .error .indexError
  | [], _, k, x, h, _, he => by cases h; simp at he
  | (m, t) :: l, _, k, x, h, ha, he => by
    cases h with
    | @cons _ as _ ass h1 h2 =>
      rw [TdLearner.trajectories]
      unfold ReadsAs at h1
      simp only at h1
      by_cases hlen : ms.length < as.length
      · have ht : t ≠ [] := by
          intro ht
          rw [if_pos ht] at h1
          subst h1
          simp at hlen
        rw [if_neg ht] at h1 ⊢
        obtain ⟨sa, e1, rfl⟩ := h1
        rw [e1]
        simp only
        have := actions_error o hu adj nA ms hms (sa.map Prod.snd) 0 k x (by omega) (by omega)
          (ha _ List.mem_cons_self)
        split
        · rename_i h'; rw [h'] at this; exact this
        · rename_i h'; rw [h'] at this; cases this
      · have he' : ∃ as ∈ ass, ms.length < as.length := by
          obtain ⟨b, hb, hbl⟩ := he
          rcases List.mem_cons.1 hb with rfl | hb
          · exact absurd hbl hlen
          · exact ⟨b, hb, hbl⟩
        have hrest := fun k x => trajectories_error o hu adj nA ms hms l ass k x h2
          (fun as has => ha as (List.mem_cons_of_mem _ has)) he'
        by_cases ht : t = []
        · rw [if_pos ht]
          exact hrest k x
        · rw [if_neg ht] at h1 ⊢
          obtain ⟨sa, e1, rfl⟩ := h1
          rw [e1]
          simp only
          rw [actions_ok o hu adj nA ms hms _ 0 k x (by omega) (ha _ List.mem_cons_self)]
          exact hrest _ _

/-! ## Fitting -/

theorem fitTd_start (o : TdLearner K) (nA : Nat) (ms : List (Mdp K)) (h : o.Ready nA) (h0 : ms ≠ [])
    (hms : ∀ m ∈ ms, m.nActions = nA) (ts : List (List Int)) :
    ∃ o1 : TdLearner K, o1.decay = o.decay ∧ o1.lr = o.lr ∧ o1.kernel = o.kernel ∧ o1.adjusted = o.adjusted ∧
      o.fitTd ms ts = TdLearner.trajectories ms (ms.zip ts) (o1.at o.adjusted 0 nA o.start) := by
  match ms, h0 with
  | m :: ms, _ =>
    rcases h.q with hq | ⟨x, hq⟩
    · refine ⟨{ o with aliased := false }, rfl, rfl, rfl, rfl, ?_⟩
      unfold TdLearner.fitTd
      simp only [hq]
      congr 1
      unfold TdLearner.at TdLearner.write TdLearner.start
      simp [hq, hms m List.mem_cons_self]
    · refine ⟨o, rfl, rfl, rfl, rfl, ?_⟩
      unfold TdLearner.fitTd
      simp only [hq]
      congr 1
      have hal : (if o.aliased = true then QArr.vec ⟨nA, x⟩ else o.original) = o.original := by
        split_ifs with ha
        · rw [h.shared ha, hq]
        · rfl
      unfold TdLearner.at TdLearner.write TdLearner.start
      simp [hq, hal]

/-- What `fit` computes when it succeeds. -/
theorem fit_ok (o : TdLearner K) (nA : Nat) (ms : List (Mdp K)) (ts : List (List Int)) (ass : List (List Nat))
    (h : o.Ready nA) (h0 : ms ≠ []) (hl : ts.length = ms.length) (hms : ∀ m ∈ ms, m.nActions = nA)
    (hr : List.Forall₂ (fun p as => ReadsAs p.1 p.2 as) (ms.zip ts) ass)
    (ha : ∀ as ∈ ass, as.length ≤ ms.length ∧ ∀ a ∈ as, a < nA) :
    ∃ o', o.fit (.inr ms) ts = (o', .ok ()) ∧ o'.fitted = true ∧ o'.nSeen = ass.flatten.length + 1 ∧
      o'.q = .vec ⟨nA, Spec.tdEstimate (o.rate o.adjusted) (o.reward nA) 1 ass.flatten o.start⟩ ∧
      o'.lr = o.lr ∧ (o.decay.positive → o'.adjusted = o.rate o.adjusted ass.flatten.length) := by
  obtain ⟨o1, e1, e2, e3, e4, e5⟩ := fitTd_start o nA ms h h0 hms ts
  have hrate : o1.rate = o.rate := by funext a n; unfold TdLearner.rate; rw [e1, e2]
  have hrew : o1.reward = o.reward := by funext n a; unfold TdLearner.reward; rw [e3]
  have := trajectories_ok o1 (e1 ▸ h.usable) o.adjusted nA ms hms (ms.zip ts) ass 0 o.start hr ha
  unfold TdLearner.fit
  simp only [if_pos hl]
  rw [e5, this]
  refine ⟨_, rfl, rfl, ?_, ?_, e2, fun hp => ?_⟩
  · show 0 + _ + 1 = _; omega
  · show QArr.vec _ = _; rw [hrate, hrew]
  · show (if o1.decay.positive then o.adjusted * _ else o1.adjusted) = _
    rw [e1, if_pos hp]
    unfold TdLearner.rate
    rw [if_pos hp, zero_add]

theorem fit_error (o : TdLearner K) (nA : Nat) (ms : List (Mdp K)) (ts : List (List Int)) (ass : List (List Nat))
    (h : o.Ready nA) (h0 : ms ≠ []) (hl : ts.length = ms.length) (hms : ∀ m ∈ ms, m.nActions = nA)
    (hr : List.Forall₂ (fun p as => ReadsAs p.1 p.2 as) (ms.zip ts) ass)
    (ha : ∀ as ∈ ass, ∀ a ∈ as, a < nA) (he : ∃ as ∈ ass, ms.length < as.length) :
    (o.fit (.inr ms) ts).2 = .error .indexError := by
  obtain ⟨o1, e1, -, -, -, e5⟩ := fitTd_start o nA ms h h0 hms ts
  have := trajectories_error o1 (e1 ▸ h.usable) o.adjusted nA ms hms (ms.zip ts) ass 0 o.start hr ha he
  unfold TdLearner.fit
  simp only [if_pos hl]
  rw [e5]
  split
  · rename_i h'; rw [h'] at this; exact this
  · rename_i h'; rw [h'] at this; cases this

theorem fit_single (o : TdLearner K) (m : Mdp K) (ts : List (List Int)) :
    o.fit (.inl m) ts = o.fit (.inr (List.replicate ts.length m)) ts := by
  unfold TdLearner.fit; simp

/-- The loop that reads the actions finds, for every step, an action that can make it. -/
theorem reads_follow (m : Mdp K) : ∀ (t : List Nat), Spec.IsTrajectory m t →
    ∃ sa, m.trajectoryLoop (t.map fun (n : Nat) => (n : Int)) = .ok sa ∧ Spec.Follows m t (sa.map Prod.snd)
  | [], _ => ⟨[], rfl, rfl, by simp⟩
  | [s], _ => ⟨[], rfl, rfl, by simp⟩
  | s :: u :: rest, ⟨h1, h2⟩ => by
    have hs : s < m.nStates := h1 s (by simp)
    have hu : u < m.nStates := h1 u (by simp)
    obtain ⟨a, ha, hp⟩ := h2 0 (by simp)
    simp only [List.getElem_cons_zero, List.getElem_cons_succ, zero_add] at hp
    obtain ⟨l, e1, e2, e3⟩ := reads_follow m (u :: rest) ⟨fun x hx => h1 x (List.mem_cons_of_mem _ hx), fun i hi => by
      have := h2 (i + 1) (by simp at hi ⊢; omega)
      simpa using this⟩
    have hA : 0 < m.nActions := by omega
    have hpos : 0 < npMax m.nActions (fun a => m.sas s a u) :=
      lt_of_lt_of_le hp (le_npMax (fun a => m.sas s a u) ha)
    have sp : m.statePairToAction s u true = .ok [npArgmax m.nActions fun a => m.sas s a u] := by
      simp only [Mdp.statePairToAction, pyIdx_nat, if_pos hs, if_pos hu]
      rw [if_neg (by omega), if_pos hpos]; rfl
    refine ⟨((s : Int), npArgmax m.nActions fun a => m.sas s a u) :: l, ?_, ?_, ?_⟩
    · simp only [List.map_cons, Mdp.trajectoryLoop, sp, pyIdx_nat, if_pos hs, if_pos hu]
      simp only [List.map_cons] at e1
      rw [e1]
    · simp only [List.map_cons, List.length_cons] at e2 ⊢
      omega
    · intro i s' a' u' h3 h4 h5
      cases i with
      | zero =>
        simp at h3 h4 h5
        subst h3; subst h4; subst h5
        rw [npMax_eq] at hpos
        exact ⟨npArgmax_lt _ hA, hpos⟩
      | succ i => exact e3 i s' a' u' (by simpa using h3) (by simpa using h4) (by simpa using h5)

theorem readable (m : Mdp K) : ∀ (ts : List (List Nat)), Spec.Observed m ts →
    ∃ ass, List.Forall₂ (fun p as => ReadsAs p.1 p.2 as) ((List.replicate ts.length m).zip (toInts ts)) ass ∧
      List.Forall₂ (Spec.Follows m) ts ass
  | [], _ => ⟨[], .nil, .nil⟩
  | t :: ts, h => by
    obtain ⟨ass, h1, h2⟩ := readable m ts fun t ht => h t (List.mem_cons_of_mem _ ht)
    by_cases ht : t = []
    · subst ht
      refine ⟨[] :: ass, .cons ?_ h1, .cons ⟨rfl, by simp⟩ h2⟩
      simp [ReadsAs]
    · obtain ⟨sa, e1, e2⟩ := reads_follow m t ((h t List.mem_cons_self).resolve_left ht)
      refine ⟨sa.map Prod.snd :: ass, .cons ?_ h1, .cons e2 h2⟩
      simp only [ReadsAs]
      rw [if_neg (by simpa using ht)]
      refine ⟨sa, ?_, rfl⟩
      unfold Mdp.trajectoryToStateAction
      rw [if_neg (by simpa using ht), e1]

theorem follows_lt {m : Mdp K} {t as : List Nat} (h : Spec.Follows m t as) : ∀ a ∈ as, a < m.nActions := by
  intro a ha
  obtain ⟨i, hi, e⟩ := List.mem_iff_getElem.1 ha
  have hl := h.1
  have h1 : i < t.length := by omega
  have h2 : i + 1 < t.length := by omega
  exact (h.2 i t[i] a t[i + 1] (List.getElem?_eq_getElem h1) (by rw [← e]; exact List.getElem?_eq_getElem hi)
    (List.getElem?_eq_getElem h2)).1

/-! ## What every call keeps -/

/-- The invariant of a learner that starts from nothing. -/
structure TdInv (nA : Nat) (S : Nat → Prop) (o : TdLearner K) : Prop where
  kernel : o.kernel = none
  lr : 0 ≤ o.lr ∧ o.lr ≤ 1
  adjusted : 0 ≤ o.adjusted ∧ o.adjusted ≤ 1
  fac : ∀ n, 1 ≤ n → 0 ≤ o.decay.fac n ∧ o.decay.fac n ≤ 1
  nSeen : 1 ≤ o.nSeen
  q : ∀ x, o.q = .vec x → x.d0 = nA ∧ Spec.Bounded nA S x.get
  original : ∀ x, o.original = .vec x → x.d0 = nA ∧ Spec.Bounded nA S x.get

theorem bounded_zero (nA : Nat) (S : Nat → Prop) : Spec.Bounded nA S (fun _ => (0 : K)) :=
  ⟨fun _ _ => le_rfl, by simp, fun _ _ _ => rfl⟩

theorem bounded_step {nA : Nat} {S : Nat → Prop} {x : Nat → K} (h : Spec.Bounded nA S x) {α : K} (h0 : 0 ≤ α)
    (h1 : α ≤ 1) {a : Nat} (ha : S a) :
    Spec.Bounded nA S fun j => x j + α * ((if j = a then 1 else 0) - x j) := by
  obtain ⟨b1, b2, b3⟩ := h
  have e : ∀ j, x j + α * ((if j = a then 1 else 0) - x j) = (1 - α) * x j + α * (if j = a then 1 else 0) :=
    fun j => by ring
  simp only [e]
  refine ⟨fun j hj => ?_, ?_, fun j hj hs => ?_⟩ <;> beta_reduce
  · have := b1 j hj
    have := mul_nonneg (sub_nonneg.2 h1) this
    split_ifs <;> linarith
  · rw [Finset.sum_add_distrib, ← Finset.mul_sum, ← Finset.mul_sum]
    have h3 : ∑ j ∈ Finset.range nA, (if j = a then (1 : K) else 0) ≤ 1 := by
      rw [Finset.sum_ite_eq' (Finset.range nA) a]
      split_ifs <;> simp
    have := mul_le_mul_of_nonneg_left b2 (sub_nonneg.2 h1)
    have := mul_le_mul_of_nonneg_left h3 h0
    linarith
  · have : j ≠ a := by rintro rfl; exact hs ha
    rw [b3 j hj hs, if_neg this]
    ring

theorem power_fac {d : Decay K} {n : Nat} {p : K} (h : d.power n = .ok p) : p = d.fac n := by
  cases d with
  | int d =>
    simp only [Decay.power] at h
    split_ifs at h
    exact (Except.ok.inj h).symm
  | float d f => exact (Except.ok.inj h).symm

theorem action_inv {nA : Nat} {S : Nat → Prop} {o : TdLearner K} (h : TdInv nA S o) {ms : List (Mdp K)}
    (hms : ∀ m ∈ ms, m.nActions = nA) (i : Nat) {a : Nat} (ha : S a) : TdInv nA S (o.action ms i a).1 := by
  unfold TdLearner.action
  split
  · exact h
  · rename_i m hm
    have hm : m.nActions = nA := hms m (List.mem_of_getElem? hm)
    split
    · exact h
    · rename_i r hr
      have hr : r = ⟨nA, fun j => if j = a then 1 else 0⟩ := by
        unfold TdLearner.trial at hr
        rw [h.kernel, hm] at hr
        simp only at hr
        split_ifs at hr
        exact (Except.ok.inj hr).symm
      subst hr
      split
      · exact h
      · exact h
      · rename_i q hq
        obtain ⟨hd, hb⟩ := h.q q hq
        simp only [hd, ne_eq, not_true, false_and, if_false, if_true]
        by_cases hp : o.decay.positive
        · simp only [if_pos hp]
          cases hpow : o.decay.power o.nSeen with
          | error e => exact h
          | ok p =>
            have hf := h.fac o.nSeen h.nSeen
            rw [← power_fac hpow] at hf
            have a0 : 0 ≤ o.adjusted * p := mul_nonneg h.adjusted.1 hf.1
            have a1 : o.adjusted * p ≤ 1 := mul_le_one₀ h.adjusted.2 hf.1 hf.2
            have hb' := bounded_step hb a0 a1 ha
            refine ⟨h.kernel, h.lr, ⟨a0, a1⟩, h.fac, Nat.le_add_left 1 _, ?_, ?_⟩
            · intro x hx
              obtain rfl := QArr.vec.inj hx
              exact ⟨rfl, hb'⟩
            · intro x hx
              simp only [TdLearner.write] at hx
              split_ifs at hx
              · obtain rfl := QArr.vec.inj hx
                exact ⟨rfl, hb'⟩
              · exact h.original x hx
        · simp only [if_neg hp]
          have hb' := bounded_step hb h.lr.1 h.lr.2 ha
          refine ⟨h.kernel, h.lr, h.adjusted, h.fac, Nat.le_add_left 1 _, ?_, ?_⟩
          · intro x hx
            obtain rfl := QArr.vec.inj hx
            exact ⟨rfl, hb'⟩
          · intro x hx
            simp only [TdLearner.write] at hx
            split_ifs at hx
            · obtain rfl := QArr.vec.inj hx
              exact ⟨rfl, hb'⟩
            · exact h.original x hx

theorem actions_inv {nA : Nat} {S : Nat → Prop} {ms : List (Mdp K)} (hms : ∀ m ∈ ms, m.nActions = nA) :
    ∀ (l : List Nat) (i : Nat) (o : TdLearner K), TdInv nA S o → (∀ a ∈ l, S a) →
    TdInv nA S (TdLearner.actions ms l i o).1
  | [], _, _, h, _ => h
  | a :: l, i, o, h, hl => by
    have := action_inv h hms i (hl a List.mem_cons_self)
    rw [TdLearner.actions]
    split
    · rename_i h'; rw [h'] at this; exact this
    · rename_i h'; rw [h'] at this
      exact actions_inv hms l (i + 1) _ this fun b hb => hl b (List.mem_cons_of_mem _ hb)

theorem trajectories_inv {nA : Nat} {S : Nat → Prop} {ms : List (Mdp K)} (hms : ∀ m ∈ ms, m.nActions = nA) :
    ∀ (l : List (Mdp K × List Int)) (o : TdLearner K), TdInv nA S o →
    (∀ p ∈ l, ∀ sa, p.1.trajectoryToStateAction p.2 = .ok sa → ∀ a ∈ sa.map Prod.snd, S a) →
    TdInv nA S (TdLearner.trajectories ms l o).1
  | [], _, h, _ => h
  | (m, t) :: l, o, h, hl => by
    have hl' := fun p hp => hl p (List.mem_cons_of_mem _ hp)
    rw [TdLearner.trajectories]
    split_ifs
    · exact trajectories_inv hms l o h hl'
    · split
      · exact h
      · rename_i sa hsa
        have := actions_inv hms (sa.map Prod.snd) 0 o h (hl (m, t) List.mem_cons_self sa hsa)
        split
        · rename_i h'; rw [h'] at this; exact this
        · rename_i h'; rw [h'] at this
          exact trajectories_inv hms l _ this hl'

theorem fitTd_inv {nA : Nat} {S : Nat → Prop} {ms : List (Mdp K)} (hms : ∀ m ∈ ms, m.nActions = nA)
    (ts : List (List Int)) (o : TdLearner K) (h : TdInv nA S o)
    (hl : ∀ p ∈ ms.zip ts, ∀ sa, p.1.trajectoryToStateAction p.2 = .ok sa → ∀ a ∈ sa.map Prod.snd, S a) :
    TdInv nA S (o.fitTd ms ts).1 := by
  unfold TdLearner.fitTd
  split
  · split
    · exact h
    · rename_i m ms'
      refine trajectories_inv hms _ _ ⟨h.kernel, h.lr, h.adjusted, h.fac, le_rfl, ?_, h.original⟩ hl
      intro x hx
      obtain rfl := QArr.vec.inj hx
      exact ⟨hms m List.mem_cons_self, bounded_zero nA S⟩
  · exact trajectories_inv hms _ _ ⟨h.kernel, h.lr, h.adjusted, h.fac, le_rfl, h.q, h.original⟩ hl

end MaMDP
