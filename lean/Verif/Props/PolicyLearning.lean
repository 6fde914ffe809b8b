import Verif.Lemmas.PolicyLearning
import Verif.Props.Mdp

/-! # Policy learning (C74, C75, C69, C86, C87) and angular distance (C76, C77) -/

set_option linter.unusedSectionVars false

namespace MaMDP

variable {K : Type} [Field K] [LinearOrder K] [IsStrictOrderedRing K]

/-! ## C74: trajectories of any length -/

/-- **C74 is false of the code.** The inner loop over actions reuses the loop variable that selects the model, so a
trajectory with more steps than there are trajectories makes `fit` raise `IndexError`. -/
theorem C74_refuted (o : TdLearner K) (m : Mdp K) (h : o.Ready m.nActions) (ts : List (List Nat))
    (ht : Spec.Observed m ts) (hlong : ∃ t ∈ ts, ts.length + 1 < t.length) :
    (o.fit (.inl m) (toInts ts)).2 = .error .indexError := by
  obtain ⟨ass, h1, h2⟩ := readable m ts ht
  have hlen : (toInts ts).length = ts.length := by simp [toInts]
  rw [fit_single]
  have hne : ts ≠ [] := by rintro rfl; simp at hlong
  refine fit_error o m.nActions _ _ ass h ?_ (by simp) (fun m' hm' => by rw [(List.mem_replicate.1 hm').2])
    (by rw [hlen]; exact h1) ?_ ?_
  · rw [hlen]; simpa using hne
  · intro as has
    obtain ⟨i, hi, e⟩ := List.mem_iff_getElem.1 has
    have := List.forall₂_iff_get.1 h2
    have hf := this.2 i (by omega) hi
    simp only [List.get_eq_getElem] at hf
    rw [e] at hf
    exact follows_lt hf
  · obtain ⟨t, htm, hl⟩ := hlong
    obtain ⟨i, hi, e⟩ := List.mem_iff_getElem.1 htm
    have := List.forall₂_iff_get.1 h2
    have hi' : i < ass.length := by omega
    refine ⟨ass[i], List.getElem_mem hi', ?_⟩
    have hf := (this.2 i hi hi').1
    simp only [List.get_eq_getElem] at hf
    rw [e] at hf
    simp only [List.length_replicate, hlen]
    omega

/-- **C74, what holds.** If no trajectory has more steps than there are trajectories, `fit` succeeds, and the values are
the running estimates over all actions in order, an action being found for every step. -/
theorem C74_partial (o : TdLearner K) (m : Mdp K) (h : o.Ready m.nActions) (ts : List (List Nat)) (h0 : ts ≠ [])
    (ht : Spec.Observed m ts) (hshort : ∀ t ∈ ts, t.length ≤ ts.length + 1) :
    ∃ o' ass, o.fit (.inl m) (toInts ts) = (o', .ok ()) ∧ o'.fitted = true ∧
      List.Forall₂ (Spec.Follows m) ts ass ∧
      o'.q = .vec ⟨m.nActions,
        Spec.tdEstimate (o.rate o.adjusted) (o.reward m.nActions) 1 ass.flatten o.start⟩ := by
  obtain ⟨ass, h1, h2⟩ := readable m ts ht
  have hlen : (toInts ts).length = ts.length := by simp [toInts]
  obtain ⟨o', e1, e2, -, e3, -, -⟩ := fit_ok o m.nActions (List.replicate ts.length m) (toInts ts) ass h
    (by simpa using h0) (by simp [hlen]) (fun m' hm' => by rw [(List.mem_replicate.1 hm').2]) h1 (by
      intro as has
      obtain ⟨i, hi, e⟩ := List.mem_iff_getElem.1 has
      have := List.forall₂_iff_get.1 h2
      have hi' : i < ts.length := by omega
      have hf := this.2 i hi' hi
      simp only [List.get_eq_getElem] at hf
      rw [e] at hf
      refine ⟨?_, follows_lt hf⟩
      have hs := hshort ts[i] (List.getElem_mem hi')
      have := hf.1
      rw [List.length_replicate]
      omega)
  exact ⟨o', ass, by rw [fit_single, hlen, e1], e2, h2, e3⟩

/-- **C74 (errors).** Lists of different lengths are refused; the first use without trajectories raises; states that
are not adjacent raise. -/
theorem C74_errors (o : TdLearner K) (m : Mdp K) (l : List (Mdp K)) (ts : List (List Int)) (t : List Int) :
    (ts.length ≠ l.length → o.fit (.inr l) ts = (o, .error .attributeError)) ∧
    (o.q = .none → o.fit (.inl m) [] = (o, .error .indexError)) ∧
    (∀ e, t ≠ [] → m.trajectoryToStateAction t = .error e → (o.fit (.inl m) (t :: ts)).2 = .error e) := by
  refine ⟨fun h => ?_, fun h => ?_, fun e ht he => ?_⟩
  · unfold TdLearner.fit; simp only [if_neg h]
  · unfold TdLearner.fit TdLearner.fitTd; simp [h]
  · unfold TdLearner.fit TdLearner.fitTd
    simp only [List.length_cons, List.replicate_succ, List.zip_cons_cons, TdLearner.trajectories, if_neg ht, he]
    cases o.q <;> rfl

/-- A 1×3 strip without features; the actions are +y (0) and -y (2). -/
def exStrip : Py (Mdp ℚ) := Mdp.initGrid .square 1 3 false ⟨0, 3, fun _ _ => 0⟩ none

/-- Two steps with one trajectory raise; with two trajectories they do not, and the estimates follow. -/
example : (match exStrip, TdLearner.init (1/2 : ℚ) (.int 0) none none with
    | .ok m, .ok o => match o.fit (.inl m) [[0, 1, 2]], o.fit (.inl m) [[0, 1, 2], [1, 0]] with
      | (_, .error e), (o', .ok ()) => match o'.q with
        | .vec x => decide (e = .indexError ∧ x.d0 = 4 ∧ x.get 0 = 3/8 ∧ x.get 2 = 1/2 ∧ x.get 1 = 0)
        | _ => false
      | _, _ => false
    | _, _ => false) = true := by decide +kernel

/-! ## C75: bounded preferences -/

/-- The MDPs a call mentions. -/
def TdOp.mdps : TdOp K → List (Mdp K)
  | .fit (.inl m) _ => [m]
  | .fit (.inr l) _ => l
  | _ => []

/-- A call shows action `a`: some trajectory contains a step that is read as `a`. -/
def TdOp.Shows (op : TdOp K) (a : Nat) : Prop :=
  match op with
  | .fit _ ts => ∃ m ∈ op.mdps, ∃ t ∈ ts, ∃ sa, m.trajectoryToStateAction t = .ok sa ∧ a ∈ sa.map Prod.snd
  | _ => False

theorem call_inv {nA : Nat} {S : Nat → Prop} {o : TdLearner K} (h : TdInv nA S o) (op : TdOp K)
    (hm : ∀ m ∈ op.mdps, m.nActions = nA) (hS : ∀ a, op.Shows a → S a) : TdInv nA S (o.call op) := by
  have hfit : ∀ (ms : List (Mdp K)) (mdps : Mdp K ⊕ List (Mdp K)) (ts : List (List Int)), op = .fit mdps ts →
      (∀ m ∈ ms, m ∈ op.mdps) → TdInv nA S (o.fitTd ms ts).1 := by
    intro ms mdps ts e hsub
    refine fitTd_inv (fun m h' => hm m (hsub m h')) ts o h fun p hp sa hsa a ha => hS a ?_
    subst e
    obtain ⟨h1, h2⟩ := List.of_mem_zip hp
    exact ⟨p.1, hsub p.1 h1, p.2, h2, sa, hsa, ha⟩
  cases op with
  | reset => exact ⟨h.kernel, h.lr, h.lr, h.fac, le_rfl, h.original, h.original⟩
  | resetLr => exact ⟨h.kernel, h.lr, h.lr, h.fac, le_rfl, h.q, h.original⟩
  | fit mdps ts =>
    show TdInv nA S (o.fit mdps ts).1
    have fin : ∀ ms : List (Mdp K), TdInv nA S (o.fitTd ms ts).1 →
        TdInv nA S (match o.fitTd ms ts with
          | (o, .error e) => ((o, .error e) : TdLearner K × Py Unit)
          | (o, .ok ()) => ({ o with fitted := true }, .ok ())).1 := by
      intro ms hi
      split
      · rename_i h'; rw [h'] at hi; exact hi
      · rename_i h'; rw [h'] at hi
        exact ⟨hi.kernel, hi.lr, hi.adjusted, hi.fac, hi.nSeen, hi.q, hi.original⟩
    cases mdps with
    | inl m =>
      exact fin _ (hfit _ _ ts rfl fun m' hm' => by rw [(List.mem_replicate.1 hm').2]; exact List.mem_singleton.2 rfl)
    | inr l =>
      unfold TdLearner.fit
      by_cases hl : ts.length = l.length
      · simp only [if_pos hl]
        exact fin l (hfit l _ ts rfl fun m' hm' => hm')
      · simp only [if_neg hl]; exact h

/-- **C75.** A learner built without kernel, from nothing or from zeros, with learning rate in (0, 1] and decay factors
in [0, 1]: after any calls, failing ones included, its estimates are between 0 and 1, are at most 1 together,
and are 0 for every action that was never shown. -/
theorem C75_bounded (lr : K) (decay : Decay K) (q : Option (Arr1 K)) (o : TdLearner K) (nA : Nat)
    (h : TdLearner.init lr decay q none = .ok o) (hlr : lr ≤ 1) (hq : ∀ x, q = some x → x = ⟨nA, fun _ => 0⟩)
    (hf : ∀ n, 1 ≤ n → 0 ≤ decay.fac n ∧ decay.fac n ≤ 1) (ops : List (TdOp K))
    (hm : ∀ op ∈ ops, ∀ m ∈ op.mdps, m.nActions = nA) (x : Arr1 K) (hx : (o.runOps ops).q = .vec x) :
    x.d0 = nA ∧ (∀ j, j < nA → 0 ≤ x.get j ∧ x.get j ≤ 1) ∧ ∑ j ∈ Finset.range nA, x.get j ≤ 1 ∧
      ∀ a, a < nA → (∀ op ∈ ops, ¬ op.Shows a) → x.get a = 0 := by
  have key : ∀ (S : Nat → Prop) (ops : List (TdOp K)) (o : TdLearner K), TdInv nA S o →
      (∀ op ∈ ops, ∀ m ∈ op.mdps, m.nActions = nA) → (∀ op ∈ ops, ∀ a, op.Shows a → S a) →
      TdInv nA S (o.runOps ops) := by
    intro S ops
    induction ops with
    | nil => intro o h _ _; exact h
    | cons op ops ih =>
      intro o h hm hS
      exact ih _ (call_inv h op (hm op List.mem_cons_self) (hS op List.mem_cons_self))
        (fun p hp => hm p (List.mem_cons_of_mem _ hp)) fun p hp => hS p (List.mem_cons_of_mem _ hp)
  have h0 : TdInv nA (fun a => ∃ op ∈ ops, op.Shows a) o := by
    unfold TdLearner.init at h
    split_ifs at h with h1 h2
    obtain rfl := Except.ok.inj h
    refine ⟨rfl, ⟨h1.le, hlr⟩, ⟨h1.le, hlr⟩, hf, le_rfl, fun y hy => ?_, fun y hy => ?_⟩ <;>
    · cases q with
      | none => cases hy
      | some z =>
        obtain rfl := QArr.vec.inj hy
        rw [hq z rfl]
        exact ⟨rfl, bounded_zero _ _⟩
  obtain ⟨hd, b1, b2, b3⟩ := (key _ ops o h0 hm fun op hop a ha => ⟨op, hop, ha⟩).q x hx
  refine ⟨hd, fun j hj => ⟨b1 j hj, ?_⟩, b2, fun a ha hs => b3 a ha ?_⟩
  · exact le_trans (Finset.single_le_sum (f := x.get) (fun i hi => b1 i (Finset.mem_range.1 hi))
      (Finset.mem_range.2 hj)) b2
  · rintro ⟨op, hop, hsh⟩
    exact hs op hop hsh

/-- The decay factors `n ** -d` of a non-negative real decay, and those of an integer decay, meet the hypothesis. -/
theorem C75_decay (d : ℝ) (hd : 0 ≤ d) (k : Int) (n : Nat) (hn : 1 ≤ n) :
    (0 ≤ (Decay.real d).fac n ∧ (Decay.real d).fac n ≤ 1) ∧
    (0 ≤ (Decay.int k : Decay K).fac n ∧ (Decay.int k : Decay K).fac n ≤ 1) := by
  refine ⟨⟨Real.rpow_nonneg (Nat.cast_nonneg n) _, ?_⟩, zero_le_one, le_rfl⟩
  exact Real.rpow_le_one_of_one_le_of_nonpos (by exact_mod_cast hn) (neg_nonpos.2 hd)

/-- A fit, a failing fit and a reset in between: the estimates stay bounded. -/
example : (match exStrip, TdLearner.init (1/2 : ℚ) (.int 0) none none with
    | .ok m, .ok o =>
      match (o.runOps [.fit (.inl m) [[0, 1], [1, 2]], .resetLr, .fit (.inl m) [[0, 1, 2]]]).q with
      | .vec x => decide (x.get 0 = 7/8 ∧ x.get 1 = 0 ∧ x.get 2 = 0)
      | _ => false
    | _, _ => false) = true := by decide +kernel

/-! ## C69: the learning rate of the policy learner -/

/-- **C69 (policy learner, exact).** With a real decay `d > 0` the `n`-th update of a fit uses the share
`(rate at the start of the fit) * (n!) ** -d`, and the next fit starts with the rate the last update used. -/
theorem C69_td_exact (o : TdLearner ℝ) (d : ℝ) (hd : 0 < d) (ho : o.decay = Decay.real d) (m : Mdp ℝ)
    (h : o.Ready m.nActions) (ts : List (List Nat)) (h0 : ts ≠ []) (ht : Spec.Observed m ts)
    (hshort : ∀ t ∈ ts, t.length ≤ ts.length + 1) :
    ∃ o' ass, o.fit (.inl m) (toInts ts) = (o', .ok ()) ∧ List.Forall₂ (Spec.Follows m) ts ass ∧
      o'.q = .vec ⟨m.nActions, Spec.tdEstimate (fun n => o.adjusted * (n.factorial : ℝ) ^ (-d))
        (o.reward m.nActions) 1 ass.flatten o.start⟩ ∧
      o'.adjusted = o.adjusted * (ass.flatten.length.factorial : ℝ) ^ (-d) := by
  have hrate : o.rate o.adjusted = fun n => o.adjusted * (n.factorial : ℝ) ^ (-d) := by
    funext n
    unfold TdLearner.rate
    rw [ho, if_pos (show (Decay.real d).positive from hd)]
    congr 1
    induction n with
    | zero => simp
    | succ n ih =>
      rw [Finset.prod_range_succ, ih, Nat.factorial_succ, Nat.cast_mul,
        Real.mul_rpow (Nat.cast_nonneg _) (Nat.cast_nonneg _), mul_comm]
      rfl
  obtain ⟨ass, h1, h2⟩ := readable m ts ht
  have hlen : (toInts ts).length = ts.length := by simp [toInts]
  obtain ⟨o', e1, -, -, e3, -, e5⟩ := fit_ok o m.nActions (List.replicate ts.length m) (toInts ts) ass h
    (by simpa using h0) (by simp [hlen]) (fun m' hm' => by rw [(List.mem_replicate.1 hm').2]) h1 (by
      intro as has
      obtain ⟨i, hi, e⟩ := List.mem_iff_getElem.1 has
      have := List.forall₂_iff_get.1 h2
      have hi' : i < ts.length := by omega
      have hf := this.2 i hi' hi
      simp only [List.get_eq_getElem] at hf
      rw [e] at hf
      refine ⟨?_, follows_lt hf⟩
      have hs := hshort ts[i] (List.getElem_mem hi')
      have := hf.1
      rw [List.length_replicate]
      omega)
  refine ⟨o', ass, by rw [fit_single, hlen, e1], h2, ?_, ?_⟩
  · rw [e3, hrate]
  · rw [e5 (by rw [ho]; exact hd), hrate]

/-- **C69 is false of the policy learner too.** A new learner with rate in (0, 1) and decay `d > 0`, shown three single
steps: the estimate of the last action taken is smaller than with the documented rates `rate * n ** -d`. -/
theorem C69_td_refuted (lr d : ℝ) (hlr : 0 < lr) (hlr1 : lr < 1) (hd : 0 < d) (o : TdLearner ℝ)
    (h : TdLearner.init lr (Decay.real d) none none = .ok o) (m : Mdp ℝ) (ts : List (List Nat)) (hts : ts.length = 3)
    (ht : Spec.Observed m ts) (htwo : ∀ t ∈ ts, t.length = 2) :
    ∃ o' l x c, o.fit (.inl m) (toInts ts) = (o', .ok ()) ∧ o'.q = .vec x ∧ l.length = 3 ∧ c < m.nActions ∧
      List.Forall₂ (Spec.Follows m) ts (l.map fun a => [a]) ∧
      x.get c < Spec.tdEstimate (fun n => lr * (n : ℝ) ^ (-d)) Spec.oneHot 1 l (fun _ => 0) c := by
  obtain rfl : o = ⟨lr, Decay.real d, none, lr, 1, .none, .obj, false, false⟩ := by
    unfold TdLearner.init at h
    rw [if_neg (by simpa using hlr), if_neg (show ¬ (Decay.real d).negative from not_lt.2 hd.le)] at h
    exact (Except.ok.inj h).symm
  obtain ⟨o', ass, e1, e2, e3, -⟩ := C69_td_exact
    ⟨lr, Decay.real d, none, lr, 1, .none, .obj, false, false⟩ d hd rfl m ⟨trivial, .inl rfl, by simp⟩ ts
    (by rintro rfl; simp at hts) ht (fun t h' => by rw [htwo t h']; omega)
  match ts, hts with
  | [t1, t2, t3], _ =>
    cases e2 with
    | cons f1 e2 => cases e2 with
      | cons f2 e2 => cases e2 with
        | cons f3 e2 =>
          cases e2
          rename_i a1 a2 a3
          have l1 := f1.1; have l2 := f2.1; have l3 := f3.1
          rw [htwo t1 (by simp)] at l1
          rw [htwo t2 (by simp)] at l2
          rw [htwo t3 (by simp)] at l3
          obtain ⟨a, rfl⟩ := List.length_eq_one_iff.1 l1
          obtain ⟨b, rfl⟩ := List.length_eq_one_iff.1 l2
          obtain ⟨c, rfl⟩ := List.length_eq_one_iff.1 l3
          refine ⟨o', [a, b, c], _, c, e1, e3, rfl, follows_lt f3 c (by simp), .cons f1 (.cons f2 (.cons f3 .nil)), ?_⟩
          have hlow : ((3 : ℕ).factorial : ℝ) ^ (-d) < ((3 : ℕ) : ℝ) ^ (-d) := by
            apply Real.rpow_lt_rpow_of_neg <;> norm_num [Nat.factorial, hd]
          have h2 : (0 : ℝ) ≤ ((2 : ℕ) : ℝ) ^ (-d) := Real.rpow_nonneg (by norm_num) _
          have h2' : ((2 : ℕ) : ℝ) ^ (-d) ≤ 1 :=
            Real.rpow_le_one_of_one_le_of_nonpos (by norm_num) (neg_nonpos.2 hd.le)
          have hstep : ∀ (q r α : ℝ), q < 1 → r ≤ 1 → 0 ≤ α → α < 1 → q + α * (r - q) < 1 := by
            intro q r α hq hr h0 h1
            nlinarith [mul_nonneg h0 (sub_nonneg.2 hr), mul_pos (sub_pos.2 hq) (sub_pos.2 h1)]
          have hone : ∀ i j, (Spec.oneHot i j : ℝ) ≤ 1 := by
            intro i j; unfold Spec.oneHot; split_ifs <;> simp
          have q1 : 0 + lr * (Spec.oneHot a c - 0) < (1 : ℝ) := hstep 0 _ lr one_pos (hone a c) hlr.le hlr1
          have q2 := hstep _ (Spec.oneHot b c) (lr * ((2 : ℕ) : ℝ) ^ (-d)) q1 (hone b c) (mul_nonneg hlr.le h2)
            (by nlinarith)
          have r1 : ((1 : ℕ) : ℝ) ^ (-d) = 1 := by simp
          have hc : (Spec.oneHot c c : ℝ) = 1 := if_pos rfl
          simp only [List.flatten_cons, List.flatten_nil, List.append_nil, List.singleton_append, Spec.tdEstimate,
            TdLearner.reward, TdLearner.start, Nat.reduceAdd, Nat.factorial_one, Nat.factorial_two, r1, mul_one, hc]
          have := mul_pos hlr (sub_pos.2 hlow)
          nlinarith [mul_pos this (sub_pos.2 q2)]

/-- **C69 (policy learner), what holds.** The first two updates of a learner whose rate was not decayed before use the
documented rates, as does every update without decay. -/
theorem C69_td_partial (o : TdLearner ℝ) (d : ℝ) (hd : 0 ≤ d) (ho : o.decay = Decay.real d)
    (hadj : o.adjusted = o.lr) (n : Nat) (hn : n = 1 ∨ n = 2 ∨ d = 0) :
    o.rate o.adjusted n = o.lr * (n : ℝ) ^ (-d) := by
  unfold TdLearner.rate
  rw [ho, hadj]
  by_cases h : d = 0
  · subst h
    rw [if_neg (show ¬ (Decay.real 0).positive from lt_irrefl _)]
    simp
  · have hp : (Decay.real d).positive := lt_of_le_of_ne hd (Ne.symm h)
    rw [if_pos hp]
    rcases hn with rfl | rfl | h'
    · simp [Decay.real, Decay.fac]
    · simp [Decay.real, Decay.fac, Finset.prod_range_succ]
      left; norm_num
    · exact absurd h' h

/-! ## C86: integer decay -/

/-- **C86 is false of the code.** With a positive integer decay, which is the documented type, `fit` raises
`ValueError` as soon as it sees a step. -/
theorem C86_refuted (o : TdLearner K) (d : Int) (hd : 0 < d) (ho : o.decay = .int d) (m : Mdp K)
    (hq : o.q = .none ∨ ∃ x, o.q = .vec ⟨m.nActions, x⟩) (ts : List (List Nat)) (ht : Spec.Observed m ts)
    (hs : ∃ t ∈ ts, 2 ≤ t.length) : (o.fit (.inl m) (toInts ts)).2 = .error .valueError := by
  have key : ∀ (ms : List (Mdp K)), m ∈ ms.head? → ∀ (ts : List (List Nat)), Spec.Observed m ts →
      (∃ t ∈ ts, 2 ≤ t.length) → ∀ (o : TdLearner K), o.decay = .int d → (∃ x, o.q = .vec ⟨m.nActions, x⟩) →
      (TdLearner.trajectories ms ((List.replicate ts.length m).zip (toInts ts)) o).2 = .error .valueError := by
    intro ms hms ts
    induction ts with
    | nil => intro _ h; simp at h
    | cons t ts ih =>
      intro ht hs o ho hq
      have ht' : Spec.Observed m ts := fun u hu => ht u (List.mem_cons_of_mem _ hu)
      have hrest : t.length < 2 → ∃ t ∈ ts, 2 ≤ t.length := by
        intro hl
        obtain ⟨u, hu, hu2⟩ := hs
        rcases List.mem_cons.1 hu with rfl | hu
        · omega
        · exact ⟨u, hu, hu2⟩
      simp only [toInts, List.length_cons, List.replicate_succ, List.map_cons, List.zip_cons_cons,
        TdLearner.trajectories]
      match t, ht t List.mem_cons_self with
      | [], _ =>
        simp only [List.map_nil, if_true]
        exact ih ht' (hrest (by simp)) o ho hq
      | [s], _ =>
        simp only [List.map_cons, List.map_nil, List.cons_ne_nil, if_false, Mdp.trajectoryToStateAction,
          Mdp.trajectoryLoop, TdLearner.actions]
        exact ih ht' (hrest (by simp)) o ho hq
      | s :: u :: rest, h' =>
        obtain ⟨sa, e1, e2⟩ := reads_follow m (s :: u :: rest) (h'.resolve_left (by simp))
        have hne : ((s :: u :: rest).map fun (n : Nat) => (n : Int)) ≠ [] := by simp
        rw [if_neg hne]
        have e3 : m.trajectoryToStateAction ((s :: u :: rest).map fun (n : Nat) => (n : Int)) = .ok sa := by
          unfold Mdp.trajectoryToStateAction; rw [if_neg hne, e1]
        rw [e3]
        have hl := e2.1
        have hlt := follows_lt e2
        simp only [List.length_cons] at hl
        match hsa : sa.map Prod.snd, hl, hlt with
        | [], hl, _ => simp at hl
        | a :: as, _, hlt =>
          match ms, hms with
          | m' :: ms, hm' =>
            obtain rfl : m' = m := by simpa using hm'
            obtain ⟨x, hx⟩ := hq
            have : ∃ o1, (o.action (m' :: ms) 0 a) = (o1, .error .valueError) := by
              unfold TdLearner.action
              simp only [List.getElem?_cons_zero, TdLearner.trial]
              have ha : a < m'.nActions := hlt a List.mem_cons_self
              have hp : (Decay.int d : Decay K).positive := hd
              cases o.kernel with
              | none => simp [if_pos ha, hx, ho, if_pos hp, Decay.power, hd]
              | some k => simp [hx, ho, if_pos hp, Decay.power, hd]
            obtain ⟨o1, h1⟩ := this
            simp only [hsa, TdLearner.actions, h1]
  have hne : ts ≠ [] := by rintro rfl; simp at hs
  have hlen : (toInts ts).length = ts.length := by simp [toInts]
  rw [fit_single, hlen]
  unfold TdLearner.fit
  simp only [hlen, List.length_replicate, if_true]
  have fin : ∀ r : TdLearner K × Py Unit, r.2 = .error .valueError → (match r with
      | (o, .error e) => ((o, .error e) : TdLearner K × Py Unit)
      | (o, .ok ()) => ({ o with fitted := true }, .ok ())).2 = .error .valueError := by
    rintro ⟨r1, r2⟩ rfl; rfl
  apply fin
  match ts, hne with
  | t :: ts, _ =>
    have hk := key (List.replicate (t :: ts).length m) (by simp [List.replicate_succ]) (t :: ts) ht hs
    unfold TdLearner.fitTd
    rcases hq with hq | ⟨x, hq⟩
    · rw [hq]
      exact hk _ ho ⟨_, rfl⟩
    · rw [hq]
      exact hk _ ho ⟨x, rfl⟩

/-- **C86, what holds.** The decay must be zero or a float; then `fit` succeeds on trajectories that are short enough. -/
theorem C86_partial (lr : K) (decay : Decay K) (hd : decay = .int 0 ∨ ∃ d fac, 0 ≤ d ∧ decay = .float d fac)
    (hlr : 0 < lr) (kernel : Option (Nat → Nat → Nat → K)) (m : Mdp K) (ts : List (List Nat)) (h0 : ts ≠ [])
    (ht : Spec.Observed m ts) (hshort : ∀ t ∈ ts, t.length ≤ ts.length + 1) :
    ∃ o o', TdLearner.init lr decay none kernel = .ok o ∧ o.fit (.inl m) (toInts ts) = (o', .ok ()) := by
  have hn : ¬ decay.negative := by
    rcases hd with rfl | ⟨d, fac, hd, rfl⟩
    · exact lt_irrefl 0
    · exact not_lt.2 hd
  have hu : decay.usable := by
    rcases hd with rfl | ⟨d, fac, hd, rfl⟩
    · exact le_rfl
    · trivial
  obtain ⟨o', -, e, -⟩ := C74_partial ⟨lr, decay, kernel, lr, 1, .none, .obj, false, false⟩ m
    ⟨hu, .inl rfl, by simp⟩ ts h0 ht hshort
  exact ⟨_, o', by unfold TdLearner.init; rw [if_neg (by simpa using hlr), if_neg hn], e⟩

/-- Decay 1 fails on a single step. -/
example : (match exStrip, TdLearner.init (1/2 : ℚ) (.int 1) none none with
    | .ok m, .ok o => match o.fit (.inl m) [[0, 1]] with
      | (_, .error e) => decide (e = .valueError)
      | _ => false
    | _, _ => false) = true := by decide +kernel

/-! ## C87: reset -/

theorem td_frame (o : TdLearner K) (ops : List (TdOp K)) :
    (o.runOps ops).lr = o.lr ∧
      ((∀ op ∈ ops, op ≠ .reset) → o.aliased = false → (o.runOps ops).original = o.original) := by
  have hact : ∀ (o : TdLearner K) ms i a, (o.action ms i a).1.lr = o.lr ∧ (o.action ms i a).1.aliased = o.aliased ∧
      (o.aliased = false → (o.action ms i a).1.original = o.original) := by
    intro o ms i a
    unfold TdLearner.action
    split
    · exact ⟨rfl, rfl, fun _ => rfl⟩
    · split
      · exact ⟨rfl, rfl, fun _ => rfl⟩
      · split
        · exact ⟨rfl, rfl, fun _ => rfl⟩
        · exact ⟨rfl, rfl, fun _ => rfl⟩
        · split_ifs
          · exact ⟨rfl, rfl, fun _ => rfl⟩
          all_goals
            dsimp only
            try split
          all_goals first
            | exact ⟨rfl, rfl, fun _ => rfl⟩
            | exact ⟨rfl, rfl, fun h => by simp [TdLearner.write, h]⟩
  have hacts : ∀ ms l i (o : TdLearner K), (TdLearner.actions ms l i o).1.lr = o.lr ∧
      (TdLearner.actions ms l i o).1.aliased = o.aliased ∧
      (o.aliased = false → (TdLearner.actions ms l i o).1.original = o.original) := by
    intro ms l
    induction l with
    | nil => intro i o; exact ⟨rfl, rfl, fun _ => rfl⟩
    | cons a l ih =>
      intro i o
      have h1 := hact o ms i a
      rw [TdLearner.actions]
      split
      · rename_i h'; rw [h'] at h1; exact h1
      · rename_i o1 h'; rw [h'] at h1
        obtain ⟨b1, b2, b3⟩ := ih (i + 1) o1
        exact ⟨b1.trans h1.1, b2.trans h1.2.1, fun h => (b3 (h1.2.1.trans h)).trans (h1.2.2 h)⟩
  have htr : ∀ ms l (o : TdLearner K), (TdLearner.trajectories ms l o).1.lr = o.lr ∧
      (TdLearner.trajectories ms l o).1.aliased = o.aliased ∧
      (o.aliased = false → (TdLearner.trajectories ms l o).1.original = o.original) := by
    intro ms l
    induction l with
    | nil => intro o; exact ⟨rfl, rfl, fun _ => rfl⟩
    | cons p l ih =>
      obtain ⟨m, t⟩ := p
      intro o
      rw [TdLearner.trajectories]
      split_ifs
      · exact ih o
      · split
        · exact ⟨rfl, rfl, fun _ => rfl⟩
        · rename_i sa _
          have h1 := hacts ms (sa.map Prod.snd) 0 o
          split
          · rename_i h'; rw [h'] at h1; exact h1
          · rename_i o1 h'; rw [h'] at h1
            obtain ⟨b1, b2, b3⟩ := ih o1
            exact ⟨b1.trans h1.1, b2.trans h1.2.1, fun h => (b3 (h1.2.1.trans h)).trans (h1.2.2 h)⟩
  have hfit : ∀ (o : TdLearner K) mdps ts, (o.fit mdps ts).1.lr = o.lr ∧
      (o.aliased = false → (o.fit mdps ts).1.aliased = false ∧ (o.fit mdps ts).1.original = o.original) := by
    intro o mdps ts
    have h1 : ∀ ms, (o.fitTd ms ts).1.lr = o.lr ∧
        (o.aliased = false → (o.fitTd ms ts).1.aliased = false ∧ (o.fitTd ms ts).1.original = o.original) := by
      intro ms
      unfold TdLearner.fitTd
      split
      · split
        · exact ⟨rfl, fun h => ⟨h, rfl⟩⟩
        · exact ⟨(htr _ _ _).1, fun h => ⟨(htr _ _ _).2.1, (htr _ _ _).2.2 rfl⟩⟩
      · exact ⟨(htr _ _ _).1, fun h => ⟨(htr _ _ _).2.1.trans h, (htr _ _ _).2.2 h⟩⟩
    unfold TdLearner.fit
    dsimp only
    split
    · exact ⟨rfl, fun h => ⟨h, rfl⟩⟩
    · rename_i ms _
      have h2 := h1 ms
      split
      · rename_i h'; rw [h'] at h2; exact h2
      · rename_i h'; rw [h'] at h2; exact h2
  induction ops generalizing o with
  | nil => exact ⟨rfl, fun _ _ => rfl⟩
  | cons op ops ih =>
    obtain ⟨b1, b2⟩ := ih (o.call op)
    have hops : (∀ p ∈ op :: ops, p ≠ .reset) → ∀ p ∈ ops, p ≠ .reset := fun h p hp => h p (List.mem_cons_of_mem _ hp)
    cases op with
    | reset => exact ⟨b1, fun h => absurd rfl (h _ List.mem_cons_self)⟩
    | resetLr => exact ⟨b1, fun h ha => b2 (hops h) ha⟩
    | fit mdps ts =>
      obtain ⟨c1, c2⟩ := hfit o mdps ts
      exact ⟨b1.trans c1, fun h ha => (b2 (hops h) (c2 ha).1).trans (c2 ha).2⟩

/-- **C87 (learning rate).** After any calls, `reset` and `reset_learning_rate` restore the constructor's rate, and the
next update counts as the first. -/
theorem C87_learning_rate (lr : K) (decay : Decay K) (q : Option (Arr1 K)) (kernel : Option (Nat → Nat → Nat → K))
    (o : TdLearner K) (h : TdLearner.init lr decay q kernel = .ok o) (ops : List (TdOp K)) :
    (o.runOps ops).reset.adjusted = lr ∧ (o.runOps ops).resetLr.adjusted = lr ∧
      (o.runOps ops).reset.nSeen = 1 ∧ (o.runOps ops).resetLr.nSeen = 1 := by
  have h0 : o.lr = lr := by
    unfold TdLearner.init at h
    split_ifs at h
    obtain rfl := Except.ok.inj h
    rfl
  exact ⟨((td_frame o ops).1).trans h0, ((td_frame o ops).1).trans h0, rfl, rfl⟩

/-- **C87, what holds of the estimates.** The first `reset` of a learner built with estimates restores them, after any
calls. Missing: later resets, and learners built without estimates. -/
theorem C87_partial (lr : K) (decay : Decay K) (x : Arr1 K) (kernel : Option (Nat → Nat → Nat → K))
    (o : TdLearner K) (h : TdLearner.init lr decay (some x) kernel = .ok o) (ops : List (TdOp K))
    (hops : ∀ op ∈ ops, op ≠ .reset) : (o.runOps ops).reset.q = .vec x := by
  unfold TdLearner.init at h
  split_ifs at h
  obtain rfl := Except.ok.inj h
  exact (td_frame _ ops).2 hops rfl

/-- **C87 is false of the code.** After one reset a successful `fit` writes its estimates into the saved array too, so
that another reset keeps the fitted estimates. -/
theorem C87_refuted (o : TdLearner K) (m : Mdp K) (x : Nat → K) (hu : o.decay.usable)
    (ho : o.original = .vec ⟨m.nActions, x⟩) (ts : List (List Nat)) (ht : Spec.Observed m ts)
    (hshort : ∀ t ∈ ts, t.length ≤ ts.length + 1) :
    ∃ o' y, o.reset.fit (.inl m) (toInts ts) = (o', .ok ()) ∧ o'.q = .vec y ∧ o'.reset.q = .vec y := by
  have hr : o.reset.Ready m.nActions := ⟨hu, .inr ⟨x, ho⟩, fun _ => rfl⟩
  obtain ⟨ass, h1, h2⟩ := readable m ts ht
  have hlen : (toInts ts).length = ts.length := by simp [toInts]
  have hms : ∀ m' ∈ List.replicate ts.length m, m'.nActions = m.nActions :=
    fun m' hm' => by rw [(List.mem_replicate.1 hm').2]
  have ha : ∀ as ∈ ass, as.length ≤ (List.replicate ts.length m).length ∧ ∀ a ∈ as, a < m.nActions := by
    intro as has
    obtain ⟨i, hi, e⟩ := List.mem_iff_getElem.1 has
    have := List.forall₂_iff_get.1 h2
    have hi' : i < ts.length := by omega
    have hf := this.2 i hi' hi
    simp only [List.get_eq_getElem] at hf
    rw [e] at hf
    refine ⟨?_, follows_lt hf⟩
    have hs := hshort ts[i] (List.getElem_mem hi')
    have := hf.1
    rw [List.length_replicate]
    omega
  have hstart : (⟨o.reset.lr, o.reset.decay, o.reset.kernel, o.reset.adjusted, 1, .vec ⟨m.nActions, x⟩,
      o.reset.original, o.reset.aliased, o.reset.fitted⟩ : TdLearner K) = o.reset.at o.reset.adjusted 0 m.nActions x := by
    unfold TdLearner.at TdLearner.write TdLearner.reset
    simp [ho]
  have hT := trajectories_ok o.reset hu o.reset.adjusted m.nActions (List.replicate ts.length m) hms
    ((List.replicate ts.length m).zip (toInts ts)) ass 0 x h1 ha
  have hq : o.reset.q = .vec ⟨m.nActions, x⟩ := ho
  rw [fit_single, hlen]
  unfold TdLearner.fit
  simp only [hlen, List.length_replicate, if_true]
  unfold TdLearner.fitTd
  simp only [hq]
  rw [hstart, hT]
  exact ⟨_, _, rfl, rfl, rfl⟩

/-- Without initial estimates, `reset` makes the learner unusable: any `fit` that reads a step fails. -/
theorem C87_refuted_none (lr : K) (decay : Decay K) (kernel : Option (Nat → Nat → Nat → K)) (o : TdLearner K)
    (h : TdLearner.init lr decay none kernel = .ok o) (m : Mdp K) (t : List Nat) (ht : Spec.IsTrajectory m t)
    (hl : 2 ≤ t.length) : o.reset.fit (.inl m) (toInts [t]) = (o.reset, .error .typeError) := by
  unfold TdLearner.init at h
  split_ifs at h
  obtain rfl := Except.ok.inj h
  obtain ⟨sa, e1, e2⟩ := reads_follow m t ht
  have hne : (t.map fun (n : Nat) => (n : Int)) ≠ [] := by
    intro h'; rw [List.map_eq_nil_iff] at h'; subst h'; simp at hl
  have e3 : m.trajectoryToStateAction (t.map fun (n : Nat) => (n : Int)) = .ok sa := by
    unfold Mdp.trajectoryToStateAction; rw [if_neg hne, e1]
  have hlen := e2.1
  have hlt := follows_lt e2
  unfold TdLearner.fit TdLearner.fitTd TdLearner.reset
  simp only [toInts, List.map_cons, List.map_nil, List.length_cons, List.length_nil, Nat.zero_add,
    List.replicate_one, List.zip_cons_cons, List.zip_nil_left, TdLearner.trajectories, if_neg hne, e3]
  match hsa : sa.map Prod.snd, hlen, hlt with
  | [], hlen, _ => simp at hlen; omega
  | a :: as, _, hlt =>
    have ha : a < m.nActions := hlt a List.mem_cons_self
    cases kernel with
    | none => simp [TdLearner.actions, TdLearner.action, TdLearner.trial, ha]
    | some k => simp [TdLearner.actions, TdLearner.action, TdLearner.trial]

/-- Start, reset, fit, reset: the start is lost. -/
example : (match exStrip, TdLearner.init (1/2 : ℚ) (.int 0) (some ⟨4, fun _ => 0⟩) none with
    | .ok m, .ok o => match (o.runOps [.reset, .fit (.inl m) [[0, 1]], .reset]).q with
      | .vec x => decide (x.get 0 = 1/2)
      | _ => false
    | _, _ => false) = true := by decide +kernel

/-! ## C76: angular distance -/

theorem degdist_spec [FloorRing K] (x y : K) :
    ∃ k : ℤ, degdist x y = |x - y + 360 * (k : K)| ∧ -180 ≤ x - y + 360 * (k : K) ∧ x - y + 360 * (k : K) < 180 := by
  have h1 := Int.floor_le ((x - y + 180) / 360)
  have h2 := Int.lt_floor_add_one ((x - y + 180) / 360)
  rw [le_div_iff₀ (by norm_num)] at h1
  rw [div_lt_iff₀ (by norm_num)] at h2
  refine ⟨-⌊(x - y + 180) / 360⌋, ?_, ?_, ?_⟩
  · unfold degdist pyMod
    congr 1
    push_cast
    ring
  · push_cast; linarith
  · push_cast; linarith

/-- **C76 (shortest way round).** The distance is attained by some number of full turns, and no number of full turns
does better. -/
theorem C76_shortest [FloorRing K] (x y : K) :
    (∃ k : ℤ, degdist x y = |x - y + 360 * (k : K)|) ∧ ∀ k : ℤ, degdist x y ≤ |x - y + 360 * (k : K)| := by
  obtain ⟨k, e, h1, h2⟩ := degdist_spec x y
  refine ⟨⟨k, e⟩, fun j => ?_⟩
  rw [e]
  rcases lt_trichotomy j k with h | rfl | h
  · have : (j : K) + 1 ≤ k := by exact_mod_cast h
    rw [abs_le']
    constructor <;> rw [le_abs] <;> right <;> linarith
  · exact le_rfl
  · have : (k : K) + 1 ≤ j := by exact_mod_cast h
    rw [abs_le']
    constructor <;> rw [le_abs] <;> left <;> linarith

/-- **C76 (symmetry, range, period).** -/
theorem C76_metric [FloorRing K] (x y : K) (n : ℤ) :
    degdist x y = degdist y x ∧ 0 ≤ degdist x y ∧ degdist x y ≤ 180 ∧ degdist (x + 360 * n) y = degdist x y ∧
      degdist x (y + 360 * n) = degdist x y ∧ (degdist x y = 0 ↔ ∃ k : ℤ, x = y + 360 * k) := by
  have le : ∀ x y x' y' : K, (∀ k : ℤ, ∃ j : ℤ, |x' - y' + 360 * (j : K)| = |x - y + 360 * (k : K)|) →
      degdist x' y' ≤ degdist x y := by
    intro x y x' y' h
    obtain ⟨⟨k, e⟩, -⟩ := C76_shortest x y
    obtain ⟨j, hj⟩ := h k
    rw [e, ← hj]
    exact (C76_shortest x' y').2 j
  obtain ⟨k, e, h1, h2⟩ := degdist_spec x y
  refine ⟨le_antisymm (le _ _ _ _ fun k => ⟨-k, ?_⟩) (le _ _ _ _ fun k => ⟨-k, ?_⟩), ?_, ?_,
    le_antisymm (le _ _ _ _ fun k => ⟨k - n, ?_⟩) (le _ _ _ _ fun k => ⟨k + n, ?_⟩),
    le_antisymm (le _ _ _ _ fun k => ⟨k + n, ?_⟩) (le _ _ _ _ fun k => ⟨k - n, ?_⟩), ?_, ?_⟩
  · rw [← abs_neg]; congr 1; push_cast; ring
  · rw [← abs_neg]; congr 1; push_cast; ring
  · rw [e]; exact abs_nonneg _
  · rw [e, abs_le]; constructor <;> linarith
  · congr 1; push_cast; ring
  · congr 1; push_cast; ring
  · congr 1; push_cast; ring
  · congr 1; push_cast; ring
  · intro h0
    rw [e, abs_eq_zero] at h0
    exact ⟨-k, by push_cast; linarith⟩
  · rintro ⟨j, rfl⟩
    refine le_antisymm ?_ (by rw [e]; exact abs_nonneg _)
    have := (C76_shortest (y + 360 * (j : K)) y).2 (-j)
    refine this.trans (le_of_eq ?_)
    rw [abs_eq_zero]; push_cast; ring

example : degdist (350 : ℚ) 10 = 20 ∧ degdist (10 : ℚ) 350 = 20 ∧ degdist (0 : ℚ) 180 = 180 := by decide +kernel

/-! ## C77: the kernel -/

/-- **C77 is false of the code.** Because of operator precedence the kernel strictly decreases in the length scale, for
any two different directions. -/
theorem C77_refuted (x y ls ls' variance : ℝ) (hv : 0 < variance) (hd : ¬ ∃ k : ℤ, x = y + 360 * k) (h0 : 0 ≤ ls)
    (h : ls < ls') : degKernel x y ls' variance < degKernel x y ls variance := by
  have hpos : 0 < degdist x y := lt_of_le_of_ne (C76_metric x y 0).2.1
    fun e => hd ((C76_metric x y 0).2.2.2.2.2.1 e.symm)
  unfold degKernel
  apply mul_lt_mul_of_pos_left _ hv
  rw [Real.exp_lt_exp, neg_lt_neg_iff]
  apply mul_lt_mul_of_pos_left
  · exact pow_lt_pow_left₀ h h0 (by norm_num)
  · positivity

/-- **C77, what holds.** For each length scale the kernel is symmetric, lies in (0, variance], equals the variance for
equal directions, never grows with the angular distance, and depends on the directions only modulo full turns. -/
theorem C77_partial (x y u v ls variance : ℝ) (hv : 0 < variance) (n : ℤ) :
    degKernel x y ls variance = degKernel y x ls variance ∧ 0 < degKernel x y ls variance ∧
      degKernel x y ls variance ≤ variance ∧ degKernel x x ls variance = variance ∧
      degKernel (x + 360 * n) y ls variance = degKernel x y ls variance ∧
      (degdist x y ≤ degdist u v → degKernel u v ls variance ≤ degKernel x y ls variance) := by
  have h := C76_metric x y n
  have hx : degdist x x = 0 := (C76_metric x x 0).2.2.2.2.2.2 ⟨0, by simp⟩
  unfold degKernel
  refine ⟨by rw [h.1], mul_pos hv (Real.exp_pos _), ?_, by rw [hx]; simp, by rw [h.2.2.2.1], fun hle => ?_⟩
  · refine mul_le_of_le_one_right hv.le (Real.exp_le_one_iff.2 (neg_nonpos.2 ?_))
    positivity
  · refine mul_le_mul_of_nonneg_left (Real.exp_le_exp.2 (neg_le_neg ?_)) hv.le
    have := pow_le_pow_left₀ h.2.1 hle 2
    exact mul_le_mul_of_nonneg_right (by linarith) (sq_nonneg _)

/-- Two neighbouring directions of a square grid, length scales 1 and 2. -/
example : degKernel 0 90 2 1 < degKernel 0 90 1 1 := by
  refine C77_refuted 0 90 1 2 1 one_pos ?_ zero_le_one one_lt_two
  rintro ⟨k, hk⟩
  have h4 : (0 : ℝ) = ((90 + 360 * k : ℤ) : ℝ) := by push_cast; linarith
  have : (0 : ℤ) = 90 + 360 * k := by exact_mod_cast h4
  omega

end MaMDP
