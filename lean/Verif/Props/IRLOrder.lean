import Verif.Props.FeatureMatching

/-! # The order in which trajectories are listed (C127) -/

set_option linter.unusedSectionVars false

namespace MaMDP

variable {K : Type} [Field K] [LinearOrder K] [IsStrictOrderedRing K]

theorem mceExpected_perm (m : Mdp K) (solve : (Nat → K) → Py ((Nat → K) × (Nat → Nat → Ext K)))
    (sel : Selector K δ) (ts us : List (List Int)) (hp : ts.Perm us) (n : Nat)
    (hts : ∀ t ∈ ts, ∃ i l, t = i :: l ∧ Spec.InRange m.nStates i) :
    mceExpected m solve sel ts n = mceExpected m solve sel us n := by
  have hc : ∀ s, (ts.map fun t => Spec.stateOf m.nStates (t.headD 0)).count s =
      (us.map fun t => Spec.stateOf m.nStates (t.headD 0)).count s := fun s => (hp.map _).count_eq s
  funext θ
  unfold mceExpected
  rw [startCounts_eq m.nStates ts _ hts, startCounts_eq m.nStates us _ fun t ht => hts t (hp.mem_iff.2 ht)]
  simp only [hc]

/-- **C127 (expected counts).** The features expected by max-causal-entropy IRL do not depend on the order of the
trajectories, for the hard learner. -/
theorem C127_expected_hard (m : Mdp K) (ts us : List (List Int)) (hp : ts.Perm us) (n : Nat) (γ tol : K)
    (hts : ∀ t ∈ ts, ∃ i l, t = i :: l ∧ Spec.InRange m.nStates i) :
    mceHard m n γ tol ts = mceHard m n γ tol us := mceExpected_perm m _ _ ts us hp n hts

/-- **C127 (expected counts).** The same for the soft learner. -/
theorem C127_expected_soft (m : Mdp ℝ) (ts us : List (List Int)) (hp : ts.Perm us) (n : Nat) (γ tol : ℝ)
    (hts : ∀ t ∈ ts, ∃ i l, t = i :: l ∧ Spec.InRange m.nStates i) :
    mceSoft m n γ tol ts = mceSoft m n γ tol us := mceExpected_perm m _ _ ts us hp n hts

/-- **C127 (feature matching).** Feature matching gives the same weights for any order of the trajectories. -/
theorem C127_matching (m : Mdp K) (ts us : List (List Int)) (hp : ts.Perm us) (hne : ∀ t ∈ ts, t ≠ []) (h0 : ts ≠ [])
    (hf : m.features.d0 = m.nFeatures) (hr : ∀ t ∈ ts, ∀ i ∈ t.tail, Spec.InRange m.features.d1 i) :
    ∃ x, matchFit (.inl m) ts [] = .ok x ∧ ∃ y, matchFit (.inl m) us [] = .ok y ∧ y.d0 = x.d0 ∧
      ∀ f, y.get f = x.get f := by
  obtain ⟨x, hx, x1, x2⟩ := C70_partial m ts h0 (fun h => hne [] (List.mem_of_head? h) rfl) hf hr
  obtain ⟨y, hy, y1, y2⟩ := C70_partial m us (fun h => h0 (by rw [h] at hp; exact hp.eq_nil))
    (fun h => hne [] (hp.mem_iff.2 (List.mem_of_head? h)) rfl) hf fun t ht => hr t (hp.mem_iff.2 ht)
  refine ⟨x, hx, y, hy, by rw [x1, y1], fun f => ?_⟩
  rw [x2, y2]
  exact ((hp.map _).sum_eq).symm

theorem nestedVisits_perm (n : Nat) (ts us : List (List Int)) (hp : ts.Perm us)
    (ht : ∀ t ∈ ts.tail, t.length = 1) (hu : ∀ t ∈ us.tail, t.length = 1) (s : Nat) :
    Spec.nestedVisits (K := K) n ts s = Spec.nestedVisits n us s := by
  rw [nested_eq_average n ts ht, nested_eq_average n us hu]
  exact (hp.map _).sum_eq

/-- **C127, what holds (max-causal-entropy).** When only the first trajectory is longer than one state, in both orders,
the whole of `fit` (outcome and learner left behind) does not depend on the order. -/
theorem C127_partial (o : MceIrl K) (m : Mdp K) (ts us : List (List Int)) (hp : ts.Perm us)
    (ht : ∀ t ∈ ts.tail, t.length = 1) (hu : ∀ t ∈ us.tail, t.length = 1) (hne : ∀ t ∈ ts, t ≠ [])
    (hr : ∀ t ∈ ts, ∀ i ∈ t, Spec.InRange m.nStates i) (ign : Ignore) (n : Nat) (γ : K) :
    o.fit m ts ign (mceHard m n γ o.set.tol ts) = o.fit m us ign (mceHard m n γ o.set.tol us) := by
  have hts : ∀ t ∈ ts, ∃ i l, t = i :: l ∧ Spec.InRange m.nStates i := by
    intro u hu
    match u, hne u hu, hr u hu with
    | i :: l, _, hr => exact ⟨i, l, rfl, hr i List.mem_cons_self⟩
  rw [C127_expected_hard m ts us hp n γ o.set.tol hts]
  have hemp : empirical (K := K) m.nStates ts = empirical m.nStates us := by
    rw [(C67_exact m.nStates ts).1 hr, (C67_exact m.nStates us).1 fun t h => hr t (hp.mem_iff.2 h), hp.length_eq]
    congr 1
    funext s
    rw [nestedVisits_perm m.nStates ts us hp ht hu]
  match ts, us, hne, hemp, hp with
  | [], [], _, _, _ => rfl
  | [], u :: us, _, _, hp => exact absurd hp.length_eq (by simp)
  | t :: ts, [], _, _, hp => exact absurd hp.length_eq (by simp)
  | [] :: ts, _, hne, _, _ => exact absurd rfl (hne [] List.mem_cons_self)
  | (i :: t) :: ts, [] :: us, hne, _, hp => exact absurd rfl (hne [] (hp.mem_iff.2 List.mem_cons_self))
  | (i :: t) :: ts, (j :: u) :: us, _, hemp, _ =>
    unfold MceIrl.fit
    simp only [hemp]

/-- **C127 is false of the code (max-causal-entropy).** On every model with a feature that is 1 in all states, two
trajectories of different lengths give different weights to that feature depending on which is listed first (one
iteration; the weights differ by the learning rate times half the difference of the inverse lengths). -/
theorem C127_refuted (o : MceIrl K) (hlr : o.lr ≠ 0) (hit : o.set.maxIter = 1) (m : Mdp K)
    (hM : Spec.SubStochastic m.trans) (hA : 0 < m.nActions) (hS : 0 < m.nStates) (t u : List Int) (ht : t ≠ [])
    (hu : u ≠ []) (hl : t.length ≠ u.length) (rt : ∀ i ∈ t, Spec.InRange m.nStates i)
    (ru : ∀ i ∈ u, Spec.InRange m.nStates i) (l : List Int) (hv : ∀ i ∈ l, Spec.InRange m.nFeatures i) (f : Nat)
    (hfl : ¬ Spec.Names m.nFeatures l f) (hf : ∀ s, s < m.nStates → m.features.get f s = 1) (n : Nat) (hn : 0 < n)
    (γ : K) (g0 : 0 < γ) (g1 : γ < 1)
    (start : Nat → K) (hs : o.theta = .none ∧ start = (fun _ => 0) ∨ o.theta = .vec start) :
    ∃ o₁ R₁ o₂ R₂, o.fit m [t, u] (.list l) (mceHard m n γ o.set.tol [t, u]) = (o₁, .ok R₁) ∧
      o.fit m [u, t] (.list l) (mceHard m n γ o.set.tol [u, t]) = (o₂, .ok R₂) ∧ R₁ f ≠ R₂ f := by
  have hts : ∀ v ∈ [t, u], ∃ i l, v = i :: l ∧ Spec.InRange m.nStates i := by
    intro v hv
    rcases List.mem_pair.1 hv with rfl | rfl
    · match v, ht, rt with
      | i :: l, _, hr => exact ⟨i, l, rfl, hr i List.mem_cons_self⟩
    · match v, hu, ru with
      | i :: l, _, hr => exact ⟨i, l, rfl, hr i List.mem_cons_self⟩
  have hr1 : ∀ v ∈ [t, u], ∀ i ∈ v, Spec.InRange m.nStates i := by
    intro v hv
    rcases List.mem_pair.1 hv with rfl | rfl <;> assumption
  have hr2 : ∀ v ∈ [u, t], ∀ i ∈ v, Spec.InRange m.nStates i := by
    intro v hv
    rcases List.mem_pair.1 hv with rfl | rfl <;> assumption
  have hE := fun θ => C66_expected_hard m hM hA hS [t, u] hts n hn γ o.set.tol g0 g1 θ
  choose E π v q e1 e2 e3 e4 e5 e6 using hE
  have hk : 0 < o.set.maxIter := by omega
  obtain ⟨N, o₁, a1, a2, a3, -⟩ := C68_partial o m [t, u] l hv (by simp) (by simpa using ht) hr1
    (mceHard m n γ o.set.tol [t, u]) E e1 start hs hk _ rfl _ (fun _ => rfl)
  obtain ⟨N', o₂, b1, b2, b3, -⟩ := C68_partial o m [u, t] l hv (by simp) (by simpa using hu) hr2
    (mceHard m n γ o.set.tol [t, u]) E e1 start hs hk _ rfl _ (fun _ => rfl)
  obtain rfl : N = 1 := by omega
  obtain rfl : N' = 1 := by omega
  rw [← C127_expected_hard m [t, u] [u, t] (List.Perm.swap _ _ _) n γ o.set.tol hts]
  refine ⟨o₁, _, o₂, _, a3, b3, fun hc => hl ?_⟩
  have hobs : ∀ (a b : List Int), a ≠ [] → b ≠ [] → (∀ i ∈ a, Spec.InRange m.nStates i) →
      (∀ i ∈ b, Spec.InRange m.nStates i) → observedCounts m [a, b] f = ((1 : K) / b.length + 1) / 2 := by
    intro a b ha hb ra rb
    have la : (a.length : K) ≠ 0 := by have := List.length_pos_iff.2 ha; exact_mod_cast this.ne'
    have lb : (b.length : K) ≠ 0 := by have := List.length_pos_iff.2 hb; exact_mod_cast this.ne'
    unfold observedCounts
    have : ∀ s ∈ Finset.range m.nStates, m.features.get f s *
        (Spec.nestedVisits m.nStates [a, b] s / (([a, b] : List (List Int)).length : K)) =
        ((Spec.visits m.nStates a s : K) / (a.length * b.length) + (Spec.visits m.nStates b s : K) / b.length) / 2 := by
      intro s hs
      rw [hf s (Finset.mem_range.1 hs)]
      simp [Spec.nestedVisits]
    rw [Finset.sum_congr rfl this, ← Finset.sum_div, Finset.sum_add_distrib, ← Finset.sum_div, ← Finset.sum_div,
      sum_visits m.nStates a ra, sum_visits m.nStates b rb, div_self lb, div_mul_eq_div_div, div_self la]
  simp only [Spec.ascend, if_neg hfl] at hc
  have hrate : Spec.actualRate o.lr o.set.decay (0 + 1) ≠ 0 := by
    unfold Spec.actualRate
    simpa using hlr
  have hc := mul_left_cancel₀ hrate (add_left_cancel hc)
  rw [hobs t u ht hu rt ru, hobs u t hu ht ru rt] at hc
  have lt : (t.length : K) ≠ 0 := by have := List.length_pos_iff.2 ht; exact_mod_cast this.ne'
  have lu : (u.length : K) ≠ 0 := by have := List.length_pos_iff.2 hu; exact_mod_cast this.ne'
  have h2 : (1 : K) / u.length = 1 / t.length := by linarith
  rw [div_eq_div_iff lu lt, one_mul, one_mul] at h2
  exact_mod_cast h2

/-- Feature 1 of the strip is 1 everywhere: 0 → 1 and 2 → 1 → 0 give it different weights in the two orders, and the
same totals when matching features. -/
example : (match exIrlMdp with
    | .ok m =>
      let go := fun ts => ((exIrl 1).fit m ts (.list []) (mceHard m 3 (1/2) 0 ts)).2
      match go [[0, 1], [2, 1, 0]], go [[2, 1, 0], [0, 1]], matchFit (.inl m) [[0, 1], [2, 1, 0]] [],
        matchFit (.inl m) [[2, 1, 0], [0, 1]] [] with
      | .ok x, .ok y, .ok a, .ok b => decide (x 1 - y 1 = (1/2) * (1/3 - 1/2) / 2) &&
          decide (a.get 1 = 3 ∧ b.get 1 = 3)
      | _, _, _, _ => false
    | .error _ => false) = true := by decide +kernel

end MaMDP
