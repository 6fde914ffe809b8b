import Verif.Spec.Unreachable
import Verif.Props.Optimality

/-! # C114: what cannot be reached -/

set_option linter.unusedSectionVars false

namespace MaMDP

section Sweeps

variable {K : Type} [Field K] [LinearOrder K] [IsStrictOrderedRing K]

theorem SameAround.trans {M M' : Trans K} {r r' : Nat → K} {s t : Nat} (h : Spec.SameAround M M' r r' s)
    (ht : Spec.CanReach M s t) : Spec.SameAround M M' r r' t :=
  ⟨h.nS, h.nA, fun u hu => h.p u (Relation.ReflTransGen.trans ht hu), fun u hu => h.r u (Relation.ReflTransGen.trans ht hu)⟩

/-- Action values depend on reachable states only. -/
theorem actionValue_around {M M' : Trans K} {r r' : Nat → K} {s : Nat} (h : Spec.SameAround M M' r r' s) (γ : K)
    {v v' : Nat → K} (hv : ∀ t, t < M.nS → Spec.CanReach M s t → v' t = v t) {a : Nat} (ha : a < M.nA) :
    actionValue M' r' γ v' s a = actionValue M r γ v s a := by
  unfold actionValue npDot
  rw [h.nS]
  refine Finset.sum_congr rfl fun t ht => ?_
  have ht := Finset.mem_range.1 ht
  rw [h.p s .refl a t ha ht]
  by_cases hp : M.p s a t = 0
  · rw [hp, zero_mul, zero_mul]
  · have hr : Spec.CanReach M s t := .single ⟨ht, a, ha, hp⟩
    simp only [h.r t hr, hv t ht hr]

theorem partialSweep_around {M M' : Trans K} {r r' : Nat → K} {B : (Nat → K) → K}
    (hB : ∀ x y, (∀ a, a < M.nA → x a = y a) → B x = B y) (γ : K) {v v' : Nat → K} : ∀ n s,
    Spec.SameAround M M' r r' s → (∀ t, Spec.CanReach M s t → v' t = v t) →
    partialSweep B M' r' γ v' n s = partialSweep B M r γ v n s := by
  intro n
  induction n with
  | zero => intro s _ hv; exact hv s .refl
  | succ n ih =>
    intro s h hv
    have hn : ∀ t, Spec.CanReach M s t → partialSweep B M' r' γ v' n t = partialSweep B M r γ v n t := fun t ht =>
      ih t (SameAround.trans h ht) fun u hu => hv u (Relation.ReflTransGen.trans ht hu)
    unfold partialSweep upd1
    by_cases hs : s = n
    · subst hs
      rw [if_pos rfl, if_pos rfl]
      exact hB _ _ fun a ha => actionValue_around h γ (fun t _ => hn t) ha
    · rw [if_neg hs, if_neg hs]
      exact hn s .refl

theorem iterV_around {M M' : Trans K} {r r' : Nat → K} {B : (Nat → K) → K}
    (hB : ∀ x y, (∀ a, a < M.nA → x a = y a) → B x = B y) (γ : K) : ∀ n s,
    Spec.SameAround M M' r r' s →
    iterV B M' r' γ (fun _ => 0) n s = iterV B M r γ (fun _ => 0) n s := by
  intro n
  induction n with
  | zero => intro s _; rfl
  | succ n ih =>
    intro s h
    unfold iterV
    rw [sweep_values, sweep_values, h.nS]
    exact partialSweep_around hB γ _ s h fun t ht => ih t (SameAround.trans h ht)

theorem hardBackup_congr {n : Nat} (hn : 0 < n) (x y : Nat → K) (h : ∀ a, a < n → x a = y a) : hardBackup n x = hardBackup n y := by
  unfold hardBackup
  exact npMax_congr hn h

/-- Action values of a pass agree too. -/
theorem sweepQ_around {M M' : Trans K} {r r' : Nat → K} {B : (Nat → K) → K}
    (hB : ∀ x y, (∀ a, a < M.nA → x a = y a) → B x = B y) (γ : K) (n : Nat) {s a : Nat} (hs : s < M.nS) (ha : a < M.nA)
    (h : Spec.SameAround M M' r r' s) :
    (sweep B M' r' γ (iterV B M' r' γ (fun _ => 0) n)).q s a = (sweep B M r γ (iterV B M r γ (fun _ => 0) n)).q s a := by
  rw [sweep_q _ _ _ _ _ _ _ hs, sweep_q _ _ _ _ _ _ _ (by rw [h.nS]; exact hs)]
  refine actionValue_around h γ (fun t _ ht => ?_) ha
  exact partialSweep_around hB γ s t (SameAround.trans h ht) fun u hu =>
    iterV_around hB γ n u (SameAround.trans h (Relation.ReflTransGen.trans ht hu))

theorem maskQ_around {M M' : Trans K} {r r' : Nat → K} {q q' : Nat → Nat → K} {s a : Nat} (ha : a < M.nA)
    (h : Spec.SameAround M M' r r' s) (hq : q' s a = q s a) : maskQ M' q' s a = maskQ M q s a := by
  unfold maskQ npSum
  rw [hq, h.nS, Finset.sum_congr rfl fun t ht => h.p s .refl a t ha (Finset.mem_range.1 ht)]

/-- **C114**, what does hold: every pass of value iteration computes the same value. -/
theorem C114_passes_partial (M M' : Trans K) (r r' : Nat → K) (hA : 0 < M.nA) (s : Nat)
    (h : Spec.SameAround M M' r r' s) (γ : K) (n : Nat) : Spec.sweeps M' r' γ n s = Spec.sweeps M r γ n s := by
  rw [sweeps_eq, sweeps_eq, h.nA]
  exact iterV_around (hardBackup_congr hA) γ n s h

/-- So with a tolerance of 0 or less, which lets the iteration run to its limit, plans agree exactly. -/
theorem C114_exact_partial (M M' : Trans K) (r r' : Nat → K) (hA : 0 < M.nA) (s : Nat) (hs : s < M.nS)
    (h : Spec.SameAround M M' r r' s) (maxIter : Nat) (γ tol : K) (htol : tol ≤ 0) (v v' : Nat → K)
    (q q' : Nat → Nat → Ext K) (e : solveHard M r maxIter γ tol = .ok (v, q))
    (e' : solveHard M' r' maxIter γ tol = .ok (v', q')) :
    v' s = v s ∧ ∀ a, a < M.nA → q' s a = q s a := by
  have key : ∀ (M : Trans K) (r : Nat → K) v q, s < M.nS → solveHard M r maxIter γ tol = .ok (v, q) → 0 < M.nA →
      v = iterV (hardBackup M.nA) M r γ (fun _ => 0) maxIter ∧
      q = maskQ M (sweep (hardBackup M.nA) M r γ (iterV (hardBackup M.nA) M r γ (fun _ => 0) (maxIter - 1))).q := by
    intro M r v q _ e0 hA
    obtain ⟨c1, c2, -⟩ := C33_settings M r maxIter γ tol
    have hg : 0 < γ ∧ γ < 1 := by
      by_contra hg
      rw [c1 (by by_contra hn; push Not at hn; exact hg ⟨hn.1, hn.2⟩)] at e0
      cases e0
    have hk : 0 < maxIter := by
      by_contra hk
      have : maxIter = 0 := by omega
      subst this
      rw [c2 hg.1 hg.2] at e0
      cases e0
    obtain ⟨j, hj, hjk, -, hstop, ej⟩ := solveVI_spec (hardBackup M.nA) M r hg.1 hg.2 tol hk
    rw [solveHard_eq hA, ej] at e0
    have : j = maxIter := by
      by_contra hne
      have := hstop (by omega)
      have h2 := sweep_delta_nonneg (hardBackup M.nA) M r γ (iterV (hardBackup M.nA) M r γ (fun _ => 0) (j - 1))
      exact absurd (this.trans_le htol) (not_lt.2 h2)
    rw [this] at e0
    cases e0
    exact ⟨rfl, rfl⟩
  obtain ⟨k1, k2⟩ := key M r v q hs e hA
  obtain ⟨k3, k4⟩ := key M' r' v' q' (by rw [h.nS]; exact hs) e' (by rw [h.nA]; exact hA)
  rw [k1, k2, k3, k4, h.nA]
  exact ⟨iterV_around (hardBackup_congr hA) γ _ s h, fun a ha =>
    maskQ_around ha h (sweepQ_around (hardBackup_congr hA) γ _ hs ha h)⟩

end Sweeps

/-- The plans agree up to the tolerance. -/
theorem C114_plan_partial (M M' : Trans ℝ) (hM : Spec.SubStochastic M) (hM' : Spec.SubStochastic M') (hA : 0 < M.nA)
    (r r' : Nat → ℝ) (s : Nat) (hs : s < M.nS) (h : Spec.SameAround M M' r r' s)
    (γ tol : ℝ) (h0 : 0 < γ) (h1 : γ < 1) (htol : 0 < tol) (k k' : Nat)
    (hstop : ∃ i, i < k ∧ ∀ s, s < M.nS → |Spec.sweeps M r γ (i + 1) s - Spec.sweeps M r γ i s| < tol)
    (hstop' : ∃ i, i < k' ∧ ∀ s, s < M.nS → |Spec.sweeps M' r' γ (i + 1) s - Spec.sweeps M' r' γ i s| < tol) :
    ∃ v q v' q', solveHard M r k γ tol = .ok (v, q) ∧ solveHard M' r' k' γ tol = .ok (v', q') ∧
      |v' s - v s| < 2 * tol * γ / (1 - γ) ∧
      ∀ a, a < M.nA → (q s a = .ninf ∧ q' s a = .ninf) ∨
        ∃ x x', q s a = .fin x ∧ q' s a = .fin x' ∧ |x' - x| < 2 * tol * γ / (1 - γ) := by
  have hA' : 0 < M'.nA := by rw [h.nA]; exact hA
  have hs' : s < M'.nS := by rw [h.nS]; exact hs
  have e2 : 2 * tol * γ / (1 - γ) = tol * γ / (1 - γ) + tol * γ / (1 - γ) := by ring
  obtain ⟨V, hV, -, -, hlim⟩ := C27_converges M hM hA r γ h0 h1
  obtain ⟨V', hV', -, -, hlim'⟩ := C27_converges M' hM' hA' r' γ h0 h1
  have hVV : ∀ t, t < M.nS → Spec.CanReach M s t → V' t = V t := by
    intro t ht hreach
    have hst := SameAround.trans h hreach
    refine eq_of_abs_sub_le_all fun ε hε => ?_
    obtain ⟨N, hN⟩ := hlim (ε / 2) (by linarith)
    obtain ⟨N', hN'⟩ := hlim' (ε / 2) (by linarith)
    obtain ⟨v, q, e, hv⟩ := hN (max N N') (le_max_left _ _)
    obtain ⟨v', q', e', hv'⟩ := hN' (max N N') (le_max_right _ _)
    have heq := (C114_exact_partial M M' r r' hA t ht hst _ γ 0 le_rfl v v' q q' e e').1
    have h3 := abs_lt.1 (hv t ht)
    have h4 := abs_lt.1 (hv' t (by rw [h.nS]; exact ht))
    rw [heq] at h4
    rw [abs_le]
    constructor <;> linarith [h3.1, h3.2, h4.1, h4.2]
  have hst' : ∃ i, i < k' ∧ ∀ s, s < M'.nS →
      |Spec.sweeps M' r' γ (i + 1) s - Spec.sweeps M' r' γ i s| < tol := by rw [h.nS]; exact hstop'
  obtain ⟨v, q, e, hv, -⟩ := C28_accuracy M hM hA r γ tol h0 h1 htol V hV k hstop
  obtain ⟨v', q', e', hv', -⟩ := C28_accuracy M' hM' hA' r' γ tol h0 h1 htol V' hV' k' hst'
  have hq := plan_close hM hA h0 h1 htol hV hstop e
  have hq' := plan_close hM' hA' h0 h1 htol hV' hst' e'
  refine ⟨v, q, v', q', e, e', ?_, fun a ha => ?_⟩
  · have h2 := abs_lt.1 (hv s hs)
    have h3 := abs_lt.1 (hv' s hs')
    rw [hVV s hs .refl] at h3
    rw [abs_lt]
    constructor <;> linarith [h2.1, h2.2, h3.1, h3.2]
  · have ha' : a < M'.nA := by rw [h.nA]; exact ha
    have hposs : Spec.Possible M' s a ↔ Spec.Possible M s a := by
      unfold Spec.Possible
      rw [h.nS]
      exact exists_congr fun t => and_congr_right fun ht => by rw [h.p s .refl a t ha ht]
    by_cases hp : Spec.Possible M s a
    · obtain ⟨x, hx, hxc⟩ := hq.near s a hs ha hp
      obtain ⟨x', hx', hxc'⟩ := hq'.near s a hs' ha' (hposs.2 hp)
      refine .inr ⟨x, x', hx, hx', ?_⟩
      have hQ : Spec.Q M' r' γ V' s a = Spec.Q M r γ V s a := actionValue_around h γ hVV ha
      rw [hQ] at hxc'
      have h2 := abs_lt.1 hxc
      have h3 := abs_lt.1 hxc'
      rw [abs_lt]
      constructor <;> linarith [h2.1, h2.2, h3.1, h3.2]
    · exact .inl ⟨hq.mask s a hs ha hp, hq'.mask s a hs' ha' (mt hposs.1 hp)⟩

/-- In a corridor of seven states with a wall at the fifth there are small things at both ends of one part, and
something large in the other. Someone at the second state gives the weight `x` to what is behind the wall. -/
def exWatcher (x : Rat) : List (AgentSpec Rat Nat) :=
  [⟨"cat", 1, maxSelector, .fresh, some 1, .of1 ⟨3, fun i => if i = 0 then 1 else if i = 1 then x else 0⟩, []⟩]

/-- Where they are after planning and one step. -/
def exWatched (e : Env Rat Nat) : Option Int :=
  ((e.run [.fit "cat" (valueIterationFit e.mdp 20 (1 / 2) (1 / 10)) (fun _ => 0), .step "cat" fun _ => 0]).agent?
    "cat").map (·.position)

/-- Two islands of one state each: from the first, the reward on the second makes no difference. Both worlds can be
solved, and the value of the second island differs. -/
example : ∃ M : Trans Rat, ∃ v q v' q',
    Spec.SameAround M M (fun _ => 1) (fun t => if t = 1 then 5 else 1) 0 ∧
    solveHard M (fun _ => 1) 3 (1 / 2) 0 = .ok (v, q) ∧
    solveHard M (fun t => if t = 1 then 5 else 1) 3 (1 / 2) 0 = .ok (v', q') ∧ v' 0 = v 0 ∧ v' 1 ≠ v 1 := by
  let M : Trans Rat := ⟨2, 1, fun s _ t => if s = t then 1 else 0⟩
  have hreach : ∀ t, Spec.CanReach M 0 t → t = 0 := by
    intro t h
    induction h with
    | refl => rfl
    | tail _ h ih =>
      subst ih
      obtain ⟨-, a, -, hp⟩ := h
      by_contra hne
      exact hp (if_neg (fun h => hne h.symm))
  have key : ∀ x y, solveHard M (fun _ => 1) 3 (1 / 2) 0 = x →
      solveHard M (fun t => if t = 1 then 5 else 1) 3 (1 / 2) 0 = y →
      (match x, y with
        | .ok (v, _), .ok (v', _) => decide (v' 0 = v 0) && decide (v' 1 ≠ v 1)
        | _, _ => false) = true → ∃ v q v' q', solveHard M (fun _ => 1) 3 (1 / 2) 0 = .ok (v, q) ∧
      solveHard M (fun t => if t = 1 then 5 else 1) 3 (1 / 2) 0 = .ok (v', q') ∧ v' 0 = v 0 ∧ v' 1 ≠ v 1 := by
    intro x y hx hy h
    split at h
    · simp only [Bool.and_eq_true, decide_eq_true_eq] at h
      exact ⟨_, _, _, _, hx, hy, h.1, h.2⟩
    · cases h
  obtain ⟨v, q, v', q', h⟩ := key _ _ rfl rfl (by decide +kernel)
  refine ⟨M, v, q, v', q', ⟨rfl, rfl, fun _ _ _ _ _ _ => rfl, fun t ht => ?_⟩, h⟩
  rw [hreach t ht]
  rfl

/-- **C114 is false of the code**: someone who begins to value a feature that is nowhere they can get turns round.
Value iteration stops when the values of all states have settled, so values elsewhere decide how well the values here
are worked out. -/
theorem C114_refuted : ∃ (m m₁ m₂ : Mdp Rat) (e₁ e₂ : Env Rat Nat) (a₁ a₂ : Agent Rat Nat),
    Mdp.GridReach .square 1 7 false m ∧ Env.init m (exWatcher 0) = (m₁, .ok e₁) ∧
    Env.init m (exWatcher 1) = (m₂, .ok e₂) ∧ a₁ ∈ e₁.agents ∧ a₂ ∈ e₂.agents ∧ a₁.position = 1 ∧ a₂.position = 1 ∧
    Spec.SameAround e₁.mdp.trans e₂.mdp.trans
      (fun t => ∑ f ∈ Finset.range a₁.reward.d0, a₁.reward.get f * e₁.mdp.features.get f t)
      (fun t => ∑ f ∈ Finset.range a₂.reward.d0, a₂.reward.get f * e₂.mdp.features.get f t) 1 ∧
    exWatched e₁ = some 0 ∧ exWatched e₂ = some 2 := by
  have key : ∀ (x : Py (Mdp Rat)) (s₁ s₂ : List (AgentSpec Rat Nat)),
      Mdp.initGrid .square 1 7 false
        ⟨2, 7, fun f s => if f = 0 then (if s = 0 then 1 / 400 else if s = 3 then 1 / 100 else 0)
          else if s = 6 then 1 else 0⟩ (some ⟨7, fun s => if s = 4 then 1 else 0⟩) = x →
      (match x with
        | .error _ => false
        | .ok m => match (Env.init m s₁).2, (Env.init m s₂).2 with
          | .ok e₁, .ok e₂ => decide (e₁.mdp.nStates = 7 ∧ e₂.mdp.nStates = 7 ∧ e₁.mdp.nActions = 4 ∧
              e₂.mdp.nActions = 4) &&
            (e₁.agents.any fun a₁ => e₂.agents.any fun a₂ => decide (a₁.position = 1 ∧ a₂.position = 1) &&
              (List.range 4).all fun t => decide ((∑ f ∈ Finset.range a₂.reward.d0, a₂.reward.get f *
                e₂.mdp.features.get f t) = ∑ f ∈ Finset.range a₁.reward.d0, a₁.reward.get f *
                e₁.mdp.features.get f t)) &&
            ((List.range 4).all fun t => (List.range 4).all fun a => (List.range 7).all fun u =>
              decide (e₂.mdp.sas t a u = e₁.mdp.sas t a u ∧ (e₁.mdp.sas t a u ≠ 0 → u < 4))) &&
            decide (exWatched e₁ = some 0 ∧ exWatched e₂ = some 2)
          | _, _ => false) = true →
      ∃ (m m₁ m₂ : Mdp Rat) (e₁ e₂ : Env Rat Nat) (a₁ a₂ : Agent Rat Nat),
        Mdp.GridReach .square 1 7 false m ∧ Env.init m s₁ = (m₁, .ok e₁) ∧
        Env.init m s₂ = (m₂, .ok e₂) ∧ a₁ ∈ e₁.agents ∧ a₂ ∈ e₂.agents ∧ a₁.position = 1 ∧ a₂.position = 1 ∧
        Spec.SameAround e₁.mdp.trans e₂.mdp.trans
          (fun t => ∑ f ∈ Finset.range a₁.reward.d0, a₁.reward.get f * e₁.mdp.features.get f t)
          (fun t => ∑ f ∈ Finset.range a₂.reward.d0, a₂.reward.get f * e₂.mdp.features.get f t) 1 ∧
        exWatched e₁ = some 0 ∧ exWatched e₂ = some 2 := by
    intro x s₁ s₂ hx h
    rcases x with err | m
    · cases h
    simp only at h
    rcases h1 : Env.init m s₁ with ⟨m₁, err | e₁⟩
    · rw [h1] at h; cases h
    rcases h2 : Env.init m s₂ with ⟨m₂, err | e₂⟩
    · rw [h1, h2] at h; cases h
    rw [h1, h2] at h
    simp only [Bool.and_eq_true, decide_eq_true_eq, List.any_eq_true, List.all_eq_true, List.mem_range] at h
    obtain ⟨⟨⟨⟨n1, n2, n3, n4⟩, a₁, ha₁, a₂, ha₂, ⟨p1, p2⟩, hr⟩, hp⟩, hpos⟩ := h
    have hreach : ∀ t, Spec.CanReach e₁.mdp.trans 1 t → t < 4 := by
      intro t ht
      induction ht with
      | refl => decide
      | tail _ hstep ih =>
        obtain ⟨hu, a, ha, hne⟩ := hstep
        exact (hp _ ih a (by rw [← n3]; exact ha) _ (by rw [← n1]; exact hu)).2 hne
    refine ⟨m, m₁, m₂, e₁, e₂, a₁, a₂, .init hx, h1, h2, ha₁, ha₂, p1, p2, ⟨?_, ?_, ?_, ?_⟩, hpos⟩
    · exact n2.trans n1.symm
    · exact n4.trans n3.symm
    · intro t ht a u ha hu
      exact (hp t (hreach t ht) a (by rw [← n3]; exact ha) u (by rw [← n1]; exact hu)).1
    · intro t ht
      exact hr t (hreach t ht)
  exact key _ (exWatcher 0) (exWatcher 1) rfl (by decide +kernel)

end MaMDP
