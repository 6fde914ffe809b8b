import Verif.Lemmas.Monotone
import Verif.Props.Optimality

/-! # C115, C116, C117: more walls, early stops and longer views -/

set_option linter.unusedSectionVars false

namespace MaMDP

section Field

variable {K : Type} [Field K] [LinearOrder K] [IsStrictOrderedRing K]

/-- **C115**, what does hold: if there is nothing to lose, no pass of value iteration makes a state worth more in a
world with fewer moves. -/
theorem C115_passes_partial (M M' : Trans K) (hM : Spec.SubStochastic M) (hM' : Spec.SubStochastic M') (hA : 0 < M.nA)
    (h : Spec.Fewer M M') (r : Nat → K) (hr : ∀ t, t < M.nS → 0 ≤ r t) (γ : K) (h0 : 0 < γ) (n s : Nat)
    (hs : s < M.nS) : Spec.sweeps M' r γ n s ≤ Spec.sweeps M r γ n s :=
  (sweeps_le hM hM' hA h h0.le le_rfl (fun t ht => ⟨hr t ht, le_rfl⟩) n s hs).2

/-- Grids with the walls of another and perhaps more have fewer moves. -/
theorem C115_grid {kind : GridKind} {W H : Nat} {selfT : Bool} {m m' : Mdp K} (hm : Mdp.GridReach kind W H selfT m)
    (hm' : Mdp.GridReach kind W H selfT m') (hwalls : ∀ s, s < W * H → m.walls.get s = 1 → m'.walls.get s = 1) :
    Spec.Fewer m.trans m'.trans where
  nS := hm'.ok.nStates.trans hm.ok.nStates.symm
  nA := hm'.ok.nActions.trans hm.ok.nActions.symm
  p s a t hs _ ht := by
    change s < m.nStates at hs
    change t < m.nStates at ht
    rw [hm.ok.nStates] at hs ht
    change m'.sas s a t ≤ m.sas s a t
    rw [hm'.ok.sas s a t hs ht, hm.ok.sas s a t hs ht]
    by_cases h1 : m'.walls.get s = 1 ∨ m'.walls.get t = 1
    · rw [if_pos h1]
      split_ifs <;> simp
    · have h2 : ¬ (m.walls.get s = 1 ∨ m.walls.get t = 1) := fun h2 => h1 (h2.imp (hwalls s hs) (hwalls t ht))
      rw [if_neg h1, if_neg h2]

/-- Walks in the world with fewer moves are walks in the other, so there is nothing more to collect either. -/
theorem C115_walks (M M' : Trans K) (hM : Spec.SubStochastic M) (h : Spec.Fewer M M') :
    ∀ (l : List (Nat × Nat)) (s : Nat), s < M.nS → Spec.Plays M' s l → Spec.Plays M s l := by
  intro l
  induction l with
  | nil => intro s _ _; trivial
  | cons x l ih =>
    obtain ⟨a, t⟩ := x
    rintro s hs ⟨ha, ht, hp, hl⟩
    rw [h.nA] at ha
    rw [h.nS] at ht
    refine ⟨ha, ht, le_antisymm ?_ (hp.symm.trans_le (h.p s a t hs ha ht)), ih t ht hl⟩
    exact (Finset.single_le_sum (f := M.p s a) (fun u hu => hM.nonneg s a u hs ha (Finset.mem_range.1 hu))
      (Finset.mem_range.2 ht)).trans (hM.le_one s a hs ha)

/-- Whatever the limit and tolerance, the returned values are below the solution of the Bellman equation. -/
theorem solve_below {M : Trans K} (hM : Spec.SubStochastic M) (hA : 0 < M.nA) {r V : Nat → K}
    (hr : ∀ t, t < M.nS → 0 ≤ r t) {γ tol : K} {maxIter : Nat} {v : Nat → K} {q : Nat → Nat → Ext K}
    (hsol : solveHard M r maxIter γ tol = .ok (v, q)) (hV : Spec.Bellman M r γ V) :
    (∀ s, s < M.nS → 0 ≤ v s ∧ v s ≤ V s) ∧
    ∀ s a x, s < M.nS → a < M.nA → q s a = .fin x → x ≤ Spec.Q M r γ V s a := by
  obtain ⟨h0, h1, j, hj, -, hv, hq⟩ := solve_is_sweeps hA hsol
  have hV0 := bellman_nonneg hM h0 h1 hr hV
  have hs := sweeps_le_bellman hM hA h0.le hr hV hV0
  refine ⟨by rw [hv]; exact hs j, fun s a x hlt ha hx => ?_⟩
  rw [hq s a hlt] at hx
  split_ifs at hx
  cases hx
  exact actionValue_le hM (fewer_refl M) h0.le le_rfl (fun t ht => ⟨hr t ht, le_rfl⟩)
    (partialSweep_le_bellman hM hA h0.le hr hV (hs (j - 1)) s) hlt ha

/-- **C115 is false of the code** with costs. Where everything costs 1, a state in the middle of the open grid is
worth -1; put a wall beside it, and it is worth 0. (An impossible action counts as worth 0.) -/
theorem C115_refuted : ∃ (m m' : Mdp ℚ) (v v' : Nat → ℚ) (q q' : Nat → Nat → Ext ℚ),
    Mdp.GridReach .square 3 3 false m ∧ Mdp.GridReach .square 3 3 false m' ∧
    (∀ s, s < 9 → m.walls.get s = 0) ∧ (∀ s, s < 9 → (m'.walls.get s = 1 ↔ s = 1)) ∧
    solveHard m.trans (fun _ => -1) 20 (1 / 2) (1 / 100) = .ok (v, q) ∧
    solveHard m'.trans (fun _ => -1) 20 (1 / 2) (1 / 100) = .ok (v', q') ∧ v 4 = -1 ∧ v' 4 = 0 := by
  have key : ∀ x y : Py (Mdp ℚ),
      Mdp.initGrid .square 3 3 false ⟨1, 9, fun _ _ => 1⟩ none = x →
      Mdp.initGrid .square 3 3 false ⟨1, 9, fun _ _ => 1⟩ (some ⟨9, fun s => if s = 1 then 1 else 0⟩) = y →
      (match x, y with
        | .ok m, .ok m' => ((List.range 9).all fun s => decide (m.walls.get s = 0 ∧ (m'.walls.get s = 1 ↔ s = 1))) &&
          match solveHard m.trans (fun _ => -1) 20 (1 / 2) (1 / 100),
            solveHard m'.trans (fun _ => -1) 20 (1 / 2) (1 / 100) with
          | .ok (v, _), .ok (v', _) => decide (v 4 = -1 ∧ v' 4 = 0)
          | _, _ => false
        | _, _ => false) = true →
      ∃ (m m' : Mdp ℚ) (v v' : Nat → ℚ) (q q' : Nat → Nat → Ext ℚ),
        Mdp.GridReach .square 3 3 false m ∧ Mdp.GridReach .square 3 3 false m' ∧
        (∀ s, s < 9 → m.walls.get s = 0) ∧ (∀ s, s < 9 → (m'.walls.get s = 1 ↔ s = 1)) ∧
        solveHard m.trans (fun _ => -1) 20 (1 / 2) (1 / 100) = .ok (v, q) ∧
        solveHard m'.trans (fun _ => -1) 20 (1 / 2) (1 / 100) = .ok (v', q') ∧ v 4 = -1 ∧ v' 4 = 0 := by
    intro x y hx hy h
    rcases x with err | m
    · cases h
    rcases y with err | m'
    · cases h
    simp only [Bool.and_eq_true, List.all_eq_true, List.mem_range, decide_eq_true_eq] at h
    obtain ⟨hw, h⟩ := h
    rcases e : solveHard m.trans (fun _ => -1) 20 (1 / 2) (1 / 100) with err | ⟨v, q⟩
    · rw [e] at h; simp at h
    rcases e' : solveHard m'.trans (fun _ => -1) 20 (1 / 2) (1 / 100) with err | ⟨v', q'⟩
    · rw [e, e'] at h; simp at h
    rw [e, e'] at h
    simp only [decide_eq_true_eq] at h
    exact ⟨m, m', v, v', q, q', .init hx, .init hy, fun s hs => (hw s hs).1, fun s hs => (hw s hs).2, e, e', h⟩
  exact key _ _ rfl rfl (by decide +kernel)

theorem discounted_costs {M : Trans K} {γ : K} (h0 : 0 < γ) : ∀ (l : List (Nat × Nat)) (s : Nat), Spec.Plays M s l →
    Spec.discounted (fun _ => (-1 : K)) γ l ≤ 0 ∧ (l ≠ [] → Spec.discounted (fun _ => (-1 : K)) γ l ≤ -1) := by
  intro l
  induction l with
  | nil => intro s _; exact ⟨le_rfl, fun h => absurd rfl h⟩
  | cons x l ih =>
    obtain ⟨a, t⟩ := x
    rintro s ⟨-, -, -, hl⟩
    have h1 := mul_nonneg h0.le (neg_nonneg.2 (ih t hl).1)
    simp only [Spec.discounted]
    exact ⟨by linarith, fun _ => by linarith⟩

/-- **C116 is false of the code** with costs: in a corridor where everything costs 1 the value of the first state is
0, whatever the limit and tolerance, although every walk from there costs at least 1. -/
theorem C116_refuted : ∃ m : Mdp ℚ, Mdp.GridReach .square 1 3 false m ∧ Spec.Live m.trans 0 ∧
    ∀ (maxIter : Nat) (γ tol : ℚ), 0 < maxIter → 0 < γ → γ < 1 →
      ∃ v q, solveHard m.trans (fun _ => -1) maxIter γ tol = .ok (v, q) ∧ v 0 = 0 ∧
        ∀ l, l ≠ [] → Spec.Plays m.trans 0 l → Spec.discounted (fun _ => -1) γ l ≤ -1 := by
  have key : ∀ x : Py (Mdp ℚ), exMdp = x →
      (match x with
        | .ok m => decide (m.nStates = 3 ∧ m.nActions = 4 ∧ m.sas 0 0 1 = 1) &&
          (List.range 3).all fun t => decide (m.sas 0 1 t = 0)
        | _ => false) = true →
      ∃ m : Mdp ℚ, Mdp.GridReach .square 1 3 false m ∧ m.nStates = 3 ∧ m.nActions = 4 ∧ m.sas 0 0 1 = 1 ∧
        ∀ t, t < 3 → m.sas 0 1 t = 0 := by
    intro x hx h
    rcases x with err | m
    · cases h
    simp only [Bool.and_eq_true, List.all_eq_true, List.mem_range, decide_eq_true_eq] at h
    exact ⟨m, .init hx, h.1.1, h.1.2.1, h.1.2.2, h.2⟩
  obtain ⟨m, hm, hS, hA, h01, himp⟩ := key _ rfl (by decide +kernel)
  have hS' : m.trans.nS = 3 := hS
  have hA' : m.trans.nA = 4 := hA
  refine ⟨m, hm, ⟨0, by omega, 1, by omega, by change 0 < m.sas 0 0 1; rw [h01]; norm_num⟩, ?_⟩
  intro maxIter γ tol hk h0 h1
  obtain ⟨v, q, e, hv, -⟩ := C30_refuted m.trans (C27_grid _ _ _ _ m hm).1 (fun _ => -1) (fun _ _ => by norm_num) γ tol
    h0 h1 maxIter hk 0 1 (by omega) (by omega) (by
      rintro ⟨t, ht, hp⟩
      change 0 < m.sas 0 1 t at hp
      rw [himp t (by omega)] at hp
      exact absurd hp (lt_irrefl _))
  exact ⟨v, q, e, hv, fun l hl hp => (discounted_costs h0 l 0 hp).2 hl⟩

/-- **C117**: with nothing to lose, no pass of value iteration makes a state worth less for a larger discount
factor. -/
theorem C117_passes (M : Trans K) (hM : Spec.SubStochastic M) (hA : 0 < M.nA) (r : Nat → K)
    (hr : ∀ t, t < M.nS → 0 ≤ r t) (γ γ' : K) (h0 : 0 < γ) (hγ : γ ≤ γ') (n s : Nat) (hs : s < M.nS) :
    0 ≤ Spec.sweeps M r γ n s ∧ Spec.sweeps M r γ n s ≤ Spec.sweeps M r γ' n s :=
  sweeps_le hM hM hA (fewer_refl M) h0.le hγ (fun t ht => ⟨hr t ht, le_rfl⟩) n s hs

/-- Nor does a further pass. -/
theorem C117_more (M : Trans K) (hM : Spec.SubStochastic M) (hA : 0 < M.nA) (r : Nat → K)
    (hr : ∀ t, t < M.nS → 0 ≤ r t) (γ : K) (h0 : 0 < γ) (n n' : Nat) (hn : n ≤ n') (s : Nat) (hs : s < M.nS) :
    Spec.sweeps M r γ n s ≤ Spec.sweeps M r γ n' s := by
  induction hn with
  | refl => exact le_rfl
  | step _ ih => exact ih.trans (sweeps_succ_le hM hA h0.le hr _ s hs)

end Field

/-- **C115** for plans: up to the tolerance with which the first was made. -/
theorem C115_plan_partial (M M' : Trans ℝ) (hM : Spec.SubStochastic M) (hM' : Spec.SubStochastic M') (hA : 0 < M.nA)
    (h : Spec.Fewer M M') (r : Nat → ℝ) (hr : ∀ t, t < M.nS → 0 ≤ r t)
    (γ tol tol' : ℝ) (htol : 0 < tol) (k k' : Nat)
    (hstop : ∃ i, i < k ∧ ∀ s, s < M.nS → |Spec.sweeps M r γ (i + 1) s - Spec.sweeps M r γ i s| < tol)
    (v v' : Nat → ℝ) (q q' : Nat → Nat → Ext ℝ) (e : solveHard M r k γ tol = .ok (v, q))
    (e' : solveHard M' r k' γ tol' = .ok (v', q')) (s : Nat) (hs : s < M.nS) :
    v' s < v s + tol * γ / (1 - γ) := by
  obtain ⟨h0, h1, -⟩ := solve_is_sweeps hA e
  have hA' : 0 < M'.nA := by rw [h.nA]; exact hA
  obtain ⟨V, hV, -⟩ := C27_converges M hM hA r γ h0 h1
  obtain ⟨-, -, j, -, -, hv', -⟩ := solve_is_sweeps hA' e'
  obtain ⟨v₁, q₁, e1, hv, -⟩ := C28_accuracy M hM hA r γ tol h0 h1 htol V hV k hstop
  rw [e] at e1
  cases e1
  have h2 := (abs_lt.1 (hv s hs)).1
  have h3 := C115_passes_partial M M' hM hM' hA h r hr γ h0 j s hs
  have h4 := (sweeps_le_bellman hM hA h0.le hr hV (bellman_nonneg hM h0 h1 hr hV) j s hs).2
  rw [hv']
  linarith

theorem collect_below {M : Trans ℝ} (hM : Spec.SubStochastic M) (hdet : Spec.Deterministic M)
    {r V : Nat → ℝ} (hr : ∀ t, t < M.nS → 0 ≤ r t) {γ : ℝ} (h0 : 0 < γ) (h1 : γ < 1) (hV : Spec.Bellman M r γ V)
    {s : Nat} (hs : s < M.nS) {ε : ℝ} (hε : 0 < ε) : ∃ l, Spec.Plays M s l ∧ V s - ε ≤ Spec.discounted r γ l := by
  obtain ⟨c, hc⟩ : ∃ c, ∀ t, t < M.nS → V t ≤ c := ⟨npMax M.nS V, fun t ht => le_npMax V ht⟩
  have hc0 : 0 ≤ c := (bellman_nonneg hM h0 h1 hr hV s hs).trans (hc s hs)
  obtain ⟨n, hn⟩ := exists_pow_lt_of_lt_one (show 0 < ε / (c + 1) from div_pos hε (by linarith)) h1
  obtain ⟨l, -, hl, hle⟩ := (C32_optimal M hM hdet r hr γ h0 h1 V hV s hs).2 c hc n
  refine ⟨l, hl, ?_⟩
  have h2 : γ ^ n * (c + 1) < ε := (lt_div_iff₀ (by linarith)).1 hn
  have h3 := pow_pos h0 n
  nlinarith

/-- **C116**, what does hold: in a deterministic world with nothing to lose, whatever the limit and tolerance, the
value of an action can be collected by a walk that begins with it, but for any small `ε`. -/
theorem C116_actions_partial (M : Trans ℝ) (hM : Spec.SubStochastic M) (hdet : Spec.Deterministic M) (hA : 0 < M.nA)
    (r : Nat → ℝ) (hr : ∀ t, t < M.nS → 0 ≤ r t) (γ tol : ℝ) (maxIter : Nat) (v : Nat → ℝ) (q : Nat → Nat → Ext ℝ)
    (hsol : solveHard M r maxIter γ tol = .ok (v, q)) (s a : Nat) (hs : s < M.nS) (ha : a < M.nA) (x : ℝ)
    (hx : q s a = .fin x) (ε : ℝ) (hε : 0 < ε) :
    ∃ t l, Spec.Plays M s ((a, t) :: l) ∧ x - ε ≤ Spec.discounted r γ ((a, t) :: l) := by
  obtain ⟨h0, h1, -⟩ := solve_is_sweeps hA hsol
  obtain ⟨V, hV, -⟩ := C27_converges M hM hA r γ h0 h1
  have hle := (solve_below hM hA hr hsol hV).2 s a x hs ha hx
  have hne : ¬ ∀ t, t < M.nS → M.p s a t = 0 := fun h => by
    rw [((C29_mask M hM r maxIter γ tol v q hsol s a hs ha).1).2 h] at hx
    cases hx
  push Not at hne
  obtain ⟨t, ht, hp⟩ := hne
  have hp1 : M.p s a t = 1 := (hdet s a t hs ha ht).resolve_left hp
  have hQ : Spec.Q M r γ V s a = r t + γ * V t := actionValue_det hM hdet r γ V hs ha ht hp1
  obtain ⟨l, hl, hc⟩ := collect_below hM hdet hr h0 h1 hV ht hε
  refine ⟨t, l, ⟨ha, ht, hp1, hl⟩, ?_⟩
  rw [hQ] at hle
  simp only [Spec.discounted]
  have := mul_le_mul_of_nonneg_left hc h0.le
  nlinarith

/-- And the value of a state with a possible action can be collected from there. -/
theorem C116_values_partial (M : Trans ℝ) (hM : Spec.SubStochastic M) (hdet : Spec.Deterministic M) (hA : 0 < M.nA)
    (r : Nat → ℝ) (hr : ∀ t, t < M.nS → 0 ≤ r t) (γ tol : ℝ) (maxIter : Nat) (v : Nat → ℝ) (q : Nat → Nat → Ext ℝ)
    (hsol : solveHard M r maxIter γ tol = .ok (v, q)) (s : Nat) (hs : s < M.nS) (hlive : Spec.Live M s)
    (ε : ℝ) (hε : 0 < ε) : ∃ l, l ≠ [] ∧ Spec.Plays M s l ∧ v s - ε ≤ Spec.discounted r γ l := by
  obtain ⟨x, hx, hpos⟩ := hlive
  obtain ⟨a, ha, hqa⟩ := (C30_partial M hM hA r γ tol maxIter v q hsol s hs).2 (.inr ⟨hr, x, hx, hpos⟩)
  obtain ⟨t, l, hl, hle⟩ := C116_actions_partial M hM hdet hA r hr γ tol maxIter v q hsol s a hs ha (v s) hqa ε hε
  exact ⟨_, List.cons_ne_nil _ _, hl, hle⟩

/-- **C117** for plans: a larger discount factor gives no smaller values, up to the tolerance with which its own plan
was made. -/
theorem C117_plan (M : Trans ℝ) (hM : Spec.SubStochastic M) (hA : 0 < M.nA) (r : Nat → ℝ)
    (hr : ∀ t, t < M.nS → 0 ≤ r t) (γ γ' tol tol' : ℝ) (hγ : γ ≤ γ') (htol' : 0 < tol') (k k' : Nat)
    (hstop' : ∃ i, i < k' ∧ ∀ s, s < M.nS → |Spec.sweeps M r γ' (i + 1) s - Spec.sweeps M r γ' i s| < tol')
    (v v' : Nat → ℝ) (q q' : Nat → Nat → Ext ℝ) (e : solveHard M r k γ tol = .ok (v, q))
    (e' : solveHard M r k' γ' tol' = .ok (v', q')) (s : Nat) (hs : s < M.nS) :
    v s < v' s + tol' * γ' / (1 - γ') := by
  obtain ⟨h0, -, j, -, -, hv, -⟩ := solve_is_sweeps hA e
  obtain ⟨h0', h1', -⟩ := solve_is_sweeps hA e'
  obtain ⟨V, hV, -⟩ := C27_converges M hM hA r γ' h0' h1'
  obtain ⟨v₁, q₁, e1, hv', -⟩ := C28_accuracy M hM hA r γ' tol' h0' h1' htol' V hV k' hstop'
  rw [e'] at e1
  cases e1
  have h2 := (abs_lt.1 (hv' s hs)).1
  have h3 := (C117_passes M hM hA r hr γ γ' h0 hγ j s hs).2
  have h4 := (sweeps_le_bellman hM hA h0'.le hr hV (bellman_nonneg hM h0' h1' hr hV) j s hs).2
  rw [hv]
  linarith

/-- In the chain with a reward at its first state, values for discounts of 1/2 and 3/4. -/
example : (match solveHard (chain2 ℚ) (fun t => if t = 0 then 1 else 0) 3 (1 / 2) 0,
      solveHard (chain2 ℚ) (fun t => if t = 0 then 1 else 0) 3 (3 / 4) 0 with
    | .ok (v, _), .ok (v', _) => decide (0 < v 0 ∧ v 0 < v' 0)
    | _, _ => false) = true := by decide +kernel

/-- The chain with its second action blocked: the way to the first state is closed, and its reward is lost. -/
example : let M' : Trans ℚ := ⟨2, 2, fun s a t => if a = 0 then (chain2 ℚ).p s a t else 0⟩
    Spec.Fewer (chain2 ℚ) M' ∧ Spec.sweeps M' (fun t => if t = 0 then 1 else 0) (1 / 2) 2 1 = 0 ∧
    0 < Spec.sweeps (chain2 ℚ) (fun t => if t = 0 then 1 else 0) (1 / 2) 2 1 := by
  refine ⟨⟨rfl, rfl, fun s a t _ _ _ => ?_⟩, by decide +kernel, by decide +kernel⟩
  change (if a = 0 then (chain2 ℚ).p s a t else 0) ≤ (chain2 ℚ).p s a t
  split_ifs with h
  · exact le_rfl
  · unfold chain2
    dsimp only
    split_ifs <;> norm_num

end MaMDP
