import Verif.Props.FeatureMatching
import Verif.Props.LearnerState
import Verif.Props.RewardErrors
import Verif.Props.Pursuit
import Verif.Lemmas.RewardShift

/-! # Theorems applied to particular worlds

Theorems with many conditions, applied to a corridor of three states with two features (whether a state is the first one, and
a constant 1) and to the fox and the hen on four cells: all their conditions can be met together. -/

set_option linter.unusedSectionVars false

namespace MaMDP

variable {K : Type} [Field K] [LinearOrder K] [IsStrictOrderedRing K]

/-- The corridor. -/
theorem corridor (K : Type) [Field K] [LinearOrder K] [IsStrictOrderedRing K] : ∃ m : Mdp K,
    Mdp.GridReach .square 1 3 false m ∧ m.nStates = 3 ∧ m.nActions = 4 ∧ m.nFeatures = 2 ∧
    m.features = ⟨2, 3, fun f s => if f = 1 ∨ s = 0 then 1 else 0⟩ ∧
    Spec.SubStochastic m.trans ∧ Spec.Deterministic m.trans ∧ Spec.NoDeadEnds m.trans ∧
    ∀ s, s < 3 → ∀ t, t < 3 → (s + 1 = t ∨ t + 1 = s) → ∃ a, a < 4 ∧ m.sas s a t = 1 := by
  obtain ⟨m, hi, g, hF, -, -, -, -, hW⟩ := Mdp.initGrid_ok (K := K) (kind := .square) (W := 1) (H := 3)
    (selfT := false) (f := ⟨2, 3, fun f s => if f = 1 ∨ s = 0 then 1 else 0⟩) (w := none) (by decide) rfl
    (by intro v hv; cases hv)
  have hm : Mdp.GridReach .square 1 3 false m := .init hi
  obtain ⟨hsub, hdet, -, -⟩ := C27_grid .square 1 3 false m hm
  have hsas : ∀ s x t, s < 3 → t < 3 → m.sas s x t = if GridKind.square.Move 3 false s x t then 1 else 0 := by
    intro s x t hs ht
    rw [g.sas s x t hs ht, hW]
    simp
  have hstep : ∀ s, s < 3 → ∀ t, t < 3 → (s + 1 = t ∨ t + 1 = s) → ∃ a, a < 4 ∧ m.sas s a t = 1 := by
    intro s hs t ht h
    obtain ⟨a, ha, h⟩ := (show ∀ s < 3, ∀ t < 3, (s + 1 = t ∨ t + 1 = s) → ∃ a < 4, GridKind.square.Move 3 false s a t by
      decide) s hs t ht h
    exact ⟨a, ha, by rw [hsas s a t hs ht, if_pos h]⟩
  have hS : m.nStates = 3 := g.nStates
  have hA : m.nActions = 4 := g.nActions
  refine ⟨m, hm, hS, hA, by show m.features.d0 = 2; rw [hF], hF, hsub, hdet, fun s hs => ?_, hstep⟩
  have hs' : s < 3 := hS ▸ hs
  refine ⟨?_, fun a ha ⟨t, ht, hp⟩ => ?_⟩
  · obtain ⟨t, ht, h⟩ := (show ∀ s < 3, ∃ t < 3, s + 1 = t ∨ t + 1 = s by decide) s hs'
    obtain ⟨a, ha, h⟩ := hstep s hs' t ht h
    exact ⟨a, by show a < m.nActions; omega, t, by show t < m.nStates; omega, by show 0 < m.sas s a t; rw [h]; exact one_pos⟩
  · have h1 : m.trans.p s a t = 1 := (hdet s a t hs ha ht).resolve_left hp.ne'
    refine le_antisymm (hsub.le_one s a hs ha) (h1.ge.trans ?_)
    exact Finset.single_le_sum (f := fun u => m.trans.p s a u)
      (fun u hu => hsub.nonneg s a u hs ha (Finset.mem_range.1 hu)) (Finset.mem_range.2 ht)

/-- C66 with hard and soft value iteration: the expected visits in the corridor after two demonstrations, one from each end. -/
example : ∃ (m : Mdp ℝ) (g g' : Nat → ℝ) (π π' : Nat → Nat → ℝ), m.nStates = 3 ∧
    mceHard m 5 (9 / 10) (1 / 100) [[0, 1], [-1]] (fun _ => 1) = .ok g ∧
    (∀ f, g f = Spec.walkFeatures m π [[0, 1], [-1]] 5 f) ∧ Spec.IsPolicy m.trans π ∧
    mceSoft m 5 (9 / 10) (1 / 100) [[0, 1], [-1]] (fun _ => 1) = .ok g' ∧
    (∀ f, g' f = Spec.walkFeatures m π' [[0, 1], [-1]] 5 f) ∧ Spec.IsPolicy m.trans π' := by
  obtain ⟨m, -, hS, hA, -, -, hsub, -, -, -⟩ := corridor ℝ
  have hts : ∀ t ∈ ([[0, 1], [-1]] : List (List Int)), ∃ i l, t = i :: l ∧ Spec.InRange m.nStates i := by
    rw [hS]
    intro t ht
    simp only [List.mem_cons, List.not_mem_nil, or_false] at ht
    rcases ht with rfl | rfl
    · exact ⟨0, [1], rfl, by decide⟩
    · exact ⟨-1, [], rfl, by decide⟩
  obtain ⟨g, π, -, -, h1, h2, -, h3, -⟩ := C66_expected_hard m hsub (by omega) (by omega) _ hts 5 (by decide) (9 / 10) (1 / 100)
    (by norm_num) (by norm_num) fun _ => 1
  obtain ⟨g', π', -, -, k1, k2, -, k3, -⟩ := C66_expected_soft m hsub (by omega) (by omega) _ hts 5 (by decide) (9 / 10) (1 / 100)
    (by norm_num) (by norm_num) fun _ => 1
  exact ⟨m, g, g', π, π', hS, h1, h3, h2, k1, k3, k2⟩

/-- C67: several demonstrations are averaged only if all but the first have one state. -/
example : (∃ v : Nat → ℚ, empirical 3 [[0, 1, 1], [2], [-1]] = .ok v ∧ v 2 = Spec.averageVisits 3 [[0, 1, 1], [2], [-1]] 2 ∧
      ∑ s ∈ Finset.range 3, v s = 1) ∧
    ∃ v : Nat → ℚ, empirical 3 [[0, 1, 1], [2, 2]] = .ok v ∧ ∑ s ∈ Finset.range 3, v s < 1 := by
  constructor
  · obtain ⟨v, h1, h2, h3⟩ := C67_partial (K := ℚ) 3 [[0, 1, 1], [2], [-1]] (by decide) (by decide) (by decide) (by decide)
    exact ⟨v, h1, h2 2, h3⟩
  · have h := (C67_exact (K := ℚ) 3 [[0, 1, 1], [2, 2]]).1 (by decide)
    obtain ⟨h1, h2⟩ := C67_total (K := ℚ) 3 [[0, 1, 1], [2, 2]] (by decide) (by decide) _ h
    exact ⟨_, h, lt_of_le_of_ne h1 fun h3 => absurd (h2.1 h3) (by decide)⟩

/-- C68 and C69: fits in the corridor ignoring the constant feature, with the real expectation and with a given one. -/
example : ∃ (m : Mdp ℚ) (N : Nat) (w : Nat → Nat → ℚ) (o' : MceIrl ℚ), m.nStates = 3 ∧ 0 < N ∧ N ≤ 4 ∧
    (exIrl 4).fit m [[0, 0, 1]] (.list [1]) (mceHard m 5 (9 / 10) 0 [[0, 0, 1]]) = (o', .ok (w N)) ∧ w 0 0 = 0 ∧ w N 1 = 0 ∧
    ∃ x y, ((exIrl 2).fit m [[0, 0, 1]] (.list [1]) (fun θ => .ok (exExpected θ))).2 = .ok x ∧
      ((exIrl 3).fit m [[0, 0, 1]] (.list [1]) (fun θ => .ok (exExpected θ))).2 = .ok y ∧
      y 0 - x 0 = 1 / 36 * (observedCounts m [[0, 0, 1]] 0 - exExpected x 0) := by
  obtain ⟨m, -, hS, hA, hN, -, hsub, -, -, -⟩ := corridor ℚ
  have hv : ∀ i ∈ ([1] : List Int), Spec.InRange m.nFeatures i := by rw [hN]; decide
  have hr : ∀ t ∈ ([[0, 0, 1]] : List (List Int)), ∀ i ∈ t, Spec.InRange m.nStates i := by rw [hS]; decide
  have n1 : Spec.Names m.nFeatures [1] 1 := by rw [hN]; exact ⟨1, by simp, by decide⟩
  have n0 : ¬ Spec.Names m.nFeatures [1] 0 := by
    rw [hN]
    rintro ⟨i, hi, h⟩
    rw [List.mem_singleton.1 hi] at h
    exact absurd h (by decide)
  obtain ⟨N, o', w, err, h1, h2, h3, -, -, h4, h5⟩ := C68_partial_hard (exIrl 4) m hsub (by omega) (by omega) [[0, 0, 1]] [1]
    hv (by decide) (by decide) hr 5 (by decide) (9 / 10) (by norm_num) (by norm_num) (fun _ => 0) (.inl ⟨rfl, rfl⟩) (by decide)
  obtain ⟨x, y, k1, k2, k3⟩ := C69_exact (exIrl 2) (exIrl 3) m [[0, 0, 1]] [1] hv (by decide) (by decide) hr
    (fun θ => .ok (exExpected θ)) exExpected (fun _ => rfl) (fun _ => 0) (.inl ⟨rfl, rfl⟩) le_rfl 2 (by decide) rfl rfl
  refine ⟨m, N, w, o', hS, h1, h2, h3, by rw [h4, if_neg n0], ?_, x, y, k1, k2, ?_⟩
  · obtain ⟨i, rfl⟩ := Nat.exists_eq_succ_of_ne_zero h1.ne'
    obtain ⟨-, -, -, -, -, -, -, -, h⟩ := h5 i
    rw [h, if_pos n1]
  · rw [k3 0 n0]
    norm_num [exIrl, Nat.factorial]

/-- C71: hypothesis testing on a walk from one end to the other, ignoring the constant feature. -/
example : ∃ (m : Mdp ℚ) (R : Nat → Ext ℚ) (x : ℚ), m.nStates = 3 ∧
    htFit ⟨1 / 2, 1, 2, .other⟩ (fun _ x a f => x a f) none [(m, htQ m.nFeatures [1]
      (fun w => solveHard m.trans (Spec.weighted m w) 3 (1 / 2) (1 / 100)), [2, 1, 0])] = .ok R ∧ R 1 = .nan ∧ R 0 = .fin x := by
  obtain ⟨m, -, hS, hA, hN, -, hsub, -, -, hstep⟩ := corridor ℚ
  obtain ⟨R, h1, h2⟩ := C71_solved_partial (⟨1 / 2, 1, 2, .other⟩ : HtSettings ℚ) rfl (fun _ x a f => x a f) none m hsub
    (by omega) [1] 3 (by decide) (1 / 2) (1 / 100) (by norm_num) (by norm_num) [[2, 1, 0]] (by decide)
    ⟨_, List.mem_cons_self, by decide⟩ (by
      intro t ht p hp
      rw [List.mem_singleton.1 ht] at hp
      have hp' : p = (2, 1) ∨ p = (1, 0) := by simpa [Spec.moves] using hp
      have key : ∀ s t : Nat, s < 3 → t < 3 → t + 1 = s → Spec.Adjacent m.trans ((s : Int), (t : Int)) := by
        intro s t hs ht h
        obtain ⟨a, ha, h⟩ := hstep s hs t ht (.inr h)
        have hnS : m.trans.nS = 3 := hS
        refine ⟨by rw [hnS]; constructor <;> push_cast <;> omega, by rw [hnS]; constructor <;> push_cast <;> omega,
          a, by show a < m.nActions; omega, ?_⟩
        have e1 : ∀ u : Nat, Spec.stateOf m.trans.nS (u : Int) = u := fun u => by simp [Spec.stateOf]
        rw [e1, e1]
        show m.sas s a t ≠ 0
        rw [h]
        exact one_ne_zero
      rcases hp' with rfl | rfl
      · exact key 2 1 (by decide) (by decide) rfl
      · exact key 1 0 (by decide) (by decide) rfl)
  have k1 := h2 1 (by rw [hN]; decide)
  have k0 := h2 0 (by rw [hN]; decide)
  rw [if_pos (by decide)] at k1
  rw [if_neg (by decide)] at k0
  obtain ⟨-, -, xs, -, -, k0⟩ := k0
  exact ⟨m, R, _, hS, h1, k1, k0⟩

/-- C83: the expected number of visits to states with the constant feature after a demonstration of three states is the number
of steps computed, while what is observed is 1. -/
example : ∃ (m : Mdp ℚ) (g : Nat → ℚ) (v : Nat → ℚ), m.nStates = 3 ∧
    mceHard m 7 (9 / 10) (1 / 100) [[0, 1, 2]] (fun _ => 1) = .ok g ∧ empirical 3 [[0, 1, 2]] = .ok v ∧ g 1 = 7 ∧
    ∑ s ∈ Finset.range 3, m.features.get 1 s * v s = 1 := by
  obtain ⟨m, -, hS, hA, -, hF, hsub, -, hlive, -⟩ := corridor ℚ
  obtain ⟨g, v, h1, h2, h3, h4⟩ := C83_refuted m hsub hlive (by omega) [0, 1, 2] (by decide) (by rw [hS]; decide) 1
    (fun s _ => by rw [hF]; simp) 7 (by decide) (9 / 10) (1 / 100) (by norm_num) (by norm_num) fun _ => 1
  rw [hS] at h2 h4
  exact ⟨m, g, v, hS, h1, h2, h3, h4⟩

/-- C93: a fit that fails before anything is computed changes nothing; one that fails while computing leaves weights 0. -/
example : ∃ m : Mdp ℚ, m.nStates = 3 ∧ (∃ e, (exIrl 2).fit m [[0, 7]] (.list []) (fun θ => .ok (exExpected θ)) =
      (exIrl 2, .error e)) ∧
    ∃ w, ((exIrl 2).fit m [[0, 1]] (.list []) (fun _ => .error .valueError)).1.theta = .vec w ∧ ∀ f, w f = 0 := by
  obtain ⟨m, -, hS, -⟩ := corridor ℚ
  refine ⟨m, hS, C93_mce_partial _ m _ _ _ (.inr (.inr (.inl ⟨_, List.mem_cons_self, 7, by simp, by rw [hS]; decide⟩))), ?_⟩
  obtain ⟨w, -, h1, h2⟩ := C93_mce_refuted (exIrl 2) rfl m [[0, 1]] (.list []) (by simp [Spec.ValidIgnore]) (by decide) (by decide)
    (by rw [hS]; decide) (fun _ => .error .valueError) .valueError (fun _ => rfl) (by decide)
  exact ⟨w, h1, h2⟩

/-- C111: the fox, which cares about the hen only, as seen by somebody for whom every state is worth up to 1/10 more. -/
example : ∃ (m m' : Mdp ℝ) (e e1 : Env ℝ Nat) (a : Agent ℝ Nat) (maxIter : Nat), Mdp.GridReach .square 2 2 false m ∧
    Env.init m exFoxHen = (m', .ok e) ∧ a ∈ e.agents ∧ a.name = "fox" ∧
    e.fit "fox" (valueIterationFit e.mdp maxIter (1 / 2) (1 / 100)) (fun _ => 0) = (e1, .ok ()) ∧
    ∃ a' ∈ (e1.run ((List.range 5).map fun _ => .step "fox" fun _ => 0)).agents, ∃ ps : List Nat, ps.length = 5 ∧
      a'.history = a.history ++ ps.map (fun p : Nat => (p : Int)) ∧ ∀ other, Spec.Plays e.mdp.trans 0 other →
        Spec.discounted (fun t => (if t = 1 then 1 else 0) + (t : ℝ) / 30) (1 / 2) other ≤
          Spec.visitReward (fun t => (if t = 1 then 1 else 0) + (t : ℝ) / 30) (1 / 2) ps + 3 / 5 := by
  obtain ⟨m, m', e, a, b, hm, hinit, hok, hwalls, hd0, hna, ha, hb, ea, eb, hf2, hcons⟩ := exFoxStart
  have hS : e.mdp.nStates = 4 := hok.reach.ok.nStates
  have hA : e.mdp.nActions = 4 := hok.reach.ok.nActions
  have hw : (fun t => ∑ f ∈ Finset.range a.reward.d0, a.reward.get f * e.mdp.features.get f t) =
      fun t => if t = 1 then (1 : ℝ) else 0 := by
    funext t
    rw [ea]
    show ∑ f ∈ Finset.range 3, (if f = 2 then (1 : ℝ) else 0) * e.mdp.features.get f t = _
    simp [hf2]
  obtain ⟨hsub, -, hApos, -⟩ := C27_grid _ _ _ _ _ hok.reach
  obtain ⟨i, hi⟩ := sweeps_stop hsub hApos (fun t => if t = 1 then (1 : ℝ) else 0) (γ := 1 / 2) (tol := 1 / 100) (by norm_num)
    (by norm_num) (by norm_num)
  have hlive : Spec.Live e.mdp.trans 0 := by
    obtain ⟨x, hx, h⟩ := (four_moves hok hwalls).2 0 1 (by decide) (by decide) (by decide) (by decide)
    exact ⟨x, by show x < e.mdp.nActions; omega, 1, by show 1 < e.mdp.nStates; omega, by rw [h]; exact one_pos⟩
  have hname : a.name = "fox" := by rw [ea]; rfl
  obtain ⟨e1, h1, a', h2, -, ps, h3, h4, h5⟩ := C111_environment hm hinit [] e rfl a ha (by rw [ea]; rfl) 0
    (by rw [ea]; rfl) hlive _ hw.symm (fun t => (if t = 1 then 1 else 0) + (t : ℝ) / 30) 1 (1 / 10)
    (by intro t _; split_ifs <;> norm_num)
    (by
      intro t ht
      rw [add_sub_cancel_left, abs_of_nonneg (by positivity)]
      have : (t : ℝ) ≤ 3 := by exact_mod_cast (by omega : t ≤ 3)
      linarith)
    (i + 1) (1 / 2) (1 / 100) (by norm_num) (by norm_num) (by norm_num) ⟨i, Nat.lt_succ_self _, by
      intro s hs
      exact hi s (by show s < e.mdp.nStates; omega)⟩ (fun _ => 0) 5 fun _ _ => 0
  rw [hname] at h1 h2
  refine ⟨m, m', e, e1, a, i + 1, hm, hinit, ha, hname, h1, a', h2, ps, h3, h4, fun other ho => (h5 other ho).trans ?_⟩
  norm_num
  linarith

end MaMDP
