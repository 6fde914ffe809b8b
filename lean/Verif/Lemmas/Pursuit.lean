import Verif.Spec.Pursuit
import Verif.Props.Foraging
import Verif.Props.Visits

/-! # Lemmas on hunting -/

set_option linter.unusedSectionVars false

namespace MaMDP

/-- Only the rewards of the states there are matter. -/
theorem sweeps_congr {M : Trans ℝ} {r r' : Nat → ℝ} (h : ∀ t, t < M.nS → r t = r' t) (γ : ℝ) (n : Nat) :
    Spec.sweeps M r γ n = Spec.sweeps M r' γ n := by
  have h1 : ∀ v, actionValue M r γ v = actionValue M r' γ v := by
    intro v
    funext s x
    show ∑ t ∈ Finset.range M.nS, M.p s x t * (r t + γ * v t) = ∑ t ∈ Finset.range M.nS, M.p s x t * (r' t + γ * v t)
    refine Finset.sum_congr rfl fun t ht => ?_
    rw [h t (Finset.mem_range.1 ht)]
  have h2 : sweepStep (hardBackup M.nA) M r γ = sweepStep (hardBackup M.nA) M r' γ := by
    funext st s
    unfold sweepStep
    rw [h1]
  induction n with
  | zero => rfl
  | succ n ih =>
    unfold Spec.sweeps
    rw [ih]
    unfold sweep
    rw [h2]

/-- A shortest way. -/
theorem reaches_distance {M : Trans ℝ} {s g n : Nat} (h : Spec.Reaches M s g n) : ∃ d, d ≤ n ∧ Spec.Distance M s g d := by
  classical
  have hex : ∃ d, Spec.Reaches M s g d := ⟨n, h⟩
  exact ⟨Nat.find hex, Nat.find_min' hex h, Nat.find_spec hex, fun m hm => Nat.find_min hex hm⟩

/-- One move by a plan for one rewarded state `g` comes closer to it. -/
theorem plan_closer {M : Trans ℝ} (hM : Spec.SubStochastic M) (hdet : Spec.Deterministic M) (hA : 0 < M.nA) {r : Nat → ℝ}
    {g : Nat} {w : ℝ} (hw : 0 < w) (hr : ∀ t, t < M.nS → r t = if t = g then w else 0) {γ tol : ℝ} (h0 : 0 < γ) (h1 : γ < 1)
    (htol : 0 < tol) {D : Nat} (hsmall : 2 * tol ≤ γ ^ D * (1 - γ) ^ 2 * w) {maxIter : Nat}
    (hstop : ∃ i, i < maxIter ∧ ∀ s, s < M.nS →
      |Spec.sweeps M (fun t => if t = g then w else 0) γ (i + 1) s - Spec.sweeps M (fun t => if t = g then w else 0) γ i s| < tol)
    {v : Nat → ℝ} {q : Nat → Nat → Ext ℝ} (hsol : solveHard M r maxIter γ tol = .ok (v, q)) {s t x n : Nat} (hs : s < M.nS)
    (hx : x < M.nA) (ht : t < M.nS) (hp : M.p s x t = 1) (hbest : ∀ b, b < M.nA → Spec.NoBetter (q s b) (q s x))
    (hsg : s ≠ g) (hn : n ≤ D) (hre : Spec.Reaches M s g n) : ∃ i, i + 1 ≤ n ∧ Spec.Reaches M t g i := by
  obtain ⟨V, hV, -⟩ := C27_converges M hM hA r γ h0 h1
  have hg : g < M.nS := reaches_lt n s hs hre
  have hr0 : ∀ t, t < M.nS → 0 ≤ r t := fun t ht => by
    rw [hr t ht]
    split_ifs
    · exact hw.le
    · exact le_rfl
  have h1g : 0 < 1 - γ := by linarith
  obtain ⟨i, hi, hstop⟩ := hstop
  have hq := plan_close hM hA h0 h1 htol hV ⟨i, hi, by
    rw [sweeps_congr hr, sweeps_congr hr]; exact hstop⟩ hsol
  obtain ⟨d, hd, hdist⟩ := reaches_distance hre
  obtain ⟨d, rfl⟩ : ∃ j, d = j + 1 := by
    refine ⟨d - 1, ?_⟩
    have : d ≠ 0 := by
      rintro rfl
      exact hsg (reaches_zero.1 hdist.1)
    omega
  have hrg : r g = w := by rw [hr g hg, if_pos rfl]
  have hpow : 0 ≤ γ ^ d := pow_nonneg h0.le _
  have hsmall' : 2 * tol ≤ γ ^ (d + 1) * (1 - γ) ^ 2 * w := by
    refine hsmall.trans ?_
    have : γ ^ D ≤ γ ^ (d + 1) := pow_le_pow_of_le_one h0.le h1.le (by omega)
    exact mul_le_mul_of_nonneg_right (mul_le_mul_of_nonneg_right this (sq_nonneg _)) hw.le
  have hE : 2 * (tol * γ / (1 - γ)) ≤ γ ^ d * (1 - γ) * r g := by
    rw [hrg, show 2 * (tol * γ / (1 - γ)) = (2 * tol) * γ / (1 - γ) by ring, div_le_iff₀ h1g]
    have h2 : 2 * tol * γ ≤ γ ^ (d + 1) * (1 - γ) ^ 2 * w * γ := mul_le_mul_of_nonneg_right hsmall' h0.le
    have h3 : γ ^ (d + 1) * (1 - γ) ^ 2 * w * γ = (γ ^ d * (1 - γ) * w * (1 - γ)) * (γ * γ) := by
      rw [pow_succ]; ring
    have h4 : γ * γ ≤ 1 := by nlinarith
    have h5 : 0 ≤ γ ^ d * (1 - γ) * w * (1 - γ) :=
      mul_nonneg (mul_nonneg (mul_nonneg hpow h1g.le) hw.le) h1g.le
    rw [h3] at h2
    nlinarith
  have := greedy_closer hM hdet h0 h1 hr0 hV hg (fun t ht hne => by rw [hr t ht, if_neg hne]) hq hE hs hdist hx ht hp hbest
  exact ⟨d, hd, this.1⟩

variable {kind : GridKind} {W H : Nat} {selfT : Bool} {m m' : Mdp ℝ} {specs : List (AgentSpec ℝ Nat)}
  {e0 : Env ℝ Nat}

/-! ### What the others may do -/

/-- What calls for agents other than `x` leave: the row `r` of the prey `y` shows where it is if it did, or if it moved. -/
structure Wary (x y : String) (r : Nat) (e e' : Env ℝ Nat) : Prop where
  agent : e'.agent? x = e.agent? x
  trans : e'.mdp.trans = e.mdp.trans
  later : Env.Later e e'
  row : ∀ b b', e.agent? y = some b → e'.agent? y = some b' →
    e'.mdp.features.get r (Spec.stateOf e.mdp.nStates b'.position) = 1 ∨
      Spec.stateOf e.mdp.nStates b'.position = Spec.stateOf e.mdp.nStates b.position ∧
      e'.mdp.features.get r (Spec.stateOf e.mdp.nStates b'.position) =
        e.mdp.features.get r (Spec.stateOf e.mdp.nStates b.position)

theorem Wary.refl (x y : String) (r : Nat) (e : Env ℝ Nat) : Wary x y r e e :=
  ⟨rfl, rfl, .refl e, fun b b' h1 h2 => by rw [h1] at h2; cases h2; exact .inr ⟨rfl, rfl⟩⟩

theorem Wary.then {x y : String} {r : Nat} {e1 e2 e3 : Env ℝ Nat} (h1 : Wary x y r e1 e2) (h2 : Wary x y r e2 e3)
    (hy : ∀ b, e1.agent? y = some b → ∃ b', e2.agent? y = some b') : Wary x y r e1 e3 := by
  refine ⟨h2.agent.trans h1.agent, h2.trans.trans h1.trans, h1.later.trans h2.later, fun b b'' hb hb'' => ?_⟩
  obtain ⟨b', hb'⟩ := hy b hb
  have h3 := h2.row b' b'' hb' hb''
  rw [h1.later.nStates] at h3
  rcases h3 with h3 | ⟨h3, h4⟩
  · exact .inl h3
  · rcases h1.row b b' hb hb' with h5 | ⟨h5, h6⟩
    · rw [h4, h5]; exact .inl rfl
    · rw [h4, h6, h3, h5]; exact .inr ⟨rfl, rfl⟩

/-- A call that changes neither the MDP nor where anybody is. -/
theorem wary_same {x y : String} {r : Nat} {e e' : Env ℝ Nat} (hmdp : e'.mdp = e.mdp) (hx : e'.agent? x = e.agent? x)
    (hl : Env.Later e e') (hpos : ∀ b b', e.agent? y = some b → e'.agent? y = some b' → b'.position = b.position) :
    Wary x y r e e' :=
  ⟨hx, by rw [hmdp], hl, fun b b' h1 h2 => by rw [hpos b b' h1 h2, hmdp]; exact .inr ⟨rfl, rfl⟩⟩

theorem wary_fit {x y z : String} {r : Nat} (hz : z ≠ x) {e : Env ℝ Nat} (h : Env.Ok kind W H selfT e) (o : FitOut ℝ)
    (d : Nat → Nat) : Wary x y r e (e.fit z o d).1 := by
  refine wary_same ?_ (Env.agent?_fit hz.symm o d) (Env.later_fit h z o d) ?_
  · rcases Env.fit_cases h z o d with ⟨-, h1⟩ | ⟨a, h1, -, h2⟩
    · rw [h1]
    · rw [h2]; rfl
  · intro b b' hb hb'
    rcases Env.fit_cases h z o d with ⟨-, h1⟩ | ⟨a, h1, h2, h3⟩
    · rw [h1] at hb'
      rw [hb] at hb'
      cases hb'; rfl
    · have hsame := (Agent.fit_same a e.mdp o d).1
      by_cases hyz : y = z
      · rw [h3, hyz, ← h2, Env.agent?_put_same h h1 hsame.name] at hb'
        cases hb'
        obtain ⟨hb1, hb2⟩ := (Env.agent?_eq h.nodup).1 hb
        rw [Env.eq_of_name h.nodup hb1 h1 (by rw [hb2, hyz, h2])]
        exact hsame.position
      · rw [Env.agent?_fit hyz, hb] at hb'
        cases hb'; rfl

theorem wary_setAlgorithm {x y z : String} {r : Nat} (hz : z ≠ x) {e : Env ℝ Nat} (h : Env.Ok kind W H selfT e)
    (st : AlgState ℝ) : Wary x y r e (e.setAlgorithm z st).1 := by
  refine wary_same ?_ (Env.agent?_setAlgorithm hz.symm st) (Env.later_setAlgorithm h z st) ?_
  · rcases Env.setAlgorithm_cases h z st with ⟨-, h1⟩ | ⟨a, h1, -, h2⟩
    · rw [h1]
    · rw [h2]; rfl
  · intro b b' hb hb'
    rcases Env.setAlgorithm_cases h z st with ⟨-, h1⟩ | ⟨a, h1, h2, h3⟩
    · rw [h1] at hb'
      rw [hb] at hb'
      cases hb'; rfl
    · have hsame := Env.setAlgorithm_same a st
      by_cases hyz : y = z
      · rw [h3, hyz, ← h2, Env.agent?_put_same h h1 hsame.name] at hb'
        cases hb'
        obtain ⟨hb1, hb2⟩ := (Env.agent?_eq h.nodup).1 hb
        rw [Env.eq_of_name h.nodup hb1 h1 (by rw [hb2, hyz, h2])]
      · rw [Env.agent?_setAlgorithm hyz, hb] at hb'
        cases hb'; rfl

theorem wary_stepProba {x y z : String} {r : Nat} (hz : z ≠ x) {e : Env ℝ Nat} (h : Env.Ok kind W H selfT e)
    (p : Option (Arr1 ℝ)) (d : Nat → Nat) : Wary x y r e (e.stepProba z p d).1 := by
  refine wary_same ?_ (Env.agent?_stepProba hz.symm p d) (Env.later_stepProba h z p d) ?_
  · rcases Env.stepProba_cases h z p d with ⟨-, h1⟩ | ⟨a, h1, -, ⟨err, -, h2⟩ | ⟨x, -, h2⟩⟩
    · rw [h1]
    · rw [h2]; rfl
    · rw [h2]; rfl
  · intro b b' hb hb'
    by_cases hyz : y = z
    · subst hyz
      rcases Env.stepProba_cases h y p d with ⟨-, h1⟩ | ⟨a, h1, h2, hc⟩
      · rw [h1] at hb'
        rw [hb] at hb'
        cases hb'; rfl
      · have hsame := (Agent.stepProba_same a e.mdp p d).1
        have : (e.stepProba y p d).1.agent? y = (e.put e.mdp (a.stepProba e.mdp p d).1).agent? y := by
          rcases hc with ⟨err, -, h3⟩ | ⟨x, -, h3⟩ <;> (rw [h3]; try rfl)
        rw [this, ← h2, Env.agent?_put_same h h1 hsame.name] at hb'
        cases hb'
        obtain ⟨hb1, hb2⟩ := (Env.agent?_eq h.nodup).1 hb
        rw [Env.eq_of_name h.nodup hb1 h1 (by rw [hb2, h2])]
        exact hsame.position
    · rw [Env.agent?_stepProba hyz, hb] at hb'
      cases hb'; rfl

/-- Two agents have two rows. -/
theorem row_ne {e : Env ℝ Nat} (h : Env.Ok kind W H selfT e) {a b : Agent ℝ Nat} (ha : a ∈ e.agents) (hb : b ∈ e.agents)
    (hn : a.name ≠ b.name) : e.mdp.agentRow b.idx ≠ e.mdp.agentRow a.idx := by
  intro hc
  unfold Mdp.agentRow at hc
  exact hn (by rw [List.inj_on_of_nodup_map h.idxs ha hb (by omega)])

theorem wary_setAgentPosition {x y z : String} {b0 : Agent ℝ Nat} (hz : z ≠ x) {e : Env ℝ Nat} (h : Env.Ok kind W H selfT e)
    (hb0 : e.agent? y = some b0) (p : Int) (hp : z = y → -(e.mdp.nStates : Int) ≤ p) :
    Wary x y (e.mdp.agentRow b0.idx) e (e.setAgentPosition z p).1 := by
  obtain ⟨hb1, hb2⟩ := (Env.agent?_eq h.nodup).1 hb0
  refine ⟨Env.agent?_setAgentPosition hz.symm p, ?_, Env.later_setAgentPosition h z p, fun b b' hb hb' => ?_⟩
  · rcases Env.setAgentPosition_cases h z p with ⟨-, h1⟩ | ⟨a, h1, -, ⟨j, h2, h3⟩ | ⟨-, h3⟩ | ⟨-, h3, h4⟩⟩
    · rw [h1]
    · rw [h3]; rfl
    · rw [h3]
    · rw [h3]; rfl
  · rw [hb0] at hb; cases hb
    rcases Env.setAgentPosition_cases h z p with ⟨-, h1⟩ | ⟨a, h1, h1', ⟨j, h2, h3⟩ | ⟨-, h3⟩ | ⟨h2, h3, h4⟩⟩
    · rw [h1] at hb' ⊢
      rw [hb0] at hb'; cases hb'
      exact .inr ⟨rfl, rfl⟩
    · by_cases hyz : z = y
      · left
        have := Env.eq_of_name h.nodup h1 hb1 (by rw [h1', hyz, hb2])
        subst this
        rw [h3, ← hb2, Env.agent?_put_same h h1 (by rfl)] at hb'
        cases hb'
        rw [h3]
        show (e.mdp.setRow (e.mdp.agentRow a.idx) j).features.get _ _ = 1
        rw [Env.setRow_get, if_pos rfl, if_pos (Env.stateOf_eq h2).symm]
      · right
        rw [Env.agent?_setAgentPosition (Ne.symm hyz), hb0] at hb'
        cases hb'
        refine ⟨rfl, ?_⟩
        rw [h3]
        show (e.mdp.setRow (e.mdp.agentRow a.idx) j).features.get _ _ = _
        rw [Env.setRow_get, if_neg (row_ne h h1 hb1 (by rw [h1', hb2]; exact hyz))]
    · rw [h3] at hb' ⊢
      rw [hb0] at hb'; cases hb'
      exact .inr ⟨rfl, rfl⟩
    · by_cases hyz : z = y
      · have := hp hyz
        omega
      · right
        rw [Env.agent?_setAgentPosition (Ne.symm hyz), hb0] at hb'
        cases hb'
        refine ⟨rfl, ?_⟩
        rw [h3]
        show (if _ = e.mdp.agentRow a.idx then 0 else e.mdp.features.get _ _) = _
        rw [if_neg (row_ne h h1 hb1 (by rw [h1', hb2]; exact hyz))]

theorem wary_step {x y z : String} {b0 : Agent ℝ Nat} (hz : z ≠ x) {e : Env ℝ Nat} (h : Env.Ok kind W H selfT e)
    (hb0 : e.agent? y = some b0) (hsafe : ∀ c ∈ e.agents, c.name ≠ x → ¬ Env.Eats e c (e.mdp.agentRow b0.idx)) (d : Nat → Nat) :
    Wary x y (e.mdp.agentRow b0.idx) e (e.step z d).1 := by
  obtain ⟨hb1, hb2⟩ := (Env.agent?_eq h.nodup).1 hb0
  refine ⟨Env.agent?_step hz.symm d, ?_, Env.later_step h z d, fun b b' hb hb' => ?_⟩
  · rcases Env.step_cases h z d with ⟨-, h1⟩ | ⟨a, a', err, h1, -, h2, -, -, -, h3⟩ |
      ⟨a, a1, j, t, g, c, -, -, -, -, -, h3, -⟩ | ⟨a, a1, j, t, g, -, -, -, -, h3, -⟩
    · rw [h1]
    · rw [h3]; rfl
    · rw [h3]; rfl
    · rw [h3]; rfl
  · rw [hb0] at hb; cases hb
    have hst : ∀ t, t < e.mdp.nStates → Spec.stateOf e.mdp.nStates (t : Int) = t := by
      intro t ht
      exact (Env.stateOf_eq (by simp [ht])).symm
    have hcase : ∀ (a a1 a2 : Agent ℝ Nat) (j t : Nat) (g : Nat → Nat → ℝ), a.name = z → Env.Moved e a d a1 j t →
        (∀ r s, ¬ Env.Eats e a r → g r s = (e.mdp.setRow (e.mdp.agentRow a.idx) t).features.get r s) →
        a2.name = a1.name → a2.position = a1.position → (e.step z d).1.agent? a.name = some a2 →
        (e.step z d).1.mdp.features.get = g →
        (e.step z d).1.mdp.features.get (e.mdp.agentRow b0.idx) (Spec.stateOf e.mdp.nStates b'.position) = 1 ∨
          Spec.stateOf e.mdp.nStates b'.position = Spec.stateOf e.mdp.nStates b0.position ∧
          (e.step z d).1.mdp.features.get (e.mdp.agentRow b0.idx) (Spec.stateOf e.mdp.nStates b'.position) =
            e.mdp.features.get (e.mdp.agentRow b0.idx) (Spec.stateOf e.mdp.nStates b0.position) := by
      intro a a1 a2 j t g hn hmv hg h2 h3 h4 h5
      have hno := hsafe a hmv.mem (by rw [hn]; exact hz)
      rw [h5, hg _ _ hno, Env.setRow_get]
      by_cases hyz : z = y
      · left
        have := Env.eq_of_name h.nodup hmv.mem hb1 (by rw [hn, hyz, hb2])
        subst this
        rw [hb2, hb'] at h4
        cases h4
        rw [if_pos rfl, h3, hmv.name.2.2.2.1, hst t hmv.lt, if_pos rfl]
      · right
        rw [Env.agent?_step (Ne.symm hyz), hb0] at hb'
        cases hb'
        exact ⟨rfl, by rw [if_neg (row_ne h hmv.mem hb1 (by rw [hn, hb2]; exact hyz))]⟩
    rcases Env.step_cases h z d with ⟨-, h1⟩ | ⟨a, a', err, h1, h1', h2, -, -, -, h3⟩ |
      ⟨a, a1, j, t, g, c, hn, hmv, -, hg, -, h3, -⟩ | ⟨a, a1, j, t, g, hn, hmv, -, hg, h3, -⟩
    · rw [h1] at hb' ⊢
      rw [hb0] at hb'; cases hb'
      exact .inr ⟨rfl, rfl⟩
    · right
      have hpos : b'.position = b0.position := by
        by_cases hyz : z = y
        · have := Env.eq_of_name h.nodup h1 hb1 (by rw [h1', hyz, hb2])
          subst this
          rw [h3, ← hb2, Env.agent?_put_same h h1 h2.name] at hb'
          cases hb'
          exact h2.position
        · rw [Env.agent?_step (Ne.symm hyz), hb0] at hb'
          cases hb'; rfl
      rw [hpos, h3]
      exact ⟨rfl, rfl⟩
    · refine hcase a a1 { a1 with consumed := fun f => a.consumed f + c f } j t g hn hmv (fun r s hr => ?_) rfl rfl ?_ ?_
      · rw [hg, if_neg (fun h => hr h.2.1)]
      · rw [h3]
        exact Env.agent?_put_same (m := e.mdp.withFeat g) h hmv.mem hmv.name.1
      · rw [h3]; rfl
    · refine hcase a a1 a1 j t g hn hmv (fun r s hr => ?_) rfl rfl ?_ ?_
      · rcases hg r s with h4 | h4
        · exact h4
        · exact absurd h4.2.2.2 hr
      · rw [h3]
        exact Env.agent?_put_same (m := e.mdp.withFeat g) h hmv.mem hmv.name.1
      · rw [h3]; rfl

/-- Agents do not go away. -/
theorem agent?_later {e e' : Env ℝ Nat} (h : Env.Ok kind W H selfT e) (h' : Env.Ok kind W H selfT e') (hl : Env.Later e e')
    {y : String} {b : Agent ℝ Nat} (hb : e.agent? y = some b) : ∃ b', e'.agent? y = some b' ∧ b'.idx = b.idx ∧
      b'.consumes = b.consumes ∧ b'.selector = b.selector := by
  obtain ⟨hb1, hb2⟩ := (Env.agent?_eq h.nodup).1 hb
  obtain ⟨b', h1, h2, h3, -, h4, -, -, -, h5, -⟩ := hl.agents b hb1
  exact ⟨b', (Env.agent?_eq h'.nodup).2 ⟨h1, h2.trans hb2⟩, h3, h4, h5⟩

theorem agentRow_later {e e' : Env ℝ Nat} (hl : Env.Later e e') (i : Nat) : e'.mdp.agentRow i = e.mdp.agentRow i := by
  unfold Mdp.agentRow
  rw [hl.d0, hl.nAgents]

theorem eats_later {e e' : Env ℝ Nat} (h : Env.Ok kind W H selfT e) (h' : Env.Ok kind W H selfT e') (hl : Env.Later e e')
    {x : String} {r : Nat} (hs : ∀ c ∈ e.agents, c.name ≠ x → ¬ Env.Eats e c r) :
    ∀ c ∈ e'.agents, c.name ≠ x → ¬ Env.Eats e' c r := by
  intro c hc hn
  obtain ⟨c0, hc0, h1, -, -, h2, -⟩ := hl.back h h' hc
  have := hs c0 hc0 (by rw [← h1]; exact hn)
  unfold Env.Eats at this ⊢
  rw [h2, hl.d0]
  exact this

theorem wary_apply {x y : String} {b0 : Agent ℝ Nat} {e : Env ℝ Nat} (h : Env.Ok kind W H selfT e)
    (hb0 : e.agent? y = some b0) (hsafe : ∀ c ∈ e.agents, c.name ≠ x → ¬ Env.Eats e c (e.mdp.agentRow b0.idx))
    (op : EnvOp ℝ Nat) (hop : Spec.OfOthers x op) (hp : Spec.Placed e.mdp.nStates y op) :
    Wary x y (e.mdp.agentRow b0.idx) e (e.apply op) := by
  cases op with
  | fit z o d => exact wary_fit hop h o d
  | step z d => exact wary_step hop h hb0 hsafe d
  | stepProba z p d => exact wary_stepProba hop h p d
  | setAgentPosition z p => exact wary_setAgentPosition hop h hb0 p fun hz => hp p (by rw [hz])
  | stepMulti z s p t r c o =>
    have hgo : ∀ e' e'' : Env ℝ Nat, Env.Ok kind W H selfT e' ∧ Wary x y (e.mdp.agentRow b0.idx) e e' →
        Env.Ok kind W H selfT e'' → (∀ b1, e'.agent? y = some b1 →
          (∀ c ∈ e'.agents, c.name ≠ x → ¬ Env.Eats e' c (e'.mdp.agentRow b1.idx)) →
          Wary x y (e'.mdp.agentRow b1.idx) e' e'') →
        Env.Ok kind W H selfT e'' ∧ Wary x y (e.mdp.agentRow b0.idx) e e'' := by
      intro e' e'' h2 h3 h4
      obtain ⟨b1, hb1, hidx, -⟩ := agent?_later h h2.1 h2.2.later hb0
      have hrow : e'.mdp.agentRow b1.idx = e.mdp.agentRow b0.idx := by rw [hidx, agentRow_later h2.2.later]
      have := h4 b1 hb1 (by rw [hrow]; exact eats_later h h2.1 h2.2.later hsafe)
      rw [hrow] at this
      exact ⟨h3, h2.2.then this fun b _ => ⟨b1, hb1⟩⟩
    exact (Env.stepMulti_induct (fun e' => Env.Ok kind W H selfT e' ∧ Wary x y (e.mdp.agentRow b0.idx) e e')
      (fun e' o d h2 => hgo e' _ h2 (h2.1.fit z o d) fun b1 hb1 hs => wary_fit hop h2.1 o d)
      (fun e' d h2 => hgo e' _ h2 (h2.1.step z d) fun b1 hb1 hs => wary_step hop h2.1 hb1 hs d) e s p t r c o
      ⟨h, .refl _ _ _ e⟩).2
  | stepMultiInteractive n m => exact hop.elim
  | reset => exact hop.elim
  | setWalls w => exact hop.elim
  | addWallXY a b => exact hop.elim
  | resetWalls => exact hop.elim
  | setAlgorithm z st => exact wary_setAlgorithm hop h st

theorem wary_run {x y : String} (ops : List (EnvOp ℝ Nat)) : ∀ (e : Env ℝ Nat) (b0 : Agent ℝ Nat),
    Env.Ok kind W H selfT e → e.agent? y = some b0 →
    (∀ c ∈ e.agents, c.name ≠ x → ¬ Env.Eats e c (e.mdp.agentRow b0.idx)) →
    (∀ op ∈ ops, Spec.OfOthers x op ∧ Spec.Placed e.mdp.nStates y op) →
    Wary x y (e.mdp.agentRow b0.idx) e (e.run ops) := by
  induction ops with
  | nil => intro e b0 _ _ _ _; exact .refl _ _ _ e
  | cons op ops ih =>
    intro e b0 h hb0 hsafe hops
    have hop := hops op List.mem_cons_self
    have h1 := wary_apply h hb0 hsafe op hop.1 hop.2
    have hok : Env.Ok kind W H selfT (e.apply op) := Env.Ok.run [op] e h
    obtain ⟨b1, hb1, hidx, -⟩ := agent?_later h hok h1.later hb0
    have hrow : (e.apply op).mdp.agentRow b1.idx = e.mdp.agentRow b0.idx := by rw [hidx, agentRow_later h1.later]
    have h2 := ih (e.apply op) b1 hok hb1 (by rw [hrow]; exact eats_later h hok h1.later hsafe)
      (by rw [h1.later.nStates]; exact fun o ho => hops o (List.mem_cons_of_mem _ ho))
    rw [hrow] at h2
    exact h1.then h2 fun b _ => ⟨b1, hb1⟩

/-! ### The chase -/

/-- The state of affairs between two moves: the hunter is in state `s` and the prey in state `g`. -/
structure Chase (e0 : Env ℝ Nat) (N : Nat) (a b : Agent ℝ Nat) (M : Trans ℝ) (D k s g : Nat) (e : Env ℝ Nat) : Prop where
  run : ∃ ops, e = e0.run ops
  trans : e.mdp.trans = M
  d0 : e.mdp.features.d0 = D
  nAgents : e.mdp.nAgents = k
  hunter : ∃ a', e.agent? a.name = some a' ∧ a'.selector = maxSelector ∧ a'.reward = a.reward ∧ a'.consumes = a.consumes ∧
    a'.idx = a.idx ∧ s = Spec.stateOf N a'.position
  prey : ∃ b', e.agent? b.name = some b' ∧ b'.idx = b.idx ∧ g = Spec.stateOf N b'.position
  row : s ≠ g → e.mdp.features.get (D - k + b.idx) g = 1
  safe : ∀ c ∈ e.agents, c.name ≠ a.name → ¬ Env.Eats e c (D - k + b.idx)

/-- The others' calls. -/
theorem Chase.others (hm : Mdp.GridReach kind W H selfT m) (hinit : Env.init m specs = (m', .ok e0)) {a b : Agent ℝ Nat}
    {M : Trans ℝ} {D k s g : Nat} {e : Env ℝ Nat} (h : Chase e0 (W * H) a b M D k s g e) {ops : List (EnvOp ℝ Nat)}
    (hops : ∀ op ∈ ops, Spec.OfOthers a.name op ∧ Spec.Placed (W * H) b.name op) :
    ∃ g', Chase e0 (W * H) a b M D k s g' (e.run ops) := by
  obtain ⟨⟨past, he⟩, htr, hd0, hna, ⟨a', ha', ha2⟩, ⟨b', hb', hbi, hg⟩, hrow, hsafe⟩ := h
  have hok : Env.Ok kind W H selfT e := by rw [he]; exact (Env.started hm hinit past).1
  have hok' : Env.Ok kind W H selfT (e.run ops) := Env.Ok.run ops e hok
  have hN := hok.reach.ok.nStates
  have hr : e.mdp.agentRow b'.idx = D - k + b.idx := by unfold Mdp.agentRow; rw [hd0, hna, hbi]
  have hw := wary_run ops e b' hok hb' (by rw [hr]; exact hsafe) (by rw [hN]; exact hops)
  rw [hr] at hw
  obtain ⟨b2, hb2, hbi2, -⟩ := agent?_later hok hok' hw.later hb'
  refine ⟨Spec.stateOf (W * H) b2.position, ⟨past ++ ops, by rw [Env.run_append, ← he]⟩, hw.trans.trans htr,
    hw.later.d0.trans hd0, hw.later.nAgents.trans hna, ⟨a', hw.agent.trans ha', ha2⟩, ⟨b2, hb2, hbi2.trans hbi, rfl⟩, ?_,
    eats_later hok hok' hw.later hsafe⟩
  intro hne
  have := hw.row b' b2 hb' hb2
  rw [hN] at this
  rcases this with h1 | ⟨h1, h2⟩
  · exact h1
  · rw [h2, ← hg]
    exact hrow (by rw [hg, ← h1]; exact hne)

/-- One move of the hunter. -/
theorem Chase.go (hm : Mdp.GridReach kind W H selfT m) (hinit : Env.init m specs = (m', .ok e0)) {a b : Agent ℝ Nat}
    {M : Trans ℝ} {D k : Nat} (hD : a.reward.d0 = D) (hab : a.name ≠ b.name)
    (hlikes : 0 < a.reward.get (D - k + b.idx)) (honly : ∀ f, f < D → f ≠ D - k + b.idx → a.reward.get f = 0)
    (heats : ((D - k + b.idx : Nat) : Int) ∈ a.consumes) (hvalid : ∀ f ∈ a.consumes, ∃ r, pyIdx D f = some r)
    {maxIter : Nat} (hk : 0 < maxIter) {γ tol : ℝ} (h0 : 0 < γ) (h1 : γ < 1) (d1 d2 : Nat → Nat)
    {s g : Nat} {e : Env ℝ Nat} (h : Chase e0 (W * H) a b M D k s g e) (hsg : s ≠ g) (hlive : Spec.Live M s) :
    ∃ t x v q, s < M.nS ∧ t < M.nS ∧ g < M.nS ∧ x < M.nA ∧ M.p s x t = 1 ∧ solveHard M (food e a) maxIter γ tol = .ok (v, q) ∧
      (∀ b, b < M.nA → Spec.NoBetter (q s b) (q s x)) ∧
      (∀ t, t < M.nS → food e a t = if t = g then a.reward.get (D - k + b.idx) else 0) ∧
      (e.fit a.name (valueIterationFit e.mdp maxIter γ tol) d1).2 = .ok () ∧
      ((e.fit a.name (valueIterationFit e.mdp maxIter γ tol) d1).1.step a.name d2).2 = .ok (t : Int) ∧
      Chase e0 (W * H) a b M D k t g ((e.fit a.name (valueIterationFit e.mdp maxIter γ tol) d1).1.step a.name d2).1 := by
  obtain ⟨⟨past, he⟩, rfl, hd0, hna, ⟨a', ha', hsel, hrew, hcons, hidx, hs⟩, ⟨b', hb', hbi, hg⟩, hrow, hsafe⟩ := h
  have hok : Env.Ok kind W H selfT e := by rw [he]; exact (Env.started hm hinit past).1
  have hN : e.mdp.trans.nS = W * H := hok.reach.ok.nStates
  obtain ⟨ha1, ha2⟩ := (Env.agent?_eq hok.nodup).1 ha'
  obtain ⟨hb1, hb2⟩ := (Env.agent?_eq hok.nodup).1 hb'
  obtain ⟨j, hj, hrb, -⟩ := hok.pos b' hb1
  obtain ⟨js, hjs, -⟩ := hok.pos a' ha1
  have hbr : e.mdp.agentRow b'.idx = D - k + b.idx := by unfold Mdp.agentRow; rw [hd0, hna, hbi]
  have har : e.mdp.agentRow a'.idx = D - k + a.idx := by unfold Mdp.agentRow; rw [hd0, hna, hidx]
  have hgj : j = g := by rw [hg, ← hok.reach.ok.nStates]; exact Env.stateOf_eq hj
  have hsj : js = s := by rw [hs, ← hok.reach.ok.nStates]; exact Env.stateOf_eq hjs
  subst hgj hsj
  have hgS : j < e.mdp.trans.nS := pyIdx_lt hj
  have hsS : js < e.mdp.trans.nS := pyIdx_lt hjs
  rw [hbr] at hrb
  have hrba : D - k + b.idx ≠ D - k + a.idx := by
    rw [← hbr, ← har]
    exact row_ne hok ha1 hb1 (by rw [ha2, hb2]; exact hab)
  have hfeat : ∀ t, t < e.mdp.trans.nS → e.mdp.features.get (D - k + b.idx) t = if t = j then 1 else 0 := by
    intro t ht
    split_ifs with htj
    · rw [htj]; exact hrow hsg
    · exact hrb t ht htj
  have hbD : D - k + b.idx < D := by
    have h2 := hok.idx b' hb1
    have h3 := hok.le
    rw [hbi] at h2
    rw [hna] at h2 h3
    rw [hd0] at h3
    omega
  have hlk : ∀ f, f < D → 0 < a.reward.get f → f = D - k + b.idx := by
    intro f hf hp
    by_contra hne
    rw [honly f hf hne] at hp
    exact lt_irrefl _ hp
  have hfood : ∀ t, t < e.mdp.trans.nS → food e a t = if t = j then a.reward.get (D - k + b.idx) else 0 := by
    intro t ht
    unfold food
    rw [hD, Finset.sum_eq_single (D - k + b.idx), hfeat t ht]
    · split_ifs
      · exact mul_one _
      · exact mul_zero _
    · intro f hf hne
      rw [honly f (Finset.mem_range.1 hf) hne, zero_mul]
    · intro hc
      exact absurd (Finset.mem_range.2 hbD) hc
  have hfor : Foraging e0 (W * H) a e.mdp.trans D k js e :=
    ⟨⟨past, he⟩, rfl, hd0, hna, ⟨a', ha1, ha2, hsel, hrew, hcons, hidx, hs⟩, fun f t hf hw ht => by
      rw [hlk f hf hw, hfeat t (by rw [hN]; exact ht)]
      split_ifs
      · exact zero_le_one
      · exact le_rfl, hlive⟩
  have haD : D - k + a.idx < D := by
    have h2 := hok.idx a' ha1
    have h3 := hok.le
    rw [hidx] at h2
    rw [hna] at h2 h3
    rw [hd0] at h3
    omega
  obtain ⟨t, hfit, hstep, hfor', -, hget, -, ht, x, v, q, hx, hp, hsol, hbest⟩ :=
    forage_round hm hinit hD (honly _ haD hrba.symm) (fun f hf => by
      by_cases hf2 : f = D - k + b.idx
      · rw [hf2]; exact hlikes.le
      · rw [honly f hf hf2]) (fun f hf hw => by rw [hlk f hf hw]; exact heats) hvalid hk (tol := tol) h0 h1 d1 d2 hfor
  obtain ⟨past', he'⟩ := hfor'.run
  set e2 := ((e.fit a.name (valueIterationFit e.mdp maxIter γ tol) d1).1.step a.name d2).1 with he2
  have hok' : Env.Ok kind W H selfT e2 := by rw [he']; exact (Env.started hm hinit past').1
  have hlater : Env.Later e e2 := by
    rw [he2]
    exact (Env.later_fit hok _ _ _).trans (Env.later_step (hok.fit _ _ _) _ _)
  obtain ⟨a2, ha21, ha22, ha23⟩ := hfor'.agent
  refine ⟨t, x, v, q, hsS, ht, hgS, hx, hp, hsol, hbest, hfood, hfit, hstep, hfor'.run, hfor'.trans, hfor'.d0, hfor'.nAgents,
    ⟨a2, (Env.agent?_eq hok'.nodup).2 ⟨ha21, ha22⟩, ha23⟩, ⟨b', ?_, hbi, hg⟩, fun hne => ?_, eats_later hok hok' hlater hsafe⟩
  · rw [he2, Env.agent?_step hab.symm, Env.agent?_fit hab.symm]
    exact hb'
  · rcases hget (D - k + b.idx) j hrba with h2 | ⟨h2, -⟩
    · rw [h2]; exact hrow hsg
    · exact absurd h2.symm hne

/-- One move of the hunter: it is there, or it has come closer. -/
theorem Chase.move (hm : Mdp.GridReach kind W H selfT m) (hinit : Env.init m specs = (m', .ok e0)) {a b : Agent ℝ Nat}
    {M : Trans ℝ} {D k : Nat} (hD : a.reward.d0 = D) (hab : a.name ≠ b.name)
    (hlikes : 0 < a.reward.get (D - k + b.idx)) (honly : ∀ f, f < D → f ≠ D - k + b.idx → a.reward.get f = 0)
    (heats : ((D - k + b.idx : Nat) : Int) ∈ a.consumes) (hvalid : ∀ f ∈ a.consumes, ∃ r, pyIdx D f = some r)
    {maxIter : Nat} (hk : 0 < maxIter) {γ tol : ℝ} (h0 : 0 < γ) (h1 : γ < 1) (htol : 0 < tol) {B : Nat}
    (hsmall : 2 * tol ≤ γ ^ B * (1 - γ) ^ 2 * a.reward.get (D - k + b.idx))
    (hstop : ∀ g, g < M.nS → ∃ i, i < maxIter ∧ ∀ s, s < M.nS →
      |Spec.sweeps M (fun t => if t = g then a.reward.get (D - k + b.idx) else 0) γ (i + 1) s -
        Spec.sweeps M (fun t => if t = g then a.reward.get (D - k + b.idx) else 0) γ i s| < tol) (d1 d2 : Nat → Nat)
    {s g n : Nat} {e : Env ℝ Nat} (h : Chase e0 (W * H) a b M D k s g e) (hsg : s ≠ g) (hn : n ≤ B)
    (hre : Spec.Reaches M s g n) : ∃ t i, i + 1 ≤ n ∧ Spec.Reaches M t g i ∧
      (e.fit a.name (valueIterationFit e.mdp maxIter γ tol) d1).2 = .ok () ∧
      ((e.fit a.name (valueIterationFit e.mdp maxIter γ tol) d1).1.step a.name d2).2 = .ok (t : Int) ∧
      Chase e0 (W * H) a b M D k t g ((e.fit a.name (valueIterationFit e.mdp maxIter γ tol) d1).1.step a.name d2).1 := by
  obtain ⟨past, he⟩ := h.run
  have hok : Env.Ok kind W H selfT e := by rw [he]; exact (Env.started hm hinit past).1
  obtain ⟨hM, hdet, hA, -⟩ := C27_grid kind W H selfT e.mdp hok.reach
  rw [h.trans] at hM hdet hA
  have hlive : Spec.Live M s := by
    cases n with
    | zero => exact absurd (reaches_zero.1 hre) hsg
    | succ n =>
      obtain ⟨x, t, hx, ht, hp, -⟩ := reaches_succ.1 hre
      exact ⟨x, hx, possible_of_one ht hp⟩
  obtain ⟨t, x, v, q, hs, ht, hg, hx, hp, hsol, hbest, hfood, hfit, hstep, hc⟩ :=
    h.go hm hinit hD hab hlikes honly heats hvalid hk h0 h1 (tol := tol) d1 d2 hsg hlive
  obtain ⟨i, hi, hre'⟩ := plan_closer hM hdet hA hlikes hfood h0 h1 htol hsmall (hstop g hg) hsol hs hx ht hp hbest hsg hn hre
  exact ⟨t, i, hi, hre', hfit, hstep, hc⟩

end MaMDP
