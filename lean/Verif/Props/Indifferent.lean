import Verif.Spec.Indifferent
import Verif.Props.Environment
import Verif.Model.Algorithm

/-! # C113: agents that do not care about each other -/

set_option linter.unusedSectionVars false

namespace MaMDP

variable {K δ : Type} [Field K] [LinearOrder K] [IsStrictOrderedRing K]
variable {kind : GridKind} {W H : Nat} {selfT : Bool} {m m' : Mdp K} {specs : List (AgentSpec K δ)} {e0 : Env K δ}

namespace Env

/-- Agents other than `n` changed only rows they can change. -/
structure Others (n : String) (e e' : Env K δ) : Prop where
  later : Later e e'
  agent : e'.agent? n = e.agent? n
  mdp : ∃ g, e'.mdp = e.mdp.withFeat g ∧ ∀ r, (∀ b ∈ e.agents, b.name ≠ n →
    ¬ Spec.Changes e.mdp.features.d0 e.mdp.nAgents b r) → g r = e.mdp.features.get r

theorem Others.refl (n : String) (e : Env K δ) : Others n e e :=
  ⟨.refl e, rfl, e.mdp.features.get, rfl, fun _ _ => rfl⟩

theorem Others.trans {n : String} {e1 e2 e3 : Env K δ} (h1 : Ok kind W H selfT e1) (h2 : Ok kind W H selfT e2)
    (o1 : Others n e1 e2) (o2 : Others n e2 e3) : Others n e1 e3 := by
  obtain ⟨g1, m1, k1⟩ := o1.mdp
  obtain ⟨g2, m2, k2⟩ := o2.mdp
  refine ⟨o1.later.trans o2.later, o2.agent.trans o1.agent, g2, by rw [m2, m1]; rfl, fun r hr => ?_⟩
  rw [k2 r fun b hb hn hc => ?_, m1]
  · exact k1 r hr
  · obtain ⟨b0, hb0, e1, e2, -, e4, -⟩ := o1.later.back h1 h2 hb
    refine hr b0 hb0 (by rwa [← e1]) ?_
    unfold Spec.Changes at hc ⊢
    rwa [e2, e4, o1.later.d0, o1.later.nAgents] at hc

theorem others_fit (h : Ok kind W H selfT e0) {n n' : String} (hn : n' ≠ n) (o : FitOut K) (d : Nat → δ) :
    Others n e0 (e0.fit n' o d).1 := by
  refine ⟨later_fit h n' o d, agent?_fit hn.symm o d, e0.mdp.features.get, ?_, fun _ _ => rfl⟩
  rcases fit_cases h n' o d with ⟨-, h1⟩ | ⟨a, h1, -, h2⟩
  · rw [h1]; rfl
  · rw [h2]; rfl

theorem others_setAlgorithm (h : Ok kind W H selfT e0) {n n' : String} (hn : n' ≠ n) (st : AlgState K) :
    Others n e0 (e0.setAlgorithm n' st).1 := by
  refine ⟨later_setAlgorithm h n' st, agent?_setAlgorithm hn.symm st, e0.mdp.features.get, ?_, fun _ _ => rfl⟩
  rcases setAlgorithm_cases h n' st with ⟨-, h1⟩ | ⟨a, h1, -, h2⟩
  · rw [h1]; rfl
  · rw [h2]; rfl

theorem others_stepProba (h : Ok kind W H selfT e0) {n n' : String} (hn : n' ≠ n) (p : Option (Arr1 K)) (d : Nat → δ) :
    Others n e0 (e0.stepProba n' p d).1 := by
  refine ⟨later_stepProba h n' p d, agent?_stepProba hn.symm p d, e0.mdp.features.get, ?_, fun _ _ => rfl⟩
  rcases stepProba_cases h n' p d with ⟨-, h1⟩ | ⟨a, h1, -, ⟨err, -, h2⟩ | ⟨x, -, h2⟩⟩
  · rw [h1]; rfl
  · rw [h2]; rfl
  · rw [h2]; rfl

theorem eats_changes {e : Env K δ} {a : Agent K δ} {r : Nat} (h : Eats e a r) :
    Spec.Changes e.mdp.features.d0 e.mdp.nAgents a r := by
  obtain ⟨f, hf, hr⟩ := h
  exact .inr ⟨f, hf, (pyIdx_spec.1 hr).2⟩

theorem others_step (h : Ok kind W H selfT e0) {n n' : String} (hn : n' ≠ n) (d : Nat → δ) :
    Others n e0 (e0.step n' d).1 := by
  refine ⟨later_step h n' d, agent?_step hn.symm d, ?_⟩
  rcases step_cases h n' d with ⟨-, h1⟩ | ⟨a, a', err, h1, -, -, -, -, -, h3⟩ |
    ⟨a, a1, j, t, g, c, ha, hm, -, hg, -, h1, -⟩ | ⟨a, a1, j, t, g, ha, hm, -, hg, h1, -⟩
  · rw [h1]; exact ⟨_, rfl, fun _ _ => rfl⟩
  · rw [h3]; exact ⟨_, rfl, fun _ _ => rfl⟩
  · rw [h1]
    refine ⟨g, rfl, fun r hr => funext fun s => ?_⟩
    have hc := hr a hm.mem (by rw [ha]; exact hn)
    rw [hg, if_neg fun hx => hc (eats_changes hx.2.1)]
    change (if r = _ then _ else _) = _
    exact if_neg fun hx => hc (.inl hx)
  · rw [h1]
    refine ⟨g, rfl, fun r hr => funext fun s => ?_⟩
    have hc := hr a hm.mem (by rw [ha]; exact hn)
    rcases hg r s with hx | ⟨-, -, -, hx⟩
    · rw [hx]
      change (if r = _ then _ else _) = _
      exact if_neg fun hx => hc (.inl hx)
    · exact absurd (eats_changes hx) hc

theorem others_setAgentPosition (h : Ok kind W H selfT e0) {n n' : String} (hn : n' ≠ n) (p : Int) :
    Others n e0 (e0.setAgentPosition n' p).1 := by
  refine ⟨later_run [.setAgentPosition n' p] h, agent?_setAgentPosition hn.symm p, ?_⟩
  rcases setAgentPosition_cases h n' p with ⟨-, h4⟩ | ⟨c, hc, hcn, ⟨j, -, h4⟩ | ⟨-, h4⟩ | ⟨-, h4, -⟩⟩
  · rw [h4]; exact ⟨_, rfl, fun _ _ => rfl⟩
  · rw [h4]
    refine ⟨_, rfl, fun r hr => funext fun s => ?_⟩
    exact if_neg fun hx => hr c hc (by rw [hcn]; exact hn) (.inl hx)
  · rw [h4]; exact ⟨_, rfl, fun _ _ => rfl⟩
  · rw [h4]
    refine ⟨_, rfl, fun r hr => funext fun s => ?_⟩
    exact if_neg fun hx => hr c hc (by rw [hcn]; exact hn) (.inl hx)

theorem others_run {n : String} : ∀ (ops : List (EnvOp K δ)) (e : Env K δ), Ok kind W H selfT e →
    (∀ op ∈ ops, Spec.Elsewhere n op) → Others n e (e.run ops) := by
  intro ops
  induction ops with
  | nil => intro e _ _; exact .refl n e
  | cons op ops ih =>
    intro e h hops
    have h1 : Ok kind W H selfT (e.apply op) := Ok.run [op] e h
    have hop := hops op List.mem_cons_self
    have key : Others n e (e.apply op) := by
      cases op with
      | fit n' o d => exact others_fit h hop o d
      | step n' d => exact others_step h hop d
      | stepProba n' p d => exact others_stepProba h hop p d
      | stepMulti n' s mp t r c o =>
        exact (stepMulti_induct (fun e' => Ok kind W H selfT e' ∧ Others n e e')
          (fun e' o d hx => ⟨hx.1.fit n' o d, hx.2.trans h hx.1 (others_fit hx.1 hop o d)⟩)
          (fun e' d hx => ⟨hx.1.step n' d, hx.2.trans h hx.1 (others_step hx.1 hop d)⟩) e s mp t r c o
          ⟨h, .refl n e⟩).2
      | setAgentPosition n' p => exact others_setAgentPosition h hop p
      | stepMultiInteractive _ _ => exact hop.elim
      | reset => exact hop.elim
      | setWalls _ => exact hop.elim
      | addWallXY _ _ => exact hop.elim
      | resetWalls => exact hop.elim
      | setAlgorithm n' st => exact others_setAlgorithm h hop st
    exact key.trans h h1 (ih _ h1 fun o ho => hops o (List.mem_cons_of_mem _ ho))

end Env

/-- **C113**: an agent that gives no weight to what the others can change (their positions and the features they
consume) plans the same by value iteration whatever the others have done since: the same outcome, and the agent ends
up in the same state with the same values, action values, policy and probabilities. -/
theorem C113_indifferent (hm : Mdp.GridReach kind W H selfT m) (hinit : Env.init m specs = (m', .ok e0))
    (ops others : List (EnvOp K δ)) (e e' : Env K δ) (he : e = e0.run ops) (he' : e' = e.run others)
    (a : Agent K δ) (ha : a ∈ e.agents) (hothers : ∀ op ∈ others, Spec.Elsewhere a.name op)
    (hcare : ∀ b ∈ e.agents, b.name ≠ a.name → ∀ row,
      Spec.Changes e.mdp.features.d0 e.mdp.nAgents b row → a.reward.get row = 0)
    (maxIter : Nat) (γ tol : K) (d : Nat → δ) :
    (e'.fit a.name (valueIterationFit e'.mdp maxIter γ tol) d).2 =
      (e.fit a.name (valueIterationFit e.mdp maxIter γ tol) d).2 ∧
    (e'.fit a.name (valueIterationFit e'.mdp maxIter γ tol) d).1.agent? a.name =
      (e.fit a.name (valueIterationFit e.mdp maxIter γ tol) d).1.agent? a.name := by
  have hok : Env.Ok kind W H selfT e := by rw [he]; exact (Env.started hm hinit ops).1
  have hok' : Env.Ok kind W H selfT e' := by rw [he']; exact Env.Ok.run others e hok
  have ho := Env.others_run others e hok hothers
  rw [← he'] at ho
  obtain ⟨g, hmdp, hg⟩ := ho.mdp
  have hsome : e.agent? a.name = some a := (Env.agent?_eq hok.nodup).2 ⟨ha, rfl⟩
  have hmem' : a ∈ e'.agents := (Env.agent?_mem (ho.agent.trans hsome)).1
  have hr : stateReward a.reward.d0 a.reward.get e'.mdp.features.get =
      stateReward a.reward.d0 a.reward.get e.mdp.features.get := by
    funext t
    unfold stateReward npDot
    refine Finset.sum_congr rfl fun f _ => ?_
    by_cases hf : ∀ b ∈ e.agents, b.name ≠ a.name → ¬ Spec.Changes e.mdp.features.d0 e.mdp.nAgents b f
    · rw [hmdp]
      change _ * g f t = _
      rw [hg f hf]
    · push Not at hf
      obtain ⟨b, hb, hn, hc⟩ := hf
      rw [hcare b hb hn f hc, zero_mul, zero_mul]
  have hfit : a.fit e'.mdp (valueIterationFit e'.mdp maxIter γ tol) d =
      a.fit e.mdp (valueIterationFit e.mdp maxIter γ tol) d := by
    have hout : valueIterationFit e'.mdp maxIter γ tol a.reward = valueIterationFit e.mdp maxIter γ tol a.reward := by
      unfold valueIterationFit
      rw [hr, hmdp]
      rfl
    have hd : e'.mdp.nFeatures = e.mdp.nFeatures := by rw [hmdp]; rfl
    unfold Agent.fit algFit
    simp only [PyArr.of1, checkReward, List.getD_cons_zero, hd]
    split_ifs
    · simp only
      rw [hout, hmdp]
      rfl
    · rfl
  have key : ∀ x : Env K δ, Env.Ok kind W H selfT x → a ∈ x.agents → ∀ out : FitOut K,
      (x.fit a.name out d).2 = (a.fit x.mdp out d).2 ∧
      (x.fit a.name out d).1.agent? a.name = some (a.fit x.mdp out d).1 := by
    intro x hx hax out
    have hl : x.lookup a.name = .ok a := (Env.lookup_ok hx).2 ⟨hax, rfl⟩
    unfold Env.fit
    rw [hl]
    exact ⟨rfl, Env.agent?_put_same hx hax (Agent.fit_same a x.mdp out d).1.name⟩
  rw [(key e' hok' hmem' _).1, (key e' hok' hmem' _).2, (key e hok ha _).1, (key e hok ha _).2, hfit]
  exact ⟨rfl, rfl⟩

/-- The fox does not care where the hen is, and the hen has moved. -/
example : ∃ m m' e, Mdp.GridReach .square 1 3 false m ∧ Env.init m exSpecs = (m', .ok e) ∧
    ∃ a ∈ e.agents, a.name = "fox" ∧ (∀ op ∈ [EnvOp.setAgentPosition (K := Rat) (δ := Nat) "hen" 1],
      Spec.Elsewhere a.name op) ∧
    (∀ b ∈ e.agents, b.name ≠ a.name → ∀ row,
      Spec.Changes e.mdp.features.d0 e.mdp.nAgents b row → a.reward.get row = 0) ∧
    ((e.run [.setAgentPosition "hen" 1]).agent? "hen").map (·.position) = some 1 := by
  obtain ⟨m, m', e, h1, h2, h3⟩ := exStart
    (fun e => (e.agents.any fun a => decide (a.name = "fox") && e.agents.all fun b => decide (b.name ≠ "fox" →
      b.consumes = [] ∧ a.reward.get (e.mdp.features.d0 - e.mdp.nAgents + b.idx) = 0)) &&
      decide (((e.run [.setAgentPosition "hen" 1]).agent? "hen").map (·.position) = some 1)) (by decide +kernel)
  rw [Bool.and_eq_true, decide_eq_true_eq, List.any_eq_true] at h3
  obtain ⟨⟨a, ha, h3⟩, h4⟩ := h3
  rw [Bool.and_eq_true, decide_eq_true_eq, List.all_eq_true] at h3
  obtain ⟨hn, h3⟩ := h3
  refine ⟨m, m', e, h1, h2, a, ha, hn, ?_, ?_, h4⟩
  · intro op hop
    rw [List.mem_singleton] at hop
    subst hop
    rw [hn]
    change "hen" ≠ "fox"
    decide
  · intro b hb hbn row hc
    obtain ⟨h5, h6⟩ := of_decide_eq_true (h3 b hb) (by rw [← hn]; exact hbn)
    rcases hc with rfl | ⟨f, hf, -⟩
    · exact h6
    · rw [h5] at hf; cases hf

end MaMDP
