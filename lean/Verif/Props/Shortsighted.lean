import Verif.Lemmas.Shortsighted
import Verif.Props.Optimality
import Verif.Props.PlanningCases

/-! # C167: an agent that hardly looks ahead goes to the best neighbour -/

set_option linter.unusedSectionVars false

namespace MaMDP

/-- **C167**, the plan: when rewards are between `-L` and `U`, the state that a best action leads to has at most
`γ (L + U) / (1 - γ)` less reward than any other state one action away. -/
theorem C167_plan {K : Type} [Field K] [LinearOrder K] [IsStrictOrderedRing K] (M : Trans K) (hM : Spec.SubStochastic M)
    (hdet : Spec.Deterministic M) (hA : 0 < M.nA) (r : Nat → K) (L U : K) (hL : 0 ≤ L) (hU : 0 ≤ U)
    (hr : ∀ t, t < M.nS → -L ≤ r t ∧ r t ≤ U) (maxIter : Nat) (γ tol : K) (v : Nat → K) (q : Nat → Nat → Ext K)
    (h : solveHard M r maxIter γ tol = .ok (v, q)) (s x t : Nat) (hs : s < M.nS) (hx : x < M.nA) (ht : t < M.nS)
    (hp : M.p s x t = 1) (hbest : ∀ b, b < M.nA → Spec.NoBetter (q s b) (q s x)) (u : Nat) (hu : Spec.Successor M s u) :
    r u ≤ r t + γ * (L + U) / (1 - γ) := by
  obtain ⟨h0, h1, w, hw, hq⟩ := solve_future hM hdet hA hL hU hr h hs
  obtain ⟨hu, b, hb, hpb⟩ := hu
  have := hbest b hb
  rw [hq x t hx ht hp, hq b u hb hu ((hdet s b u hs hb hu).resolve_left (ne_of_gt hpb))] at this
  have this : r u + γ * w u ≤ r t + γ * w t := this
  have h2 := mul_le_mul_of_nonneg_left (hw t ht).2 h0.le
  have h3 := mul_le_mul_of_nonneg_left (hw u hu).1 h0.le
  have h4 : γ * (L + U) / (1 - γ) = γ * (L / (1 - γ)) + γ * (U / (1 - γ)) := by ring
  linarith

variable {kind : GridKind} {W H : Nat} {selfT : Bool} {m m' : Mdp ℝ} {specs : List (AgentSpec ℝ Nat)} {e0 : Env ℝ Nat}

/-- **C167**: after any history, an agent that takes best actions and is fitted with value iteration makes every one of
its next steps to a state that has at most `γ (L + U) / (1 - γ)` less reward than any other state it could have gone to
with that step. In particular a state that has more reward than all the others by more than this is where it goes. -/
theorem C167_steps (hm : Mdp.GridReach kind W H selfT m) (hinit : Env.init m specs = (m', .ok e0))
    (ops : List (EnvOp ℝ Nat)) (e : Env ℝ Nat) (he : e = e0.run ops) (a : Agent ℝ Nat) (ha : a ∈ e.agents)
    (hsel : a.selector = maxSelector) (s : Nat) (hs : s = Spec.stateOf (W * H) a.position)
    (hlive : Spec.Live e.mdp.trans s)
    (r : Nat → ℝ) (hr : r = fun t => ∑ f ∈ Finset.range a.reward.d0, a.reward.get f * e.mdp.features.get f t)
    (L U : ℝ) (hL : 0 ≤ L) (hU : 0 ≤ U) (hrR : ∀ t, t < W * H → -L ≤ r t ∧ r t ≤ U)
    (maxIter : Nat) (hk : 0 < maxIter) (γ tol : ℝ) (h0 : 0 < γ) (h1 : γ < 1) (d : Nat → Nat) (n : Nat)
    (draws : Nat → Nat → Nat) :
    ∃ e1, e.fit a.name (valueIterationFit e.mdp maxIter γ tol) d = (e1, .ok ()) ∧
    ∃ a' ∈ (e1.run ((List.range n).map fun i => .step a.name (draws i))).agents, a'.name = a.name ∧
      ∃ ps : List Nat, ps.length = n ∧ a'.history = a.history ++ ps.map (fun p : Nat => (p : Int)) ∧
        ∀ (i p t : Nat), (s :: ps)[i]? = some p → ps[i]? = some t → Spec.Successor e.mdp.trans p t ∧
          (∀ u, Spec.Successor e.mdp.trans p u → r u ≤ r t + γ * (L + U) / (1 - γ)) ∧
          ∀ g, Spec.Successor e.mdp.trans p g →
            (∀ u, Spec.Successor e.mdp.trans p u → u ≠ g → r u + γ * (L + U) / (1 - γ) < r g) → t = g := by
  obtain ⟨e1, hfit⟩ := fit_succeeds hm hinit ops e he a ha hsel s hs hlive maxIter hk γ tol h0 h1 d
  refine ⟨e1, hfit, ?_⟩
  obtain ⟨hsn, v, q, hsol, hf⟩ := follows_fit hm hinit ops e he a ha hsel s hs hlive maxIter γ tol d e1 hfit
  have hok : Env.Ok kind W H selfT e := by rw [he]; exact (Env.started hm hinit ops).1
  have hN : e.mdp.trans.nS = W * H := hok.reach.ok.nStates
  obtain ⟨hM, hdet, hA, -⟩ := C27_grid kind W H selfT e.mdp hok.reach
  obtain ⟨l, l1, l2, l3, j', ⟨-, -, -, -, -, a', ha', hn', -, -, -, -, hh⟩, -⟩ := hf.walk draws n 0
  simp only [Nat.zero_add] at ha'
  have hr' : stateReward a.reward.d0 a.reward.get e.mdp.features.get = r := by rw [hr]; rfl
  rw [hr'] at hsol
  refine ⟨a', ha', hn', l.map (·.2), by simpa using l1, by rw [hh, List.map_map]; rfl, fun i p t hp ht => ?_⟩
  obtain ⟨g1, g2, x, g3, g4, g5⟩ := greedy_at l s hsn l2 l3 i p t hp ht
  have hsucc : Spec.Successor e.mdp.trans p t := ⟨g2, x, g3, by rw [g4]; exact one_pos⟩
  have key : ∀ u, Spec.Successor e.mdp.trans p u → r u ≤ r t + γ * (L + U) / (1 - γ) := fun u hu =>
    C167_plan e.mdp.trans hM hdet hA r L U hL hU (fun t ht => hrR t (by rw [← hN]; exact ht)) maxIter γ tol v q hsol p x t
      g1 g3 g2 g4 g5 u hu
  refine ⟨hsucc, key, fun g hg hb => ?_⟩
  by_contra hne
  have h2 := hb t hsucc hne
  have h3 := key g hg
  linarith

/-- A case of the theorem: a corridor of three states with rewards -1, 3 and 4, and a discount of 1/10. With every step
the agent loses at most 5/9 against the best it could have had with that step. -/
example : ∃ (m m' : Mdp ℝ) (e : Env ℝ Nat) (a : Agent ℝ Nat), Mdp.GridReach .square 1 3 false m ∧
    Env.init m exStroller = (m', .ok e) ∧ a ∈ e.agents ∧ ∃ e1,
    e.fit a.name (valueIterationFit e.mdp 1 (1 / 10) (1 / 100)) (fun _ => 0) = (e1, .ok ()) ∧
    ∃ a' ∈ (e1.run ((List.range 2).map fun _ => .step a.name fun _ => 0)).agents, a'.name = a.name ∧
      a'.history = a.history ++ [1, 2] := by
  obtain ⟨m, m', e, a, hm, hinit, ha, -, hp, hsel, hS, hA, hsas, hr⟩ :=
    exStroller_start fun t => if t = 0 then -1 else if t = 1 then 3 else 4
  obtain ⟨hl, h01, h12, h21⟩ := exStroller_live hS hA hsas
  have hsucc : ∀ s t, s < 3 → Spec.Successor e.mdp.trans s t → t < 3 ∧ ∃ x, x < 4 ∧ GridKind.square.Move 3 false s x t := by
    rintro s t hs ⟨ht, x, hx, hpos⟩
    have ht' : t < 3 := by rw [← hS]; exact ht
    refine ⟨ht', x, by rw [← hA]; exact hx, ?_⟩
    by_contra hc
    change 0 < e.mdp.sas s x t at hpos
    rw [hsas s x t hs ht', if_neg hc] at hpos
    exact lt_irrefl _ hpos
  obtain ⟨e1, g1, a', g2, g3, ps, g4, g5, g6⟩ := C167_steps hm hinit [] e rfl a ha hsel 0 (by rw [hp]; rfl) hl _ hr.symm 1 4
    (by norm_num) (by norm_num) (by intro t _; split_ifs <;> norm_num) 1 (by decide) (1 / 10) (1 / 100) (by norm_num) (by norm_num)
    (fun _ => 0) 2 fun _ _ => 0
  refine ⟨m, m', e, a, hm, hinit, ha, e1, g1, a', g2, g3, ?_⟩
  match ps, g4 with
  | [x, y], _ =>
    have hx := (g6 0 0 x rfl rfl).2.2 1 h01 (fun u hu hne => by
      obtain ⟨hu3, b, hb, hmv⟩ := hsucc 0 u (by decide) hu
      exfalso
      have : u = 0 ∨ u = 2 := by omega
      rcases this with rfl | rfl <;> revert hmv <;> interval_cases b <;> decide)
    subst hx
    have hy := (g6 1 1 y rfl rfl).2.2 2 h12 (fun u hu hne => by
      obtain ⟨hu3, b, hb, hmv⟩ := hsucc 1 u (by decide) hu
      have : u = 0 ∨ u = 1 := by omega
      rcases this with rfl | rfl
      · norm_num
      · exfalso
        revert hmv
        interval_cases b <;> decide)
    subst hy
    rw [g5]
    rfl

end MaMDP
