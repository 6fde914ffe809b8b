import Verif.Props.RewardErrors
import Verif.Props.Costs
import Verif.Props.Algorithm
import Verif.Props.LearnerState

/-! # Cases of the planning theorems C82, C93, C109 and C111 in an environment -/

set_option linter.unusedSectionVars false

namespace MaMDP

/-- An agent at the start of a corridor that likes feature 0. -/
noncomputable def exStroller : List (AgentSpec ℝ Nat) :=
  [⟨"cat", 1, maxSelector, .fresh, some 0, .of1 ⟨2, fun f => if f = 0 then 1 else 0⟩, []⟩]

/-- The agent in a corridor of three states where feature 0 is `f`. -/
theorem exStroller_start (f : Nat → ℝ) : ∃ (m m' : Mdp ℝ) (e : Env ℝ Nat) (a : Agent ℝ Nat),
    Mdp.GridReach .square 1 3 false m ∧ Env.init m exStroller = (m', .ok e) ∧ a ∈ e.agents ∧ a.name = "cat" ∧
    a.position = 0 ∧ a.selector = maxSelector ∧ e.mdp.nStates = 3 ∧ e.mdp.nActions = 4 ∧
    (∀ s x t, s < 3 → t < 3 → e.mdp.sas s x t = if GridKind.square.Move 3 false s x t then (1 : ℝ) else 0) ∧
    (fun t => ∑ i ∈ Finset.range a.reward.d0, a.reward.get i * e.mdp.features.get i t) = f := by
  obtain ⟨m, hi, -, hF, -, hN, hNA, -, hW⟩ := Mdp.initGrid_ok (K := ℝ) (kind := .square) (W := 1) (H := 3)
    (selfT := false) (f := ⟨1, 3, fun _ s => f s⟩)
    (w := none) (by decide) rfl (by intro v hv; cases hv)
  have hm : Mdp.GridReach .square 1 3 false m := .init hi
  have hd : m.features.d0 - m.nAgents = 1 := by rw [hF, hN]; rfl
  obtain ⟨e, he⟩ := (C38_validated hm exStroller).2 (by
    intro sp hsp
    rw [exStroller, List.mem_singleton] at hsp
    subst hsp
    rw [hd]
    exact ⟨⟨_, rfl⟩, ⟨0, rfl, by decide, by decide⟩, by simp⟩)
  have hinit : Env.init m exStroller = ((Env.init m exStroller).1, .ok e) := Prod.ext rfl he
  have hnames : (exStroller.map (·.name)).Nodup := by simp [exStroller]
  obtain ⟨hl, -, hag⟩ := C38_agents hm hinit hnames
  obtain ⟨-, -, -, -, -, -, -, -, -, -, -, hwl, hfe, -⟩ := Env.init_facts hm hinit
  have hl1 : e.agents.length = 1 := hl
  have hlt : 0 < e.agents.length := by omega
  obtain ⟨hname, -, hpos, -, -, -, -, -, hrd, ⟨get, hget, hrw⟩, hsel, -⟩ :=
    hag 0 e.agents[0] ⟨"cat", 1, maxSelector, .fresh, some 0, .of1 ⟨2, fun f => if f = 0 then 1 else 0⟩, []⟩
      (List.getElem?_eq_getElem hlt) rfl
  have hmem : e.agents[0] ∈ e.agents := List.getElem_mem hlt
  generalize e.agents[0] = a at *
  have hp0 : a.position = 0 := (Option.some.inj hpos).symm
  have g : Mdp.GridOk .square 1 3 false e.mdp := (Env.started hm hinit []).1.reach.ok
  have hw : ∀ s, e.mdp.walls.get s = 0 := by intro s; rw [hwl, hW]
  have hd2 : a.reward.d0 = 2 := by rw [hrd, hd]; rfl
  have hr0 : a.reward.get 0 = 1 ∧ a.reward.get 1 = 0 := by
    rw [hrw, hrw]
    simp only [PyArr.of1, PyArr.nd.injEq] at hget
    rw [← hget.2]
    simp
  refine ⟨m, _, e, a, hm, hinit, hmem, hname, hp0, hsel, g.nStates, g.nActions, ?_, ?_⟩
  · intro s x t hs ht
    rw [g.sas s x t hs ht, hw, hw]
    simp
  · funext t
    rw [hd2, Finset.sum_range_succ, Finset.sum_range_one, hr0.1, hr0.2, hfe 0 t (by rw [hd]; decide), hF]
    simp

/-- The start of the corridor can be left. -/
theorem exStroller_live {e : Env ℝ Nat} (hS : e.mdp.nStates = 3) (hA : e.mdp.nActions = 4)
    (hsas : ∀ s x t, s < 3 → t < 3 → e.mdp.sas s x t = if GridKind.square.Move 3 false s x t then (1 : ℝ) else 0) :
    Spec.Live e.mdp.trans 0 ∧ Spec.Successor e.mdp.trans 0 1 ∧ Spec.Successor e.mdp.trans 1 2 ∧
      Spec.Successor e.mdp.trans 2 1 := by
  have h : ∀ s x t, s < 3 → t < 3 → x < 4 → GridKind.square.Move 3 false s x t → Spec.Successor e.mdp.trans s t := by
    intro s x t hs ht hx hmv
    refine ⟨by change t < e.mdp.nStates; rw [hS]; exact ht, x, by change x < e.mdp.nActions; rw [hA]; exact hx, ?_⟩
    change 0 < e.mdp.sas s x t
    rw [hsas s x t hs ht, if_pos hmv]
    exact one_pos
  have h01 := h 0 0 1 (by decide) (by decide) (by decide) (by decide)
  refine ⟨?_, h01, h 1 0 2 (by decide) (by decide) (by decide) (by decide), h 2 2 1 (by decide) (by decide) (by decide) (by decide)⟩
  obtain ⟨ht, x, hx, hp⟩ := h01
  exact ⟨x, hx, 1, ht, hp⟩

/-- A case of `C109_partial`: the first state costs 5, the second gives 1, the third nothing. Wherever the agent is, it
can go where it does not pay. -/
example : ∃ (m m' : Mdp ℝ) (e : Env ℝ Nat) (a : Agent ℝ Nat), Mdp.GridReach .square 1 3 false m ∧
    Env.init m exStroller = (m', .ok e) ∧ a ∈ e.agents ∧ ∃ maxIter e1,
    e.fit a.name (valueIterationFit e.mdp maxIter (1 / 2) (1 / 100)) (fun _ => 0) = (e1, .ok ()) ∧
    ∃ a' ∈ (e1.run ((List.range 6).map fun _ => .step a.name (fun _ => 0))).agents, a'.name = a.name ∧
      ∃ ps : List Nat, ps.length = 6 ∧ a'.history = a.history ++ ps.map (fun p : Nat => (p : Int)) ∧
        ∀ other, Spec.Plays e.mdp.trans 0 other →
          Spec.discounted (fun t => if t = 0 then (-5 : ℝ) else if t = 1 then 1 else 0) (1 / 2) other ≤
          Spec.visitReward (fun t => if t = 0 then (-5 : ℝ) else if t = 1 then 1 else 0) (1 / 2) ps +
            (1 / 2) ^ 6 * (1 / (1 - 1 / 2)) + 2 * (1 / 100) * (1 / 2) / (1 - 1 / 2) ^ 2 := by
  obtain ⟨m, m', e, a, hm, hinit, ha, -, hp, hsel, hS, hA, hsas, hr⟩ :=
    exStroller_start fun t => if t = 0 then -5 else if t = 1 then 1 else 0
  obtain ⟨hl, h01, h12, h21⟩ := exStroller_live hS hA hsas
  have hgrid := C27_grid _ _ _ _ _ (Env.started hm hinit []).1.reach
  obtain ⟨N, hN⟩ := C103_limit e.mdp.trans hgrid.1 hgrid.2.2.1 (fun t => if t = 0 then (-5 : ℝ) else if t = 1 then 1 else 0)
    (1 / 2) (1 / 100) (by norm_num) (by norm_num) (by norm_num)
  obtain ⟨i, hi1, hi2⟩ := hN N le_rfl
  obtain ⟨e1, h1, h2⟩ := C109_partial hm hinit [] e rfl a ha hsel 0 (by rw [hp]; rfl) hl _ hr.symm 1 zero_le_one
    (by intro t _; split_ifs <;> norm_num)
    (by
      intro s hs _
      have : s = 0 ∨ s = 1 ∨ s = 2 := by omega
      rcases this with rfl | rfl | rfl
      · exact ⟨1, h01, by norm_num⟩
      · exact ⟨2, h12, by norm_num⟩
      · exact ⟨1, h21, by norm_num⟩)
    N (1 / 2) (1 / 100) (by norm_num) (by norm_num) (by norm_num)
    ⟨i, hi1, fun s hs => hi2 s (by change s < e.mdp.nStates; rw [hS]; omega)⟩ (fun _ => 0) 6 fun _ _ => 0
  exact ⟨m, m', e, a, hm, hinit, ha, N, e1, h1, h2⟩

/-- A case of `C111_environment`: the agent believes the last state to be worth 1 and the others nothing; it is wrong by
up to a tenth. -/
example : ∃ (m m' : Mdp ℝ) (e : Env ℝ Nat) (a : Agent ℝ Nat), Mdp.GridReach .square 1 3 false m ∧
    Env.init m exStroller = (m', .ok e) ∧ a ∈ e.agents ∧ ∃ maxIter e1,
    e.fit a.name (valueIterationFit e.mdp maxIter (1 / 2) (1 / 100)) (fun _ => 0) = (e1, .ok ()) ∧
    ∃ a' ∈ (e1.run ((List.range 6).map fun _ => .step a.name (fun _ => 0))).agents, a'.name = a.name ∧
      ∃ ps : List Nat, ps.length = 6 ∧ a'.history = a.history ++ ps.map (fun p : Nat => (p : Int)) ∧
        ∀ other, Spec.Plays e.mdp.trans 0 other →
          Spec.discounted (fun t => if t = 2 then (9 / 10 : ℝ) else 1 / 10) (1 / 2) other ≤
          Spec.visitReward (fun t => if t = 2 then (9 / 10 : ℝ) else 1 / 10) (1 / 2) ps + 2 * (1 / 10) / (1 - 1 / 2) +
            (1 / 2) ^ 6 * (1 / (1 - 1 / 2)) + 2 * (1 / 100) * (1 / 2) / (1 - 1 / 2) ^ 2 := by
  obtain ⟨m, m', e, a, hm, hinit, ha, -, hp, hsel, hS, hA, hsas, hr⟩ :=
    exStroller_start fun t => if t = 2 then 1 else 0
  obtain ⟨hl, -⟩ := exStroller_live hS hA hsas
  have hgrid := C27_grid _ _ _ _ _ (Env.started hm hinit []).1.reach
  obtain ⟨N, hN⟩ := C103_limit e.mdp.trans hgrid.1 hgrid.2.2.1 (fun t => if t = 2 then (1 : ℝ) else 0)
    (1 / 2) (1 / 100) (by norm_num) (by norm_num) (by norm_num)
  obtain ⟨i, hi1, hi2⟩ := hN N le_rfl
  obtain ⟨e1, h1, h2⟩ := C111_environment hm hinit [] e rfl a ha hsel 0 (by rw [hp]; rfl) hl _ hr.symm
    (fun t => if t = 2 then 9 / 10 else 1 / 10) 1 (1 / 10)
    (by intro t _; split_ifs <;> norm_num)
    (by intro t _; split_ifs <;> norm_num [abs_le])
    N (1 / 2) (1 / 100) (by norm_num) (by norm_num) (by norm_num)
    ⟨i, hi1, fun s hs => hi2 s (by change s < e.mdp.nStates; rw [hS]; omega)⟩ (fun _ => 0) 6 fun _ _ => 0
  exact ⟨m, m', e, a, hm, hinit, ha, N, e1, h1, h2⟩

/-- Cases of `C82_value_iteration`: on a 2 by 2 grid with one feature a reward vector of length 1 is accepted, a matrix is
refused. -/
example : ∃ m : Mdp ℚ, Mdp.GridReach .hex 2 2 true m ∧
    (m.fitVI 50 (1 / 2) (1 / 100) (.nd [1] fun _ => 3) .fresh).2 = .ok () ∧
    (m.fitVI 50 (1 / 2) (1 / 100) (.nd [1, 1] fun _ => 3) .fresh).2 ≠ .ok () := by
  obtain ⟨m, hi, -, hF, -⟩ := Mdp.initGrid_ok (K := ℚ) (kind := .hex) (W := 2) (H := 2)
    (selfT := true) (f := ⟨1, 4, fun _ s => s⟩) (w := none) (by decide) rfl (by intro v hv; cases hv)
  have hd : m.features.d0 = 1 := by rw [hF]
  have h := fun r => C82_value_iteration .hex 2 2 true m (.init hi) 50 (by decide) (1 / 2 : ℚ) (1 / 100) (by norm_num) (by norm_num)
    r .fresh
  refine ⟨m, .init hi, (h _).2 ⟨fun _ => 3, by rw [hd]⟩, fun hc => ?_⟩
  obtain ⟨get, hg⟩ := (h _).1 hc
  rw [hd] at hg
  simp at hg

/-- A case of `C93_mce_partial`: the second trajectory names a state the corridor does not have. -/
example : ∃ m : Mdp ℝ, Mdp.GridReach .square 1 3 false m ∧ ∀ (o : MceIrl ℝ) (expected : (Nat → ℝ) → Py (Nat → ℝ)),
    ∃ e, o.fit m [[0, 1], [1, 3]] (.list []) expected = (o, .error e) := by
  obtain ⟨m, m', e, a, hm, -⟩ := exStroller_start fun _ => 0
  refine ⟨m, hm, fun o expected => C93_mce_partial o m _ _ expected (.inr (.inr (.inl ⟨[1, 3], by simp, 3, by simp, ?_⟩)))⟩
  rw [hm.ok.nStates]
  unfold Spec.InRange
  omega

end MaMDP
