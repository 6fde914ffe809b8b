import Verif.Spec.Credit
import Verif.Props.MCTS

/-! # C118: what a tree search credits to an action -/

set_option linter.unusedSectionVars false

namespace MaMDP

variable {K : Type} [Field K] [LinearOrder K] [IsStrictOrderedRing K] {δ : Type}

theorem valueOf_le {outs : List (K × List Nat)} {t : Nat} {hi : K} (h : ∀ x ∈ outs, t ∈ x.2 → x.1 ≤ hi) :
    Spec.valueOf outs t ≤ Spec.visitsOf outs t * hi := by
  induction outs with
  | nil => simp [Spec.valueOf, Spec.visitsOf]
  | cons x outs ih =>
    have h1 := ih fun y hy => h y (List.mem_cons_of_mem _ hy)
    simp only [Spec.valueOf, Spec.visitsOf, List.map_cons, List.sum_cons, Nat.cast_add, add_mul] at h1 ⊢
    refine add_le_add ?_ h1
    by_cases ht : t ∈ x.2
    · exact mul_le_mul_of_nonneg_left (h x List.mem_cons_self ht) (Nat.cast_nonneg _)
    · rw [List.count_eq_zero_of_not_mem ht]; simp

theorem le_valueOf {outs : List (K × List Nat)} {t : Nat} {lo : K} (h : ∀ x ∈ outs, t ∈ x.2 → lo ≤ x.1) :
    Spec.visitsOf outs t * lo ≤ Spec.valueOf outs t := by
  induction outs with
  | nil => simp [Spec.valueOf, Spec.visitsOf]
  | cons x outs ih =>
    have h1 := ih fun y hy => h y (List.mem_cons_of_mem _ hy)
    simp only [Spec.valueOf, Spec.visitsOf, List.map_cons, List.sum_cons, Nat.cast_add, add_mul] at h1 ⊢
    refine add_le_add ?_ h1
    by_cases ht : t ∈ x.2
    · exact mul_le_mul_of_nonneg_left (h x List.mem_cons_self ht) (Nat.cast_nonneg _)
    · rw [List.count_eq_zero_of_not_mem ht]; simp

/-- **C118**, what does hold: there is a list of simulated walks with their returns, and the value of an action that
leads to `t` is the sum of the returns of the walks through `t` (once per visit), divided by one more than the visits.
The walks and returns are those of the simulated iterations, one after the other.
So it is 0 if no walk came through `t`; if the returns of those that did are between `lo` and `hi`, then the value is
between `lo` and `hi` shrunk towards 0 by the factor `n / (n + 1)` for `n` visits. -/
theorem C118_partial (e : Env K δ) (hdet : Spec.Deterministic e.mdp.trans)
    (hsum : ∀ s x, s < e.mdp.nStates → x < e.mdp.nActions → ∑ t ∈ Finset.range e.mdp.nStates, e.mdp.sas s x t ≤ 1)
    (a : Agent K δ) (o : MctsOpts K) (nIter : Nat) (plan : List (List Nat)) (cache : QCache K)
    (draws : Nat → Nat → Draw K) (fuel : Nat) (w : Arr1 K) (v q : PyArr (Ext K))
    (h : e.mctsFit a o nIter (some plan) cache draws fuel w = some (.ok (v, q))) :
    ∃ (A : SimAgents K) (s : Search K) (outs : List (K × List Nat)) (here : Nat) (g : Nat → Nat → Ext K),
      extractInfo (e.agentInfos a o.interactive w) = .ok A ∧
      (runMcts o e.mdp.trans A w.d0 nIter e.mdp.features.get (some plan) cache draws fuel).2.2 = some (.ok s) ∧
      outs.length = nIter ∧ s.visited = outs.map (·.2) ∧
      (∀ i, i < nIter → ∃ cache' st,
        (mctsIteration o e.mdp.trans A w.d0 e.mdp.features.get A.nodes (Spec.valueOf (outs.take i))
          (Spec.visitsOf (outs.take i)) plan cache' (draws i) fuel).2.2 = some (.ok st) ∧
          outs[i]? = some (st.acc, st.visited)) ∧
      pyIdx e.mdp.nStates a.position = some here ∧ q = .of2 ⟨e.mdp.nStates, e.mdp.nActions, g⟩ ∧
      ∀ x t, x < e.mdp.nActions → t < e.mdp.nStates → e.mdp.sas here x t = 1 →
        ∃ (y : K) (n : Nat), g here x = .fin y ∧ n = (outs.map fun out => out.2.count t).sum ∧
          y = (outs.map fun out => (out.2.count t : K) * out.1).sum / (n + 1) ∧
          (n = 0 → y = 0) ∧
          (∀ hi, (∀ out ∈ outs, t ∈ out.2 → out.1 ≤ hi) → y ≤ n / (n + 1) * hi) ∧
          (∀ lo, (∀ out ∈ outs, t ∈ out.2 → lo ≤ out.1) → n / (n + 1) * lo ≤ y) := by
  obtain ⟨A, s, here, g, h1, h2, h3, -, h5, -, -, h8⟩ :=
    C63_table e hdet hsum a o nIter (some plan) cache draws fuel w v q h
  obtain ⟨outs, k1, k2, k3, k4, k5, k6⟩ :=
    C58_tables o e.mdp.trans A w.d0 nIter e.mdp.features.get plan cache draws fuel s h2
  refine ⟨A, s, outs, here, g, h1, h2, k1, k4, k6, h3, h5, fun x t hx ht hp => ?_⟩
  have hpos : (0 : K) < (s.N t : K) + 1 := by positivity
  refine ⟨s.V t / (1 + (s.N t : K)), s.N t, h8 x t hx ht hp, by rw [k2]; rfl, by rw [k3, add_comm]; rfl, ?_, ?_, ?_⟩
  · intro h0
    rw [k5 t h0, zero_div]
  · intro hi hle
    have := valueOf_le hle
    rw [← k2, ← k3] at this
    rw [add_comm (1 : K), div_mul_eq_mul_div]
    exact div_le_div_of_nonneg_right this hpos.le
  · intro lo hle
    have := le_valueOf hle
    rw [← k2, ← k3] at this
    rw [add_comm (1 : K), div_mul_eq_mul_div]
    exact div_le_div_of_nonneg_right this hpos.le

/-- A forager on a grid of three columns and two rows, with something to eat on states 1 and 4. -/
def exForager : List (AgentSpec Rat Nat) :=
  [⟨"bee", 1, maxSelector, .fresh, some 0, .of1 ⟨2, fun i => if i = 0 then 1 else 0⟩, [0]⟩]

/-- They plan alone. -/
def exSolo : MctsOpts Rat := { exOpts with interactive := false }

/-- Outcomes of the generator for two iterations. -/
def exPicks (i j : Nat) : Draw Rat := ⟨([[0, 0, 1, 1], [0, 0, 1, 1]].getD i []).getD j 0, 0⟩

/-- **C118** is false in general. The forager's first action to try leads to state 1, the other one to state 2. They
search through two walks of four moves, 1-3-2-4 and 1-0-2-4; both begin with state 1, and both find the food on 1 and on
4, a return of 2. State 2 was visited twice, so the action that leads to it is credited with (2 + 2) / 3 = 4/3. But no
walk of four moves that begins with state 2 comes across more than one of the two. -/
theorem C118_refuted : ∃ (m m' : Mdp Rat) (e : Env Rat Nat) (a : Agent Rat Nat) (v : PyArr (Ext Rat))
    (g : List Nat → Ext Rat), Mdp.GridReach .square 3 2 false m ∧ Env.init m exForager = (m', .ok e) ∧ a ∈ e.agents ∧
    a.position = 0 ∧ a.consumes = [0] ∧
    (∀ t < 6, (∑ f ∈ Finset.range a.reward.d0, a.reward.get f * e.mdp.features.get f t) = e.mdp.features.get 0 t) ∧
    e.mctsFit a exSolo 2 (some [[4]]) (fun _ _ => none) exPicks 10 a.reward = some (.ok (v, .nd [6, 4] g)) ∧
    e.mdp.sas 0 1 2 = 1 ∧ g [0, 1] = .fin (4 / 3) ∧
    ∀ l : List Nat, l.length = 3 → Spec.Walk e.mdp.trans 0 (2 :: l) →
      Spec.gather (fun t => e.mdp.features.get 0 t) (2 :: l) ≤ 1 := by
  have key : ∀ (x : Py (Mdp Rat)) (sp : List (AgentSpec Rat Nat)),
      Mdp.initGrid .square 3 2 false ⟨1, 6, fun _ s => if s = 1 ∨ s = 4 then 1 else 0⟩ none = x →
      (match x with
        | .error _ => false
        | .ok m => match (Env.init m sp).2 with
          | .error _ => false
          | .ok e => decide (e.mdp.trans.nS = 6 ∧ e.mdp.trans.nA = 4 ∧ e.mdp.sas 0 1 2 = 1) && (e.agents.any fun a =>
              decide (a.position = 0 ∧ a.consumes = [0]) &&
              ((List.range 6).all fun t => decide ((∑ f ∈ Finset.range a.reward.d0, a.reward.get f *
                e.mdp.features.get f t) = e.mdp.features.get 0 t)) &&
              match e.mctsFit a exSolo 2 (some [[4]]) (fun _ _ => none) exPicks 10 a.reward with
              | some (.ok (_, .nd sh g)) => decide (sh = [6, 4] ∧ g [0, 1] = .fin (4 / 3))
              | _ => false) &&
            decide (∀ x y z : Fin 6, (∃ b : Fin 4, 0 < e.mdp.trans.p 2 b.1 x.1) →
              (∃ b : Fin 4, 0 < e.mdp.trans.p x.1 b.1 y.1) → (∃ b : Fin 4, 0 < e.mdp.trans.p y.1 b.1 z.1) →
              Spec.gather (fun t => e.mdp.features.get 0 t) [2, x.1, y.1, z.1] ≤ 1)) = true →
      ∃ (m m' : Mdp Rat) (e : Env Rat Nat) (a : Agent Rat Nat) (v : PyArr (Ext Rat)) (g : List Nat → Ext Rat),
        Mdp.GridReach .square 3 2 false m ∧ Env.init m sp = (m', .ok e) ∧ a ∈ e.agents ∧
        a.position = 0 ∧ a.consumes = [0] ∧
        (∀ t < 6, (∑ f ∈ Finset.range a.reward.d0, a.reward.get f * e.mdp.features.get f t) =
          e.mdp.features.get 0 t) ∧
        e.mctsFit a exSolo 2 (some [[4]]) (fun _ _ => none) exPicks 10 a.reward = some (.ok (v, .nd [6, 4] g)) ∧
        e.mdp.sas 0 1 2 = 1 ∧ g [0, 1] = .fin (4 / 3) ∧
        ∀ l : List Nat, l.length = 3 → Spec.Walk e.mdp.trans 0 (2 :: l) →
          Spec.gather (fun t => e.mdp.features.get 0 t) (2 :: l) ≤ 1 := by
    intro x sp hx h
    rcases x with err | m
    · cases h
    simp only at h
    rcases h1 : Env.init m sp with ⟨m', err | e⟩
    · rw [h1] at h; cases h
    rw [h1] at h
    simp only [Bool.and_eq_true, decide_eq_true_eq, List.any_eq_true, List.all_eq_true, List.mem_range] at h
    obtain ⟨⟨⟨n1, n3, n2⟩, a, ha, ⟨⟨p1, p2⟩, hr⟩, hf⟩, hw⟩ := h
    split at hf
    · rename_i v sh g hg
      rw [decide_eq_true_eq] at hf
      refine ⟨m, m', e, a, v, g, .init hx, h1, ha, p1, p2, hr, by rw [hg, hf.1], n2, hf.2, fun l hl hwalk => ?_⟩
      obtain ⟨x, y, z, rfl⟩ := List.length_eq_three.1 hl
      obtain ⟨-, ⟨b1, c1, d1, e1⟩, ⟨b2, c2, d2, e2⟩, ⟨b3, c3, d3, e3⟩, -⟩ := hwalk
      rw [n1] at b1 b2 b3
      rw [n3] at d1 d2 d3
      exact hw ⟨x, b1⟩ ⟨y, b2⟩ ⟨z, b3⟩ ⟨⟨c1, d1⟩, e1⟩ ⟨⟨c2, d2⟩, e2⟩ ⟨⟨c3, d3⟩, e3⟩
    · exact absurd hf (by simp)
  exact key _ _ rfl (by decide +kernel)

/-- That world meets the hypotheses of `C118_partial`. -/
example : ∃ (e : Env Rat Nat) (a : Agent Rat Nat) (v q : PyArr (Ext Rat)), Spec.Deterministic e.mdp.trans ∧
    (∀ s x, s < e.mdp.nStates → x < e.mdp.nActions → ∑ t ∈ Finset.range e.mdp.nStates, e.mdp.sas s x t ≤ 1) ∧
    e.mctsFit a exSolo 2 (some [[4]]) (fun _ _ => none) exPicks 10 a.reward = some (.ok (v, q)) := by
  obtain ⟨m, m', e, a, v, g, hm, hinit, -, -, -, -, h, -⟩ := C118_refuted
  have hM := C27_grid _ _ _ _ _ (Env.started hm hinit []).1.reach
  exact ⟨e, a, v, _, hM.2.1, hM.1.le_one, h⟩

end MaMDP
