import Verif.Lemmas.Circles
import Verif.Props.EnvironmentSteps

/-! # C168: an agent without ties is predictable and ends up going in circles -/

set_option linter.unusedSectionVars false

namespace MaMDP

variable {K : Type} [Field K] [LinearOrder K] [IsStrictOrderedRing K]
variable {kind : GridKind} {W H : Nat} {selfT : Bool} {m m' : Mdp K} {specs : List (AgentSpec K Nat)} {e0 : Env K Nat}

/-- **C168**: after any history, take a fitted agent that takes best actions, and suppose that in every state that can be
left only one action is best. Then there is one path that its steps follow, whatever the random generator delivers, and
from some point on that path repeats itself: at the latest after as many steps as there are states. -/
theorem C168_circles (hm : Mdp.GridReach kind W H selfT m) (hinit : Env.init m specs = (m', .ok e0))
    (ops : List (EnvOp K Nat)) (e : Env K Nat) (he : e = e0.run ops) (a : Agent K Nat) (ha : a ∈ e.agents)
    (hsel : a.selector = maxSelector) (hfit : a.alg.fitComplete = true) (q : Arr2 (Ext K))
    (hq : a.alg.qValues = some q) (hmask : ∀ s, s < W * H → Spec.MaskedAt e.mdp.trans q s)
    (hfin : ∀ s x, s < W * H → x < e.mdp.nActions → q.get s x ≠ .pinf)
    (hties : ∀ s, s < W * H → Spec.Live e.mdp.trans s → Spec.NoTie e.mdp.nActions q.get s)
    (s : Nat) (hs : s = Spec.stateOf (W * H) a.position) (hlive : Spec.Live e.mdp.trans s) :
    ∃ path : Nat → Nat, path 0 = s ∧ (∀ i, path i < W * H) ∧
      (∀ (n : Nat) (draws : Nat → Nat → Nat),
        ∃ a' ∈ (e.run ((List.range n).map fun i => .step a.name (draws i))).agents, a'.name = a.name ∧
          Spec.stateOf (W * H) a'.position = path n ∧
          a'.history = a.history ++ (List.range n).map fun i => (path (i + 1) : Int)) ∧
      ∃ μ p, 0 < p ∧ μ + p ≤ W * H ∧ ∀ i, μ ≤ i → path (i + p) = path i := by
  have hok : Env.Ok kind W H selfT e := by rw [he]; exact (Env.started hm hinit ops).1
  have hN : e.mdp.trans.nS = W * H := hok.reach.ok.nStates
  have hM := (C27_grid kind W H selfT e.mdp hok.reach).1
  obtain ⟨j, hj, -⟩ := hok.pos a ha
  have hsj := Env.stateOf_eq hj
  rw [hok.reach.ok.nStates, ← hs] at hsj
  rw [hsj] at hj
  have hF : Env.Follows kind W H selfT e.mdp.trans a.name q s a.history e :=
    ⟨hok, rfl, fun u hu => hmask u (by rw [← hN]; exact hu), fun u x hu hx => hfin u x (by rw [← hN]; exact hu) hx,
      hlive, a, ha, rfl, hsel, hfit, hq, hj, rfl⟩
  have hset := fun (k : Nat) (draws : Nat → Nat → Nat) => Env.Follows.settled hM
    (fun u hu hl => hties u (by rw [← hN]; exact hu) hl) draws k 0 e s _ hF
  have hlt : ∀ k, (bestNext e.mdp.trans q.get)^[k] s < W * H := fun k => by
    rw [← hN]; exact (hset k fun _ _ => 0).lt
  refine ⟨fun k => (bestNext e.mdp.trans q.get)^[k] s, rfl, hlt, fun n draws => ?_, iterate_circles _ _ _ hlt⟩
  have h := hset n draws
  simp only [Nat.zero_add] at h
  obtain ⟨a', h1, h2, -, -, -, h3, h4⟩ := h.agent
  refine ⟨a', h1, h2, ?_, h4⟩
  rw [hN] at h3
  exact (Env.stateOf_eq h3).symm

/-- Action values that are alike wherever the agent goes. -/
def exTied : FitOut Rat := fun _ => .ok (.of1 ⟨3, fun _ => .fin 0⟩,
  .of2 ⟨3, 4, fun s a => if a = 0 ∧ s < 2 ∨ a = 2 ∧ 0 < s then .fin 0 else .ninf⟩)

/-- Where the fox has been. -/
def exTrail (e : Env Rat Nat) : List Int := match e.agents.head? with
  | none => []
  | some a => a.history

/-- **C168**, why ties matter: with them, what the generator delivers decides where the agent goes. -/
theorem C168_ties_witness : ∃ m m' e, Mdp.GridReach .square 1 3 false m ∧ Env.init m exSpecs = (m', .ok e) ∧
    exTrail (e.run [.fit "fox" exTied fun _ => 0, .step "fox" fun _ => 0, .step "fox" fun _ => 0]) ≠
    exTrail (e.run [.fit "fox" exTied fun _ => 0, .step "fox" fun _ => 0, .step "fox" fun _ => 1]) := by
  obtain ⟨m, m', e, h1, h2, h3⟩ := exStart (fun e => decide (
    exTrail (e.run [.fit "fox" exTied fun _ => 0, .step "fox" fun _ => 0, .step "fox" fun _ => 0]) ≠
    exTrail (e.run [.fit "fox" exTied fun _ => 0, .step "fox" fun _ => 0, .step "fox" fun _ => 1]))) (by decide +kernel)
  exact ⟨m, m', e, h1, h2, of_decide_eq_true h3⟩

instance (x y : Ext Rat) : Decidable (Spec.NoBetter x y) := by unfold Spec.NoBetter; cases x <;> cases y <;> infer_instance
instance (nA : Nat) (q : Nat → Nat → Ext Rat) (s : Nat) : Decidable (Spec.NoTie nA q s) := by
  unfold Spec.NoTie; infer_instance

/-- The hypotheses about action values, as a check. -/
def exSettled (M : Trans Rat) (q : Arr2 (Ext Rat)) : Bool :=
  decide ((∀ s : Nat, s < 3 → Spec.MaskedAt M q s) ∧ ∀ s : Nat, s < 3 → ∀ x : Nat, x < 4 → q.get s x ≠ .pinf) &&
    decide (∀ s : Nat, s < 3 → Spec.NoTie 4 q.get s)

/-- The fitted fox in the corridor meets the hypotheses: it walks up and then to and fro. -/
example : ∃ m m' e0, Mdp.GridReach .square 1 3 false m ∧ Env.init m exSpecs = (m', .ok e0) ∧
    ∃ a ∈ (e0.run [.fit "fox" exFit fun _ => 0]).agents, a.name = "fox" ∧ a.selector = maxSelector ∧
      ∃ path : Nat → Nat, path 0 = 0 ∧ (∀ i, path i < 3) ∧
        (∀ (n : Nat) (draws : Nat → Nat → Nat), ∃ a' ∈ ((e0.run [.fit "fox" exFit fun _ => 0]).run
          ((List.range n).map fun i => .step "fox" (draws i))).agents, a'.name = "fox" ∧
          a'.history = a.history ++ (List.range n).map fun i => (path (i + 1) : Int)) ∧
        ∃ μ p, 0 < p ∧ μ + p ≤ 3 ∧ ∀ i, μ ≤ i → path (i + p) = path i := by
  obtain ⟨m, m', e, h1, h2, h3⟩ := exStart
    (fun e => decide ((e.run [.fit "fox" exFit fun _ => 0]).mdp.nActions = 4 ∧
      Spec.Live (e.run [.fit "fox" exFit fun _ => 0]).mdp.trans 0) &&
      (match (e.run [.fit "fox" exFit fun _ => 0]).agents.head? with
        | none => false
        | some a => decide (a.name = "fox" ∧ a.position = 0 ∧ a.alg.fitComplete = true) && (match a.alg.qValues with
          | none => false
          | some q => exSettled (e.run [.fit "fox" exFit fun _ => 0]).mdp.trans q))) (by decide +kernel)
  set e' := e.run [.fit "fox" exFit fun _ => 0] with he'
  rw [Bool.and_eq_true] at h3
  obtain ⟨h3, h4⟩ := h3
  have h3 := of_decide_eq_true h3
  cases hh : e'.agents.head? with
  | none => rw [hh] at h4; cases h4
  | some a =>
    rw [hh] at h4
    simp only [Bool.and_eq_true] at h4
    obtain ⟨h4, h5⟩ := h4
    have h4 := of_decide_eq_true h4
    have ha : a ∈ e'.agents := List.mem_of_mem_head? (by rw [hh]; rfl)
    have hsel : a.selector = maxSelector := by
      obtain ⟨b, hb, -, -, -, -, -, -, -, hbs, -⟩ := Env.Later.back (Env.started h1 h2 []).1 (Env.started h1 h2 _).1
        (Env.started h1 h2 [.fit "fox" exFit fun _ => 0]).2 ha
      obtain ⟨i, sp, p, r, hsp, -, -, haa⟩ := (Env.init_facts h1 h2).2.2.2.2.2.2.2.2.2.2.2.2.2.2.2 b hb
      have : sp ∈ exSpecs := List.mem_of_getElem? hsp
      have h8 : b.selector = sp.selector := by rw [haa]; rfl
      rw [hbs, h8]
      rcases List.mem_cons.1 this with rfl | h9
      · rfl
      · rcases List.mem_cons.1 h9 with rfl | h9
        · rfl
        · cases h9
    cases hq : a.alg.qValues with
    | none => rw [hq] at h5; cases h5
    | some q =>
      rw [hq] at h5
      simp only [exSettled, Bool.and_eq_true] at h5
      obtain ⟨g1, g2⟩ := of_decide_eq_true h5.1
      have g3 := of_decide_eq_true h5.2
      obtain ⟨path, p1, p2, p3, p4⟩ := C168_circles h1 h2 [.fit "fox" exFit fun _ => 0] e' he' a ha hsel h4.2.2 q hq g1
        (fun s x hs hx => g2 s hs x (by rw [← h3.1]; exact hx)) (fun s hs _ => by rw [h3.1]; exact g3 s hs) 0
        (by rw [h4.2.1]; rfl) h3.2
      rw [h4.1] at p3
      exact ⟨m, m', e, h1, h2, a, ha, h4.1, hsel, path, p1, p2, fun n d => by
        obtain ⟨a', b1, b2, -, b3⟩ := p3 n d
        exact ⟨a', b1, b2, b3⟩, p4⟩

end MaMDP
