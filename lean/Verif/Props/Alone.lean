import Verif.Lemmas.Alone

/-! # C150: the life of an agent that does not care about the others -/

set_option linter.unusedSectionVars false

namespace MaMDP

variable {K δ : Type} [Field K] [LinearOrder K] [IsStrictOrderedRing K]
variable {kind : GridKind} {W H : Nat} {selfT : Bool} {m m' : Mdp K} {specs : List (AgentSpec K δ)} {e0 : Env K δ}

theorem Env.Twin.life {n : String} {P : Nat → Prop} {e : Env K δ} {a : Agent K δ} (h0 : Env.Ok kind W H selfT e)
    (ha : a ∈ e.agents) (hn : a.name = n)
    (hP : ∀ r, ¬ P r → ∀ b ∈ e.agents, b.name ≠ n → ¬ Spec.Changes e.mdp.features.d0 e.mdp.nAgents b r)
    (hw : ∀ r, P r → a.reward.get r = 0)
    (hc : ∀ f ∈ a.consumes, ∀ r, pyIdx e.mdp.features.d0 f = some r → ¬ P r) :
    ∀ (l : List (Spec.LifeOp K δ)) (e1 e2 : Env K δ), Env.Twin kind W H selfT n P e e1 e2 →
      (∀ op, .elsewhere op ∈ l → Spec.Elsewhere n op) →
      Env.Twin kind W H selfT n P e (Spec.lifeOf n l e1).1 (Spec.lifeOf n (Spec.alone l) e2).1 ∧
      (Spec.lifeOf n (Spec.alone l) e2).2 = (Spec.lifeOf n l e1).2 := by
  intro l
  induction l with
  | nil => intro e1 e2 h _; exact ⟨h, rfl⟩
  | cons op l ih =>
    intro e1 e2 h hl
    have hl' : ∀ op, .elsewhere op ∈ l → Spec.Elsewhere n op := fun op ho => hl op (List.mem_cons_of_mem _ ho)
    cases op with
    | plan solver d =>
      have h1 := h.plan h0 ha hn hw solver d
      have h2 := ih _ _ h1.1 hl'
      exact ⟨h2.1, congrArg₂ _ (congrArg _ h1.2) h2.2⟩
    | step d =>
      have h1 := h.walk h0 ha hn hc d
      have h2 := ih _ _ h1.1 hl'
      exact ⟨h2.1, congrArg₂ _ (congrArg _ h1.2) h2.2⟩
    | ask p d =>
      have h1 := h.ask h0 ha hn p d
      have h2 := ih _ _ h1.1 hl'
      exact ⟨h2.1, congrArg₂ _ (congrArg _ h1.2) h2.2⟩
    | put p =>
      have h1 := h.move h0 ha hn p
      have h2 := ih _ _ h1.1 hl'
      exact ⟨h2.1, congrArg₂ _ (congrArg _ h1.2) h2.2⟩
    | elsewhere op => exact ih _ _ (h.left h0 hP op (hl op List.mem_cons_self)) hl'

/-- **C150**: an agent that gives no weight to what the others can change, and consumes none of it, lives as if it
were alone: whatever the others do in between, every call about it returns or raises the same, the agent ends up the
same in every respect, and so does everything the others cannot change. -/
theorem C150_alone (hm : Mdp.GridReach kind W H selfT m) (hinit : Env.init m specs = (m', .ok e0))
    (ops : List (EnvOp K δ)) (e : Env K δ) (he : e = e0.run ops) (a : Agent K δ) (ha : a ∈ e.agents)
    (hcare : ∀ b ∈ e.agents, b.name ≠ a.name → ∀ row,
      Spec.Changes e.mdp.features.d0 e.mdp.nAgents b row → a.reward.get row = 0)
    (heat : ∀ b ∈ e.agents, b.name ≠ a.name → ∀ row,
      Spec.Changes e.mdp.features.d0 e.mdp.nAgents b row →
      ∀ f ∈ a.consumes, f ≠ row ∧ f ≠ row - (e.mdp.features.d0 : Int))
    (l : List (Spec.LifeOp K δ)) (hl : ∀ op, .elsewhere op ∈ l → Spec.Elsewhere a.name op) :
    (Spec.lifeOf a.name l e).2 = (Spec.lifeOf a.name (Spec.alone l) e).2 ∧
    (Spec.lifeOf a.name l e).1.agent? a.name = (Spec.lifeOf a.name (Spec.alone l) e).1.agent? a.name ∧
    ∀ row, (∀ b ∈ e.agents, b.name ≠ a.name → ¬ Spec.Changes e.mdp.features.d0 e.mdp.nAgents b row) →
      ∀ s, (Spec.lifeOf a.name l e).1.mdp.features.get row s =
        (Spec.lifeOf a.name (Spec.alone l) e).1.mdp.features.get row s := by
  have hok : Env.Ok kind W H selfT e := by rw [he]; exact (Env.started hm hinit ops).1
  have key := Env.Twin.life (P := fun r => ∃ b ∈ e.agents, b.name ≠ a.name ∧
      Spec.Changes e.mdp.features.d0 e.mdp.nAgents b r) hok ha rfl
    (fun r hr b hb hn hc => hr ⟨b, hb, hn, hc⟩) (fun r ⟨b, hb, hn, hc⟩ => hcare b hb hn r hc)
    (fun f hf r hr ⟨b, hb, hn, hc⟩ => by
      have h1 := heat b hb hn r hc f hf
      rcases (pyIdx_spec.1 hr).2 with h2 | h2
      · exact h1.1 h2
      · exact h1.2 h2) l e e
    ⟨hok, hok, .refl e, .refl e, rfl, e.mdp.features.get, rfl, fun _ _ => rfl⟩ hl
  obtain ⟨g, hg1, hg2⟩ := key.1.mdp
  refine ⟨key.2.symm, key.1.agent.symm, fun row hr s => ?_⟩
  rw [hg1]
  change _ = g row s
  rw [hg2 row fun ⟨b, hb, hn, hc⟩ => hr b hb hn hc]

/-- **C150**: so two lives with the same calls about the agent are the same to it, whatever the others do in either. -/
theorem C150_company (hm : Mdp.GridReach kind W H selfT m) (hinit : Env.init m specs = (m', .ok e0))
    (ops : List (EnvOp K δ)) (e : Env K δ) (he : e = e0.run ops) (a : Agent K δ) (ha : a ∈ e.agents)
    (hcare : ∀ b ∈ e.agents, b.name ≠ a.name → ∀ row,
      Spec.Changes e.mdp.features.d0 e.mdp.nAgents b row → a.reward.get row = 0)
    (heat : ∀ b ∈ e.agents, b.name ≠ a.name → ∀ row,
      Spec.Changes e.mdp.features.d0 e.mdp.nAgents b row →
      ∀ f ∈ a.consumes, f ≠ row ∧ f ≠ row - (e.mdp.features.d0 : Int))
    (l1 l2 : List (Spec.LifeOp K δ)) (hl1 : ∀ op, .elsewhere op ∈ l1 → Spec.Elsewhere a.name op)
    (hl2 : ∀ op, .elsewhere op ∈ l2 → Spec.Elsewhere a.name op) (hsame : Spec.alone l1 = Spec.alone l2) :
    (Spec.lifeOf a.name l1 e).2 = (Spec.lifeOf a.name l2 e).2 ∧
    (Spec.lifeOf a.name l1 e).1.agent? a.name = (Spec.lifeOf a.name l2 e).1.agent? a.name := by
  have h1 := C150_alone hm hinit ops e he a ha hcare heat l1 hl1
  have h2 := C150_alone hm hinit ops e he a ha hcare heat l2 hl2
  rw [hsame] at h1
  exact ⟨h1.1.trans h2.1.symm, h1.2.1.trans h2.2.1.symm⟩

/-- Value iteration is such a planner: it sees only the transition table and what every state is worth. -/
theorem planner_value_iteration (maxIter : Nat) (γ tol : K) (m : Mdp K) :
    Spec.plannerOn (fun M r => match solveHard M r maxIter γ tol with
      | .error e => .error e
      | .ok (v, q) => .ok (.of1 ⟨M.nS, fun s => .fin (v s)⟩, .of2 ⟨M.nS, M.nA, q⟩)) m =
    valueIterationFit m maxIter γ tol := rfl

/-- The fox plans and walks, the hen is put here and there. -/
def exLife : List (Spec.LifeOp Rat Nat) :=
  [.elsewhere (.setAgentPosition "hen" 0), .plan (fun M r => match solveHard M r 50 (1 / 2) (1 / 100) with
      | .error e => .error e
      | .ok (v, q) => .ok (.of1 ⟨M.nS, fun s => .fin (v s)⟩, .of2 ⟨M.nS, M.nA, q⟩)) fun _ => 0,
    .elsewhere (.setAgentPosition "hen" 1), .step fun _ => 0]

/-- The fox consumes the feature; it does not care about the hen, which consumes nothing. -/
def exCalm : List (AgentSpec Rat Nat) :=
  [⟨"fox", 2, maxSelector, .fresh, some 0, .of1 ⟨3, fun i => if i = 0 then 1 else 0⟩, [0]⟩,
   ⟨"hen", 1, maxSelector, .fresh, some 2, .of1 ⟨3, fun _ => 1⟩, []⟩]

/-- The fox plans and walks while the hen is moved about. -/
example : ∃ m m' e, Mdp.GridReach .square 1 3 false m ∧ Env.init m exCalm = (m', .ok e) ∧
    ∃ a ∈ e.agents, a.name = "fox" ∧
    (∀ b ∈ e.agents, b.name ≠ a.name → ∀ row,
      Spec.Changes e.mdp.features.d0 e.mdp.nAgents b row → a.reward.get row = 0) ∧
    (∀ b ∈ e.agents, b.name ≠ a.name → ∀ row, Spec.Changes e.mdp.features.d0 e.mdp.nAgents b row →
      ∀ f ∈ a.consumes, f ≠ row ∧ f ≠ row - (e.mdp.features.d0 : Int)) ∧
    ∃ l : List (Spec.LifeOp Rat Nat), (∀ op, .elsewhere op ∈ l → Spec.Elsewhere a.name op) ∧
      ((Spec.lifeOf a.name l e).1.agent? "fox").map (·.history) = some [0, 1] ∧
      ((Spec.lifeOf a.name l e).1.agent? "hen").map (·.position) = some 1 ∧
      ((Spec.lifeOf a.name (Spec.alone l) e).1.agent? "hen").map (·.position) = some 2 := by
  have h : (match exMdp with
    | .error _ => false
    | .ok m => match (Env.init m exCalm).2 with
      | .error _ => false
      | .ok e => (e.agents.any fun a => decide (a.name = "fox") && decide (a.consumes = [0]) &&
          e.agents.all fun b => decide (b.name ≠ "fox" → b.consumes = [] ∧
            a.reward.get (e.mdp.features.d0 - e.mdp.nAgents + b.idx) = 0 ∧
            e.mdp.features.d0 - e.mdp.nAgents + b.idx = 2)) && decide (e.mdp.features.d0 = 3) &&
        decide (((Spec.lifeOf "fox" exLife e).1.agent? "fox").map (·.history) = some [0, 1]) &&
        decide (((Spec.lifeOf "fox" exLife e).1.agent? "hen").map (·.position) = some 1) &&
        decide (((Spec.lifeOf "fox" (Spec.alone exLife) e).1.agent? "hen").map (·.position) = some 2)) = true := by
    decide +kernel
  cases hm : exMdp with
  | error e => rw [hm] at h; cases h
  | ok m =>
  rw [hm] at h
  simp only at h
  rcases hi : Env.init m exCalm with ⟨m', x | e⟩
  · rw [hi] at h; cases h
  rw [hi] at h
  simp only [Bool.and_eq_true, decide_eq_true_eq, List.any_eq_true, List.all_eq_true] at h
  obtain ⟨⟨⟨⟨⟨a, ha, ⟨hn, hc⟩, h4⟩, hd⟩, h5⟩, h6⟩, h7⟩ := h
  refine ⟨m, m', e, .init hm, hi, a, ha, hn, ?_, ?_, exLife, ?_, ?_⟩
  · intro b hb hbn row hch
    obtain ⟨h8, h9, -⟩ := h4 b hb (by rw [← hn]; exact hbn)
    rcases hch with rfl | ⟨f, hf, -⟩
    · exact h9
    · rw [h8] at hf; cases hf
  · intro b hb hbn row hch f hf
    obtain ⟨h8, -, h9⟩ := h4 b hb (by rw [← hn]; exact hbn)
    rw [hc, List.mem_singleton] at hf
    rcases hch with hr | ⟨f, hf, -⟩
    · rw [h9] at hr
      rw [hf, hr, hd]
      decide
    · rw [h8] at hf; cases hf
  · intro op hop
    rw [hn]
    simp only [exLife, List.mem_cons, reduceCtorEq, Spec.LifeOp.elsewhere.injEq, List.not_mem_nil, or_false, false_or,
      or_self] at hop
    rcases hop with rfl | rfl
    · change "hen" ≠ "fox"; decide
    · change "hen" ≠ "fox"; decide
  · rw [hn]; exact ⟨h5, h6, h7⟩

end MaMDP
