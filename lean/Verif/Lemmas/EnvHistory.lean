import Verif.Lemmas.EnvInvariants
import Mathlib.Data.Finset.Card

/-! Conservation of features, histories, agents that were never fitted. -/

set_option linter.unusedSectionVars false

namespace MaMDP.Env

variable {K : Type} [Field K] [LinearOrder K] [IsStrictOrderedRing K] {δ : Type}
variable {kind : GridKind} {W H : Nat} {selfT : Bool} {e : Env K δ}

theorem Later.back {e e' : Env K δ} (h : Ok kind W H selfT e) (h' : Ok kind W H selfT e') (hl : Later e e')
    {a' : Agent K δ} (ha : a' ∈ e'.agents) : ∃ a ∈ e.agents, a'.name = a.name ∧ a'.idx = a.idx ∧
      a'.start = a.start ∧ a'.consumes = a.consumes ∧ a'.featIdx = a.featIdx ∧ a'.nMoves = a.nMoves ∧
      a'.reward = a.reward ∧ a'.selector = a.selector ∧ ∀ f, a.consumed f ≤ a'.consumed f := by
  obtain ⟨a, h1, h2⟩ := List.mem_map.1 ((h.same_names h' hl a'.name).1 (List.mem_map_of_mem (f := (·.name)) ha))
  obtain ⟨b, hb, hbn, hrest⟩ := hl.agents a h1
  have : b = a' := eq_of_name h'.nodup hb ha (hbn.trans h2)
  subst this
  exact ⟨a, h1, hbn, hrest⟩

theorem agent?_put_same {m : Mdp K} {a a' : Agent K δ} (h : Ok kind W H selfT e) (ha : a ∈ e.agents)
    (hn : a'.name = a.name) : (e.put m a').agent? a.name = some a' := by
  refine (agent?_eq (by rw [names_put]; exact h.nodup)).2
    ⟨(mem_put (by rw [hn]; exact List.mem_map_of_mem (f := (·.name)) ha)).2 (.inl rfl), hn⟩

/-! ### Calls about one agent leave the others alone -/

theorem lookup_name {n : String} {a : Agent K δ} (h : e.lookup n = .ok a) : a.name = n := by
  unfold lookup at h
  split_ifs at h
  split at h
  · cases h
  · rename_i heq
    cases h
    exact (agent?_mem heq).2

theorem setPosition_name (a : Agent K δ) (m : Mdp K) (p : Int) : (a.setPosition m p).2.1.name = a.name := by
  unfold Agent.setPosition
  split_ifs
  · rfl
  · split <;> rfl

theorem step_name (a : Agent K δ) (m : Mdp K) (d : Nat → δ) : (a.step m d).2.1.name = a.name := by
  unfold Agent.step
  split_ifs
  · rfl
  · have hg := (Agent.getPolicy_same a d).1.name
    split
    · rename_i heq; rw [heq] at hg; exact hg
    · rename_i a1 heq
      rw [heq] at hg
      split
      · exact hg
      · split
        · exact hg
        · split_ifs
          · exact hg
          · split
            · exact hg
            · rename_i t _
              have hs := setPosition_name a1 m t
              split
              · rename_i heq2; rw [heq2] at hs; exact hs.trans hg
              · rename_i heq2; rw [heq2] at hs
                simp only
                split <;> exact hs.trans hg

theorem consume_name (a : Agent K δ) (m : Mdp K) : (a.consume m).2.1.name = a.name := by
  unfold Agent.consume
  split_ifs
  · rfl
  · split <;> rfl

theorem agent?_fit {n n' : String} (hn : n ≠ n') (o : FitOut K) (d : Nat → δ) :
    (e.fit n' o d).1.agent? n = e.agent? n := by
  unfold fit
  split
  · rfl
  · rename_i a hl
    have := lookup_name hl
    exact agent?_put_other _ _ (by
      have := (Agent.fit_same a e.mdp o d).1.name
      simp only [this, lookup_name hl]; exact hn)

theorem agent?_setAlgorithm {n n' : String} (hn : n ≠ n') (st : AlgState K) :
    (e.setAlgorithm n' st).1.agent? n = e.agent? n := by
  unfold setAlgorithm
  split
  · rfl
  · rename_i a hl
    exact agent?_put_other _ _ (by
      have : a.name = n' := by
        unfold agent? at hl
        have := List.find?_some hl
        simpa using this
      simp only [this]; exact hn)

theorem agent?_step {n n' : String} (hn : n ≠ n') (d : Nat → δ) :
    (e.step n' d).1.agent? n = e.agent? n := by
  unfold step
  split
  · rfl
  · rename_i a hl
    have h0 := lookup_name hl
    have h1 := step_name a e.mdp d
    split
    · rename_i heq; rw [heq] at h1
      exact agent?_put_other _ _ (by rw [h1, h0]; exact hn)
    · rename_i m1 a1 heq; rw [heq] at h1
      have h2 := consume_name a1 m1
      split
      · rename_i heq2; rw [heq2] at h2
        exact agent?_put_other _ _ (by rw [h2, h1, h0]; exact hn)
      · rename_i m2 a2 heq2; rw [heq2] at h2
        exact agent?_put_other (e := e) m2 a2 (by rw [h2, h1, h0]; exact hn)

theorem agent?_stepProba {n n' : String} (hn : n ≠ n') (p : Option (Arr1 K)) (d : Nat → δ) :
    (e.stepProba n' p d).1.agent? n = e.agent? n := by
  unfold stepProba
  split
  · rfl
  · rename_i a hl
    have h0 := lookup_name hl
    have h1 := (Agent.stepProba_same a e.mdp p d).1.name
    split
    · rename_i heq; rw [heq] at h1
      exact agent?_put_other _ _ (by rw [h1, h0]; exact hn)
    · rename_i a1 x heq; rw [heq] at h1
      exact agent?_put_other (e := e) e.mdp a1 (by rw [h1, h0]; exact hn)

theorem agent?_setAgentPosition {n n' : String} (hn : n ≠ n') (p : Int) :
    (e.setAgentPosition n' p).1.agent? n = e.agent? n := by
  unfold setAgentPosition
  split
  · rfl
  · rename_i a hl
    exact agent?_put_other _ _ (by rw [setPosition_name, lookup_name hl]; exact hn)

theorem agent?_stepMulti {n n' : String} (hn : n ≠ n') (s : StepsArg) (mp : Option (List Nat)) (nT : Nat)
    (refit stop : Bool) (orc : Nat → StepOracle K δ) :
    (e.stepMulti n' s mp nT refit stop orc).1.agent? n = e.agent? n :=
  stepMulti_induct (fun e' => e'.agent? n = e.agent? n)
    (fun _ o d h => (agent?_fit hn o d).trans h) (fun _ d h => (agent?_step hn d).trans h) e s mp nT refit stop
    orc rfl

/-! ### Conservation -/

/-- Nothing an agent consumes is out of range. -/
def ValidConsumes (e : Env K δ) : Prop :=
  ∀ a ∈ e.agents, ∀ f ∈ a.consumes, ∃ r, pyIdx e.mdp.features.d0 f = some r

theorem ValidConsumes.later {e e' : Env K δ} (hv : ValidConsumes e) (h : Ok kind W H selfT e)
    (h' : Ok kind W H selfT e') (hl : Later e e') : ValidConsumes e' := by
  intro a' ha' f hf
  obtain ⟨a, ha, -, -, -, h1, -⟩ := hl.back h h' ha'
  rw [hl.d0]
  exact hv a ha f (h1 ▸ hf)

/-- The feature rows of the MDP's own. -/
def Cons (e e' : Env K δ) (f : Nat) : Prop :=
  Spec.consumedTotal e' f + Spec.carrying e'.mdp f = Spec.consumedTotal e f + Spec.carrying e.mdp f

theorem consumedTotal_put (h : Ok kind W H selfT e) {a a' : Agent K δ} (ha : a ∈ e.agents)
    (hn : a'.name = a.name) (m : Mdp K) (k f : Nat) :
    Spec.consumedTotal { e.put m a' with nSteps := k } f + a.consumed f =
      Spec.consumedTotal e f + a'.consumed f := by
  exact sum_put (fun b => b.consumed f) hn e.agents h.nodup ha

theorem cons_same (h : Ok kind W H selfT e) {a a' : Agent K δ} (ha : a ∈ e.agents) (hn : a'.name = a.name)
    (hc : a'.consumed = a.consumed) (m : Mdp K) (k f : Nat) (hst : m.nStates = e.mdp.nStates)
    (hm : ∀ s, m.features.get f s = e.mdp.features.get f s) :
    Cons e { e.put m a' with nSteps := k } f := by
  have h1 := consumedTotal_put h ha hn m k f
  rw [hc] at h1
  have h2 : Spec.carrying ({ e.put m a' with nSteps := k } : Env K δ).mdp f = Spec.carrying e.mdp f := by
    change Spec.carrying m f = _
    unfold Spec.carrying
    rw [hst]
    simp only [hm]
  unfold Cons
  omega

theorem own_row_ne (e : Env K δ) {f i : Nat} (hf : f < e.mdp.features.d0 - e.mdp.nAgents) :
    f ≠ e.mdp.agentRow i := by unfold Mdp.agentRow; omega

theorem cons_step (h : Ok kind W H selfT e) (hv : ValidConsumes e) (n : String) (d : Nat → δ) {f : Nat}
    (hf : f < e.mdp.features.d0 - e.mdp.nAgents) : Cons e (e.step n d).1 f := by
  rcases step_cases h n d with ⟨-, h1⟩ | ⟨a, a', err, h1, -, h2, -, -, -, h3⟩ |
    ⟨a, a1, j, t, g, c, -, hm, -, hg, hc, h1, -⟩ | ⟨a, a1, j, t, g, -, hm, hbad, hg, h1, -⟩
  · rw [h1]; exact rfl
  · rw [h3]; exact cons_same h h1 h2.name h2.consumed _ e.nSteps f rfl (fun _ => rfl)
  · rw [h1]
    obtain ⟨m1, m2, m3, m4, m5, m6, -⟩ := hm.name
    have hsum := consumedTotal_put h hm.mem (a' := { a1 with consumed := fun f => a.consumed f + c f }) m1
      (e.mdp.withFeat g) (e.nSteps + 1) f
    have hrow : ∀ s, (e.mdp.setRow (e.mdp.agentRow a.idx) t).features.get f s = e.mdp.features.get f s := by
      intro s; simp [Mdp.setRow, Mdp.withFeat, own_row_ne e hf]
    have hg' : ∀ s, g f s = if s = t ∧ Eats e a f ∧ 0 < e.mdp.features.get f s then 0
        else e.mdp.features.get f s := by
      intro s; rw [hg f s, hrow s]
    have hc' := hc f
    rw [hrow t] at hc'
    have hcar : Spec.carrying (e.mdp.withFeat g) f + c f = Spec.carrying e.mdp f := by
      unfold Spec.carrying
      change ((Finset.range e.mdp.nStates).filter fun s => 0 < g f s).card + c f = _
      by_cases hE : Eats e a f ∧ 0 < e.mdp.features.get f t
      · rw [hc', if_pos hE]
        have : ((Finset.range e.mdp.nStates).filter fun s => 0 < g f s) =
            ((Finset.range e.mdp.nStates).filter fun s => 0 < e.mdp.features.get f s).erase t := by
          ext s
          simp only [Finset.mem_filter, Finset.mem_erase, Finset.mem_range]
          rw [hg' s]
          by_cases hs : s = t
          · subst hs; simp [hE]
          · simp [hs]
        rw [this, Finset.card_erase_add_one]
        simp only [Finset.mem_filter, Finset.mem_range]
        exact ⟨hm.lt, hE.2⟩
      · rw [hc', if_neg hE, Nat.add_zero]
        congr 1
        apply Finset.filter_congr
        intro s _
        rw [hg' s, if_neg]
        rintro ⟨rfl, h3⟩
        exact hE h3
    change Spec.consumedTotal { e.put (e.mdp.withFeat g)
      { a1 with consumed := fun f => a.consumed f + c f } with nSteps := e.nSteps + 1 } f +
      a.consumed f = Spec.consumedTotal e f + (a.consumed f + c f) at hsum
    change Spec.consumedTotal { e.put (e.mdp.withFeat g)
      { a1 with consumed := fun f => a.consumed f + c f } with nSteps := e.nSteps + 1 } f +
      Spec.carrying (e.mdp.withFeat g) f = _
    omega
  · exact absurd (hv a hm.mem) hbad

theorem cons_setAgentPosition (h : Ok kind W H selfT e) (n : String) (p : Int) {f : Nat}
    (hf : f < e.mdp.features.d0 - e.mdp.nAgents) : Cons e (e.setAgentPosition n p).1 f := by
  rcases setAgentPosition_cases h n p with ⟨-, h1⟩ | ⟨a, h1, -, ⟨j, h2, h3⟩ | ⟨-, h3⟩ | ⟨-, h3, -⟩⟩
  · rw [h1]; exact rfl
  · rw [h3]
    exact cons_same h h1 (a' := { a with position := p }) rfl rfl
      (e.mdp.setRow (e.mdp.agentRow a.idx) j) e.nSteps f rfl
      (fun s => by simp [Mdp.setRow, Mdp.withFeat, own_row_ne e hf])
  · rw [h3]; exact rfl
  · rw [h3]
    exact cons_same h h1 (a' := a) rfl rfl _ e.nSteps f rfl
      (fun s => by simp [own_row_ne e hf])

theorem cons_walls (m : Mdp K) (f : Nat) (h1 : m.features = e.mdp.features) (h2 : m.nStates = e.mdp.nStates) :
    Cons e { e with mdp := m } f := by
  unfold Cons Spec.carrying
  simp only [h1, h2]
  rfl

theorem cons_run (h : Ok kind W H selfT e) (hv : ValidConsumes e) (ops : List (EnvOp K δ))
    (hops : EnvOp.reset ∉ ops) {f : Nat} (hf : f < e.mdp.features.d0 - e.mdp.nAgents) :
    Cons e (e.run ops) f := by
  have step : ∀ {e1 e2 : Env K δ}, (Ok kind W H selfT e1 ∧ Later e e1 ∧ Cons e e1 f) →
      Ok kind W H selfT e2 → Later e1 e2 → (f < e1.mdp.features.d0 - e1.mdp.nAgents → Cons e1 e2 f) →
      Ok kind W H selfT e2 ∧ Later e e2 ∧ Cons e e2 f :=
    fun h1 h2 l k => ⟨h2, h1.2.1.trans l, (k (by rw [h1.2.1.d0, h1.2.1.nAgents]; exact hf)).trans h1.2.2⟩
  refine (run_induct_on (fun op => op ≠ .reset)
    (fun e' => Ok kind W H selfT e' ∧ Later e e' ∧ Cons e e' f)
    ?_ ?_ ?_ ?_ ?_ ?_ ?_ ?_ ?_ ops (fun op ho h' => hops (h' ▸ ho)) e ⟨h, .refl e, rfl⟩).2.2
  · intro e' n o d h1
    refine step h1 (h1.1.fit n o d) (later_fit h1.1 n o d) fun hf' => ?_
    rcases fit_cases h1.1 n o d with ⟨-, h3⟩ | ⟨a, h2, -, h3⟩
    · rw [h3]; exact rfl
    · rw [h3]
      have := (Agent.fit_same a e'.mdp o d).1
      exact cons_same h1.1 h2 this.name this.consumed _ e'.nSteps f rfl (fun _ => rfl)
  · intro e' n d h1
    exact step h1 (h1.1.step n d) (later_step h1.1 n d)
      (cons_step h1.1 (hv.later h h1.1 h1.2.1) n d)
  · intro e' n p d h1
    refine step h1 (h1.1.stepProba n p d) (later_stepProba h1.1 n p d) fun hf' => ?_
    rcases stepProba_cases h1.1 n p d with ⟨-, h3⟩ | ⟨a, h2, -, ⟨err, -, h3⟩ | ⟨x, -, h3⟩⟩
    · rw [h3]; exact rfl
    · rw [h3]
      have := (Agent.stepProba_same a e'.mdp p d).1
      exact cons_same h1.1 h2 this.name this.consumed _ e'.nSteps f rfl (fun _ => rfl)
    · rw [h3]
      have := (Agent.stepProba_same a e'.mdp p d).1
      exact cons_same h1.1 h2 this.name this.consumed _ _ f rfl (fun _ => rfl)
  · intro e' hA _
    exact absurd rfl hA
  · intro e' n p _ h1
    exact step h1 (h1.1.setAgentPosition n p) (later_setAgentPosition h1.1 n p)
      (cons_setAgentPosition h1.1 n p)
  · intro e' w h1
    have := Mdp.setWalls_feat h1.1.reach.ok w
    exact step h1 (h1.1.setWalls w) (later_walls _ this.1 this.2.2.1 this.2.2.2.2.1)
      (fun _ => cons_walls _ f this.1 this.2.2.2.2.1)
  · intro e' x y h1
    have := Mdp.addWallXY_feat h1.1.reach.ok x y
    exact step h1 (h1.1.addWallXY x y) (later_walls _ this.1 this.2.2.1 this.2.2.2.2.1)
      (fun _ => cons_walls _ f this.1 this.2.2.2.2.1)
  · intro e' h1
    have := Mdp.resetWalls_feat h1.1.reach.ok
    exact step h1 h1.1.resetWalls (later_walls _ this.1 this.2.2.1 this.2.2.2.2.1)
      (fun _ => cons_walls _ f this.1 this.2.2.2.2.1)
  · intro e' n st h1
    refine step h1 (h1.1.setAlgorithm n st) (later_setAlgorithm h1.1 n st) fun hf' => ?_
    rcases setAlgorithm_cases h1.1 n st with ⟨-, h3⟩ | ⟨a, h2, -, h3⟩
    · rw [h3]; exact rfl
    · rw [h3]
      exact cons_same h1.1 h2 (setAlgorithm_same a st).name (setAlgorithm_same a st).consumed _ e'.nSteps f rfl (fun _ => rfl)

/-! ### Histories -/

theorem history_apply (h : Ok kind W H selfT e) (hv : ValidConsumes e) {a : Agent K δ} (ha : a ∈ e.agents)
    (op : EnvOp K δ) (hop : Spec.Single op) :
    ((e.apply op).agent? a.name).map (·.history) =
      some (Spec.historyAfter a.name a.start e a.history op) := by
  have hself : (e.agent? a.name).map (·.history) = some a.history := by
    rw [(agent?_eq h.nodup).2 ⟨ha, rfl⟩]; rfl
  cases op with
  | fit n o d =>
    simp only [apply, Spec.historyAfter]
    by_cases hn : a.name = n
    · rcases fit_cases h n o d with ⟨h1, -⟩ | ⟨b, h1, h2, h3⟩
      · exact absurd ((h.names n).2 (hn ▸ List.mem_map_of_mem (f := (·.name)) ha)) h1
      · have : b = a := eq_of_name h.nodup h1 ha (h2.trans hn.symm)
        subst this
        rw [h3, agent?_put_same h ha (Agent.fit_same b e.mdp o d).1.name]
        simp only [Option.map_some, (Agent.fit_same b e.mdp o d).2]
    · rw [agent?_fit hn]; exact hself
  | step n d =>
    simp only [apply, Spec.historyAfter]
    by_cases hn : n = a.name
    · rw [if_pos hn]
      rcases step_cases h n d with ⟨h1, -⟩ | ⟨b, a', err, h1, h2, h3, h4, -, -, h5⟩ |
        ⟨b, a1, j, t, g, c, h2, hm, -, hg, hc, h1, -⟩ | ⟨b, a1, j, t, g, -, hm, hbad, hg, h1, -⟩
      · exact absurd ((h.names n).2 (hn ▸ List.mem_map_of_mem (f := (·.name)) ha)) h1
      · have : b = a := eq_of_name h.nodup h1 ha (h2.trans hn)
        subst this
        rw [h5, agent?_put_same h ha h3.name]
        simp [h4]
      · have : b = a := eq_of_name h.nodup hm.mem ha (h2.trans hn)
        subst this
        obtain ⟨m1, m2, m3, m4, m5, m6, m7, -⟩ := hm.name
        rw [h1]
        have := agent?_put_same (m := e.mdp.withFeat g) h ha
          (a' := { a1 with consumed := fun f => b.consumed f + c f }) m1
        change ((e.put (e.mdp.withFeat g)
          { a1 with consumed := fun f => b.consumed f + c f }).agent? b.name).map (·.history) = _
        rw [this]
        simp [m7]
      · exact absurd (hv b hm.mem) hbad
    · rw [if_neg hn, agent?_step (Ne.symm hn)]; exact hself
  | stepProba n p d =>
    simp only [apply, Spec.historyAfter]
    by_cases hn : a.name = n
    · rcases stepProba_cases h n p d with ⟨h1, -⟩ | ⟨b, h1, h2, ⟨err, -, h3⟩ | ⟨x, -, h3⟩⟩
      · exact absurd ((h.names n).2 (hn ▸ List.mem_map_of_mem (f := (·.name)) ha)) h1
      · have : b = a := eq_of_name h.nodup h1 ha (h2.trans hn.symm)
        subst this
        rw [h3, agent?_put_same h ha (Agent.stepProba_same b e.mdp p d).1.name]
        simp only [Option.map_some, (Agent.stepProba_same b e.mdp p d).2.1]
      · have : b = a := eq_of_name h.nodup h1 ha (h2.trans hn.symm)
        subst this
        rw [h3]
        have := agent?_put_same (m := e.mdp) h ha (Agent.stepProba_same b e.mdp p d).1.name
        change ((e.put e.mdp (b.stepProba e.mdp p d).1).agent? b.name).map (·.history) = _
        rw [this]
        simp only [Option.map_some, (Agent.stepProba_same b e.mdp p d).2.1]
    · rw [agent?_stepProba hn]; exact hself
  | stepMulti n s p t r c o => exact absurd hop (by simp [Spec.Single])
  | stepMultiInteractive n m =>
    simp only [apply, stepMultiInteractive, Spec.historyAfter]
    split
    · exact hself
    · exact hself
    · split_ifs
      · exact hself
      · split <;> exact hself
  | reset =>
    simp only [apply, Spec.historyAfter]
    rw [(reset_eq h).1]
    have : e.resetEnv.agent? a.name = some (resetAgent a) :=
      (agent?_eq (reset_eq h).2.nodup).2 ⟨List.mem_map_of_mem (f := resetAgent) ha, rfl⟩
    simp only [this, Option.map_some, resetAgent]
  | setAgentPosition n p =>
    simp only [apply, Spec.historyAfter]
    by_cases hn : a.name = n
    · rcases setAgentPosition_cases h n p with ⟨h1, -⟩ | ⟨b, h1, h2, ⟨j, -, h3⟩ | ⟨-, h3⟩ | ⟨-, h3, -⟩⟩
      · exact absurd ((h.names n).2 (hn ▸ List.mem_map_of_mem (f := (·.name)) ha)) h1
      all_goals
        have : b = a := eq_of_name h.nodup h1 ha (h2.trans hn.symm)
        subst this
        rw [h3]
      · have := agent?_put_same (m := e.mdp.setRow (e.mdp.agentRow b.idx) j) h ha
          (a' := { b with position := p }) rfl
        simp only [this, Option.map_some]
      · exact hself
      · have := agent?_put_same (m := e.mdp.withFeat
          (fun f s => if f = e.mdp.agentRow b.idx then 0 else e.mdp.features.get f s)) h ha (a' := b) rfl
        simp only [this, Option.map_some]
    · rw [agent?_setAgentPosition hn]; exact hself
  | setWalls w => exact hself
  | addWallXY x y => exact hself
  | resetWalls => exact hself
  | setAlgorithm n st =>
    simp only [apply, Spec.historyAfter]
    by_cases hn : a.name = n
    · rcases setAlgorithm_cases h n st with ⟨h1, -⟩ | ⟨b, h1, h2, h3⟩
      · exact absurd ((h.names n).2 (hn ▸ List.mem_map_of_mem (f := (·.name)) ha)) h1
      · have : b = a := eq_of_name h.nodup h1 ha (h2.trans hn.symm)
        subst this
        rw [h3, agent?_put_same h ha (setAlgorithm_same b st).name]
        rfl
    · rw [agent?_setAlgorithm hn]; exact hself

theorem history_run (ops : List (EnvOp K δ)) : ∀ (e : Env K δ), Ok kind W H selfT e → ValidConsumes e →
    ∀ a ∈ e.agents, (∀ op ∈ ops, Spec.Single op) →
    ((e.run ops).agent? a.name).map (·.history) = some (Spec.record a.name a.start e a.history ops) := by
  induction ops with
  | nil =>
    intro e h _ a ha _
    change (e.agent? a.name).map (·.history) = _
    rw [(agent?_eq h.nodup).2 ⟨ha, rfl⟩]; rfl
  | cons op ops ih =>
    intro e h hv a ha hops
    have h1 := history_apply h hv ha op (hops op List.mem_cons_self)
    have hok : Ok kind W H selfT (e.apply op) := Ok.run [op] e h
    have hl : Later e (e.apply op) := later_run [op] h
    obtain ⟨b, hb, hbn, -, hbs, -⟩ := hl.agents a ha
    have h2 := ih (e.apply op) hok (hv.later h hok hl) b hb (fun o ho => hops o (List.mem_cons_of_mem _ ho))
    rw [hbn, hbs] at h2
    rw [← hbn, (agent?_eq hok.nodup).2 ⟨hb, rfl⟩] at h1
    simp only [Option.map_some, Option.some.injEq] at h1
    rw [h1] at h2
    rw [hbn] at h2
    exact h2

/-- `step_multi` is a list of fits and steps of the agent. -/
theorem stepMulti_calls (e : Env K δ) (n : String) (s : StepsArg) (mp : Option (List Nat)) (nT : Nat)
    (refit stop : Bool) (orc : Nat → StepOracle K δ) :
    ∃ calls : List (EnvOp K δ), (∀ op ∈ calls, (∃ o d, op = .fit n o d) ∨ ∃ d, op = .step n d) ∧
      (e.stepMulti n s mp nT refit stop orc).1 = e.run calls := by
  refine stepMulti_induct (fun e' => ∃ calls : List (EnvOp K δ),
    (∀ op ∈ calls, (∃ o d, op = .fit n o d) ∨ ∃ d, op = .step n d) ∧ e' = e.run calls) ?_ ?_ e s mp nT refit
    stop orc ⟨[], by simp, rfl⟩
  · rintro e' o d ⟨calls, h1, rfl⟩
    refine ⟨calls ++ [.fit n o d], ?_, ?_⟩
    · intro op ho
      rcases List.mem_append.1 ho with ho | ho
      · exact h1 op ho
      · exact .inl ⟨o, d, by simpa using ho⟩
    · unfold run; rw [List.foldl_append]; rfl
  · rintro e' d ⟨calls, h1, rfl⟩
    refine ⟨calls ++ [.step n d], ?_, ?_⟩
    · intro op ho
      rcases List.mem_append.1 ho with ho | ho
      · exact h1 op ho
      · exact .inr ⟨d, by simpa using ho⟩
    · unfold run; rw [List.foldl_append]; rfl

/-- Every history is equivalent to one without `step_multi`. -/
theorem run_single (ops : List (EnvOp K δ)) : ∀ e : Env K δ, ∃ calls : List (EnvOp K δ),
    (∀ op ∈ calls, Spec.Single op) ∧ e.run ops = e.run calls := by
  induction ops with
  | nil => intro e; exact ⟨[], by simp, rfl⟩
  | cons op ops ih =>
    intro e
    obtain ⟨c2, h1, h2⟩ := ih (e.apply op)
    have : ∃ c1 : List (EnvOp K δ), (∀ op ∈ c1, Spec.Single op) ∧ e.apply op = e.run c1 := by
      by_cases hs : Spec.Single op
      · exact ⟨[op], by simpa using hs, rfl⟩
      cases op with
      | stepMulti n s p t r c o =>
        obtain ⟨c1, h3, h4⟩ := stepMulti_calls e n s p t r c o
        refine ⟨c1, fun op ho => ?_, h4⟩
        rcases h3 op ho with ⟨o, d, rfl⟩ | ⟨d, rfl⟩ <;> trivial
      | _ => exact absurd trivial hs
    obtain ⟨c1, h3, h4⟩ := this
    refine ⟨c1 ++ c2, ?_, ?_⟩
    · intro op ho
      rcases List.mem_append.1 ho with ho | ho
      · exact h3 op ho
      · exact h1 op ho
    · change (e.apply op).run ops = _
      rw [h2, h4]
      unfold run; rw [List.foldl_append]

/-! ### Never fitted -/

theorem alg_step (h : Ok kind W H selfT e) (n : String) (d : Nat → δ) :
    (((e.step n d).1.agent? n).map (·.alg)) = (e.agent? n).map (·.alg) := by
  rcases step_cases h n d with ⟨-, h1⟩ | ⟨b, a', err, h1, h2, h3, -, h4, -, h5⟩ |
    ⟨b, a1, j, t, g, c, h2, hm, -, hg, hc, h1, -⟩ | ⟨b, a1, j, t, g, h2, hm, hbad, hg, h1, -⟩
  · rw [h1]
  · subst h2
    rw [h5, agent?_put_same h h1 h3.name, (agent?_eq h.nodup).2 ⟨h1, rfl⟩]
    simp [h4]
  · subst h2
    obtain ⟨m1, m2, m3, m4, m5, m6, m7, m8, -⟩ := hm.name
    rw [h1]
    have := agent?_put_same (m := e.mdp.withFeat g) h hm.mem
      (a' := { a1 with consumed := fun f => b.consumed f + c f }) m1
    change ((e.put (e.mdp.withFeat g)
      { a1 with consumed := fun f => b.consumed f + c f }).agent? b.name).map (·.alg) = _
    rw [this, (agent?_eq h.nodup).2 ⟨hm.mem, rfl⟩]
    simp [m8]
  · subst h2
    obtain ⟨m1, m2, m3, m4, m5, m6, m7, m8, -⟩ := hm.name
    rw [h1, agent?_put_same h hm.mem m1, (agent?_eq h.nodup).2 ⟨hm.mem, rfl⟩]
    simp [m8]

/-- Without refitting, `step_multi` only steps. -/
theorem stepLoop_induct_norefit (P : Env K δ → Prop) {n : String}
    (hstep : ∀ e d, P e → P (Env.step e n d).1)
    (nas plan : List Nat) (nT : Nat) (stop : Bool) (orc : Nat → StepOracle K δ) :
    ∀ (k i : Nat) (e : Env K δ) (acc : List Int), P e →
      P (stepLoop n nas plan nT false stop orc k i e acc).1 := by
  intro k
  induction k with
  | zero => intro i e acc h; exact h
  | succ k ih =>
    intro i e acc h
    unfold stepLoop
    have hr : e.refitFor n nas plan nT false (orc i) i = (e, .ok ()) := rfl
    rw [hr]
    simp only
    have hs := hstep e (orc i).draws h
    split
    · rename_i heq; rw [heq] at hs; exact hs
    · rename_i heq; rw [heq] at hs
      split
      · exact hs
      · split_ifs
        · exact hs
        · exact ih _ _ _ hs

theorem stepMulti_induct_norefit (P : Env K δ → Prop) {n : String}
    (hstep : ∀ e d, P e → P (Env.step e n d).1)
    (e : Env K δ) (s : StepsArg) (mp : Option (List Nat)) (nT : Nat) (stop : Bool)
    (orc : Nat → StepOracle K δ) (h : P e) : P (e.stepMulti n s mp nT false stop orc).1 := by
  unfold stepMulti
  split
  · exact h
  · split
    · exact h
    · simp only
      split_ifs with h1
      · exact h
      · split
        · exact h
        · exact stepLoop_induct_norefit P hstep _ _ _ _ _ _ _ _ _ h
      · split <;> exact h

theorem alg_apply (h : Ok kind W H selfT e) (n : String) (op : EnvOp K δ) (hop : ¬ Spec.Fits n op) :
    (((e.apply op).agent? n).map (·.alg)) = (e.agent? n).map (·.alg) := by
  cases op with
  | fit n' o d =>
    have hn : n ≠ n' := fun h' => hop h'.symm
    exact congrArg (Option.map _) (agent?_fit hn o d)
  | step n' d =>
    by_cases hn : n = n'
    · subst hn; exact alg_step h n d
    · exact congrArg (Option.map _) (agent?_step hn d)
  | stepProba n' p d =>
    by_cases hn : n = n'
    · subst hn
      simp only [apply]
      rcases stepProba_cases h n p d with ⟨-, h1⟩ | ⟨b, h1, h2, ⟨err, -, h3⟩ | ⟨x, -, h3⟩⟩
      · rw [h1]
      · subst h2
        rw [h3, agent?_put_same h h1 (Agent.stepProba_same b e.mdp p d).1.name,
          (agent?_eq h.nodup).2 ⟨h1, rfl⟩]
        simp only [Option.map_some, (Agent.stepProba_same b e.mdp p d).2.2]
      · subst h2
        rw [h3]
        have := agent?_put_same (m := e.mdp) h h1 (Agent.stepProba_same b e.mdp p d).1.name
        change ((e.put e.mdp (b.stepProba e.mdp p d).1).agent? b.name).map (·.alg) = _
        rw [this, (agent?_eq h.nodup).2 ⟨h1, rfl⟩]
        simp only [Option.map_some, (Agent.stepProba_same b e.mdp p d).2.2]
    · exact congrArg (Option.map _) (agent?_stepProba hn p d)
  | stepMulti n' s p t r c o =>
    by_cases hn : n = n'
    · subst hn
      have hr : r = false := by
        cases r
        · rfl
        · exact absurd ⟨rfl, rfl⟩ hop
      subst hr
      exact (stepMulti_induct_norefit (fun e' => Ok kind W H selfT e' ∧
        (e'.agent? n).map (·.alg) = (e.agent? n).map (·.alg))
        (fun e' d h' => ⟨h'.1.step n d, (alg_step h'.1 n d).trans h'.2⟩) e s p t c o ⟨h, rfl⟩).2
    · exact congrArg (Option.map _) (agent?_stepMulti hn s p t r c o)
  | stepMultiInteractive n' m =>
    simp only [apply, stepMultiInteractive]
    split
    · rfl
    · rfl
    · split_ifs
      · rfl
      · split <;> rfl
  | reset =>
    simp only [apply]
    rw [(reset_eq h).1]
    unfold agent? resetEnv
    simp only
    have : ∀ l : List (Agent K δ), ((l.map resetAgent).find? fun a => a.name = n).map (·.alg) =
        (l.find? fun a => a.name = n).map (·.alg) := by
      intro l
      induction l with
      | nil => rfl
      | cons a l ih =>
        simp only [List.map_cons, List.find?_cons]
        by_cases hn : a.name = n
        · simp [resetAgent, hn]
        · simp only [resetAgent, hn, decide_false]
          exact ih
    exact this e.agents
  | setAgentPosition n' p =>
    by_cases hn : n = n'
    · subst hn
      simp only [apply]
      rcases setAgentPosition_cases h n p with ⟨-, h1⟩ | ⟨b, h1, h2, ⟨j, -, h3⟩ | ⟨-, h3⟩ | ⟨-, h3, -⟩⟩
      · rw [h1]
      all_goals subst h2; rw [h3]
      · have := agent?_put_same (m := e.mdp.setRow (e.mdp.agentRow b.idx) j) h h1
          (a' := { b with position := p }) rfl
        rw [(agent?_eq h.nodup).2 ⟨h1, rfl⟩]
        simp only [this, Option.map_some]
      · have := agent?_put_same (m := e.mdp.withFeat
          (fun f s => if f = e.mdp.agentRow b.idx then 0 else e.mdp.features.get f s)) h h1 (a' := b) rfl
        rw [(agent?_eq h.nodup).2 ⟨h1, rfl⟩]
        simp only [this, Option.map_some]
    · exact congrArg (Option.map _) (agent?_setAgentPosition hn p)
  | setWalls w => rfl
  | addWallXY x y => rfl
  | resetWalls => rfl
  | setAlgorithm n' st =>
    have hn : n ≠ n' := fun h' => hop h'.symm
    exact congrArg (Option.map _) (agent?_setAlgorithm hn st)

theorem alg_run (n : String) (ops : List (EnvOp K δ)) : ∀ e : Env K δ, Ok kind W H selfT e →
    (∀ op ∈ ops, ¬ Spec.Fits n op) → (((e.run ops).agent? n).map (·.alg)) = (e.agent? n).map (·.alg) := by
  induction ops with
  | nil => intro e _ _; rfl
  | cons op ops ih =>
    intro e h hops
    exact (ih (e.apply op) (Ok.run [op] e h) (fun o ho => hops o (List.mem_cons_of_mem _ ho))).trans
      (alg_apply h n op (hops op List.mem_cons_self))

end MaMDP.Env
