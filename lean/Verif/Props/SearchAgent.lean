import Verif.Model.SearchAgent
import Verif.Props.MCTSObject
import Verif.Props.Environment

/-! # An agent whose tree search fails (C147) -/

set_option linter.unusedSectionVars false

namespace MaMDP

variable {K : Type} [Field K] [LinearOrder K] [IsStrictOrderedRing K] {δ : Type}
  {kind : GridKind} {W H : Nat} {selfT : Bool} {m m' : Mdp K} {specs : List (AgentSpec K δ)} {e0 : Env K δ}

namespace Env

theorem reward_features (hm : Mdp.GridReach kind W H selfT m) (hinit : Env.init m specs = (m', .ok e0))
    (ops : List (EnvOp K δ)) (e : Env K δ) (he : e = e0.run ops) (a : Agent K δ) (ha : a ∈ e.agents) :
    a.reward.d0 = e.mdp.nFeatures := by
  obtain ⟨hok, hlater⟩ := Env.started hm hinit ops
  rw [← he] at hok hlater
  obtain ⟨-, hok0, -, -, -, -, hd0, -, -, -, -, -, -, -, -, hag⟩ := Env.init_facts hm hinit
  obtain ⟨a0, ha0, -, -, -, -, -, -, hrew, -, -⟩ := hlater.back hok0 hok ha
  change _ = e.mdp.features.d0
  obtain ⟨i, sp, p, r, -, -, -, rfl⟩ := hag a0 ha0
  rw [hrew, hlater.d0, hd0]; rfl

theorem run_one (e : Env K δ) (op : EnvOp K δ) : e.run [op] = e.apply op := rfl

/-- What a fit of a tree search does to the environment is one call of the kinds already known. -/
theorem fitSearch_cases (hm : Mdp.GridReach kind W H selfT m) (hinit : Env.init m specs = (m', .ok e0))
    (ops : List (EnvOp K δ)) (e : Env K δ) (he : e = e0.run ops) {n : String} {obj : MctsObj K} {x : SearchArgs K}
    {d : Nat → δ} {e' : Env K δ} {obj' : MctsObj K} {r : Py Unit} (h : e.fitSearch n obj x d = some (e', obj', r)) :
    (n ∉ e.agentNames ∧ e' = e ∧ obj' = obj ∧ r = .error .valueError) ∨
    (∃ a ∈ e.agents, a.name = n ∧
      ((∃ err, obj'.st = .fresh ∧ r = .error err ∧ e' = (e.setAlgorithm n .fresh).1) ∨
       (∃ v q, obj'.st = ⟨true, some v, some q⟩ ∧ v.d0 = e.mdp.nStates ∧ q.d0 = e.mdp.nStates ∧ q.d1 = e.mdp.nActions ∧
         (e', r) = e.fit n (fun _ => .ok (.of1 v, .of2 q)) d ∧
         e'.agent? n = some (Agent.getPolicy { a with alg := obj'.st } d).1 ∧
         (Agent.getPolicy { a with alg := obj'.st } d).2 = r))) := by
  obtain ⟨hok, -⟩ := Env.started hm hinit ops
  rw [← he] at hok
  unfold fitSearch at h
  cases hl : e.lookup n with
  | error err =>
    rw [hl] at h
    obtain ⟨h1, rfl⟩ := lookup_error hok hl
    cases h
    exact .inl ⟨h1, rfl, rfl, rfl⟩
  | ok a =>
    rw [hl] at h
    obtain ⟨ha, hn⟩ := (lookup_ok hok).1 hl
    have hw := reward_features hm hinit ops e he a ha
    have hrew : (PyArr.of1 a.reward : PyArr K) = .nd [e.mdp.nFeatures] fun i => a.reward.get (i.getD 0 0) := by
      rw [← hw]; rfl
    have hag : e.agent? n = some a := (agent?_eq hok.nodup).2 ⟨ha, hn⟩
    right
    refine ⟨a, ha, hn, ?_⟩
    simp only at h
    cases hf : obj.fit ⟨some (e, a), e.mdp, .of1 a.reward, a.position, x.plan, x.draws, x.fuel, x.after⟩ with
    | none => rw [hf] at h; cases h
    | some p =>
      obtain ⟨o1, r1⟩ := p
      rw [hf] at h
      cases r1 with
      | error err =>
        simp only [Option.some.injEq, Prod.mk.injEq] at h
        obtain ⟨rfl, rfl, rfl⟩ := h
        have hst : o1.st = .fresh := by
          have := (C94_partial _ _ _ _ hf).2 (by
            rintro (h1 | h1)
            · exact h1 ⟨_, hrew⟩
            · cases h1.1)
          rcases hs : o1.st with ⟨b, v, q⟩
          rw [hs] at this
          obtain ⟨rfl, rfl, rfl⟩ := this
          rfl
        refine .inl ⟨err, hst, rfl, ?_⟩
        unfold setAlgorithm
        rw [hag, hst]
      | ok u =>
        simp only [Option.some.injEq, Prod.mk.injEq] at h
        obtain ⟨rfl, rfl, rfl⟩ := h
        obtain ⟨k1, v, q, k2, k3, k4, k5, k6⟩ := C94_success _ _ _ hf
        have hst : o1.st = ⟨true, some v, some q⟩ := by
          rcases hs : o1.st with ⟨b, v', q'⟩
          rw [hs] at k1 k2 k3
          dsimp only at k1 k2 k3
          rw [k1, k2, k3]
        have hsame := Agent.getPolicy_same { a with alg := o1.st } d
        refine .inr ⟨v, q, hst, k4, k5, k6, ?_, by rw [← hn]; exact agent?_put_same hok ha hsame.1.name, rfl⟩
        unfold fit
        rw [hl]
        have : algFit (fun _ => .ok (.of1 v, .of2 q)) e.mdp.nFeatures e.mdp.nStates e.mdp.nActions (.of1 a.reward) a.alg =
            (⟨true, some v, some q⟩, .ok ()) := by
          unfold algFit
          rw [hrew, checkReward_ok]
          simp only [PyArr.of1, PyArr.of2, checkOutput, k4, k5, k6]
          simp
          constructor
          · rw [← k4]
          · rw [← k5, ← k6]
        simp only [Agent.fit, this, hst]

end Env

/-- **C147**, the world: whether or not the fit raises, the MDP and all other agents are as before, and the agent itself is
where it was, with the history and the counts of consumed features it had. -/
theorem C147_world (hm : Mdp.GridReach kind W H selfT m) (hinit : Env.init m specs = (m', .ok e0))
    (ops : List (EnvOp K δ)) (e : Env K δ) (he : e = e0.run ops) (n : String) (obj obj' : MctsObj K) (x : SearchArgs K)
    (d : Nat → δ) (e' : Env K δ) (r : Py Unit) (h : e.fitSearch n obj x d = some (e', obj', r)) :
    e'.mdp = e.mdp ∧ e'.nSteps = e.nSteps ∧ (∀ y, y ≠ n → e'.agent? y = e.agent? y) ∧
    ∀ a, e.agent? n = some a → ∃ a', e'.agent? n = some a' ∧ a'.position = a.position ∧ a'.history = a.history ∧
      a'.consumed = a.consumed ∧ a'.start = a.start := by
  obtain ⟨hok, -⟩ := Env.started hm hinit ops
  rw [← he] at hok
  rcases Env.fitSearch_cases hm hinit ops e he h with ⟨-, rfl, -, -⟩ | ⟨a, ha, hn, ⟨err, -, -, rfl⟩ | ⟨v, q, -, -, -, -, h1, -, -⟩⟩
  · exact ⟨rfl, rfl, fun _ _ => rfl, fun a ha => ⟨a, ha, rfl, rfl, rfl, rfl⟩⟩
  · refine ⟨?_, ?_, fun y hy => Env.agent?_setAlgorithm hy _, fun b hb => ?_⟩
    · rcases Env.setAlgorithm_cases hok n .fresh with ⟨-, h2⟩ | ⟨c, -, -, h2⟩ <;> rw [h2]
      rfl
    · rcases Env.setAlgorithm_cases hok n .fresh with ⟨-, h2⟩ | ⟨c, -, -, h2⟩ <;> rw [h2]
      rfl
    · rw [(Env.agent?_eq hok.nodup).2 ⟨ha, hn⟩] at hb
      cases hb
      refine ⟨{ a with alg := .fresh }, ?_, rfl, rfl, rfl, rfl⟩
      rcases Env.setAlgorithm_cases hok n .fresh with ⟨h2, -⟩ | ⟨c, hc, hcn, h2⟩
      · exact absurd ((hok.names n).2 (hn ▸ List.mem_map_of_mem (f := (·.name)) ha)) h2
      · have : c = a := Env.eq_of_name hok.nodup hc ha (hcn.trans hn.symm)
        subst this
        rw [h2, ← hn]
        exact Env.agent?_put_same hok ha rfl
  · have h2 : e' = (e.fit n (fun _ => .ok (.of1 v, .of2 q)) d).1 := congrArg Prod.fst h1
    have hc := Env.fit_cases hok n (fun _ => .ok (.of1 v, .of2 q)) d
    refine ⟨?_, ?_, fun y hy => by rw [h2]; exact Env.agent?_fit hy _ _, fun b hb => ?_⟩
    · rw [h2]
      rcases hc with ⟨-, h3⟩ | ⟨c, -, -, h3⟩ <;> rw [h3]
      rfl
    · rw [h2]
      rcases hc with ⟨-, h3⟩ | ⟨c, -, -, h3⟩ <;> rw [h3]
      rfl
    · rw [(Env.agent?_eq hok.nodup).2 ⟨ha, hn⟩] at hb
      cases hb
      rcases hc with ⟨h3, -⟩ | ⟨c, hc, hcn, h3⟩
      · exact absurd ((hok.names n).2 (hn ▸ List.mem_map_of_mem (f := (·.name)) ha)) h3
      · have : c = a := Env.eq_of_name hok.nodup hc ha (hcn.trans hn.symm)
        subst this
        have hs := Agent.fit_same c e.mdp (fun _ => .ok (.of1 v, .of2 q)) d
        refine ⟨_, ?_, hs.1.position, hs.2, hs.1.consumed, hs.1.start⟩
        rw [h2, h3, ← hn]
        exact Env.agent?_put_same hok ha hs.1.name

/-- **C147**, histories: what a fit by tree search leaves behind is what some history of ordinary calls leaves behind, all of
them about this agent's plan. So whatever is proved about all histories covers agents that plan by tree search, also when
their fits fail. -/
theorem C147_history (hm : Mdp.GridReach kind W H selfT m) (hinit : Env.init m specs = (m', .ok e0))
    (ops : List (EnvOp K δ)) (e : Env K δ) (he : e = e0.run ops) (n : String) (obj obj' : MctsObj K) (x : SearchArgs K)
    (d : Nat → δ) (e' : Env K δ) (r : Py Unit) (h : e.fitSearch n obj x d = some (e', obj', r)) :
    ∃ calls : List (EnvOp K δ), (∀ op ∈ calls, Spec.Fits n op) ∧ e' = e0.run (ops ++ calls) := by
  rcases Env.fitSearch_cases hm hinit ops e he h with ⟨-, rfl, -, -⟩ | ⟨a, ha, hn, ⟨err, -, -, rfl⟩ | ⟨v, q, -, -, -, -, h1, -, -⟩⟩
  · exact ⟨[], by simp, by rw [List.append_nil]; exact he⟩
  · refine ⟨[.setAlgorithm n .fresh], by simp [Spec.Fits], ?_⟩
    rw [Env.run_append, ← he]
    rfl
  · refine ⟨[.fit n (fun _ => .ok (.of1 v, .of2 q)) d], by simp [Spec.Fits], ?_⟩
    rw [Env.run_append, ← he]
    exact congrArg Prod.fst h1

/-- Without a fitted algorithm nothing can be done with an agent. -/
theorem Env.unplanned {e : Env K δ} (h : Env.Ok kind W H selfT e) {n : String} {a : Agent K δ} (ha : e.agent? n = some a)
    (hf : a.alg = .fresh) (d : Nat → δ) :
    e.step n d = (e, .error .attributeError) ∧ e.getPi n = .error .attributeError ∧
      e.getPiP n = .error .attributeError ∧ e.getQValues n = .ok none := by
  obtain ⟨hmem, han⟩ := Env.agent?_mem ha
  have hlk := (Env.lookup_ok h).2 ⟨hmem, han⟩
  refine ⟨?_, ?_, ?_, ?_⟩
  · unfold Env.step
    rw [hlk]
    simp only
    unfold Agent.step
    rw [if_pos (by rw [hf]; rfl)]
    simp only
    rw [Env.put_self h.nodup hmem]
  · unfold Env.getPi; rw [hlk]; simp [hf, AlgState.fresh]
  · unfold Env.getPiP; rw [hlk]; simp [hf, AlgState.fresh]
  · unfold Env.getQValues; rw [hlk]; simp [hf, AlgState.fresh]

/-- **C147**, the plan: if the fit of a known agent raises, then either the search itself went through and it is the action
selector that refuses the new action values; or nothing is left of any plan the agent had before: from then on, until
it is fitted again, whatever else happens, stepping it raises `AttributeError` and changes nothing, its policy cannot be read,
and its action values are `None`. -/
theorem C147_forgets (hm : Mdp.GridReach kind W H selfT m) (hinit : Env.init m specs = (m', .ok e0))
    (ops : List (EnvOp K δ)) (e : Env K δ) (he : e = e0.run ops) (n : String) (hn : n ∈ e.agentNames) (obj obj' : MctsObj K)
    (x : SearchArgs K) (d : Nat → δ) (e' : Env K δ) (err : PyErr)
    (h : e.fitSearch n obj x d = some (e', obj', .error err)) :
    (∃ a q, e.agent? n = some a ∧ e'.getQValues n = .ok (some q) ∧
      (a.selector.piP q = .error err ∨ a.selector.pi q d = .error err)) ∨
    ∀ later : List (EnvOp K δ), (∀ op ∈ later, ¬ Spec.Fits n op) → ∀ d' : Nat → δ,
      (e'.run later).step n d' = (e'.run later, .error .attributeError) ∧
      (e'.run later).getPi n = .error .attributeError ∧ (e'.run later).getPiP n = .error .attributeError ∧
      (e'.run later).getQValues n = .ok none := by
  obtain ⟨hok, -⟩ := Env.started hm hinit ops
  rw [← he] at hok
  rcases Env.fitSearch_cases hm hinit ops e he h with ⟨h0, -⟩ | ⟨a, ha, han, ⟨err', -, -, rfl⟩ | ⟨v, q, hst, -, -, -, h1, h4, h2⟩⟩
  · exact absurd hn h0
  · right
    intro later hl d'
    have hok' := hok.setAlgorithm n .fresh
    have hag : (e.setAlgorithm n .fresh).1.agent? n = some { a with alg := .fresh } := by
      rcases Env.setAlgorithm_cases hok n .fresh with ⟨h2, -⟩ | ⟨c, hc, hcn, h2⟩
      · exact absurd hn h2
      · have : c = a := Env.eq_of_name hok.nodup hc ha (hcn.trans han.symm)
        subst this
        rw [h2, ← han]
        exact Env.agent?_put_same hok ha rfl
    have hrun := Env.alg_run n later _ hok' hl
    rw [hag] at hrun
    cases hb : ((e.setAlgorithm n .fresh).1.run later).agent? n with
    | none => rw [hb] at hrun; cases hrun
    | some b =>
      rw [hb] at hrun
      exact Env.unplanned (Env.Ok.run later _ hok') hb (Option.some.inj hrun) d'
  · left
    have hag := (Env.agent?_eq hok.nodup).2 ⟨ha, han⟩
    refine ⟨a, q, hag, ?_, ?_⟩
    · have hok' : Env.Ok kind W H selfT e' := by
        rw [show e' = (e.fit n (fun _ => .ok (.of1 v, .of2 q)) d).1 from congrArg Prod.fst h1]
        exact hok.fit n _ d
      unfold Env.getQValues
      rw [(Env.lookup_ok hok').2 (Env.agent?_mem h4)]
      have halg : (Agent.getPolicy { a with alg := obj'.st } d).1.alg = obj'.st :=
        (Agent.getPolicy_same { a with alg := obj'.st } d).2.2
      simp only [halg]
      rw [hst]
    · have h3 := h2
      rw [hst] at h3
      unfold Agent.getPolicy at h3
      simp only at h3
      cases hP : a.selector.piP q with
      | error e2 => rw [hP] at h3; cases h3; exact .inl rfl
      | ok P =>
        rw [hP] at h3
        simp only at h3
        cases hp : a.selector.pi q d with
        | error e2 => rw [hp] at h3; cases h3; exact .inr rfl
        | ok p => rw [hp] at h3; cases h3

/-- **C147**, the default: called without `n_moves`, the fit of an agent that plans by tree search always raises, so a plan
the agent had is lost. -/
theorem C147_no_plan (hm : Mdp.GridReach kind W H selfT m) (hinit : Env.init m specs = (m', .ok e0))
    (ops : List (EnvOp K δ)) (e : Env K δ) (he : e = e0.run ops) (n : String) (hn : n ∈ e.agentNames) (obj : MctsObj K)
    (hi : 0 < obj.nIter) (x : SearchArgs K) (hx : x.plan = none) (d : Nat → δ) :
    ∃ e' obj' err, e.fitSearch n obj x d = some (e', obj', .error err) ∧
      ∀ later : List (EnvOp K δ), (∀ op ∈ later, ¬ Spec.Fits n op) → ∀ d' : Nat → δ,
        (e'.run later).step n d' = (e'.run later, .error .attributeError) := by
  obtain ⟨hok, -⟩ := Env.started hm hinit ops
  rw [← he] at hok
  obtain ⟨a, ha, han⟩ := List.mem_map.1 ((hok.names n).1 hn)
  have hl := (Env.lookup_ok hok).2 ⟨ha, han⟩
  have hw := Env.reward_features hm hinit ops e he a ha
  have hrew : (PyArr.of1 a.reward : PyArr K) = .nd [e.mdp.nFeatures] fun i => a.reward.get (i.getD 0 0) := by
    rw [← hw]; rfl
  obtain ⟨obj', err, h1, h2, h3⟩ := C94_refuted
    { obj with st := ⟨true, some ⟨0, fun _ => .nan⟩, some ⟨0, 0, fun _ _ => .nan⟩⟩ } _ _ rfl hi
    ⟨some (e, a), e.mdp, .of1 a.reward, a.position, x.plan, x.draws, x.fuel, x.after⟩ _ hrew (by simp) hx
  have h4 : obj.fit ⟨some (e, a), e.mdp, .of1 a.reward, a.position, x.plan, x.draws, x.fuel, x.after⟩ =
      some (obj', .error err) := by
    rw [← h1]
    unfold MctsObj.fit
    split
    · rename_i hc
      simp only [hrew, checkReward_ok] at hc
      cases hc
    · rfl
  have h5 : e.fitSearch n obj x d = some (e.put e.mdp { a with alg := obj'.st }, obj', .error err) := by
    unfold Env.fitSearch
    rw [hl]
    simp only [h4]
  refine ⟨_, _, _, h5, fun later hlater d' => ?_⟩
  rcases C147_forgets hm hinit ops e he n hn obj obj' x d _ err h5 with ⟨b, q, -, hq, -⟩ | hall
  · exfalso
    have hb : (e.put e.mdp { a with alg := obj'.st }).agent? n = some { a with alg := obj'.st } := by
      rw [← han]; exact Env.agent?_put_same hok ha rfl
    have hok' : Env.Ok kind W H selfT (e.put e.mdp { a with alg := obj'.st }) := hok.same ha (Env.setAlgorithm_same a _)
    unfold Env.getQValues at hq
    rw [(Env.lookup_ok hok').2 (Env.agent?_mem hb)] at hq
    simp only [h3, AlgState.fresh] at hq
    cases hq
  · exact (hall later hlater d').1

/-- The hen plans two turns ahead. -/
def exSearch : SearchArgs Rat := ⟨some [[1, 1], [1, 1]], fun _ _ => ⟨0, 0⟩, 9, fun _ _ => none⟩

/-- The hen of C96 is fitted by tree search and could walk; then it is fitted without `n_moves`. The call raises and the hen
cannot walk any more. -/
example : ∃ (m m' : Mdp Rat) (e e1 e2 : Env Rat Nat) (obj obj' : MctsObj Rat) (err : PyErr),
    Mdp.GridReach .square 1 4 false m ∧ Env.init m exPair = (m', .ok e) ∧ "hen" ∈ e.agentNames ∧
    e.fitSearch "hen" (MctsObj.init exOpts 1 true) exSearch (fun _ => 0) = some (e1, obj, .ok ()) ∧
    (e1.step "hen" fun _ => 0).2 = .ok 2 ∧
    e1.fitSearch "hen" obj { exSearch with plan := none } (fun _ => 0) = some (e2, obj', .error err) ∧
    (e2.step "hen" fun _ => 0).2 = .error .attributeError := by
  obtain ⟨m, m', e, h1, h2, h3⟩ := exWorldStart (fun e =>
    decide ("hen" ∈ e.agentNames) &&
    match e.fitSearch "hen" (MctsObj.init exOpts 1 true) exSearch (fun _ => 0) with
    | some (e1, obj, .ok ()) => decide ((e1.step "hen" fun _ => 0).2 = .ok 2) &&
      match e1.fitSearch "hen" obj { exSearch with plan := none } (fun _ => 0) with
      | some (e2, _, .error _) => decide ((e2.step "hen" fun _ => 0).2 = .error .attributeError)
      | _ => false
    | _ => false) (by decide +kernel)
  simp only [Bool.and_eq_true, decide_eq_true_eq] at h3
  obtain ⟨h3, h4⟩ := h3
  rcases hf : e.fitSearch "hen" (MctsObj.init exOpts 1 true) exSearch (fun _ => 0) with _ | ⟨e1, obj, err | ⟨⟩⟩
  · rw [hf] at h4; cases h4
  · rw [hf] at h4; cases h4
  · rw [hf] at h4
    simp only [Bool.and_eq_true, decide_eq_true_eq] at h4
    obtain ⟨h4, h5⟩ := h4
    rcases hg : e1.fitSearch "hen" obj { exSearch with plan := none } (fun _ => 0) with _ | ⟨e2, obj', err | ⟨⟩⟩
    · rw [hg] at h5; cases h5
    · rw [hg] at h5
      exact ⟨m, m', e, e1, e2, obj, obj', err, h1, h2, h3, hf, h4, hg, of_decide_eq_true h5⟩
    · rw [hg] at h5; cases h5

end MaMDP
