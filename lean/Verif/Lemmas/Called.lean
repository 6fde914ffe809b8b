/- Lemmas for C161: agents called by other names. -/
import Verif.Spec.Called
import Verif.Model.SearchGame

set_option linter.unusedSectionVars false

namespace MaMDP

variable {K δ : Type} [Field K] [LinearOrder K] [IsStrictOrderedRing K] {ρ : String → String}

namespace Agent

open Spec (callAgent)

theorem setPosition_call (a : Agent K δ) (m : Mdp K) (p : Int) :
    (callAgent ρ a).setPosition m p =
      ((a.setPosition m p).1, callAgent ρ (a.setPosition m p).2.1, (a.setPosition m p).2.2) := by
  unfold setPosition
  split_ifs
  · rfl
  · show (match m.updateAgentFeature a.idx p with
      | (m', .error e) => (m', callAgent ρ a, Except.error e)
      | (m', .ok ()) => (m', { callAgent ρ a with position := p }, Except.ok ())) = _
    rcases m.updateAgentFeature a.idx p with ⟨m', _ | ⟨⟨⟩⟩⟩ <;> rfl

theorem getPolicy_call (a : Agent K δ) (d : Nat → δ) :
    (callAgent ρ a).getPolicy d = (callAgent ρ (a.getPolicy d).1, (a.getPolicy d).2) := by
  unfold getPolicy
  show (match a.alg.qValues with
    | none => (callAgent ρ a, Except.error PyErr.typeError)
    | some q => match a.selector.piP q with
      | .error e => (callAgent ρ a, Except.error e)
      | .ok P => match a.selector.pi q d with
        | .error e => ({ callAgent ρ a with piP := some P }, Except.error e)
        | .ok p => ({ callAgent ρ a with piP := some P, pi := some p }, Except.ok ())) = _
  cases a.alg.qValues with
  | none => rfl
  | some q =>
    simp only
    cases a.selector.piP q with
    | error => rfl
    | ok P =>
      simp only
      cases a.selector.pi q d <;> rfl

theorem fit_call (a : Agent K δ) (m : Mdp K) (out : FitOut K) (d : Nat → δ) :
    (callAgent ρ a).fit m out d = (callAgent ρ (a.fit m out d).1, (a.fit m out d).2) := by
  unfold fit
  show (match algFit out m.nFeatures m.nStates m.nActions (.of1 a.reward) a.alg with
    | (st, .error e) => ({ callAgent ρ a with alg := st }, Except.error e)
    | (st, .ok ()) => getPolicy { callAgent ρ a with alg := st } d) = _
  rcases algFit out m.nFeatures m.nStates m.nActions (.of1 a.reward) a.alg with ⟨st, _ | ⟨⟨⟩⟩⟩
  · rfl
  · exact getPolicy_call { a with alg := st } d

theorem step_call (a : Agent K δ) (m : Mdp K) (d : Nat → δ) :
    (callAgent ρ a).step m d = ((a.step m d).1, callAgent ρ (a.step m d).2.1, (a.step m d).2.2) := by
  unfold step
  rw [getPolicy_call]
  by_cases hf : a.alg.fitComplete = false
  · rw [if_pos hf, if_pos (show (callAgent ρ a).alg.fitComplete = false from hf)]
  · rw [if_neg hf, if_neg (show ¬ (callAgent ρ a).alg.fitComplete = false from hf)]
    rcases a.getPolicy d with ⟨b, err | ⟨⟨⟩⟩⟩
    · rfl
    · simp only
      have e1 : (callAgent ρ b).pi = b.pi := rfl
      have e2 : (callAgent ρ b).position = b.position := rfl
      rw [e1]
      cases b.pi with
      | none => rfl
      | some pi =>
        simp only
        rw [e2]
        cases pyIdx pi.d0 b.position with
        | none => rfl
        | some s =>
          simp only
          split_ifs
          · rfl
          · cases m.getNextState b.position (pi.get s) with
            | error => rfl
            | ok t =>
              simp only
              rw [setPosition_call]
              rcases b.setPosition m t with ⟨m', c, err | ⟨⟨⟩⟩⟩
              · rfl
              · simp only
                show (match m'.updateAgentFeature c.idx c.position with
                  | (m, .error e) => (m, callAgent ρ { c with history := c.history ++ [c.position] }, Except.error e)
                  | (m, .ok ()) => (m, callAgent ρ { c with history := c.history ++ [c.position] }, Except.ok ())) = _
                rcases m'.updateAgentFeature c.idx c.position with ⟨m'', _ | ⟨⟨⟩⟩⟩ <;> rfl

theorem stepProba_call (a : Agent K δ) (m : Mdp K) (p : Option (Arr1 K)) (d : Nat → δ) :
    (callAgent ρ a).stepProba m p d = (callAgent ρ (a.stepProba m p d).1, (a.stepProba m p d).2) := by
  unfold stepProba
  rw [getPolicy_call]
  have e0 : (callAgent ρ a).probaStart m p = a.probaStart m p := rfl
  rw [e0]
  cases a.probaStart m p with
  | error => rfl
  | ok x =>
    simp only
    by_cases hd : x.d0 ≠ m.nStates
    · rw [if_pos hd, if_pos hd]
    · rw [if_neg hd, if_neg hd]
      by_cases hf : a.alg.fitComplete = false
      · rw [if_pos hf, if_pos (show (callAgent ρ a).alg.fitComplete = false from hf)]
      · rw [if_neg hf, if_neg (show ¬ (callAgent ρ a).alg.fitComplete = false from hf)]
        rcases a.getPolicy d with ⟨b, err | ⟨⟨⟩⟩⟩
        · rfl
        · simp only
          have e1 : (callAgent ρ b).piP = b.piP := rfl
          rw [e1]
          cases b.piP with
          | none => rfl
          | some P =>
            simp only
            split <;> rfl

theorem reset_call (a : Agent K δ) (m : Mdp K) :
    (callAgent ρ a).reset m = ((a.reset m).1, callAgent ρ (a.reset m).2.1, (a.reset m).2.2) := by
  unfold reset
  have e : (callAgent ρ a).start = a.start := rfl
  rw [setPosition_call, e]
  rcases a.setPosition m a.start with ⟨m', b, err | ⟨⟨⟩⟩⟩ <;> rfl

theorem consume_call (a : Agent K δ) (m : Mdp K) :
    (callAgent ρ a).consume m = ((a.consume m).1, callAgent ρ (a.consume m).2.1, (a.consume m).2.2) := by
  unfold consume
  have e : (callAgent ρ a).consumes = a.consumes := rfl
  have e' : (callAgent ρ a).position = a.position := rfl
  rw [e, e']
  split_ifs
  · rfl
  · rcases m.consumeFeatures a.consumes a.position with ⟨m', err | c⟩ <;> rfl

end Agent

namespace Env

open Spec (callAgent callSpec callEnv callOp)

theorem agent?_call (hρ : Function.Injective ρ) (e : Env K δ) (n : String) :
    (callEnv ρ e).agent? (ρ n) = (e.agent? n).map (callAgent ρ) := by
  show List.find? _ (e.agents.map (callAgent ρ)) = (List.find? _ e.agents).map _
  induction e.agents with
  | nil => rfl
  | cons a l ih =>
    rw [List.map_cons, List.find?_cons, List.find?_cons, ih]
    have : decide ((callAgent ρ a).name = ρ n) = decide (a.name = n) := decide_eq_decide.2 hρ.eq_iff
    rw [this]
    cases decide (a.name = n) <;> rfl

theorem lookup_call (hρ : Function.Injective ρ) (e : Env K δ) (n : String) :
    (callEnv ρ e).lookup (ρ n) = (match e.lookup n with
      | .error err => .error err
      | .ok a => .ok (callAgent ρ a)) := by
  unfold lookup
  rw [agent?_call hρ]
  have : ρ n ∉ (callEnv ρ e).agentNames ↔ n ∉ e.agentNames :=
    not_congr (List.mem_map_of_injective hρ)
  by_cases h : n ∉ e.agentNames
  · rw [if_pos h, if_pos (this.2 h)]
  · rw [if_neg h, if_neg (fun hc => h (this.1 hc))]
    cases e.agent? n <;> rfl

theorem put_call (hρ : Function.Injective ρ) (e : Env K δ) (m : Mdp K) (a : Agent K δ) :
    (callEnv ρ e).put m (callAgent ρ a) = callEnv ρ (e.put m a) := by
  unfold put callEnv
  simp only [List.map_map]
  congr 1
  refine List.map_congr_left fun b _ => ?_
  simp only [Function.comp]
  have : (callAgent ρ b).name = (callAgent ρ a).name ↔ b.name = a.name := hρ.eq_iff
  by_cases h : b.name = a.name
  · rw [if_pos h, if_pos (this.2 h)]
  · rw [if_neg h, if_neg (fun hc => h (this.1 hc))]

theorem fit_call (hρ : Function.Injective ρ) (e : Env K δ) (n : String) (o : FitOut K) (d : Nat → δ) :
    (callEnv ρ e).fit (ρ n) o d = (callEnv ρ (e.fit n o d).1, (e.fit n o d).2) := by
  unfold fit
  rw [lookup_call hρ]
  cases e.lookup n with
  | error => rfl
  | ok a =>
    simp only
    rw [Agent.fit_call, put_call hρ]
    rfl

theorem step_call (hρ : Function.Injective ρ) (e : Env K δ) (n : String) (d : Nat → δ) :
    (callEnv ρ e).step (ρ n) d = (callEnv ρ (e.step n d).1, (e.step n d).2) := by
  unfold step
  rw [lookup_call hρ]
  cases e.lookup n with
  | error => rfl
  | ok a =>
    simp only
    have e0 : (callEnv ρ e).mdp = e.mdp := rfl
    rw [Agent.step_call, e0]
    rcases a.step e.mdp d with ⟨m, b, err | ⟨⟨⟩⟩⟩
    · simp only
      rw [put_call hρ]
    · simp only
      rw [Agent.consume_call]
      rcases b.consume m with ⟨m', c, err | ⟨⟨⟩⟩⟩
      · simp only
        rw [put_call hρ]
      · simp only
        rw [put_call hρ]
        rfl

theorem stepProba_call (hρ : Function.Injective ρ) (e : Env K δ) (n : String) (p : Option (Arr1 K)) (d : Nat → δ) :
    (callEnv ρ e).stepProba (ρ n) p d = (callEnv ρ (e.stepProba n p d).1, (e.stepProba n p d).2) := by
  unfold stepProba
  rw [lookup_call hρ]
  cases e.lookup n with
  | error => rfl
  | ok a =>
    simp only
    have e0 : (callEnv ρ e).mdp = e.mdp := rfl
    rw [Agent.stepProba_call, e0]
    rcases a.stepProba e.mdp p d with ⟨b, err | x⟩
    · simp only
      rw [put_call hρ]
    · simp only
      rw [put_call hρ]
      rfl

theorem setAgentPosition_call (hρ : Function.Injective ρ) (e : Env K δ) (n : String) (p : Int) :
    (callEnv ρ e).setAgentPosition (ρ n) p = (callEnv ρ (e.setAgentPosition n p).1, (e.setAgentPosition n p).2) := by
  unfold setAgentPosition
  rw [lookup_call hρ]
  cases e.lookup n with
  | error => rfl
  | ok a =>
    simp only
    have e0 : (callEnv ρ e).mdp = e.mdp := rfl
    rw [Agent.setPosition_call, e0, put_call hρ]

theorem setAlgorithm_call (hρ : Function.Injective ρ) (e : Env K δ) (n : String) (st : AlgState K) :
    (callEnv ρ e).setAlgorithm (ρ n) st = (callEnv ρ (e.setAlgorithm n st).1, (e.setAlgorithm n st).2) := by
  unfold setAlgorithm
  rw [agent?_call hρ]
  cases e.agent? n with
  | none => rfl
  | some a =>
    simp only [Option.map_some]
    have h := put_call hρ e e.mdp { a with alg := st }
    exact congrArg (fun x => (x, Except.ok ())) h

theorem resetLoop_call : ∀ (l : List (Agent K δ)) (m : Mdp K),
    resetLoop (l.map (callAgent ρ)) m =
      ((resetLoop l m).1, (resetLoop l m).2.1.map (callAgent ρ), (resetLoop l m).2.2)
  | [], m => rfl
  | a :: l, m => by
    rw [List.map_cons, resetLoop, resetLoop, Agent.reset_call]
    rcases a.reset m with ⟨m', b, err | ⟨⟨⟩⟩⟩
    · rfl
    · simp only
      rw [resetLoop_call l m']
      rfl

theorem reset_call (e : Env K δ) : (callEnv ρ e).reset = (callEnv ρ e.reset.1, e.reset.2) := by
  unfold reset
  have e1 : (callEnv ρ e).agents = e.agents.map (callAgent ρ) := rfl
  have e2 : (callEnv ρ e).mdp = e.mdp := rfl
  rw [e1, e2, resetLoop_call]
  rcases resetLoop e.agents e.mdp with ⟨m, as, err | ⟨⟨⟩⟩⟩ <;> rfl

theorem allSteps_call (hρ : Function.Injective ρ) (e : Env K δ) (n : String) :
    (callEnv ρ e).allSteps (ρ n) = e.allSteps n := by
  unfold allSteps
  have h : (ρ n :: (callEnv ρ e).agentNames.filter fun x => x ≠ ρ n) =
      (n :: e.agentNames.filter fun x => x ≠ n).map ρ := by
    rw [List.map_cons]
    congr 1
    show (e.agentNames.map ρ).filter _ = _
    rw [List.filter_map]
    congr 1
    refine List.filter_congr fun x _ => ?_
    simp only [Function.comp, ne_eq, hρ.eq_iff]
  rw [h]
  generalize (n :: e.agentNames.filter fun x => x ≠ n) = l
  induction l with
  | nil => rfl
  | cons x l ih =>
    rw [List.map_cons, List.mapM_cons, List.mapM_cons, ih, agent?_call hρ]
    cases e.agent? x <;> rfl

theorem caught_call (e : Env K δ) (a : Agent K δ) : (callEnv ρ e).caught (callAgent ρ a) = e.caught a := by
  unfold caught
  show a.consumes.any (fun f => (e.agents.map (callAgent ρ)).any fun b =>
    decide ((b.featIdx : Int) = f) && decide (a.position = b.position)) = _
  simp only [List.any_map]
  rfl

theorem refitFor_call (hρ : Function.Injective ρ) (e : Env K δ) (n : String) (P Q : List Nat) (t : Nat) (refit : Bool)
    (orc : StepOracle K δ) (i : Nat) : (callEnv ρ e).refitFor (ρ n) P Q t refit orc i =
      (callEnv ρ (e.refitFor n P Q t refit orc i).1, (e.refitFor n P Q t refit orc i).2) := by
  unfold refitFor
  cases refit
  · rfl
  · simp only [if_true]
    cases stepPlan i t P 0 Q with
    | error => rfl
    | ok plan => exact fit_call hρ e n _ _

theorem stepLoop_call (hρ : Function.Injective ρ) (n : String) (P Q : List Nat) (t : Nat) (refit stop : Bool)
    (orc : Nat → StepOracle K δ) : ∀ (k i : Nat) (e : Env K δ) (acc : List Int),
    stepLoop (ρ n) P Q t refit stop orc k i (callEnv ρ e) acc =
      (callEnv ρ (stepLoop n P Q t refit stop orc k i e acc).1, (stepLoop n P Q t refit stop orc k i e acc).2)
  | 0, _, _, _ => rfl
  | k + 1, i, e, acc => by
    rw [stepLoop, stepLoop, refitFor_call hρ]
    rcases e.refitFor n P Q t refit (orc i) i with ⟨e1, err | ⟨⟨⟩⟩⟩
    · rfl
    · simp only
      rw [step_call hρ]
      rcases e1.step n (orc i).draws with ⟨e2, err | p⟩
      · rfl
      · simp only
        rw [lookup_call hρ]
        cases e2.lookup n with
        | error => rfl
        | ok a =>
          simp only
          rw [caught_call]
          split_ifs
          · rfl
          · exact stepLoop_call hρ n P Q t refit stop orc k (i + 1) e2 _

theorem stepMulti_call (hρ : Function.Injective ρ) (e : Env K δ) (n : String) (s : StepsArg) (p : Option (List Nat)) (t : Nat)
    (refit stop : Bool) (orc : Nat → StepOracle K δ) : (callEnv ρ e).stepMulti (ρ n) s p t refit stop orc =
      (callEnv ρ (e.stepMulti n s p t refit stop orc).1, (e.stepMulti n s p t refit stop orc).2) := by
  unfold stepMulti
  rw [lookup_call hρ, allSteps_call hρ]
  cases e.lookup n with
  | error => rfl
  | ok a =>
    simp only
    cases e.allSteps n with
    | error => rfl
    | ok l =>
      simp only
      have e1 : (callEnv ρ e).agents.length = e.agents.length := List.length_map _
      have e2 : (callAgent ρ a).nMoves = a.nMoves := rfl
      rw [e1, e2]
      by_cases hl : (p.getD l).length ≠ e.agents.length
      · rw [if_pos hl, if_pos hl]
      · rw [if_neg hl, if_neg hl]
        cases s.count a.nMoves with
        | error => rfl
        | ok k =>
          simp only
          by_cases hp : ¬ ∀ x ∈ p.getD l, 0 < x
          · rw [if_pos hp, if_pos hp]
          · rw [if_neg hp, if_neg hp]
            exact stepLoop_call hρ n _ _ _ _ _ _ _ _ _ _

theorem stepMultiInteractive_call (hρ : Function.Injective ρ) (e : Env K δ) (names : Option (List String))
    (nMoves : Option (List (List Nat))) : (callEnv ρ e).stepMultiInteractive (names.map fun l => l.map ρ) nMoves =
      (callEnv ρ (e.stepMultiInteractive names nMoves).1, (e.stepMultiInteractive names nMoves).2) := by
  have hn : (names.map fun l => l.map ρ).getD (callEnv ρ e).agentNames = (names.getD e.agentNames).map ρ := by
    cases names <;> rfl
  unfold stepMultiInteractive
  rcases nMoves with _ | ⟨_ | ⟨n0, ns⟩⟩
  · rfl
  · rfl
  · simp only [hn]
    have hc : (∃ n ∈ (names.getD e.agentNames).map ρ, n ∉ (callEnv ρ e).agentNames) ↔
        ∃ n ∈ names.getD e.agentNames, n ∉ e.agentNames := by
      constructor
      · rintro ⟨x, hx, h⟩
        obtain ⟨y, hy, rfl⟩ := List.mem_map.1 hx
        exact ⟨y, hy, fun hm => h (List.mem_map_of_mem hm)⟩
      · rintro ⟨y, hy, h⟩
        exact ⟨ρ y, List.mem_map_of_mem hy, fun hm => h ((List.mem_map_of_injective hρ).1 hm)⟩
    by_cases h : ∃ n ∈ names.getD e.agentNames, n ∉ e.agentNames
    · rw [if_pos h, if_pos (hc.2 h)]
    · rw [if_neg h, if_neg (fun x => h (hc.1 x))]
      cases n0 with
      | nil => rfl
      | cons => cases names.getD e.agentNames <;> rfl

theorem apply_call (hρ : Function.Injective ρ) (e : Env K δ) (op : EnvOp K δ) :
    (callEnv ρ e).apply (callOp ρ op) = callEnv ρ (e.apply op) ∧
      Spec.answer (callEnv ρ e) (callOp ρ op) = Spec.answer e op := by
  cases op with
  | fit n o d => simp only [callOp, apply, Spec.answer, fit_call hρ, and_self]
  | step n d => simp only [callOp, apply, Spec.answer, step_call hρ, and_self]
  | stepProba n p d => simp only [callOp, apply, Spec.answer, stepProba_call hρ, and_self]
  | stepMulti n s p t r c o => simp only [callOp, apply, Spec.answer, stepMulti_call hρ, and_self]
  | stepMultiInteractive n m => simp only [callOp, apply, Spec.answer, stepMultiInteractive_call hρ, and_self]
  | reset => simp only [callOp, apply, Spec.answer, reset_call, and_self]
  | setAgentPosition n p => simp only [callOp, apply, Spec.answer, setAgentPosition_call hρ, and_self]
  | setAlgorithm n st => simp only [callOp, apply, Spec.answer, setAlgorithm_call hρ, and_self]
  | setWalls w => exact ⟨rfl, rfl⟩
  | addWallXY x y => exact ⟨rfl, rfl⟩
  | resetWalls => exact ⟨rfl, rfl⟩

theorem run_call (hρ : Function.Injective ρ) : ∀ (ops : List (EnvOp K δ)) (e : Env K δ),
    (callEnv ρ e).run (ops.map (callOp ρ)) = callEnv ρ (e.run ops)
  | [], e => rfl
  | op :: ops, e => by
    show ((callEnv ρ e).apply (callOp ρ op)).run (ops.map (callOp ρ)) = _
    rw [(apply_call hρ e op).1, run_call hρ ops]
    rfl

theorem insertAgent_call (hρ : Function.Injective ρ) (l : List (Agent K δ)) (a : Agent K δ) :
    insertAgent (l.map (callAgent ρ)) (callAgent ρ a) = (insertAgent l a).map (callAgent ρ) := by
  unfold insertAgent
  have hm : (callAgent ρ a).name ∈ (l.map (callAgent ρ)).map (·.name) ↔ a.name ∈ l.map (·.name) := by
    have : (l.map (callAgent ρ)).map (·.name) = (l.map (·.name)).map ρ := by
      rw [List.map_map, List.map_map]; rfl
    rw [this]
    exact List.mem_map_of_injective hρ
  by_cases h : a.name ∈ l.map (·.name)
  · rw [if_pos h, if_pos (hm.2 h), List.map_map, List.map_map]
    refine List.map_congr_left fun b _ => ?_
    simp only [Function.comp]
    have : (callAgent ρ b).name = (callAgent ρ a).name ↔ b.name = a.name := hρ.eq_iff
    by_cases h : b.name = a.name
    · rw [if_pos h, if_pos (this.2 h)]
    · rw [if_neg h, if_neg (fun hc => h (this.1 hc))]
  · rw [if_neg h, if_neg (fun hc => h (hm.1 hc)), List.map_append]
    rfl

theorem attach_call (m : Mdp K) (n : Nat) (sp : AgentSpec K δ) (p : Int) (r : Arr1 K) :
    attach m n (callSpec ρ sp) p r = ((attach m n sp p r).1, match (attach m n sp p r).2 with
      | .error e => .error e
      | .ok a => .ok (callAgent ρ a)) := by
  unfold attach
  simp only
  rcases m.addAgentFeature p with ⟨m', err | ⟨⟨⟩⟩⟩
  · rfl
  · simp only
    have h := Agent.setPosition_call (ρ := ρ) (⟨sp.name, sp.nMoves, r, sp.consumes, fun _ => 0, sp.selector, n, n + m.nNonAgent,
      sp.alg, p, p, [p], none, none⟩ : Agent K δ) m' p
    unfold callAgent at h
    simp only [callSpec]
    rw [h]
    rcases Agent.setPosition (⟨sp.name, sp.nMoves, r, sp.consumes, fun _ => 0, sp.selector, n, n + m.nNonAgent,
      sp.alg, p, p, [p], none, none⟩ : Agent K δ) m' p with ⟨m'', b, err | ⟨⟨⟩⟩⟩ <;> rfl

theorem attachLoop_call (hρ : Function.Injective ρ) (nF nA : Nat) : ∀ (sps : List (AgentSpec K δ)) (n : Nat) (m : Mdp K)
    (as : List (Agent K δ)), attachLoop nF nA n (sps.map (callSpec ρ)) m (as.map (callAgent ρ)) =
      ((attachLoop nF nA n sps m as).1, match (attachLoop nF nA n sps m as).2 with
        | .error e => .error e
        | .ok l => .ok (l.map (callAgent ρ)))
  | [], n, m, as => rfl
  | sp :: sps, n, m, as => by
    rw [List.map_cons, attachLoop, attachLoop]
    have e0 : checkSpec nF nA (callSpec ρ sp) = checkSpec nF nA sp := rfl
    rw [e0]
    rcases checkSpec nF nA sp with err | ⟨p, r⟩
    · rfl
    · simp only
      rw [attach_call]
      rcases attach m n sp p r with ⟨m', err | a⟩
      · rfl
      · simp only
        rw [insertAgent_call hρ]
        exact attachLoop_call hρ nF nA sps (n + 1) m' _

theorem init_call (hρ : Function.Injective ρ) (m : Mdp K) (specs : List (AgentSpec K δ)) :
    Env.init m (specs.map (callSpec ρ)) = ((Env.init m specs).1, match (Env.init m specs).2 with
      | .error e => .error e
      | .ok e => .ok (callEnv ρ e)) := by
  unfold init
  simp only [List.length_map]
  generalize (if 0 < m.nAgents then m.removeAgentFeatures else (m, .ok ())) = x
  rcases x with ⟨m1, err | ⟨⟨⟩⟩⟩
  · rfl
  · simp only
    have h := attachLoop_call hρ m1.nFeatures specs.length specs 0 m1 []
    rw [List.map_nil] at h
    rw [h]
    rcases attachLoop m1.nFeatures specs.length 0 specs m1 [] with ⟨m2, err | l⟩
    · rfl
    · simp only [callEnv, List.map_map]
      rfl

/-! ## Tree searches -/

theorem agentInfos_call (hρ : Function.Injective ρ) (e : Env K δ) (a : Agent K δ) (i : Bool) (w : Arr1 K) :
    (callEnv ρ e).agentInfos (callAgent ρ a) i w = e.agentInfos a i w := by
  unfold agentInfos
  congr 1
  cases i
  · rfl
  · simp only [if_true]
    show ((e.agents.map (callAgent ρ)).filter _).map _ = _
    rw [List.filter_map, List.map_map]
    congr 1
    refine List.filter_congr fun b _ => ?_
    simp only [Function.comp, callAgent, ne_eq, hρ.eq_iff]

end Env

open Spec (callAgent callEnv)

theorem MctsObj.fit_call (hρ : Function.Injective ρ) (obj : MctsObj K) (e : Env K δ) (a : Agent K δ) (m : Mdp K) (w : PyArr K)
    (p : Int) (plan : Option (List (List Nat))) (d : Nat → Nat → Draw K) (fuel : Nat) (after : QCache K) :
    obj.fit ⟨some (callEnv ρ e, callAgent ρ a), m, w, p, plan, d, fuel, after⟩ =
      obj.fit ⟨some (e, a), m, w, p, plan, d, fuel, after⟩ := by
  unfold MctsObj.fit MctsObj.search
  simp only [Env.agentInfos_call hρ]

/-- The environment in an outcome, with the other names. -/
def callFirst {α : Type} (ρ : String → String) (x : Env K δ × α) : Env K δ × α := (callEnv ρ x.1, x.2)

theorem Env.fitSearch_call (hρ : Function.Injective ρ) (e : Env K δ) (n : String) (obj : MctsObj K) (x : SearchArgs K)
    (d : Nat → δ) : (callEnv ρ e).fitSearch (ρ n) obj x d = (e.fitSearch n obj x d).map (callFirst ρ) := by
  unfold Env.fitSearch
  rw [Env.lookup_call hρ]
  cases e.lookup n with
  | error => rfl
  | ok a =>
    simp only
    have h : obj.fit ⟨some (callEnv ρ e, callAgent ρ a), (callEnv ρ e).mdp, .of1 (callAgent ρ a).reward,
        (callAgent ρ a).position, x.plan, x.draws, x.fuel, x.after⟩ =
        obj.fit ⟨some (e, a), e.mdp, .of1 a.reward, a.position, x.plan, x.draws, x.fuel, x.after⟩ :=
      MctsObj.fit_call hρ obj e a _ _ _ _ _ _ _
    rw [h]
    rcases obj.fit ⟨some (e, a), e.mdp, .of1 a.reward, a.position, x.plan, x.draws, x.fuel, x.after⟩ with
      _ | ⟨obj', err | ⟨⟨⟩⟩⟩
    · rfl
    · have h := Env.put_call hρ e e.mdp { a with alg := obj'.st }
      exact congrArg (fun y => some (y, obj', Except.error err)) h
    · have hp : ({ callAgent ρ a with alg := obj'.st } : Agent K δ).getPolicy d = _ :=
        Agent.getPolicy_call (ρ := ρ) { a with alg := obj'.st } d
      dsimp only at hp ⊢
      rw [hp]
      dsimp only
      have h2 := Env.put_call hρ e e.mdp (({ a with alg := obj'.st } : Agent K δ).getPolicy d).1
      have e0 : (callEnv ρ e).mdp = e.mdp := rfl
      rw [e0, h2]
      rfl

theorem Env.searchLoop_call (hρ : Function.Injective ρ) (n : String) (P Q : List Nat) (t : Nat) (stop : Bool)
    (orc : Nat → SearchOracle K δ) : ∀ (k i : Nat) (e : Env K δ) (obj : MctsObj K) (acc : List Int),
    Env.searchLoop (ρ n) P Q t stop orc k i (callEnv ρ e) obj acc =
      (Env.searchLoop n P Q t stop orc k i e obj acc).map (callFirst ρ)
  | 0, _, _, _, _ => rfl
  | k + 1, i, e, obj, acc => by
    rw [Env.searchLoop, Env.searchLoop]
    cases Env.stepPlan i t P 0 Q with
    | error => rfl
    | ok plan =>
      simp only
      rw [Env.fitSearch_call hρ]
      rcases e.fitSearch n obj ⟨some plan, (orc i).search, (orc i).fuel, (orc i).after⟩ (orc i).fitDraws with
        _ | ⟨e1, obj1, err | ⟨⟨⟩⟩⟩
      · rfl
      · rfl
      · simp only [Option.map_some, callFirst]
        rw [Env.step_call hρ]
        rcases e1.step n (orc i).draws with ⟨e2, err | p⟩
        · rfl
        · simp only
          rw [Env.lookup_call hρ]
          cases e2.lookup n with
          | error => rfl
          | ok a =>
            simp only
            rw [Env.caught_call]
            by_cases hc : (e2.caught a && stop) = true
            · rw [if_pos hc, if_pos hc]; rfl
            · rw [if_neg hc, if_neg hc]
              exact Env.searchLoop_call hρ n P Q t stop orc k (i + 1) e2 obj1 _

theorem Env.stepMultiSearch_call (hρ : Function.Injective ρ) (e : Env K δ) (n : String) (obj : MctsObj K) (s : Env.StepsArg)
    (p : Option (List Nat)) (t : Nat) (stop : Bool) (orc : Nat → SearchOracle K δ) :
    (callEnv ρ e).stepMultiSearch (ρ n) obj s p t stop orc =
      (e.stepMultiSearch n obj s p t stop orc).map (callFirst ρ) := by
  unfold Env.stepMultiSearch
  rw [Env.lookup_call hρ, Env.allSteps_call hρ]
  cases e.lookup n with
  | error => rfl
  | ok a =>
    simp only
    cases e.allSteps n with
    | error => rfl
    | ok l =>
      simp only
      have e1 : (callEnv ρ e).agents.length = e.agents.length := List.length_map _
      have e2 : (callAgent ρ a).nMoves = a.nMoves := rfl
      rw [e1, e2]
      by_cases hl : (p.getD l).length ≠ e.agents.length
      · rw [if_pos hl, if_pos hl]; rfl
      · rw [if_neg hl, if_neg hl]
        cases s.count a.nMoves with
        | error => rfl
        | ok k =>
          simp only
          by_cases hp : ¬ ∀ x ∈ p.getD l, 0 < x
          · rw [if_pos hp, if_pos hp]; rfl
          · rw [if_neg hp, if_neg hp]
            exact Env.searchLoop_call hρ n _ _ _ _ _ _ _ _ _ _

/-- A whole game of tree searchers: the searches are handed over name by name. -/
theorem Env.game_call (hρ : Function.Injective ρ) (orc : Nat → Nat → SearchOracle K δ) : ∀ (ts : List SearchTurn) (j : Nat)
    (e : Env K δ) (objs objs' : String → MctsObj K), (∀ n, objs' (ρ n) = objs n) →
    match Env.game orc ts j e objs with
    | none => Env.game orc (ts.map fun t => { t with name := ρ t.name }) j (callEnv ρ e) objs' = none
    | some (x, after, rs) => ∃ after', (∀ n, after' (ρ n) = after n) ∧
        Env.game orc (ts.map fun t => { t with name := ρ t.name }) j (callEnv ρ e) objs' = some (callEnv ρ x, after', rs)
  | [], j, e, objs, objs', h => ⟨objs', h, rfl⟩
  | t :: ts, j, e, objs, objs', h => by
    rw [List.map_cons, Env.game, Env.game]
    simp only
    rw [h, Env.stepMultiSearch_call hρ]
    rcases e.stepMultiSearch t.name (objs t.name) t.nSteps t.nMovesPlan t.nTurns t.stop (orc j) with _ | ⟨e1, obj, r⟩
    · rfl
    · simp only [Option.map_some, callFirst]
      have ih := Env.game_call hρ orc ts (j + 1) e1 (fun n => if n = t.name then obj else objs n)
        (fun n => if n = ρ t.name then obj else objs' n) (fun n => by simp only [hρ.eq_iff, h])
      rcases hg : Env.game orc ts (j + 1) e1 (fun n => if n = t.name then obj else objs n) with _ | ⟨x, after, rs⟩
      · rw [hg] at ih
        simp only at ih ⊢
        rw [ih]
      · rw [hg] at ih
        obtain ⟨after', ha, hw⟩ := ih
        exact ⟨after', ha, by rw [hw]⟩

end MaMDP
