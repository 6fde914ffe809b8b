import Verif.Lemmas.Reported
import Verif.Props.EnvironmentSteps
import Verif.Props.ActionSelection

/-! # C133: the policy an environment reports for an agent -/

set_option linter.unusedSectionVars false

namespace MaMDP

variable {K : Type} [Field K] [LinearOrder K] [IsStrictOrderedRing K] {δ : Type}
variable {kind : GridKind} {W H : Nat} {selfT : Bool} {m m' : Mdp K}

/-- The calls up to and after a successful fit, and what is then shown. -/
theorem shows_after {specs : List (AgentSpec K δ)} {e0 : Env K δ}
    (hm : Mdp.GridReach kind W H selfT m) (hinit : Env.init m specs = (m', .ok e0))
    (before : List (EnvOp K δ)) (n : String) (out : FitOut K) (d : Nat → δ)
    (hfit : ((e0.run before).fit n out d).2 = .ok ()) (after : List (EnvOp K δ))
    (hafter : ∀ op ∈ after, ¬ Spec.Fits n op ∧ op ≠ .reset) (e : Env K δ)
    (he : e = e0.run (before ++ .fit n out d :: after)) :
    Env.Ok kind W H selfT e ∧ ∃ q, q.d0 = W * H ∧ Env.Shows n q e := by
  obtain ⟨h1, -⟩ := Env.started hm hinit before
  obtain ⟨h2, -⟩ := Env.started hm hinit (before ++ .fit n out d :: after)
  obtain ⟨q, hq0, -, hs⟩ := Env.shows_fit h1 hfit
  refine ⟨by rw [he]; exact h2, q, hq0.trans h1.reach.ok.nStates, ?_⟩
  rw [he, Env.run_append]
  exact Env.shows_run after _ (h1.fit n out d) hs hafter

/-- After a successful fit, and until the agent is fitted again or the environment reset, the reported
probabilities and actions are those the agent's selection rule gives for the reported action values. -/
theorem C133_shown {specs : List (AgentSpec K δ)} {e0 : Env K δ}
    (hm : Mdp.GridReach kind W H selfT m) (hinit : Env.init m specs = (m', .ok e0))
    (before : List (EnvOp K δ)) (n : String) (out : FitOut K) (d : Nat → δ)
    (hfit : ((e0.run before).fit n out d).2 = .ok ()) (after : List (EnvOp K δ))
    (hafter : ∀ op ∈ after, ¬ Spec.Fits n op ∧ op ≠ .reset) (e : Env K δ)
    (he : e = e0.run (before ++ .fit n out d :: after)) :
    ∃ q P p, e.getQValues n = .ok (some q) ∧ e.getPiP n = .ok (some P) ∧ e.getPi n = .ok (some p) ∧
      q.d0 = W * H ∧ p.d0 = W * H ∧
      ∃ a ∈ e.agents, a.name = n ∧ a.selector.piP q = .ok P ∧ ∃ draws, a.selector.pi q draws = .ok p := by
  obtain ⟨hok, q, hq0, a, ha, hf, hq, P, p, d', hP, hP', hp, hp'⟩ :=
    shows_after hm hinit before n out d hfit after hafter e he
  obtain ⟨hmem, hn⟩ := Env.agent?_mem ha
  have hl := (Env.lookup_ok hok).2 ⟨hmem, hn⟩
  have hp0 : p.d0 = q.d0 := by
    unfold Selector.pi at hp
    split at hp
    · cases hp
    · split at hp
      · cases hp
      · cases hp; rfl
  refine ⟨q, P, p, ?_, ?_, ?_, hq0, hp0.trans hq0, a, hmem, hn, hP, d', hp⟩
  · unfold Env.getQValues; rw [hl]; simp only; rw [hq]
  · unfold Env.getPiP; rw [hl]; simp only; rw [hf, hP']; rfl
  · unfold Env.getPi; rw [hl]; simp only; rw [hf, hp']; rfl

/-- For a greedy agent: the reported action is a best one by the reported values, and a reported
probability is positive exactly for the best actions. -/
theorem C133_greedy {specs : List (AgentSpec K Nat)} {e0 : Env K Nat}
    (hm : Mdp.GridReach kind W H selfT m) (hinit : Env.init m specs = (m', .ok e0))
    (before : List (EnvOp K Nat)) (n : String) (out : FitOut K) (d : Nat → Nat)
    (hfit : ((e0.run before).fit n out d).2 = .ok ()) (after : List (EnvOp K Nat))
    (hafter : ∀ op ∈ after, ¬ Spec.Fits n op ∧ op ≠ .reset) (e : Env K Nat)
    (he : e = e0.run (before ++ .fit n out d :: after))
    (hsel : ∀ a ∈ e.agents, a.name = n → a.selector = maxSelector) :
    ∃ q P p, e.getQValues n = .ok (some q) ∧ e.getPiP n = .ok (some P) ∧ e.getPi n = .ok (some p) ∧
      ∀ s, s < W * H → (Spec.NoEstimate q s → p.get s = -1) ∧
        (Spec.HasEstimate q s → (∃ x : Nat, p.get s = x ∧ Spec.IsBest q s x) ∧
          ∀ x, x < q.d1 → ∃ y, P.get s x = .fin y ∧ 0 ≤ y ∧ (0 < y ↔ Spec.IsBest q s x)) := by
  obtain ⟨q, P, p, h1, h2, h3, hq0, -, a, ha, hn, hP, draws, hp⟩ :=
    C133_shown hm hinit before n out d hfit after hafter e he
  rw [hsel a ha hn] at hP hp
  refine ⟨q, P, p, h1, h2, h3, ?_⟩
  have hne : ∃ s, s < q.d0 ∧ ¬ Spec.NoEstimate q s := by
    by_contra hc
    push Not at hc
    rw [C24_max_pi_error q draws hc] at hp
    cases hp
  obtain ⟨p', hp', -, k1⟩ := C24_max_pi q draws hne
  obtain ⟨P', hP', -, -, k2⟩ := (C23_max_pi_p q).2 hne
  rw [hp] at hp'; cases hp'
  rw [hP] at hP'; cases hP'
  intro s hs
  rw [← hq0] at hs
  refine ⟨(k1 s hs).1, fun hE => ⟨?_, fun x hx => ?_⟩⟩
  · obtain ⟨x, hx, hb, -⟩ := (k1 s hs).2 hE
    exact ⟨x, hx, hb⟩
  · obtain ⟨y, hy, -, hpos, -, hzero⟩ := (k2 s hs).2 hE
    refine ⟨y x, hy x hx, ?_, fun h => ?_, fun h => hpos x h⟩
    · by_cases hb : Spec.IsBest q s x
      · exact (hpos x hb).le
      · exact (hzero x hx hb).ge
    · by_contra hb
      rw [hzero x hx hb] at h
      exact lt_irrefl _ h

/-- The actions reported after a successful step explain it: the agent is where the reported action of the
state it stood on leads. -/
theorem C133_moved {specs : List (AgentSpec K δ)} {e0 : Env K δ}
    (hm : Mdp.GridReach kind W H selfT m) (hinit : Env.init m specs = (m', .ok e0))
    (ops : List (EnvOp K δ)) (e : Env K δ) (he : e = e0.run ops) (a : Agent K δ) (ha : a ∈ e.agents)
    (draws : Nat → δ) (t : Int) (hstep : (e.step a.name draws).2 = .ok t) :
    ∃ p, (e.step a.name draws).1.getPi a.name = .ok (some p) ∧
      ∃ t' : Nat, e.mdp.getNextState a.position (p.get (Spec.stateOf p.d0 a.position)) = .ok t' ∧ t = t' := by
  obtain ⟨hok, -⟩ := Env.started hm hinit ops
  rw [← he] at hok
  rcases Env.step_cases hok a.name draws with ⟨-, h1⟩ | ⟨b, b', err, h1, -, h2, -, -, -, h3⟩ |
    ⟨b, a1, j, t', g, c, hbn, hmv, -, hg, hc, h1, h2⟩ | ⟨b, a1, j, t', g, -, hmv, hbad, hg, h1, -⟩
  · rw [h1] at hstep; cases hstep
  · rw [h3] at hstep; cases hstep
  · have hba : b = a := Env.eq_of_name hok.nodup hmv.mem ha hbn
    subst hba
    obtain ⟨q, P, p, s, hf, hq, hP, hp, hs, hp0, hnx, rfl⟩ := hmv.ex
    rw [h1] at hstep h2 ⊢
    have ht : t = (t' : Int) := by cases hstep; rfl
    refine ⟨p, ?_, t', ?_, ht⟩
    · unfold Env.getPi
      rw [(Env.lookup_ok h2).2 ⟨(Env.mem_put (m := e.mdp.withFeat g) (a := { ({ b with
        piP := some P, pi := some p, position := (t' : Int), history := b.history ++ [(t' : Int)] } : Agent K δ) with
        consumed := fun f => b.consumed f + c f }) (List.mem_map_of_mem (f := (·.name)) ha)).2 (.inl rfl), rfl⟩]
      simp only
      rw [hf]
      rfl
    · rw [← Env.stateOf_eq hs]; exact hnx
  · rw [h1] at hstep; cases hstep

/-- What is true of the claim that the reported action is the one taken next: it is for a greedy agent
where only one action is best. -/
theorem C133_partial {specs : List (AgentSpec K Nat)} {e0 : Env K Nat}
    (hm : Mdp.GridReach kind W H selfT m) (hinit : Env.init m specs = (m', .ok e0))
    (before : List (EnvOp K Nat)) (n : String) (out : FitOut K) (d : Nat → Nat)
    (hfit : ((e0.run before).fit n out d).2 = .ok ()) (after : List (EnvOp K Nat))
    (hafter : ∀ op ∈ after, ¬ Spec.Fits n op ∧ op ≠ .reset) (e : Env K Nat)
    (he : e = e0.run (before ++ .fit n out d :: after))
    (a : Agent K Nat) (ha : a ∈ e.agents) (hn : a.name = n) (hsel : a.selector = maxSelector)
    (q : Arr2 (Ext K)) (hq : e.getQValues n = .ok (some q)) (s : Nat) (hs : s = Spec.stateOf (W * H) a.position)
    (hE : Spec.HasEstimate q s) (hone : ∀ x y, Spec.IsBest q s x → Spec.IsBest q s y → x = y) :
    ∃ p, e.getPi n = .ok (some p) ∧ ∀ draws t, e.mdp.getNextState a.position (p.get s) = .ok t →
      ∃ a' ∈ (e.step n draws).1.agents, a'.name = n ∧ a'.position = (t : Int) := by
  obtain ⟨hok, q', hq0, b, hb, hf, hq', P, p, d', hP, hP', hp, hp'⟩ :=
    shows_after hm hinit before n out d hfit after hafter e he
  obtain ⟨hmem, hbn⟩ := Env.agent?_mem hb
  have hba : b = a := Env.eq_of_name hok.nodup hmem ha (hbn.trans hn.symm)
  subst hba
  have hl := (Env.lookup_ok hok).2 ⟨hmem, hbn⟩
  have hqq : q' = q := by
    unfold Env.getQValues at hq
    rw [hl] at hq
    simp only at hq
    rw [hq'] at hq
    cases hq
    rfl
  subst hqq
  obtain ⟨j, hj, -⟩ := hok.pos b ha
  have hN : e.mdp.nStates = W * H := hok.reach.ok.nStates
  rw [hN] at hj
  have hsj : j = s := by rw [hs]; exact Env.stateOf_eq hj
  have hlt : s < q'.d0 := by rw [hq0, ← hsj]; exact pyIdx_lt hj
  have hne : ∃ s, s < q'.d0 ∧ ¬ Spec.NoEstimate q' s := by
    obtain ⟨x, hx, hx'⟩ := hE.1
    exact ⟨s, hlt, fun hc => hx' (hc x hx)⟩
  refine ⟨p, by unfold Env.getPi; rw [hl]; simp only; rw [hf, hp']; rfl, fun draws t ht => ?_⟩
  rw [hsel] at hP hp
  obtain ⟨p1, hp1, -, k1⟩ := C24_max_pi q' d' hne
  rw [hp] at hp1; cases hp1
  obtain ⟨p2, hp2, hp20, k2⟩ := C24_max_pi q' draws hne
  obtain ⟨x1, hx1, hb1, -⟩ := (k1 s hlt).2 hE
  obtain ⟨x2, hx2, hb2, -⟩ := (k2 s hlt).2 hE
  have hsame : p2.get s = p.get s := by rw [hx1, hx2, hone x1 x2 hb1 hb2]
  obtain ⟨⟨a', ha', e1, e2, -⟩, -⟩ := Env.step_moves hok ha hf hq' (by rw [hsel]; exact hP) (by rw [hsel]; exact hp2)
    (j := s) (by rw [hp20, hq0, ← hsj]; exact hj) (by rw [hx2]; omega) (by rw [hsame]; exact ht)
  rw [hbn] at ha' e1
  exact ⟨a', ha', e1, e2⟩

/-- A fox in the middle of the corridor, indifferent between the two ways. -/
def exUndecided : List (AgentSpec Rat Nat) :=
  [⟨"fox", 2, maxSelector, .fresh, some 1, .of1 ⟨2, fun _ => 0⟩, []⟩]

/-- Action values that are the same for both ways along the corridor. -/
def exBothWays : FitOut Rat := fun _ => .ok (.of1 ⟨3, fun _ => .fin 0⟩,
  .of2 ⟨3, 4, fun s a => if a = 0 ∧ s < 2 ∨ a = 2 ∧ 0 < s then .fin 0 else .ninf⟩)

/-- **C133 is false of the code**: with two best actions the environment reports the action leading to state 2
and the agent's next step leads to state 0; and after a reset the fitted agent's policy is reported as `None`. -/
theorem C133_refuted :
    ∃ (m m' : Mdp Rat) (e0 e : Env Rat Nat) (p : Arr1 Int), Mdp.GridReach .square 1 3 false m ∧
      Env.init m exUndecided = (m', .ok e0) ∧ e0.fit "fox" exBothWays (fun _ => 0) = (e, .ok ()) ∧
      e.getPi "fox" = .ok (some p) ∧ e.mdp.getNextState 1 (p.get 1) = .ok 2 ∧
      (∃ draws, (e.step "fox" draws).2 = .ok 0) ∧
      e.reset.1.getPi "fox" = .ok none ∧ e.reset.1.getPiP "fox" = .ok none ∧
      ∃ draws t, (e.reset.1.step "fox" draws).2 = .ok t := by
  obtain ⟨m, m', e0, hr, hi, h⟩ := exStart' exMdp exUndecided (fun e0 =>
    match e0.fit "fox" exBothWays (fun _ => 0) with
    | (_, .error _) => false
    | (e, .ok ()) => (match e.getPi "fox" with
      | .ok (some p) => decide (e.mdp.getNextState 1 (p.get 1) = .ok 2)
      | _ => false) && decide ((e.step "fox" fun _ => 1).2 = .ok 0) &&
      (match e.reset.1.getPi "fox" with | .ok none => true | _ => false) &&
      (match e.reset.1.getPiP "fox" with | .ok none => true | _ => false) &&
      decide ((e.reset.1.step "fox" fun _ => 1).2 = .ok 0)) (by decide +kernel) (fun m h => .init h)
  simp only at h
  cases hf : e0.fit "fox" exBothWays (fun _ => 0) with
  | mk e r =>
    rw [hf] at h
    cases r with
    | error err => cases h
    | ok u =>
      simp only [Bool.and_eq_true, decide_eq_true_eq] at h
      obtain ⟨⟨⟨⟨h1, h2⟩, h3⟩, h4⟩, h5⟩ := h
      cases hp : e.getPi "fox" with
      | error err => rw [hp] at h1; cases h1
      | ok o =>
        cases o with
        | none => rw [hp] at h1; cases h1
        | some p =>
          rw [hp] at h1
          simp only [decide_eq_true_eq] at h1
          refine ⟨m, m', e0, e, p, hr, hi, hf, hp, h1, ⟨_, h2⟩, ?_, ?_, _, _, h5⟩
          · split at h3
            · assumption
            · cases h3
          · split at h4
            · assumption
            · cases h4

/-- The fox of the corridor is fitted, steps, and then the hen is moved: the hypotheses of C133_shown, C133_greedy,
C133_moved and (with one best action in the fox's state) C133_partial hold. -/
example : ∃ (m m' : Mdp Rat) (e0 : Env Rat Nat), Mdp.GridReach .square 1 3 false m ∧
    Env.init m exSpecs = (m', .ok e0) ∧ (e0.fit "fox" exFit fun _ => 0).2 = .ok () ∧
    (∀ op ∈ [EnvOp.step (K := Rat) "fox" (fun _ => 0), .setAgentPosition "hen" 0], ¬ Spec.Fits "fox" op ∧ op ≠ .reset) ∧
    (((e0.fit "fox" exFit fun _ => 0).1.step "fox" fun _ => 0).2 = .ok 1) ∧
    (∃ q, (e0.fit "fox" exFit fun _ => 0).1.getQValues "fox" = .ok (some q) ∧ q.get 0 0 = .fin 1 ∧
      q.get 0 1 = .ninf ∧ q.get 0 2 = .ninf ∧ q.get 0 3 = .ninf) := by
  obtain ⟨m, m', e0, hr, hi, h⟩ := exStart (fun e0 => decide ((e0.fit "fox" exFit fun _ => 0).2 = .ok ()) &&
    decide (((e0.fit "fox" exFit fun _ => 0).1.step "fox" fun _ => 0).2 = .ok 1) &&
    (match (e0.fit "fox" exFit fun _ => 0).1.getQValues "fox" with
    | .ok (some q) => decide (q.get 0 0 = .fin 1 ∧ q.get 0 1 = .ninf ∧ q.get 0 2 = .ninf ∧ q.get 0 3 = .ninf)
    | _ => false)) (by decide +kernel)
  simp only [Bool.and_eq_true, decide_eq_true_eq] at h
  obtain ⟨⟨h1, h2⟩, h3⟩ := h
  refine ⟨m, m', e0, hr, hi, h1, ?_, h2, ?_⟩
  · intro op hop
    simp only [List.mem_cons, List.not_mem_nil, or_false] at hop
    rcases hop with rfl | rfl
    · exact ⟨id, nofun⟩
    · exact ⟨id, nofun⟩
  · split at h3
    · rename_i q hq
      exact ⟨q, hq, by simpa using h3⟩
    · cases h3

end MaMDP
