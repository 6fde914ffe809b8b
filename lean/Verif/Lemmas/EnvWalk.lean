import Verif.Lemmas.EnvSteps
import Verif.Lemmas.Optimality
import Verif.Props.EnvironmentSteps

/-! An agent that follows its fitted action values. -/

set_option linter.unusedSectionVars false

namespace MaMDP.Env

variable {K : Type} [Field K] [LinearOrder K] [IsStrictOrderedRing K]
variable {kind : GridKind} {W H : Nat} {selfT : Bool} {e : Env K Nat}

/-- Agent `n` greedily follows `q` from state `j`; `hist` is its history. -/
structure Follows (kind : GridKind) (W H : Nat) (selfT : Bool) (M : Trans K) (n : String)
    (q : Arr2 (Ext K)) (j : Nat) (hist : List Int) (e : Env K Nat) : Prop where
  ok : Ok kind W H selfT e
  trans : e.mdp.trans = M
  mask : ∀ s, s < M.nS → Spec.MaskedAt M q s
  fin : ∀ s x, s < M.nS → x < M.nA → q.get s x ≠ .pinf
  live : Spec.Live M j
  agent : ∃ a ∈ e.agents, a.name = n ∧ a.selector = maxSelector ∧ a.alg.fitComplete = true ∧
    a.alg.qValues = some q ∧ pyIdx M.nS a.position = some j ∧ a.history = hist

/-- Looking up, policy, action and move all succeed. -/
theorem Follows.step {M : Trans K} {n : String} {q : Arr2 (Ext K)} {j : Nat} {hist : List Int}
    (h : Follows kind W H selfT M n q j hist e) (d : Nat → Nat) :
    ∃ x t, x < M.nA ∧ t < M.nS ∧ M.p j x t = 1 ∧ (∀ b, b < M.nA → Spec.NoBetter (q.get j b) (q.get j x)) ∧
      Follows kind W H selfT M n q t (hist ++ [(t : Int)]) (e.step n d).1 := by
  obtain ⟨hok, rfl, hmask, hfin, hlive, a, ha, hn, hsel, hfit, hq, hj, hhist⟩ := h
  have hj' : pyIdx e.mdp.nStates a.position = some j := hj
  have hjn : j < e.mdp.nStates := pyIdx_lt hj'
  obtain ⟨m1, m2, m3⟩ := hmask j hjn
  have m1' : q.d0 = e.mdp.nStates := m1
  have m2' : q.d1 = e.mdp.nActions := m2
  obtain ⟨b, hb, hpb⟩ := hlive
  have hub : ¬ Spec.Unusable (q.get j b) := fun hu => (m3 b hb).1 hu hpb
  have hne : ∃ s, s < q.d0 ∧ ¬ Spec.NoEstimate q s :=
    ⟨j, by omega, fun hc => hub (by rw [hc b (by rw [m2]; exact hb)]; trivial)⟩
  obtain ⟨P, hP, -⟩ := (C23_max_pi_p q).2 hne
  obtain ⟨p, hp, hp0, hpall⟩ := C24_max_pi q d hne
  have hbfin : ∃ x, q.get j b = .fin x := by
    have := hfin j b hjn hb
    revert this hub
    cases q.get j b <;> simp [Spec.Unusable]
  obtain ⟨y, hy⟩ := hbfin
  have hest : Spec.HasEstimate q j :=
    ⟨⟨b, by rw [m2]; exact hb, (not_unusable.1 hub).1⟩, fun ⟨⟨c, hc, hc'⟩, _⟩ =>
      hfin j c hjn (by rw [← m2]; exact hc) hc'⟩
  obtain ⟨x, hpx, hbest, hxu⟩ := (hpall j (by omega)).2 hest
  have hxu' := hxu ⟨b, y, by rw [m2]; exact hb, hy⟩
  have hxA : x < e.mdp.trans.nA := by rw [← m2]; exact hbest.1
  have hpos : Spec.Possible e.mdp.trans j x := by
    by_contra hc
    exact (not_unusable.2 hxu') ((m3 x hxA).2 hc)
  obtain ⟨t, ht, hpt⟩ := hpos
  have hone : e.mdp.trans.p j x t = 1 :=
    ((C27_grid kind W H selfT e.mdp hok.reach).2.1 j x t hjn hxA ht).resolve_left (ne_of_gt hpt)
  have h15 := C15_next_state kind W H selfT e.mdp hok.reach j x t hjn hxA ht hpt
  have hnext : e.mdp.getNextState a.position (p.get j) = .ok t := by
    have hsame : e.mdp.getNextState a.position (x : Int) = e.mdp.getNextState (j : Int) (x : Int) := by
      unfold Mdp.getNextState
      rw [hj']
      simp only [pyIdx_nat, if_pos hjn]
    rw [hpx, hsame, h15]
  have hgp : a.getPolicy d = ({ a with piP := some P, pi := some p }, .ok ()) := by
    unfold Agent.getPolicy
    rw [hq]
    simp only
    rw [hsel, hP]
    simp only
    rw [hp]
  have hidx : pyIdx p.d0 a.position = some j := by rw [hp0, m1']; exact hj'
  obtain ⟨s1, s2, s3⟩ := successor_facts hok hjn ⟨ht, x, hxA, hpt⟩
  refine ⟨x, t, hxA, ht, hone, fun c hc => hbest.2 c (by rw [m2]; exact hc), ?_⟩
  have hmem : n ∈ e.agentNames := (hok.names n).2 (List.mem_map.2 ⟨a, ha, hn⟩)
  have hstepok : ∀ a' err, a.step e.mdp d ≠ (e.mdp, a', .error err) := by
    intro a' err hc
    unfold Agent.step at hc
    rw [if_neg (by simp [hfit]), hgp] at hc
    simp only [hidx] at hc
    rw [if_neg (by rw [hpx]; omega), hnext] at hc
    obtain ⟨j', hseat, -⟩ := hok.agentSeated ha
    have ht' : pyIdx e.mdp.nStates (t : Int) = some t := by
      have : t < e.mdp.nStates := ht
      simp [this]
    simp only at hc
    rw [Agent.setPosition_ok (a := { a with piP := some P, pi := some p }) hseat.le hseat.idx hseat.d1 ht'] at hc
    simp only at hc
    rw [Mdp.update_ok (m := e.mdp.setRow (e.mdp.agentRow a.idx) t) (j := t) hseat.le hseat.idx
      (by have := hseat.d1; simp only [Mdp.setRow, Mdp.withFeat]; rw [this]; exact ht')] at hc
    simp at hc
  have key : ∀ {a1 : Agent K Nat} {i u : Nat}, Moved e a d a1 i u → u = t ∧ a1.history = a.history ++ [(t : Int)] ∧
      a1.position = t ∧ a1.alg = a.alg ∧ a1.selector = a.selector ∧ a1.name = a.name := by
    intro a1 i u hm
    obtain ⟨q', P', p', s', f1, f2, f3, f4, f5, f6, f7, -⟩ := hm.ex
    rw [hsel, ← Option.some.inj (hq.symm.trans f2), hp] at f4
    cases f4
    rw [hidx] at f5
    cases f5
    rw [hnext] at f7
    cases f7
    have h := hm.name
    exact ⟨rfl, h.2.2.2.2.2.2.1, h.2.2.2.1, h.2.2.2.2.2.2.2.1, h.2.2.2.2.2.2.2.2.1, h.1⟩
  have htS : t < e.mdp.nStates := ht
  have ht' : pyIdx e.mdp.trans.nS (t : Int) = some t := by
    change pyIdx e.mdp.nStates (t : Int) = some t
    simp [htS]
  rcases step_cases hok n d with ⟨h1, -⟩ | ⟨a0, a', err, h1, h2, h3, h4, h5, -, h6⟩ |
    ⟨a0, a1, i, u, g, c, h2, hm, -, -, -, h6, hok'⟩ | ⟨a0, a1, i, u, g, h2, hm, -, -, h6, hok'⟩
  · exact absurd hmem h1
  · exfalso
    have := eq_of_name hok.nodup h1 ha (h2.trans hn.symm)
    subst this
    obtain ⟨j', hseat, -⟩ := hok.agentSeated h1
    rcases Agent.step_cases hseat hok.nStates_pos d with ⟨a2, err2, e1, -⟩ | ⟨q', P', p', s', t', -, -, -, -, -, -, -, -, e1⟩
    · exact hstepok _ _ e1
    · have h7 := h6
      unfold Env.step at h7
      rw [(lookup_ok hok).2 ⟨h1, h2⟩] at h7
      simp only [e1] at h7
      have hcons : ∀ (b : Agent K Nat) (m : Mdp K), (b.consume m).2.1.history = b.history ∧
          (b.consume m).2.1.name = b.name := by
        intro b m
        unfold Agent.consume
        split_ifs
        · exact ⟨rfl, rfl⟩
        · split <;> exact ⟨rfl, rfl⟩
      set b : Agent K Nat :=
        { a0 with piP := some P', pi := some p', position := t', history := a0.history ++ [(t' : Int)] } with hb
      set m2 := e.mdp.setRow (e.mdp.agentRow a0.idx) t'
      have h8 := hcons b m2
      rcases hcc : b.consume m2 with ⟨m3', b', r⟩
      rw [hcc] at h7 h8
      cases r with
      | ok _ => exact absurd (congrArg Prod.snd h7) (by simp)
      | error err' =>
        have h9 : (e.put m3' b').agents = (e.put e.mdp a').agents := by
          have := congrArg (fun z => z.1.agents) h7
          exact this
        have h10 : b' ∈ (e.put m3' b').agents := (mem_put (by
          rw [h8.2]; exact List.mem_map_of_mem (f := (·.name)) h1)).2 (.inl rfl)
        rw [h9] at h10
        have h11 : b'.history = a0.history ++ [(t' : Int)] := h8.1
        rcases (mem_put (by rw [h3.name]; exact List.mem_map_of_mem (f := (·.name)) h1)).1 h10 with rfl | ⟨-, h12⟩
        · rw [h4] at h11
          have := congrArg List.length h11
          simp at this
        · exact h12 (by rw [h8.2, h3.name])
  · have := eq_of_name hok.nodup hm.mem ha (h2.trans hn.symm)
    subst this
    obtain ⟨rfl, k1, k2, k3, k4, k5⟩ := key hm
    refine ⟨hok', by rw [h6]; rfl, hmask, hfin, s3, ?_⟩
    rw [h6]
    refine ⟨{ a1 with consumed := fun f => a0.consumed f + c f }, (mem_put (m := e.mdp.withFeat g) (by
      change a1.name ∈ _; rw [k5]; exact List.mem_map_of_mem (f := (·.name)) ha)).2 (.inl rfl),
      k5.trans hn, k4.trans hsel, by simp only [k3]; exact hfit, by simp only [k3]; exact hq,
      by simp only [k2]; exact ht', by simp only [k1, hhist]⟩
  · have := eq_of_name hok.nodup hm.mem ha (h2.trans hn.symm)
    subst this
    obtain ⟨rfl, k1, k2, k3, k4, k5⟩ := key hm
    refine ⟨hok', by rw [h6]; rfl, hmask, hfin, s3, ?_⟩
    rw [h6]
    exact ⟨a1, (mem_put (m := e.mdp.withFeat g) (by
      rw [k5]; exact List.mem_map_of_mem (f := (·.name)) ha)).2 (.inl rfl),
      k5.trans hn, k4.trans hsel, by rw [k3]; exact hfit, by rw [k3]; exact hq,
      by rw [k2]; exact ht', by rw [k1, hhist]⟩

/-- Repeated steps make a greedy walk. -/
theorem Follows.walk {M : Trans K} {n : String} {q : Arr2 (Ext K)} (draws : Nat → Nat → Nat) :
    ∀ (k i : Nat) (e : Env K Nat) (j : Nat) (hist : List Int), Follows kind W H selfT M n q j hist e →
      ∃ l : List (Nat × Nat), l.length = k ∧ Spec.Plays M j l ∧ Spec.Greedy M.nA q.get j l ∧
        ∃ j', (Follows kind W H selfT M n q j' (hist ++ l.map fun x => (x.2 : Int))
          (e.run ((List.range k).map fun m => .step n (draws (i + m))))) ∧ (j :: l.map (·.2)).getLast? = some j' := by
  intro k
  induction k with
  | zero => intro i e j hist h; exact ⟨[], rfl, trivial, trivial, j, by
      simpa [Env.run] using h, rfl⟩
  | succ k ih =>
    intro i e j hist h
    obtain ⟨x, t, h1, h2, h3, h4, h5⟩ := h.step (draws i)
    obtain ⟨l, l1, l2, l3, j', l4, l5⟩ := ih (i + 1) _ t _ h5
    refine ⟨(x, t) :: l, by simp [l1], ⟨h1, h2, h3, l2⟩, ⟨h4, l3⟩, j', ?_, by
      simpa only [List.map_cons, List.getLast?_cons_cons] using l5⟩
    rw [List.range_succ_eq_map]
    simp only [List.map_cons, List.map_map]
    have e1 : hist ++ (t : Int) :: List.map (fun x => (x.2 : Int)) l =
        (hist ++ [(t : Int)]) ++ List.map (fun x => (x.2 : Int)) l := by simp
    rw [e1]
    have e2 : (List.range k).map ((fun m => EnvOp.step (K := K) n (draws (i + m))) ∘ Nat.succ) =
        (List.range k).map fun m => EnvOp.step n (draws (i + 1 + m)) := by
      apply List.map_congr_left
      intro m _
      simp only [Function.comp, Nat.succ_eq_add_one]
      rw [show i + (m + 1) = i + 1 + m by omega]
    rw [e2]
    exact l4

end MaMDP.Env
