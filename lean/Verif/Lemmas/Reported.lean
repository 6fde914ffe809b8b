import Verif.Lemmas.EnvHistory
import Verif.Lemmas.EnvMove

/-! # What the environment reports about an agent's policy -/

set_option linter.unusedSectionVars false

namespace MaMDP

variable {K : Type} [Field K] [LinearOrder K] [IsStrictOrderedRing K] {δ : Type}
variable {kind : GridKind} {W H : Nat} {selfT : Bool} {e : Env K δ}

/-- The stored probabilities and actions come from the stored action values. -/
structure Agent.Shows (q : Arr2 (Ext K)) (a : Agent K δ) : Prop where
  fitted : a.alg.fitComplete = true
  table : a.alg.qValues = some q
  ex : ∃ P p d, a.selector.piP q = .ok P ∧ a.piP = some P ∧ a.selector.pi q d = .ok p ∧ a.pi = some p

namespace Agent

variable {q : Arr2 (Ext K)} {a : Agent K δ}

theorem Shows.of_eq (h : a.Shows q) {b : Agent K δ} (h1 : b.alg = a.alg) (h2 : b.selector = a.selector)
    (h3 : b.pi = a.pi) (h4 : b.piP = a.piP) : b.Shows q := by
  refine ⟨by rw [h1]; exact h.fitted, by rw [h1]; exact h.table, ?_⟩
  rw [h2, h3, h4]
  exact h.ex

theorem Shows.getPolicy (h : a.Shows q) (d : Nat → δ) : (a.getPolicy d).1.Shows q := by
  obtain ⟨hf, hq, P, p, d0, hP, hP', hp, hp'⟩ := h
  unfold Agent.getPolicy
  rw [hq]
  simp only
  rw [hP]
  simp only
  cases hpi : a.selector.pi q d with
  | error err => exact ⟨hf, hq, P, p, d0, hP, rfl, hp, hp'⟩
  | ok p' => exact ⟨hf, hq, P, p', d, hP, rfl, hpi, rfl⟩

theorem setPosition_policy (a : Agent K δ) (m : Mdp K) (p : Int) :
    (a.setPosition m p).2.1.alg = a.alg ∧ (a.setPosition m p).2.1.selector = a.selector ∧
    (a.setPosition m p).2.1.pi = a.pi ∧ (a.setPosition m p).2.1.piP = a.piP ∧
    (a.setPosition m p).2.1.name = a.name := by
  unfold setPosition
  split_ifs
  · exact ⟨rfl, rfl, rfl, rfl, rfl⟩
  · split <;> exact ⟨rfl, rfl, rfl, rfl, rfl⟩

theorem Shows.setPosition (h : a.Shows q) (m : Mdp K) (p : Int) : (a.setPosition m p).2.1.Shows q :=
  have h' := setPosition_policy a m p
  h.of_eq h'.1 h'.2.1 h'.2.2.1 h'.2.2.2.1

theorem consume_policy (a : Agent K δ) (m : Mdp K) :
    (a.consume m).2.1.alg = a.alg ∧ (a.consume m).2.1.selector = a.selector ∧
    (a.consume m).2.1.pi = a.pi ∧ (a.consume m).2.1.piP = a.piP ∧ (a.consume m).2.1.name = a.name := by
  unfold consume
  split_ifs
  · exact ⟨rfl, rfl, rfl, rfl, rfl⟩
  · split <;> exact ⟨rfl, rfl, rfl, rfl, rfl⟩

theorem Shows.step (h : a.Shows q) (m : Mdp K) (d : Nat → δ) :
    (a.step m d).2.1.Shows q ∧ (a.step m d).2.1.name = a.name := by
  have hg := h.getPolicy d
  have hn := (getPolicy_same a d).1.name
  unfold Agent.step
  split_ifs
  · exact ⟨h, rfl⟩
  · cases hgp : a.getPolicy d with
    | mk a1 r =>
      rw [hgp] at hg hn
      cases r with
      | error err => exact ⟨hg, hn⟩
      | ok u =>
        simp only
        cases hp : a1.pi with
        | none => exact ⟨hg, hn⟩
        | some p =>
          simp only
          cases hi : pyIdx p.d0 a1.position with
          | none => exact ⟨hg, hn⟩
          | some s =>
            simp only
            split_ifs
            · exact ⟨hg, hn⟩
            · cases hnx : m.getNextState a1.position (p.get s) with
              | error err => exact ⟨hg, hn⟩
              | ok t =>
                simp only
                have hs := hg.setPosition m t
                have hns := (setPosition_policy a1 m t).2.2.2.2
                cases hsp : a1.setPosition m t with
                | mk m2 r2 =>
                  obtain ⟨a2, r3⟩ := r2
                  rw [hsp] at hs hns
                  cases r3 with
                  | error err => exact ⟨hs, hns.trans hn⟩
                  | ok u =>
                    simp only
                    have hb : Shows q { a2 with history := a2.history ++ [a2.position] } :=
                      hs.of_eq rfl rfl rfl rfl
                    split <;> exact ⟨hb, hns.trans hn⟩

theorem Shows.stepProba (h : a.Shows q) (m : Mdp K) (p : Option (Arr1 K)) (d : Nat → δ) :
    (a.stepProba m p d).1.Shows q := by
  have hp := h.getPolicy d
  unfold Agent.stepProba
  split
  · exact h
  · split_ifs
    · exact h
    · exact h
    · split
      · rename_i heq; rw [heq] at hp; exact hp
      · rename_i heq; rw [heq] at hp
        split
        · exact hp
        · simp only; split <;> exact hp

/-- After a fit that succeeds. -/
theorem Shows.fit {m : Mdp K} {o : FitOut K} {d : Nat → δ} (h : (a.fit m o d).2 = .ok ()) :
    ∃ q, q.d0 = m.nStates ∧ q.d1 = m.nActions ∧ (a.fit m o d).1.Shows q := by
  unfold Agent.fit at h ⊢
  cases hf : algFit o m.nFeatures m.nStates m.nActions (.of1 a.reward) a.alg with
  | mk st r =>
    rw [hf] at h
    cases r with
    | error err => cases h
    | ok u =>
      simp only at h ⊢
      cases hg : Agent.getPolicy { a with alg := st } d with
      | mk a1 r1 =>
        rw [hg] at h
        simp only at h
        subst h
        obtain ⟨q, P, p, hq, hP, hp, rfl⟩ := getPolicy_ok _ a1 d hg
        unfold algFit at hf
        cases h1 : checkReward m.nFeatures (.of1 a.reward) with
        | error err => rw [h1] at hf; cases hf
        | ok w =>
          rw [h1] at hf
          simp only at hf
          cases h2 : o w with
          | error err => rw [h2] at hf; cases hf
          | ok vq =>
            obtain ⟨v, q'⟩ := vq
            rw [h2] at hf
            simp only at hf
            cases h3 : checkOutput m.nStates m.nActions v q' with
            | error err => rw [h3] at hf; cases hf
            | ok r =>
              rw [h3] at hf
              obtain ⟨v2, q2⟩ := r
              simp only at hf
              have hst := (Prod.mk.inj hf).1
              subst hst
              simp only [Option.some.injEq] at hq
              subst hq
              refine ⟨q2, ?_, ?_, rfl, rfl, P, p, d, hP, rfl, hp, rfl⟩
              all_goals
                unfold checkOutput at h3
                split at h3
                · split_ifs at h3
                  split at h3
                  · split_ifs at h3 with c1 c2
                    simp only [Except.ok.injEq, Prod.mk.injEq] at h3
                    obtain ⟨-, rfl⟩ := h3
                    simp only [ne_eq, Decidable.not_not] at c1 c2
                    first | exact c1 | exact c2
                  · cases h3
                · cases h3

end Agent

namespace Env

/-- The agent called `n` is there and shows `q`. -/
def Shows (n : String) (q : Arr2 (Ext K)) (e : Env K δ) : Prop := ∃ a, e.agent? n = some a ∧ a.Shows q

theorem shows_put (h : Ok kind W H selfT e) {a a' : Agent K δ} {n : String} (ha : e.agent? n = some a)
    (hn : a'.name = a.name) {m : Mdp K} {q : Arr2 (Ext K)} (hs : a'.Shows q) : Shows n q (e.put m a') := by
  obtain ⟨h1, rfl⟩ := agent?_mem ha
  exact ⟨a', agent?_put_same h h1 hn, hs⟩

theorem shows_step (h : Ok kind W H selfT e) {n : String} {q : Arr2 (Ext K)} (hs : Shows n q e) (n' : String)
    (d : Nat → δ) : Shows n q (e.step n' d).1 := by
  obtain ⟨a, ha, hsa⟩ := hs
  by_cases hn : n = n'
  · subst hn
    obtain ⟨hm, hna⟩ := agent?_mem ha
    unfold Env.step
    rw [(lookup_ok h).2 ⟨hm, hna⟩]
    simp only
    obtain ⟨k1, k2⟩ := hsa.step e.mdp d
    cases hst : a.step e.mdp d with
    | mk m1 r =>
      obtain ⟨a1, r1⟩ := r
      rw [hst] at k1 k2
      simp only at k1 k2
      cases r1 with
      | error err => exact shows_put h ha k2 k1
      | ok u =>
        simp only
        have hc := Agent.consume_policy a1 m1
        cases hco : a1.consume m1 with
        | mk m2 r2 =>
          obtain ⟨a2, r3⟩ := r2
          rw [hco] at hc
          have hs2 : a2.Shows q := k1.of_eq hc.1 hc.2.1 hc.2.2.1 hc.2.2.2.1
          have hn2 : a2.name = a.name := hc.2.2.2.2.trans k2
          cases r3 with
          | error err => exact shows_put h ha hn2 hs2
          | ok u => exact shows_put (m := m2) h ha hn2 hs2
  · exact ⟨a, (agent?_step hn d).trans ha, hsa⟩

theorem shows_apply (h : Ok kind W H selfT e) {n : String} {q : Arr2 (Ext K)} (hs : Shows n q e)
    (op : EnvOp K δ) (hop : ¬ Spec.Fits n op) (hr : op ≠ .reset) : Shows n q (e.apply op) := by
  obtain ⟨a, ha, hsa⟩ := hs
  obtain ⟨hm, hna⟩ := agent?_mem ha
  cases op with
  | fit n' o d =>
    have hn : n ≠ n' := fun h' => hop h'.symm
    exact ⟨a, (agent?_fit hn o d).trans ha, hsa⟩
  | step n' d => exact shows_step h ⟨a, ha, hsa⟩ n' d
  | stepProba n' p d =>
    by_cases hn : n = n'
    · subst hn
      simp only [apply]
      unfold Env.stepProba
      rw [(lookup_ok h).2 ⟨hm, hna⟩]
      simp only
      have k1 := hsa.stepProba e.mdp p d
      have k2 := (Agent.stepProba_same a e.mdp p d).1.name
      cases hst : a.stepProba e.mdp p d with
      | mk a1 r =>
        rw [hst] at k1 k2
        cases r with
        | error err => exact shows_put h ha k2 k1
        | ok u => exact shows_put (m := e.mdp) h ha k2 k1
    · exact ⟨a, (agent?_stepProba hn p d).trans ha, hsa⟩
  | stepMulti n' s p t r c o =>
    by_cases hn : n = n'
    · subst hn
      have hr : r = false := by
        cases r
        · rfl
        · exact absurd ⟨rfl, rfl⟩ hop
      subst hr
      exact (stepMulti_induct_norefit (fun e' => Ok kind W H selfT e' ∧ Shows n q e')
        (fun e' d h' => ⟨h'.1.step n d, shows_step h'.1 h'.2 n d⟩) e s p t c o ⟨h, a, ha, hsa⟩).2
    · exact ⟨a, (agent?_stepMulti hn s p t r c o).trans ha, hsa⟩
  | stepMultiInteractive n' m =>
    simp only [apply, stepMultiInteractive]
    split
    · exact ⟨a, ha, hsa⟩
    · exact ⟨a, ha, hsa⟩
    · split_ifs
      · exact ⟨a, ha, hsa⟩
      · split <;> exact ⟨a, ha, hsa⟩
  | reset => exact absurd rfl hr
  | setAgentPosition n' p =>
    simp only [apply]
    unfold Env.setAgentPosition
    cases hl : e.lookup n' with
    | error err => exact ⟨a, ha, hsa⟩
    | ok b =>
      obtain ⟨hb, hnb⟩ := (lookup_ok h).1 hl
      simp only
      have hn := (Agent.setPosition_policy b e.mdp p).2.2.2.2
      by_cases hnn : n' = n
      · have hba : b = a := eq_of_name h.nodup hb hm (by rw [hnb, hna, hnn])
        subst hba
        exact shows_put h ha hn (hsa.setPosition e.mdp p)
      · refine ⟨a, ?_, hsa⟩
        rw [agent?_eq (by rw [names_put]; exact h.nodup)]
        refine ⟨(mem_put (by rw [hn]; exact List.mem_map_of_mem (f := (·.name)) hb)).2 (.inr ⟨hm, ?_⟩), hna⟩
        rw [hn, hna, hnb]
        exact fun h' => hnn h'.symm
  | setWalls w => exact ⟨a, ha, hsa⟩
  | addWallXY x y => exact ⟨a, ha, hsa⟩
  | resetWalls => exact ⟨a, ha, hsa⟩
  | setAlgorithm n' st =>
    have hn : n ≠ n' := fun h' => hop h'.symm
    exact ⟨a, (agent?_setAlgorithm hn st).trans ha, hsa⟩

theorem shows_run {n : String} {q : Arr2 (Ext K)} (ops : List (EnvOp K δ)) : ∀ e : Env K δ, Ok kind W H selfT e →
    Shows n q e → (∀ op ∈ ops, ¬ Spec.Fits n op ∧ op ≠ .reset) → Shows n q (e.run ops) := by
  induction ops with
  | nil => intro e _ hs _; exact hs
  | cons op ops ih =>
    intro e h hs hops
    have h1 := hops op List.mem_cons_self
    exact ih (e.apply op) (Ok.run [op] e h) (shows_apply h hs op h1.1 h1.2)
      fun o ho => hops o (List.mem_cons_of_mem _ ho)

/-- After a successful fit of the agent. -/
theorem shows_fit (h : Ok kind W H selfT e) {n : String} {o : FitOut K} {d : Nat → δ}
    (hf : (e.fit n o d).2 = .ok ()) :
    ∃ q, q.d0 = e.mdp.nStates ∧ q.d1 = e.mdp.nActions ∧ Shows n q (e.fit n o d).1 := by
  rcases fit_cases h n o d with ⟨-, h1⟩ | ⟨a, ha, hn, h1⟩
  · rw [h1] at hf; cases hf
  · rw [h1] at hf ⊢
    obtain ⟨q, h2, h3, h4⟩ := Agent.Shows.fit hf
    exact ⟨q, h2, h3, shows_put h ((agent?_eq h.nodup).2 ⟨ha, hn⟩) (Agent.fit_same a e.mdp o d).1.name h4⟩

end Env
end MaMDP
