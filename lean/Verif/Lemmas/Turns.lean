import Verif.Spec.Turns
import Verif.Lemmas.EnvOps
import Verif.Lemmas.EnvHistory

/-! # Lemmas: two agents moving one after the other -/

set_option linter.unusedSectionVars false

namespace MaMDP

variable {K : Type} [Field K] [LinearOrder K] [IsStrictOrderedRing K] {δ : Type}
variable {kind : GridKind} {W H : Nat} {selfT : Bool} {e : Env K δ}

namespace Env

theorem eats_feeds {a : Agent K δ} {r : Nat} :
    Eats e a r ↔ r < e.mdp.features.d0 ∧ Spec.Feeds e.mdp.features.d0 a r := by
  unfold Eats Spec.Feeds
  constructor
  · rintro ⟨f, hf, h⟩
    obtain ⟨h1, h2⟩ := pyIdx_spec.1 h
    exact ⟨h1, f, hf, h2⟩
  · rintro ⟨h1, f, hf, h2⟩
    exact ⟨f, hf, pyIdx_spec.2 ⟨h1, h2⟩⟩

/-- The features after agent `a` has landed on `t` and eaten. -/
def fed (e : Env K δ) (a : Agent K δ) (t : Nat) : Nat → Nat → K := fun r s =>
  if s = t ∧ Eats e a r ∧ 0 < (e.mdp.setRow (e.mdp.agentRow a.idx) t).features.get r s then 0
  else (e.mdp.setRow (e.mdp.agentRow a.idx) t).features.get r s

/-- What it has eaten. -/
def gain (e : Env K δ) (a : Agent K δ) (t : Nat) : Nat → Nat := fun r =>
  if Eats e a r ∧ 0 < (e.mdp.setRow (e.mdp.agentRow a.idx) t).features.get r t then 1 else 0

/-- The agent after the move. -/
def grown (e : Env K δ) (a a1 : Agent K δ) (t : Nat) : Agent K δ :=
  { a1 with consumed := fun f => a.consumed f + gain e a t f }

/-- The environment after the move. -/
def after (e : Env K δ) (a a1 : Agent K δ) (t : Nat) : Env K δ :=
  { e.put (e.mdp.withFeat (fed e a t)) (grown e a a1 t) with nSteps := e.nSteps + 1 }

theorem step_inv (h : Ok kind W H selfT e) {n : String} {d : Nat → δ} {e' : Env K δ} {p : Int}
    (hs : e.step n d = (e', .ok p)) : ∃ a a1 j t, a.name = n ∧ Moved e a d a1 j t ∧ p = (t : Int) ∧
      (∀ f ∈ a.consumes, ∃ r, pyIdx e.mdp.features.d0 f = some r) ∧ e' = after e a a1 t := by
  rcases step_cases h n d with ⟨-, h1⟩ | ⟨a, a', err, -, -, -, -, -, -, h6⟩ |
    ⟨a, a1, j, t, g, c, h2, hm, hv, hg, hc, h6, -⟩ | ⟨a, a1, j, t, g, -, hm, -, -, h6, -⟩
  · rw [hs] at h1; cases h1
  · rw [hs] at h6; cases h6
  · rw [hs] at h6
    obtain ⟨rfl, h6⟩ := Prod.mk.inj h6
    cases h6
    refine ⟨a, a1, j, t, h2, hm, rfl, hv, ?_⟩
    have hg : g = fed e a t := by funext r s; exact hg r s
    have hc : c = gain e a t := by funext r; exact hc r
    subst hg hc
    rfl
  · rw [hs] at h6; cases h6

theorem step_of (h : Ok kind W H selfT e) {d : Nat → δ} {a a1 : Agent K δ} {j t : Nat}
    (hm : Moved e a d a1 j t) (hv : ∀ f ∈ a.consumes, ∃ r, pyIdx e.mdp.features.d0 f = some r) :
    e.step a.name d = (after e a a1 t, .ok (t : Int)) := by
  obtain ⟨q, P, p, s, f1, f2, f3, f4, f5, f6, f7, f8⟩ := hm.ex
  obtain ⟨j0, hseat, -⟩ := h.agentSeated hm.mem
  rcases step_cases h a.name d with ⟨h0, -⟩ | ⟨b, b', err, h1, h2, -, -, -, -, h6⟩ |
    ⟨b, b1, j', t', g, c, h2, hm', hv', hg, hc, h6, -⟩ | ⟨b, b1, j', t', g, h2, hm', hv', -, h6, -⟩
  · exact absurd ((h.names _).2 (List.mem_map_of_mem hm.mem)) h0
  · exfalso
    have hb : b = a := eq_of_name h.nodup h1 hm.mem h2
    subst hb
    have hl : e.lookup b.name = .ok b := (lookup_ok h).2 ⟨h1, rfl⟩
    unfold step at h6
    rw [hl] at h6
    simp only at h6
    rcases Agent.step_cases hseat h.nStates_pos d with ⟨a', er, e1, -⟩ |
      ⟨q', P', p', s', t', -, g2, g3, g4, g5, g6, g7, ht, e1⟩
    · unfold Agent.step at e1
      rw [if_neg (by simp [f1])] at e1
      have hgp : b.getPolicy d = ({ b with piP := some P, pi := some p }, .ok ()) := by
        unfold Agent.getPolicy
        simp only [f2, f3, f4]
      simp only [hgp, f5, f7] at e1
      rw [if_neg (by omega)] at e1
      have ht' : pyIdx e.mdp.nStates (t : Int) = some t := by simp [hm.lt]
      rw [Agent.setPosition_ok (a := { b with piP := some P, pi := some p }) hseat.le hseat.idx hseat.d1 ht'] at e1
      simp only at e1
      rw [Mdp.update_ok (m := e.mdp.setRow (e.mdp.agentRow b.idx) t) (j := t) hseat.le hseat.idx
        (by have := hseat.d1; simp only [Mdp.setRow, Mdp.withFeat]; rw [this]; exact ht')] at e1
      simp only [Prod.mk.injEq, reduceCtorEq, and_false] at e1
    · rw [e1] at h6
      simp only at h6
      have ht' : pyIdx e.mdp.nStates (t' : Int) = some t' := by simp [ht]
      have hs1 : ({ b with piP := some P', pi := some p', position := (t' : Int), history := b.history ++ [(t' : Int)] } :
          Agent K δ).Seated (e.mdp.setRow (e.mdp.agentRow b.idx) t') t' :=
        ⟨hseat.le, hseat.idx, hseat.d1, ht'⟩
      obtain ⟨g, c, g1, -⟩ := Agent.consume_ok hs1 hv
      rw [g1] at h6
      simp only [Prod.mk.injEq, reduceCtorEq, and_false] at h6
  · have hb : b = a := eq_of_name h.nodup hm'.mem hm.mem h2
    subst hb
    obtain ⟨q', P', p', s', -, g2, g3, g4, g5, -, g7, g8⟩ := hm'.ex
    rw [f2] at g2; cases g2
    rw [f3] at g3; cases g3
    rw [f4] at g4; cases g4
    rw [f5] at g5; cases g5
    rw [f7] at g7; cases g7
    rw [← f8] at g8
    subst g8
    have hg : g = fed e b t := by funext r s; exact hg r s
    have hc : c = gain e b t := by funext r; exact hc r
    subst hg hc
    exact h6
  · have hb : b = a := eq_of_name h.nodup hm'.mem hm.mem h2
    subst hb
    exact absurd hv hv'

theorem after_agents (a a1 : Agent K δ) (t : Nat) : (after e a a1 t).agents =
    e.agents.map fun b => if b.name = a1.name then grown e a a1 t else b := rfl

/-- A move does not change what another agent's move does. -/
theorem Moved.across {a a1 b b1 : Agent K δ} {d d' : Nat → δ} {j t j' t' : Nat} (hm : Moved e a d a1 j t)
    (hm' : Moved e b d' b1 j' t') (hne : b.name ≠ a.name) : Moved (after e a a1 t) b d' b1 j' t' := by
  refine ⟨?_, hm'.seat, hm'.lt, hm'.ex⟩
  rw [after_agents]
  refine List.mem_map.2 ⟨b, hm'.mem, ?_⟩
  rw [if_neg (by rw [hm.name.1]; exact hne)]

theorem agents_swap {A B : Agent K δ} (hne : A.name ≠ B.name) (l : List (Agent K δ)) :
    ((l.map fun b => if b.name = A.name then A else b).map fun b => if b.name = B.name then B else b) =
    ((l.map fun b => if b.name = B.name then B else b).map fun b => if b.name = A.name then A else b) := by
  rw [List.map_map, List.map_map]
  apply List.map_congr_left
  intro b _
  simp only [Function.comp]
  by_cases h1 : b.name = A.name
  · have h2 : ¬ b.name = B.name := fun h => hne (h1 ▸ h)
    simp [h1, hne]
  · by_cases h2 : b.name = B.name
    · simp [h2, Ne.symm hne]
    · simp [h1, h2]

theorem setRow_get (m : Mdp K) (r p f s : Nat) : (m.setRow r p).features.get f s =
    if f = r then (if s = p then 1 else 0) else m.features.get f s := rfl

theorem after_eats (a a1 b : Agent K δ) (t r : Nat) : Eats (after e a a1 t) b r ↔ Eats e b r := Iff.rfl

theorem after_get (a a1 : Agent K δ) (t r s : Nat) : (after e a a1 t).mdp.features.get r s = fed e a t r s := rfl

theorem after_row (a a1 : Agent K δ) (t i : Nat) : (after e a a1 t).mdp.agentRow i = e.mdp.agentRow i := rfl

/-- The features at the end do not depend on the order, if neither consumes the other. -/
theorem fed_swap {a a1 b b1 : Agent K δ} {t t' : Nat} (hi : e.mdp.agentRow a.idx ≠ e.mdp.agentRow b.idx)
    (h1 : ¬ Eats e a (e.mdp.agentRow b.idx)) (h2 : ¬ Eats e b (e.mdp.agentRow a.idx)) :
    fed (after e a a1 t) b t' = fed (after e b b1 t') a t := by
  funext r s
  unfold fed
  simp only [setRow_get, after_eats, after_row, after_get]
  unfold fed
  simp only [setRow_get]
  by_cases ha : r = e.mdp.agentRow a.idx
  · subst ha
    simp only [if_true, if_neg hi, h2, false_and, and_false, if_false]
  · by_cases hb : r = e.mdp.agentRow b.idx
    · subst hb
      simp only [if_true, if_neg (Ne.symm hi), h1, false_and, and_false, if_false]
    · simp only [if_neg ha, if_neg hb]
      by_cases e1 : s = t <;> by_cases e2 : s = t' <;> by_cases e3 : Eats e a r <;> by_cases e4 : Eats e b r <;>
        by_cases e5 : 0 < e.mdp.features.get r s <;> simp [e1, e2, e3, e4, e5] <;> simp_all

/-- What the second agent gets. -/
theorem gain_after {a a1 b : Agent K δ} {t t' : Nat} (h1 : ¬ Eats e a (e.mdp.agentRow b.idx))
    (h2 : ¬ Eats e b (e.mdp.agentRow a.idx)) (r : Nat) :
    gain (after e a a1 t) b t' r =
      if t' = t ∧ Eats e a r ∧ Eats e b r ∧ 0 < e.mdp.features.get r t then 0 else gain e b t' r := by
  unfold gain
  simp only [setRow_get, after_eats, after_row, after_get]
  unfold fed
  simp only [setRow_get]
  by_cases hb : r = e.mdp.agentRow b.idx
  · subst hb
    simp [h1]
  · simp only [if_neg hb]
    by_cases e4 : Eats e b r
    · have ha : r ≠ e.mdp.agentRow a.idx := fun h => h2 (h ▸ e4)
      simp only [if_neg ha, e4, true_and]
      by_cases e1 : t' = t
      · subst e1
        by_cases e3 : Eats e a r <;> by_cases e5 : 0 < e.mdp.features.get r t' <;> simp [e3, e5]
      · simp [e1]
    · simp [e4]

/-- Of contested food, whoever comes first gets all. -/
theorem gain_contested {a b : Agent K δ} {t : Nat} {r : Nat} (h1 : ¬ Eats e a (e.mdp.agentRow b.idx))
    (h4 : Eats e b r) (h3 : Eats e a r) (h5 : 0 < e.mdp.features.get r t) :
    gain e b t r = 1 := by
  unfold gain
  have hb : r ≠ e.mdp.agentRow b.idx := fun h => h1 (h ▸ h3)
  simp only [setRow_get, if_neg hb, h4, h5]
  simp

end Env

end MaMDP
