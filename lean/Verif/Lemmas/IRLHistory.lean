import Verif.Lemmas.Hyptest
import Verif.Model.IRLHistory
import Verif.Spec.IRLHistory

/-! # Lemmas about learning histories -/

set_option linter.unusedSectionVars false

namespace MaMDP

variable {K : Type} [Field K] [LinearOrder K] [IsStrictOrderedRing K]

variable (set : HtSettings K) (z : List Nat → (Nat → Nat → Ext K) → Nat → Nat → Ext K)

/-- Without its list, the loop over pairs is the one of `Model/IRL.lean`. -/
theorem htPairsRec_snd (b : Bool) (M : Trans K) : ∀ (t : List Int) (Q : Py (Nat → Nat → Nat → Ext K)) (n : Nat)
    (R : Nat → Ext K), (htPairsRec set b M z Q t n R).2 = htPairs set b M z Q t n R
  | [], Q, n, R => rfl
  | [s], Q, n, R => rfl
  | s :: t :: l, Q, n, R => by
    unfold htPairsRec htPairs
    cases hi : pyIdx M.nS s with
    | none => rfl
    | some i =>
      cases hj : pyIdx M.nS t with
      | none => rfl
      | some j =>
        simp only
        cases hw : npWhere M.nA (fun a => decide (M.p i a j ≠ 0)) with
        | nil => rfl
        | cons a as =>
          cases Q with
          | error e => rfl
          | ok Q =>
            simp only
            cases hm : singleMove set M z Q s t with
            | error e => rfl
            | ok R1 =>
              simp only
              by_cases hb : b = true
              · rw [if_pos hb, if_pos hb]
              · rw [if_neg hb, if_neg hb]
                exact htPairsRec_snd b M (t :: l) _ _ _

theorem htLoopRec_snd (b : Bool) : ∀ (data : List (Mdp K × Py (Nat → Nat → Nat → Ext K) × List Int)) (n : Nat)
    (R : Nat → Ext K), (htLoopRec set b z data n R).2.2 = htLoop set b z data n R
  | [], n, R => rfl
  | (m, Q, t) :: l, n, R => by
    unfold htLoopRec htLoop
    rw [← htPairsRec_snd]
    rcases htPairsRec set b m.trans z Q t n R with ⟨Rs, ⟨n', R'⟩, (e | u)⟩
    · rfl
    · exact htLoopRec_snd b l n' R'

/-- One step of the loop over pairs, when it succeeds. -/
theorem htPairsRec_cons {b : Bool} {M : Trans K} {Q : Py (Nat → Nat → Nat → Ext K)} {s t : Int} {l : List Int} {n : Nat}
    {R : Nat → Ext K} (h : (htPairsRec set b M z Q (s :: t :: l) n R).2.2 = .ok ()) :
    ∃ R1, ∀ l', htPairsRec set b M z Q (s :: t :: l') n R =
      (R1 :: (htPairsRec set b M z Q (t :: l') (n + 1) R1).1, (htPairsRec set b M z Q (t :: l') (n + 1) R1).2) := by
  unfold htPairsRec at h
  split at h
  · rename_i i j hi hj
    split at h
    · cases h
    · rename_i hw
      cases Q with
      | error e => cases h
      | ok Q =>
        simp only at h
        split at h
        · cases h
        · rename_i R1 hm
          split at h
          · cases h
          · rename_i hb
            refine ⟨htUpdate set n R1 R, fun l' => ?_⟩
            rw [htPairsRec]
            simp only [hi, hj, hm]
            cases hq : npWhere M.nA (fun a => decide (M.p i a j ≠ 0)) with
            | nil => exact absurd hq hw
            | cons a as => simp [hb]
  · cases h

/-- What a successful loop over pairs records: one estimate per move, each being what the loop gives on the moves so
far. -/
theorem htPairsRec_rows (b : Bool) (M : Trans K) (Q : Py (Nat → Nat → Nat → Ext K)) : ∀ (t : List Int) (n : Nat)
    (R : Nat → Ext K), (htPairsRec set b M z Q t n R).2.2 = .ok () →
    (htPairsRec set b M z Q t n R).1.length = t.length - 1 ∧
      (htPairsRec set b M z Q t n R).2.1.1 = n + (t.length - 1) ∧
      (R :: (htPairsRec set b M z Q t n R).1)[t.length - 1]? = some (htPairsRec set b M z Q t n R).2.1.2 ∧
      ∀ k x, (R :: (htPairsRec set b M z Q t n R).1)[k]? = some x →
        htPairs set b M z Q (t.take (k + 1)) n R = ((n + k, x), .ok ())
  | [], n, R, _ => by
    refine ⟨rfl, rfl, rfl, fun k x hx => ?_⟩
    cases k with
    | zero => cases hx; rfl
    | succ k => simp [htPairsRec] at hx
  | [s], n, R, _ => by
    refine ⟨rfl, rfl, rfl, fun k x hx => ?_⟩
    cases k with
    | zero => cases hx; rfl
    | succ k => simp [htPairsRec] at hx
  | s :: t :: l, n, R, h => by
    obtain ⟨R1, hR⟩ := htPairsRec_cons set z h
    have h' := h
    rw [hR l] at h'
    obtain ⟨h1, h2, h3, h4⟩ := htPairsRec_rows b M Q (t :: l) (n + 1) R1 h'
    rw [hR l]
    simp only [List.length_cons, Nat.add_sub_cancel] at h1 h2 h3 ⊢
    refine ⟨by rw [h1], by rw [h2]; omega, ?_, fun k x hx => ?_⟩
    · rw [List.getElem?_cons_succ, h3]
    · cases k with
      | zero => cases hx; rfl
      | succ k =>
        rw [List.getElem?_cons_succ] at hx
        have := h4 k x hx
        rw [List.take_succ_cons] at this
        rw [List.take_succ_cons, List.take_succ_cons, ← htPairsRec_snd, hR]
        simp only
        rw [htPairsRec_snd, this, show n + 1 + k = n + (k + 1) from by omega]

/-- What a successful loop over trajectories records. -/
theorem htLoopRec_rows (b : Bool) : ∀ (data : List (Mdp K × Py (Nat → Nat → Nat → Ext K) × List Int)) (n : Nat)
    (R : Nat → Ext K), (htLoopRec set b z data n R).2.2.2 = .ok () →
    (htLoopRec set b z data n R).1.length = Spec.moveCount data ∧
      (htLoopRec set b z data n R).2.1.length = data.length ∧
      (htLoopRec set b z data n R).2.2.1.1 = n + Spec.moveCount data ∧
      (R :: (htLoopRec set b z data n R).1)[Spec.moveCount data]? = some (htLoopRec set b z data n R).2.2.1.2 ∧
      (R :: (htLoopRec set b z data n R).2.1)[data.length]? = some (htLoopRec set b z data n R).2.2.1.2 ∧
      (∀ k x, (R :: (htLoopRec set b z data n R).1)[k]? = some x →
        htLoop set b z (Spec.firstMoves k data) n R = ((n + k, x), .ok ())) ∧
      ∀ k x, (R :: (htLoopRec set b z data n R).2.1)[k]? = some x →
        htLoop set b z (data.take k) n R = ((n + Spec.moveCount (data.take k), x), .ok ())
  | [], n, R, _ => by
    refine ⟨rfl, rfl, rfl, rfl, rfl, fun k x hx => ?_, fun k x hx => ?_⟩ <;> cases k <;>
      simp [htLoopRec] at hx
    · subst hx; simp [Spec.firstMoves, htLoop]
    · subst hx; simp [htLoop, Spec.moveCount]
  | (m, Q, t) :: l, n, R, h => by
    rw [htLoopRec] at h
    rcases hp : htPairsRec set b m.trans z Q t n R with ⟨Rs, ⟨n', R'⟩, (e | u)⟩
    · rw [hp] at h; cases h
    · rw [hp] at h
      simp only at h
      have hu : (htPairsRec set b m.trans z Q t n R).2.2 = .ok () := by rw [hp]
      obtain ⟨p1, p2, p3, p4⟩ := htPairsRec_rows set z b m.trans Q t n R hu
      rw [hp] at p1 p2 p3 p4
      simp only at p1 p2 p3 p4
      obtain ⟨h1, h2, h3, h4, h5, h6, h7⟩ := htLoopRec_rows b l n' R' h
      have hL : htLoopRec set b z ((m, Q, t) :: l) n R = (Rs ++ (htLoopRec set b z l n' R').1,
          R' :: (htLoopRec set b z l n' R').2.1, (htLoopRec set b z l n' R').2.2) := by
        rw [htLoopRec, hp]
      have hP : htPairs set b m.trans z Q t n R = ((n', R'), .ok ()) := by rw [← htPairsRec_snd, hp]
      have hc : Spec.moveCount ((m, Q, t) :: l) = (t.length - 1) + Spec.moveCount l := by simp [Spec.moveCount]
      have hget : ∀ j, (R :: (Rs ++ (htLoopRec set b z l n' R').1))[t.length - 1 + j]? =
          (R' :: (htLoopRec set b z l n' R').1)[j]? := by
        intro j
        cases j with
        | zero =>
          rw [Nat.add_zero, List.getElem?_cons_zero, ← p3, ← List.cons_append, List.getElem?_append_left]
          simp [p1]
        | succ j =>
          rw [List.getElem?_cons_succ, ← Nat.add_assoc, List.getElem?_cons_succ, List.getElem?_append_right (by omega)]
          congr 1
          omega
      rw [hL]
      refine ⟨?_, ?_, ?_, ?_, ?_, fun k x hx => ?_, fun k x hx => ?_⟩
      · simp only [List.length_append, h1, p1, hc]
      · simp only [List.length_cons, h2]
      · change (htLoopRec set b z l n' R').2.2.1.1 = _
        rw [h3, hc]; omega
      · simp only [hc]; rw [hget, h4]
      · simp only [List.length_cons, List.getElem?_cons_succ]; exact h5
      · simp only at hx
        cases k with
        | zero => cases hx; rfl
        | succ k =>
          rw [Spec.firstMoves]
          by_cases hk : k + 1 < t.length
          · rw [if_pos hk]
            have hx' : (R :: Rs)[k + 1]? = some x := by
              rw [← List.cons_append, List.getElem?_append_left (by simp [p1]; omega)] at hx
              exact hx
            rw [htLoop, p4 (k + 1) x hx']
            rfl
          · rw [if_neg hk, htLoop, hP]
            simp only
            have hx' := hx
            rw [show k + 1 = t.length - 1 + (k + 1 - (t.length - 1)) from by omega, hget] at hx'
            rw [h6 _ x hx', show n' + (k + 1 - (t.length - 1)) = n + (k + 1) from by omega]
      · simp only at hx
        cases k with
        | zero => cases hx; simp [htLoop, Spec.moveCount]
        | succ k =>
          rw [List.getElem?_cons_succ] at hx
          rw [List.take_succ_cons, htLoop, hP]
          simp only
          rw [h7 k x hx]
          simp only [Spec.moveCount, List.map_cons, List.sum_cons]
          rw [p2, Nat.add_assoc]

end MaMDP
