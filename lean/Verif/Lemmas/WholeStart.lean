import Verif.Model.WholeStart
import Verif.Lemmas.IRL

/-! # Learners whose first guess is an array of integers (C172) -/

set_option linter.unusedSectionVars false

namespace MaMDP

variable {K : Type} [Field K] [LinearOrder K] [IsStrictOrderedRing K]

/-! ## Arrays of floats: as before -/

theorem irlLoopOf_false (set : IrlSettings K) (nF : Nat) (ign : Ignore) (expected : (Nat → K) → Py (Nat → K))
    (trueF : Nat → K) : ∀ (k i : Nat) (st : IrlState K),
    irlLoopOf false set nF ign expected trueF k i st = irlLoop set nF ign expected trueF k i st := by
  intro k
  induction k with
  | zero => intro i st; rfl
  | succ k ih =>
    intro i st
    unfold irlLoopOf irlLoop
    rcases expected st.theta with e | dF
    · rfl
    · simp only
      rcases zeroAt nF dF ign with e | dF
      · rfl
      · simp only [Bool.false_eq_true, if_false]
        split_ifs
        · rfl
        · exact ih _ _

theorem MceIrl.fitOf_false (o : MceIrl K) (m : Mdp K) (ts : List (List Int)) (ign : Ignore)
    (expected : (Nat → K) → Py (Nat → K)) : o.fitOf false m ts ign expected = o.fit m ts ign expected := by
  have hrun : ∀ (o : MceIrl K) (trueF x : Nat → K), MceIrl.fitOf.run m ign expected false o trueF x =
      MceIrl.fit.run m ign expected o trueF x := by
    intro o trueF x
    unfold MceIrl.fitOf.run MceIrl.fit.run
    simp only [irlLoopOf_false]
    rfl
  unfold MceIrl.fitOf MceIrl.fit
  simp only [hrun]
  rfl

theorem MceIrl.runOpsOf_false : ∀ (ops : List (IrlOp K)) (o : MceIrl K), o.runOpsOf false ops = o.runOps ops
  | [], _ => rfl
  | .fit m ts ign expected :: l, o => by
    show MceIrl.runOpsOf false (o.fitOf false m ts ign expected).1 l = _
    rw [MceIrl.fitOf_false]
    exact MceIrl.runOpsOf_false l _
  | .reset :: l, o => MceIrl.runOpsOf_false l _
  | .resetLr :: l, o => MceIrl.runOpsOf_false l _

theorem HtIrl.fitOf_false (o : HtIrl K) (z : List Nat → (Nat → Nat → Ext K) → Nat → Nat → Ext K)
    (data : List (Mdp K × Py (Nat → Nat → Nat → Ext K) × List Int)) : o.fitOf false z data = o.fit z data := rfl

theorem HtIrl.runOpsOf_false : ∀ (ops : List (HtOp K)) (o : HtIrl K), o.runOpsOf false ops = o.runOps ops
  | [], _ => rfl
  | .fit _ _ :: l, _ => HtIrl.runOpsOf_false l _
  | .reset :: l, _ => HtIrl.runOpsOf_false l _

theorem TdLearner.actionsOf_false (ms : List (Mdp K)) : ∀ (l : List Nat) (i : Nat) (o : TdLearner K),
    TdLearner.actionsOf false ms l i o = TdLearner.actions ms l i o
  | [], _, _ => rfl
  | a :: l, i, o => by
    unfold TdLearner.actionsOf TdLearner.actions
    have h : o.actionOf false ms i a = o.action ms i a := rfl
    rw [h]
    rcases o.action ms i a with ⟨o', e | u⟩
    · rfl
    · exact TdLearner.actionsOf_false ms l _ _

theorem TdLearner.trajectoriesOf_false (ms : List (Mdp K)) : ∀ (l : List (Mdp K × List Int)) (o : TdLearner K),
    TdLearner.trajectoriesOf false ms l o = TdLearner.trajectories ms l o
  | [], _ => rfl
  | (m, t) :: l, o => by
    unfold TdLearner.trajectoriesOf TdLearner.trajectories
    split_ifs
    · exact TdLearner.trajectoriesOf_false ms l o
    · rcases m.trajectoryToStateAction t with e | sa
      · rfl
      · simp only
        rw [TdLearner.actionsOf_false]
        rcases TdLearner.actions ms (sa.map Prod.snd) 0 o with ⟨o', e | u⟩
        · rfl
        · exact TdLearner.trajectoriesOf_false ms l _

theorem TdLearner.fitOf_false (o : TdLearner K) (mdps : Mdp K ⊕ List (Mdp K)) (ts : List (List Int)) :
    o.fitOf false mdps ts = o.fit mdps ts := by
  have h : ∀ ms, o.fitTdOf false ms ts = o.fitTd ms ts := by
    intro ms
    unfold TdLearner.fitTdOf TdLearner.fitTd
    simp only [TdLearner.trajectoriesOf_false]
    rfl
  unfold TdLearner.fitOf TdLearner.fit
  simp only [h]
  rfl

theorem TdLearner.runOpsOf_false : ∀ (ops : List (TdOp K)) (o : TdLearner K), o.runOpsOf false ops = o.runOps ops
  | [], _ => rfl
  | .fit mdps ts :: l, o => by
    show TdLearner.runOpsOf false (o.fitOf false mdps ts).1 l = _
    rw [TdLearner.fitOf_false]
    exact TdLearner.runOpsOf_false l _
  | .reset :: l, _ => TdLearner.runOpsOf_false l _
  | .resetLr :: l, _ => TdLearner.runOpsOf_false l _

/-! ## Arrays of integers: never a success -/

theorem irlLoopOf_true (set : IrlSettings K) (nF : Nat) (ign : Ignore) (expected : (Nat → K) → Py (Nat → K))
    (trueF : Nat → K) (k i : Nat) (st : IrlState K) :
    (irlLoopOf true set nF ign expected trueF (k + 1) i st).2 ≠ .ok () ∧
      (irlLoopOf true set nF ign expected trueF (k + 1) i st).1.theta = st.theta := by
  unfold irlLoopOf
  split
  · exact ⟨by simp, rfl⟩
  · split
    · exact ⟨by simp, rfl⟩
    · simp only [if_true]
      exact ⟨by simp, trivial⟩

/-- The array is there, in both places. -/
def MceIrl.HasVec (o : MceIrl K) : Prop := (∃ x, o.theta = .vec x) ∧ ∃ x, o.original = .vec x

theorem MceIrl.hasVec_write {o : MceIrl K} (h : o.HasVec) (x : Nat → K) (lr : K) : (o.write x lr).HasVec := by
  refine ⟨⟨x, rfl⟩, ?_⟩
  unfold MceIrl.write
  simp only
  split_ifs
  · exact ⟨x, rfl⟩
  · exact h.2

theorem MceIrl.fitOf_true {o : MceIrl K} (h : o.HasVec) (m : Mdp K) (ts : List (List Int)) (ign : Ignore)
    (expected : (Nat → K) → Py (Nat → K)) :
    (∀ y, (o.fitOf true m ts ign expected).2 ≠ .ok y) ∧ (o.fitOf true m ts ign expected).1.HasVec := by
  obtain ⟨x, hx⟩ := h.1
  unfold MceIrl.fitOf
  split
  · exact ⟨by simp, h⟩
  · exact ⟨by simp, h⟩
  · split
    · exact ⟨by simp, h⟩
    · split
      · exact ⟨by simp, h⟩
      · rename_i trueF _
        rw [hx]
        simp only
        unfold MceIrl.fitOf.run
        split
        · exact ⟨by simp, MceIrl.hasVec_write h _ _⟩
        · rename_i y _
          cases hk : o.set.maxIter with
          | zero =>
            unfold irlLoopOf
            simp only [if_true]
            exact ⟨by simp, MceIrl.hasVec_write h _ _⟩
          | succ k =>
            have := (irlLoopOf_true o.set m.nFeatures ign expected trueF k 0 ⟨y, o.lr, []⟩).1
            rcases hl : irlLoopOf true o.set m.nFeatures ign expected trueF (k + 1) 0 ⟨y, o.lr, []⟩ with ⟨st, e | u⟩
            · simp only
              exact ⟨by simp, MceIrl.hasVec_write h _ _⟩
            · rw [hl] at this
              exact absurd rfl this

theorem MceIrl.runOpsOf_true : ∀ (ops : List (IrlOp K)) (o : MceIrl K), o.HasVec → (o.runOpsOf true ops).HasVec
  | [], _, h => h
  | .fit m ts ign expected :: l, _, h => MceIrl.runOpsOf_true l _ (MceIrl.fitOf_true h m ts ign expected).2
  | .reset :: l, _, h => MceIrl.runOpsOf_true l _ ⟨h.2, h.2⟩
  | .resetLr :: l, _, h => MceIrl.runOpsOf_true l _ ⟨h.1, h.2⟩

/-- The loops of hypothesis testing with an array that nothing can be added to: success only without moves. -/
theorem htPairs_true (set : HtSettings K) (M : Trans K) (z : List Nat → (Nat → Nat → Ext K) → Nat → Nat → Ext K)
    (Q : Py (Nat → Nat → Nat → Ext K)) (t : List Int) (n : Nat) (x : Nat → Ext K) :
    (htPairs set true M z Q t n x).1 = (n, x) := by
  match t with
  | [] => rfl
  | [_] => rfl
  | s :: u :: l =>
    unfold htPairs
    split
    · split
      · rfl
      · split
        · rfl
        · split
          · rfl
          · rfl
    · rfl

theorem htLoop_true (set : HtSettings K) (z : List Nat → (Nat → Nat → Ext K) → Nat → Nat → Ext K) :
    ∀ (data : List (Mdp K × Py (Nat → Nat → Nat → Ext K) × List Int)) (n : Nat) (x : Nat → Ext K),
      (htLoop set true z data n x).1 = (n, x)
  | [], _, _ => rfl
  | (m, Q, t) :: l, n, x => by
    have h := htPairs_true set m.trans z Q t n x
    unfold htLoop
    rcases hp : htPairs set true m.trans z Q t n x with ⟨⟨n', x'⟩, e | u⟩
    · rw [hp] at h
      exact h
    · rw [hp] at h
      cases h
      exact htLoop_true set z l n x

/-- The array is there, in both places. -/
def HtIrl.HasVec (o : HtIrl K) : Prop := (∃ x, o.theta = .vec x) ∧ ∃ x, o.original = .vec x

theorem HtIrl.fitOf_true {o : HtIrl K} (h : o.HasVec) (z : List Nat → (Nat → Nat → Ext K) → Nat → Nat → Ext K)
    (data : List (Mdp K × Py (Nat → Nat → Nat → Ext K) × List Int)) :
    (∀ y, (o.fitOf true z data).2 ≠ .ok y) ∧ (o.fitOf true z data).1.HasVec ∧
      (o.fitOf true z data).1.theta = o.theta := by
  obtain ⟨x, hx⟩ := h.1
  unfold HtIrl.fitOf
  split
  · exact ⟨by simp, h, rfl⟩
  · rw [hx]
    simp only
    have hl := htLoop_true o.set z data 1 x
    have hw : (o.write x).HasVec := by
      refine ⟨⟨x, rfl⟩, ?_⟩
      unfold HtIrl.write
      simp only
      split_ifs
      · exact ⟨x, rfl⟩
      · exact h.2
    rcases hp : htLoop o.set true z data 1 x with ⟨⟨n', x'⟩, e | u⟩
    · rw [hp] at hl
      cases hl
      exact ⟨by simp, hw, rfl⟩
    · rw [hp] at hl
      cases hl
      simp only [if_true]
      exact ⟨by simp, hw, rfl⟩

theorem HtIrl.runOpsOf_true : ∀ (ops : List (HtOp K)) (o : HtIrl K), o.HasVec → (o.runOpsOf true ops).HasVec
  | [], _, h => h
  | .fit z data :: l, _, h => HtIrl.runOpsOf_true l _ (HtIrl.fitOf_true h z data).2.1
  | .reset :: l, _, h => HtIrl.runOpsOf_true l _ ⟨h.2, h.2⟩

/-- The array is there, in both places. -/
def TdLearner.HasVec (o : TdLearner K) : Prop := (∃ x, o.q = .vec x) ∧ ∃ x, o.original = .vec x

theorem TdLearner.actionOf_true {o : TdLearner K} (ms : List (Mdp K)) (i a : Nat) :
    (o.actionOf true ms i a).2 ≠ .ok () ∧ (o.actionOf true ms i a).1.q = o.q ∧
      (o.actionOf true ms i a).1.original = o.original := by
  unfold TdLearner.actionOf
  split
  · exact ⟨by simp, rfl, rfl⟩
  · split
    · exact ⟨by simp, rfl, rfl⟩
    · split
      · exact ⟨by simp, rfl, rfl⟩
      · exact ⟨by simp, rfl, rfl⟩
      · split
        · exact ⟨by simp, rfl, rfl⟩
        · simp only [if_true]
          split
          · exact ⟨by simp, rfl, rfl⟩
          · refine ⟨by simp, ?_, ?_⟩ <;> split_ifs <;> rfl

theorem TdLearner.actionsOf_true (ms : List (Mdp K)) (l : List Nat) (i : Nat) (o : TdLearner K) :
    (TdLearner.actionsOf true ms l i o).1.q = o.q ∧ (TdLearner.actionsOf true ms l i o).1.original = o.original ∧
      ((TdLearner.actionsOf true ms l i o).2 = .ok () → l = []) := by
  match l with
  | [] => exact ⟨rfl, rfl, fun _ => rfl⟩
  | a :: l =>
    obtain ⟨h1, h2, h3⟩ := TdLearner.actionOf_true (o := o) ms i a
    unfold TdLearner.actionsOf
    rcases hp : o.actionOf true ms i a with ⟨o', e | u⟩
    · rw [hp] at h2 h3
      exact ⟨h2, h3, by simp⟩
    · rw [hp] at h1
      exact absurd rfl h1

theorem trajectory_length {m : Mdp K} : ∀ {t : List Int} {sa : List (Int × Nat)}, m.trajectoryLoop t = .ok sa →
    sa.length = t.length - 1
  | [], sa, h => by cases h; rfl
  | [_], sa, h => by cases h; rfl
  | s :: u :: l, sa, h => by
    unfold Mdp.trajectoryLoop at h
    split at h
    · cases h
    · split at h
      · split at h
        · cases h
        · rename_i sa' h'
          cases h
          have := trajectory_length h'
          simp only [List.length_cons] at this ⊢
          omega
      · cases h

theorem TdLearner.trajectoriesOf_true (ms : List (Mdp K)) : ∀ (l : List (Mdp K × List Int)) (o : TdLearner K),
    (TdLearner.trajectoriesOf true ms l o).1.q = o.q ∧ (TdLearner.trajectoriesOf true ms l o).1.original = o.original ∧
      ((TdLearner.trajectoriesOf true ms l o).2 = .ok () → ∀ p ∈ l, p.2.length ≤ 1)
  | [], _ => ⟨rfl, rfl, by simp⟩
  | (m, t) :: l, o => by
    unfold TdLearner.trajectoriesOf
    split_ifs with ht
    · obtain ⟨h1, h2, h3⟩ := TdLearner.trajectoriesOf_true ms l o
      refine ⟨h1, h2, fun h p hp => ?_⟩
      rcases List.mem_cons.1 hp with rfl | hp
      · simp [ht]
      · exact h3 h p hp
    · split
      · exact ⟨rfl, rfl, by simp⟩
      · rename_i sa hsa
        obtain ⟨g1, g2, g3⟩ := TdLearner.actionsOf_true ms (sa.map Prod.snd) 0 o
        rcases hp : TdLearner.actionsOf true ms (sa.map Prod.snd) 0 o with ⟨o', e | u⟩
        · rw [hp] at g1 g2
          exact ⟨g1, g2, by simp⟩
        · rw [hp] at g1 g2 g3
          obtain ⟨h1, h2, h3⟩ := TdLearner.trajectoriesOf_true ms l o'
          refine ⟨h1.trans g1, h2.trans g2, fun h p hpm => ?_⟩
          rcases List.mem_cons.1 hpm with rfl | hpm
          · have hs : sa = [] := List.map_eq_nil_iff.1 (g3 rfl)
            unfold Mdp.trajectoryToStateAction at hsa
            rw [if_neg ht] at hsa
            have := trajectory_length hsa
            rw [hs] at this
            simp only [List.length_nil] at this
            show t.length ≤ 1
            omega
          · exact h3 h p hpm

theorem TdLearner.fitOf_true {o : TdLearner K} (h : o.HasVec) (mdps : Mdp K ⊕ List (Mdp K)) (ts : List (List Int)) :
    (o.fitOf true mdps ts).1.q = o.q ∧ (o.fitOf true mdps ts).1.original = o.original ∧
      ((o.fitOf true mdps ts).2 = .ok () → ∀ t ∈ ts, t.length ≤ 1) := by
  obtain ⟨x, hx⟩ := h.1
  have key : ∀ ms : List (Mdp K), ts.length = ms.length →
      (o.fitTdOf true ms ts).1.q = o.q ∧ (o.fitTdOf true ms ts).1.original = o.original ∧
      ((o.fitTdOf true ms ts).2 = .ok () → ∀ t ∈ ts, t.length ≤ 1) := by
    intro ms hl
    have e : o.fitTdOf true ms ts = TdLearner.trajectoriesOf true ms (ms.zip ts) { o with nSeen := 1 } := by
      unfold TdLearner.fitTdOf
      split
      · rename_i h
        rw [hx] at h
        cases h
      · rfl
    rw [e]
    obtain ⟨h1, h2, h3⟩ := TdLearner.trajectoriesOf_true ms (ms.zip ts) { o with nSeen := 1 }
    refine ⟨h1, h2, fun h t ht => ?_⟩
    obtain ⟨i, hi, he⟩ := List.mem_iff_getElem.1 ht
    refine h3 h (ms[i]'(by omega), t) ?_
    rw [← he, ← List.getElem_zip (h := by simp; omega)]
    exact List.getElem_mem _
  have fin : ∀ ms : List (Mdp K), ts.length = ms.length → ∀ r : TdLearner K × Py Unit, r = (match o.fitTdOf true ms ts with
      | (o, .error e) => (o, .error e)
      | (o, .ok ()) => ({ o with fitted := true }, .ok ())) →
      r.1.q = o.q ∧ r.1.original = o.original ∧ (r.2 = .ok () → ∀ t ∈ ts, t.length ≤ 1) := by
    intro ms hl r hr
    obtain ⟨h1, h2, h3⟩ := key ms hl
    rcases hp : o.fitTdOf true ms ts with ⟨o', e | u⟩
    · rw [hp] at h1 h2 hr
      subst hr
      exact ⟨h1, h2, by simp⟩
    · rw [hp] at h1 h2 h3 hr
      subst hr
      exact ⟨h1, h2, fun _ => h3 rfl⟩
  rcases mdps with m | l
  · exact fin (List.replicate ts.length m) (by simp) _ rfl
  · by_cases hc : ts.length = l.length
    · refine fin l hc _ ?_
      unfold TdLearner.fitOf
      simp only [if_pos hc]
      rfl
    · unfold TdLearner.fitOf
      simp only [if_neg hc]
      exact ⟨trivial, trivial, by simp⟩

theorem TdLearner.runOpsOf_true : ∀ (ops : List (TdOp K)) (o : TdLearner K), o.HasVec → (o.runOpsOf true ops).HasVec
  | [], _, h => h
  | .fit mdps ts :: l, o, h => TdLearner.runOpsOf_true l _ (by
      obtain ⟨h1, h2, -⟩ := TdLearner.fitOf_true h mdps ts
      exact ⟨h1 ▸ h.1, h2 ▸ h.2⟩)
  | .reset :: l, _, h => TdLearner.runOpsOf_true l _ ⟨h.2, h.2⟩
  | .resetLr :: l, _, h => TdLearner.runOpsOf_true l _ ⟨h.1, h.2⟩

end MaMDP
