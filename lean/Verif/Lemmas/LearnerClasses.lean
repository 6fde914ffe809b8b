import Verif.Spec.LearnerStore

/-! # The library's learners and their arrays -/

set_option linter.unusedSectionVars false

namespace MaMDP

variable {K : Type} [Field K] [LinearOrder K] [IsStrictOrderedRing K]

theorem theta_with {X : Type} (t : Theta X) : t.with t.array = t := by cases t <;> rfl

theorem theta_array {X : Type} (t : Theta X) (a : Option (Nat → X)) (h : a.isSome = t.array.isSome) :
    (t.with a).array = a := by
  cases t <;> cases a <;> first | rfl | cases h

theorem qarr_with {X : Type} (t : QArr X) : t.with t.array = t := by cases t <;> rfl

theorem qarr_array {X : Type} (t : QArr X) (a : Option (Arr1 X)) (h : a.isSome = t.array.isSome) :
    (t.with a).array = a := by
  cases t <;> cases a <;> first | rfl | cases h

/-- What a call other than `reset` does to the arrays of an object. -/
structure CallShape {X : Type} (arr sav arr' sav' : Option X) (al al' : Bool) : Prop where
  keep : arr.isSome = true → arr'.isSome = true ∧ al' = al
  start : arr = none → arr' = none ∧ al' = al ∨ arr'.isSome = true ∧ al' = false
  stays : (al = true → arr = sav) → sav' = if al = true ∧ arr.isSome = true then arr' else sav

theorem CallShape.same {X : Type} (arr sav : Option X) (al : Bool) : CallShape arr sav arr sav al al :=
  ⟨fun h => ⟨h, rfl⟩, fun h => .inl ⟨h, rfl⟩, fun h => by
    split_ifs with h'
    · exact (h h'.1).symm
    · rfl⟩

/-- An array in place is overwritten. -/
theorem CallShape.write {X : Type} (x y : X) (sav : Option X) (al : Bool) :
    CallShape (some x) sav (some y) (if al = true then some y else sav) al al :=
  ⟨fun h => ⟨rfl, rfl⟩, fun h => (by cases h), fun h => by
    by_cases h' : al = true
    · simp [h']
    · simp [h']⟩

/-- A first array. -/
theorem CallShape.first {X : Type} (y : X) (sav : Option X) (al : Bool) :
    CallShape none sav (some y) sav al false :=
  ⟨fun h => (by cases h), fun h => .inr ⟨rfl, rfl⟩, fun h => by simp⟩

/-! ### `MaxCausalEntIRL` -/

theorem mce_fit_shape (o : MceIrl K) (m : Mdp K) (ts : List (List Int)) (ign : Ignore)
    (expected : (Nat → K) → Py (Nat → K)) :
    CallShape o.theta.array o.original.array (o.fit m ts ign expected).1.theta.array
      (o.fit m ts ign expected).1.original.array o.aliased (o.fit m ts ign expected).1.aliased := by
  have hw : ∀ (o : MceIrl K) x lr, (o.write x lr).theta.array = some x ∧ (o.write x lr).aliased = o.aliased ∧
      (o.write x lr).original.array = if o.aliased = true then some x else o.original.array := by
    intro o x lr
    refine ⟨rfl, rfl, ?_⟩
    unfold MceIrl.write
    simp only
    split_ifs <;> rfl
  have hrun : ∀ (o : MceIrl K) a b, ∃ x lr, (MceIrl.fit.run m ign expected o a b).1 = o.write x lr := by
    intro o a b
    unfold MceIrl.fit.run
    split
    · exact ⟨_, _, rfl⟩
    · split
      · exact ⟨_, _, rfl⟩
      · split_ifs
        · exact ⟨_, _, rfl⟩
        · exact ⟨_, _, rfl⟩
  unfold MceIrl.fit
  split
  · exact .same _ _ _
  · exact .same _ _ _
  · split
    · exact .same _ _ _
    · split
      · exact .same _ _ _
      · split
        · split
          · exact .same _ _ _
          · exact .same _ _ _
        · next h =>
          obtain ⟨x, lr, e⟩ := hrun { o with aliased := false } _ (fun _ => 0)
          rw [e, (hw _ _ _).1, (hw _ _ _).2.1, (hw _ _ _).2.2, h]
          exact .first _ _ _
        · next h =>
          rename_i y
          obtain ⟨x, lr, e⟩ := hrun o _ y
          rw [e, (hw _ _ _).1, (hw _ _ _).2.1, (hw _ _ _).2.2, h]
          exact .write _ _ _ _

theorem mceClass_lawful : Spec.Lawful (mceClass (K := K)) := by
  have shape : ∀ (o : MceIrl K) (op : IrlOp K), mceClass.isReset op = false →
      CallShape o.theta.array o.original.array (o.apply op).theta.array (o.apply op).original.array o.aliased
        (o.apply op).aliased := by
    intro o op h
    cases op with
    | fit m ts ign ex => exact mce_fit_shape o m ts ign ex
    | reset => cases h
    | resetLr => exact .same _ _ _
  refine ⟨fun o => ?_, fun o a s h => theta_array _ _ h, fun o a s h => theta_array _ _ h, fun _ _ _ => rfl, ?_, ?_,
    fun o op h => (shape o op h).keep, fun o op h => (shape o op h).start, fun o op h => (shape o op h).stays, ?_⟩
  · show ({ o with theta := o.theta.with o.theta.array, original := o.original.with o.original.array } : MceIrl K) = o
    rw [theta_with, theta_with]
  · intro set a o h
    change MceIrl.init set.1 set.2 a = .ok o at h
    unfold MceIrl.init at h
    split_ifs at h
    obtain rfl := Except.ok.inj h
    cases a <;> exact ⟨rfl, rfl, rfl⟩
  · intro o op h
    cases op with
    | reset => exact ⟨rfl, rfl, rfl⟩
    | fit => cases h
    | resetLr => cases h
  · intro op h; cases h

/-! ### `HyptestIRL` -/

theorem ht_fit_shape (o : HtIrl K) (z : List Nat → (Nat → Nat → Ext K) → Nat → Nat → Ext K)
    (data : List (Mdp K × Py (Nat → Nat → Nat → Ext K) × List Int)) :
    CallShape o.theta.array o.original.array (o.fit z data).1.theta.array (o.fit z data).1.original.array o.aliased
      (o.fit z data).1.aliased := by
  have hw : ∀ (o : HtIrl K) x, (o.write x).theta.array = some x ∧ (o.write x).aliased = o.aliased ∧
      (o.write x).original.array = if o.aliased = true then some x else o.original.array := by
    intro o x
    refine ⟨rfl, rfl, ?_⟩
    unfold HtIrl.write
    simp only
    split_ifs <;> rfl
  unfold HtIrl.fit
  split
  · exact .same _ _ _
  · split
    · split <;> exact .same _ _ _
    · next h =>
      split
      · exact .same _ _ _
      · split_ifs
        · exact .same _ _ _
        · rw [h]
          exact .first _ _ _
    · next h =>
      split
      · rw [(hw _ _).1, (hw _ _).2.1, (hw _ _).2.2, h]
        exact .write _ _ _ _
      · split_ifs
        all_goals
          rw [(hw _ _).1, (hw _ _).2.1, (hw _ _).2.2, h]
          exact .write _ _ _ _

theorem htClass_lawful : Spec.Lawful (htClass (K := K)) := by
  have shape : ∀ (o : HtIrl K) (op : HtOp K), htClass.isReset op = false →
      CallShape o.theta.array o.original.array (o.apply op).theta.array (o.apply op).original.array o.aliased
        (o.apply op).aliased := by
    intro o op h
    cases op with
    | fit z data => exact ht_fit_shape o z data
    | reset => cases h
  refine ⟨fun o => ?_, fun o a s h => theta_array _ _ h, fun o a s h => theta_array _ _ h, fun _ _ _ => rfl, ?_, ?_,
    fun o op h => (shape o op h).keep, fun o op h => (shape o op h).start, fun o op h => (shape o op h).stays, ?_⟩
  · show ({ o with theta := o.theta.with o.theta.array, original := o.original.with o.original.array } : HtIrl K) = o
    rw [theta_with, theta_with]
  · intro set a o h
    change HtIrl.init set a = .ok o at h
    unfold HtIrl.init at h
    split_ifs at h
    obtain rfl := Except.ok.inj h
    cases a <;> exact ⟨rfl, rfl, rfl⟩
  · intro o op h
    cases op with
    | reset => exact ⟨rfl, rfl, rfl⟩
    | fit => cases h
  · intro op h; cases h

/-! ### `TDGeneralPolicyLearner` -/

/-- What a run of a learner does to its arrays when it starts with one. -/
def TdKeeps (o o' : TdLearner K) : Prop :=
  o'.aliased = o.aliased ∧ ((o.q.array = none ∧ o'.q = o.q ∧ o'.original = o.original) ∨
    ((o.q.array).isSome = true ∧ (o'.q.array).isSome = true ∧
      ((o.aliased = false ∧ o'.original = o.original) ∨
        (o.aliased = true ∧ (o.q.array = o.original.array → o'.q.array = o'.original.array)))))

theorem TdKeeps.refl (o : TdLearner K) : TdKeeps o o := by
  refine ⟨rfl, ?_⟩
  cases h : o.q.array with
  | none => exact .inl ⟨rfl, rfl, rfl⟩
  | some x =>
    refine .inr ⟨rfl, rfl, ?_⟩
    cases o.aliased with
    | false => exact .inl ⟨rfl, rfl⟩
    | true => exact .inr ⟨rfl, id⟩

theorem TdKeeps.trans {o1 o2 o3 : TdLearner K} (h : TdKeeps o1 o2) (h' : TdKeeps o2 o3) : TdKeeps o1 o3 := by
  refine ⟨h'.1.trans h.1, ?_⟩
  rcases h.2 with ⟨a1, a2, a3⟩ | ⟨a1, a2, a3⟩
  · rcases h'.2 with ⟨b1, b2, b3⟩ | ⟨b1, b2, b3⟩
    · exact .inl ⟨a1, b2.trans a2, b3.trans a3⟩
    · rw [a2, a1] at b1; cases b1
  · rcases h'.2 with ⟨b1, b2, b3⟩ | ⟨b1, b2, b3⟩
    · rw [b1] at a2; cases a2
    · refine .inr ⟨a1, b2, ?_⟩
      rcases a3 with ⟨c1, c2⟩ | ⟨c1, c2⟩
      · rcases b3 with ⟨d1, d2⟩ | ⟨d1, d2⟩
        · exact .inl ⟨c1, d2.trans c2⟩
        · rw [h.1, c1] at d1; cases d1
      · rcases b3 with ⟨d1, d2⟩ | ⟨d1, d2⟩
        · rw [h.1, c1] at d1; cases d1
        · exact .inr ⟨c1, fun e => d2 (c2 e)⟩

theorem td_action_keeps (o : TdLearner K) (ms : List (Mdp K)) (i a : Nat) : TdKeeps o (o.action ms i a).1 := by
  unfold TdLearner.action
  split
  · exact .refl _
  · split
    · exact .refl _
    · split
      · exact .refl _
      · exact .refl _
      · next hq =>
        have hadj : ∀ α : K, TdKeeps o { o with adjusted := α } := fun α => TdKeeps.refl o
        have hwr : ∀ (p : TdLearner K) (x : Arr1 K) (n : Nat), p.q.array.isSome = true →
            TdKeeps p { p.write x with nSeen := n } := by
          intro p x n hp
          refine ⟨rfl, .inr ⟨hp, rfl, ?_⟩⟩
          unfold TdLearner.write
          cases h : p.aliased with
          | false => exact .inl ⟨rfl, by simp⟩
          | true => exact .inr ⟨rfl, fun _ => by simp⟩
        split_ifs
        · exact .refl _
        all_goals
          dsimp only
          try split
        all_goals first
          | exact .refl _
          | exact hwr o _ _ (by rw [hq]; rfl)
          | exact (hadj _).trans (hwr _ _ _ (by simp only [hq]; rfl))

theorem td_actions_keeps (ms : List (Mdp K)) (l : List Nat) (i : Nat) (o : TdLearner K) :
    TdKeeps o (TdLearner.actions ms l i o).1 := by
  induction l generalizing i o with
  | nil => exact .refl _
  | cons a l ih =>
    unfold TdLearner.actions
    have h := td_action_keeps o ms i a
    split
    · next e => rw [e] at h; exact h
    · next e => rw [e] at h; exact h.trans (ih _ _)

theorem td_trajectories_keeps (ms : List (Mdp K)) (l : List (Mdp K × List Int)) (o : TdLearner K) :
    TdKeeps o (TdLearner.trajectories ms l o).1 := by
  induction l generalizing o with
  | nil => exact .refl _
  | cons d l ih =>
    obtain ⟨m, t⟩ := d
    unfold TdLearner.trajectories
    split_ifs
    · exact ih o
    · split
      · exact .refl _
      · next sa hsa =>
        have h := td_actions_keeps ms (sa.map Prod.snd) 0 o
        split
        · next e => rw [e] at h; exact h
        · next e => rw [e] at h; exact h.trans (ih _)

theorem TdKeeps.shape {o o' : TdLearner K} (h : TdKeeps o o') :
    CallShape o.q.array o.original.array o'.q.array o'.original.array o.aliased o'.aliased := by
  rw [h.1]
  rcases h.2 with ⟨a1, a2, a3⟩ | ⟨a1, a2, a3⟩
  · rw [a2, a3]; exact .same _ _ _
  · refine ⟨fun _ => ⟨a2, rfl⟩, fun h0 => ?_, fun hs => ?_⟩
    · rw [h0] at a1; cases a1
    · rcases a3 with ⟨c1, c2⟩ | ⟨c1, c2⟩
      · rw [if_neg (by simp [c1]), c2]
      · rw [if_pos ⟨c1, a1⟩, c2 (hs c1)]

theorem td_fit_shape (o : TdLearner K) (mdps : Mdp K ⊕ List (Mdp K)) (ts : List (List Int)) :
    CallShape o.q.array o.original.array (o.fit mdps ts).1.q.array (o.fit mdps ts).1.original.array o.aliased
      (o.fit mdps ts).1.aliased := by
  have hfit : ∀ ms, CallShape o.q.array o.original.array (o.fitTd ms ts).1.q.array (o.fitTd ms ts).1.original.array
      o.aliased (o.fitTd ms ts).1.aliased := by
    intro ms
    unfold TdLearner.fitTd
    split
    · next hq =>
      split
      · exact .same _ _ _
      · next m l =>
        have h := td_trajectories_keeps (m :: l) ((m :: l).zip ts)
          { o with q := .vec ⟨m.nActions, fun _ => 0⟩, aliased := false, nSeen := 1 }
        have hs := h.2
        rw [h.1, hq]
        rcases hs with ⟨b1, -⟩ | ⟨-, b2, ⟨-, b3⟩ | ⟨b3, -⟩⟩
        · cases b1
        · rw [b3]
          exact ⟨fun h => (by cases h), fun _ => .inr ⟨b2, rfl⟩, fun _ => (by simp [QArr.array])⟩
        · cases b3
    · exact (td_trajectories_keeps ms (ms.zip ts) { o with nSeen := 1 }).shape
  unfold TdLearner.fit
  simp only
  split
  · exact .same _ _ _
  · next ms hms =>
    have h := hfit ms
    split
    · next e => rw [e] at h; exact h
    · next e => rw [e] at h; exact h

theorem tdClass_lawful : Spec.Lawful (tdClass (K := K)) := by
  have shape : ∀ (o : TdLearner K) (op : TdOp K), tdClass.isReset op = false →
      CallShape o.q.array o.original.array (o.call op).q.array (o.call op).original.array o.aliased
        (o.call op).aliased := by
    intro o op h
    cases op with
    | fit m ts => exact td_fit_shape o m ts
    | reset => cases h
    | resetLr => exact .same _ _ _
  refine ⟨fun o => ?_, fun o a s h => qarr_array _ _ h, fun o a s h => qarr_array _ _ h, fun _ _ _ => rfl, ?_, ?_,
    fun o op h => (shape o op h).keep, fun o op h => (shape o op h).start, fun o op h => (shape o op h).stays, ?_⟩
  · show ({ o with q := o.q.with o.q.array, original := o.original.with o.original.array } : TdLearner K) = o
    rw [qarr_with, qarr_with]
  · intro set a o h
    change TdLearner.init set.1 set.2.1 a set.2.2 = .ok o at h
    unfold TdLearner.init at h
    split_ifs at h
    obtain rfl := Except.ok.inj h
    cases a <;> exact ⟨rfl, rfl, rfl⟩
  · intro o op h
    cases op with
    | reset => exact ⟨rfl, rfl, rfl⟩
    | fit => cases h
    | resetLr => cases h
  · intro op h; cases h

/-! ### The learners without initial weights -/

theorem matchClass_lawful : Spec.Lawful (matchClass (K := K)) := by
  refine ⟨fun _ => rfl, fun _ _ _ _ => rfl, fun o a s h => ?_, fun _ _ _ => rfl, ?_, fun _ _ h => (by cases h), ?_, ?_,
    fun _ _ _ _ => rfl, fun _ _ _ => ⟨rfl, rfl⟩⟩
  · cases s with
    | none => rfl
    | some x => cases h
  · intro _ a o h
    cases a with
    | none => cases h; exact ⟨rfl, rfl, rfl⟩
    | some x => cases h
  · intro o op _ h
    refine ⟨?_, rfl⟩
    show (match matchFit op.1 op.2.1 op.2.2 with | .ok x => some x | .error _ => o : Option (Arr1 K)).isSome = true
    split
    · rfl
    · exact h
  · intro o op _ h
    change o = none at h
    show (match matchFit op.1 op.2.1 op.2.2 with | .ok x => some x | .error _ => o : Option (Arr1 K)) = none ∧ _ ∨
      (match matchFit op.1 op.2.1 op.2.2 with | .ok x => some x | .error _ => o : Option (Arr1 K)).isSome = true ∧ _
    split
    · exact .inr ⟨rfl, rfl⟩
    · exact .inl ⟨h, rfl⟩

theorem simpleCall_some (count : Mdp K → List Nat → Option (Py (Nat → K))) (mdps : List (Mdp K)) (ts : List (List Nat))
    (reset : Bool) (th : Nat → K) (x : Option (Nat → K) × Py Unit)
    (h : simpleCall count mdps ts reset (some th) = some x) : x.1.isSome = true := by
  unfold simpleCall at h
  simp only at h
  split_ifs at h
  · cases h; rfl
  · obtain ⟨y, -, rfl⟩ := Option.map_eq_some_iff.mp h; rfl
  · obtain ⟨y, -, rfl⟩ := Option.map_eq_some_iff.mp h; rfl

theorem simpleClass_lawful (count : Mdp K → List Nat → Option (Py (Nat → K))) :
    Spec.Lawful (simpleClass count) := by
  refine ⟨fun _ => rfl, fun _ _ _ _ => rfl, fun o a s h => ?_, fun _ _ _ => rfl, ?_, fun _ _ h => (by cases h), ?_, ?_,
    fun _ _ _ _ => rfl, fun _ _ _ => ⟨rfl, rfl⟩⟩
  · cases s with
    | none => rfl
    | some x => cases h
  · intro _ a o h
    cases a with
    | none => cases h; exact ⟨rfl, rfl, rfl⟩
    | some x => cases h
  · intro o op _ h
    refine ⟨?_, rfl⟩
    change o.isSome = true at h
    show (match simpleCall count op.mdps op.ts op.reset o with | some x => x.1 | none => o : Option (Nat → K)).isSome = true
    obtain ⟨th, rfl⟩ := Option.isSome_iff_exists.mp h
    cases hx : simpleCall count op.mdps op.ts op.reset (some th) with
    | none => rfl
    | some x => exact simpleCall_some _ _ _ _ _ _ hx
  · intro o op _ h
    show (match simpleCall count op.mdps op.ts op.reset o with | some x => x.1 | none => o : Option (Nat → K)) = none ∧ _ ∨
      (match simpleCall count op.mdps op.ts op.reset o with | some x => x.1 | none => o : Option (Nat → K)).isSome = true ∧ _
    generalize (match simpleCall count op.mdps op.ts op.reset o with | some x => x.1 | none => o : Option (Nat → K)) = y
    cases y with
    | none => exact .inl ⟨rfl, rfl⟩
    | some y => exact .inr ⟨rfl, rfl⟩

end MaMDP
