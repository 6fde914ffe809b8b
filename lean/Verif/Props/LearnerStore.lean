import Verif.Lemmas.LearnerClasses
import Verif.Lemmas.LearnerStore
import Verif.Props.LearnerState

/-! # Arrays shared between learners and their users: independence (C120), returned estimates (C121) -/

set_option linter.unusedSectionVars false

namespace MaMDP

open LearnerStore

variable {S Obj V Op : Type} {C : LearnerClass S Obj V Op}

/-! ## C120: independence -/

/-- The classes of the library are covered by the theorems below. -/
theorem C120_classes {K : Type} [Field K] [LinearOrder K] [IsStrictOrderedRing K]
    (count : Mdp K → List Nat → Option (Py (Nat → K))) :
    Spec.Lawful (mceClass (K := K)) ∧ Spec.Lawful (htClass (K := K)) ∧ Spec.Lawful (tdClass (K := K)) ∧
      Spec.Lawful (matchClass (K := K)) ∧ Spec.Lawful (simpleClass count) :=
  ⟨mceClass_lawful, htClass_lawful, tdClass_lawful, matchClass_lawful, simpleClass_lawful count⟩

/-- A method call does to a learner, as its user sees it, what the value-level model says: in every program, whatever is
shared. Other learners keep their settings and their arrays, not the contents. -/
theorem C120_refines (L : Spec.Lawful C) (σ : LearnerStore Obj V) (h0 : Spec.Started σ)
    (prog : List (LearnerStep S V Op)) (i : Nat) (o : LearnerObj Obj) (ho : (σ.run C prog).objs[i]? = some o) (op : Op) :
    (∃ o', (σ.run C (prog ++ [.call i op])).objs[i]? = some o' ∧
      (σ.run C (prog ++ [.call i op])).value C o' = C.apply ((σ.run C prog).value C o) op) ∧
    ∀ j, j ≠ i → (σ.run C (prog ++ [.call i op])).objs[j]? = (σ.run C prog).objs[j]? := by
  have hc := ((Coherent.start (C := C) h0).run L prog).1
  obtain ⟨o', h1, -, h3, -⟩ := call_spec L hc ho op
  have e : σ.run C (prog ++ [.call i op]) = (σ.run C prog).call C i op := by
    unfold LearnerStore.run
    rw [List.foldl_append]
    rfl
  have hi : i < (σ.run C prog).objs.length := (List.getElem?_eq_some_iff.mp ho).1
  rw [e]
  refine ⟨⟨o', ?_, h3⟩, fun j hj => ?_⟩
  · rw [h1, List.getElem?_set_self hi]
  · rw [h1, List.getElem?_set_ne (Ne.symm hj)]

/-- **C120, what holds.** As long as no other learner refers to the arrays of a learner, steps that concern other learners
and other arrays leave it as it is. Missing: learners built on one array. -/
theorem C120_partial (L : Spec.Lawful C) (σ : LearnerStore Obj V) (h0 : Spec.Started σ)
    (before after : List (LearnerStep S V Op)) (i : Nat) (o : LearnerObj Obj)
    (ho : (σ.run C before).objs[i]? = some o)
    (hown : ∀ j p, j ≠ i → (σ.run C before).objs[j]? = some p → ∀ r, Spec.ArrayOf p r → ¬ Spec.ArrayOf o r)
    (haside : ∀ st ∈ after, Spec.Aside i (Spec.ArrayOf o) st) :
    (σ.run C (before ++ after)).objs[i]? = some o ∧
      (σ.run C (before ++ after)).value C o = (σ.run C before).value C o := by
  have hc := ((Coherent.start (C := C) h0).run L before).1
  have e : σ.run C (before ++ after) = (σ.run C before).run C after := by
    unfold LearnerStore.run
    rw [List.foldl_append]
  rw [e]
  generalize σ.run C before = τ at *
  have hval : ∀ τ' : LearnerStore Obj V, (∀ r, Spec.ArrayOf o r → τ'.arr r = τ.arr r) → τ'.value C o = τ.value C o := by
    intro τ' h
    unfold value
    congr 1
    · cases ha : o.attr with
      | none => rfl
      | some r => simp [h r (.inl ha)]
    · cases ha : o.saved with
      | none => rfl
      | some r => simp [h r (.inr ha)]
  suffices hmain : ∀ (after : List (LearnerStep S V Op)) (τ' : LearnerStore Obj V), Coherent C τ' →
      (∀ st ∈ after, Spec.Aside i (Spec.ArrayOf o) st) → τ'.objs[i]? = some o →
      (∀ j p, j ≠ i → τ'.objs[j]? = some p → ∀ r, Spec.ArrayOf p r → ¬ Spec.ArrayOf o r) →
      (∀ r, Spec.ArrayOf o r → τ'.arr r = τ.arr r) →
      (τ'.run C after).objs[i]? = some o ∧ (∀ r, Spec.ArrayOf o r → (τ'.run C after).arr r = τ.arr r) by
    obtain ⟨h1, h2⟩ := hmain after τ hc haside ho hown fun _ _ => rfl
    exact ⟨h1, hval _ h2⟩
  intro after
  clear haside
  induction after with
  | nil => intro τ' _ _ h1 _ h2; exact ⟨h1, h2⟩
  | cons st after ih =>
    intro τ' hc' hs h1 hothers h2
    have hlt : ∀ r, Spec.ArrayOf o r → r < τ'.next := by
      intro r hr
      have hok := hc' o (List.mem_of_getElem? h1)
      rcases hr with hr | hr
      · exact hok.attr_lt r hr
      · exact hok.saved_lt r hr
    have hi : i < τ'.objs.length := (List.getElem?_eq_some_iff.mp h1).1
    have hst := hs st (List.mem_cons_self ..)
    suffices hstep : (τ'.apply C st).objs[i]? = some o ∧
        (∀ j p, j ≠ i → (τ'.apply C st).objs[j]? = some p → ∀ r, Spec.ArrayOf p r → ¬ Spec.ArrayOf o r) ∧
        (∀ r, Spec.ArrayOf o r → (τ'.apply C st).arr r = τ'.arr r) from
      ih _ (hc'.apply L st).1 (fun st h => hs st (List.mem_cons_of_mem _ h)) hstep.1 hstep.2.1
        fun r hr => (hstep.2.2 r hr).trans (h2 r hr)
    cases st with
    | newArray x =>
      refine ⟨h1, hothers, fun r hr => ?_⟩
      have := hlt r hr
      show (if r = τ'.next then x else τ'.arr r) = _
      rw [if_neg (by omega)]
    | writeArray q x =>
      unfold LearnerStore.apply
      simp only
      split_ifs
      · refine ⟨h1, hothers, fun r hr => ?_⟩
        have : r ≠ q := by
          rintro rfl
          exact hst hr
        simp [this]
      · exact ⟨h1, hothers, fun _ _ => rfl⟩
    | build set init =>
      unfold LearnerStore.apply
      simp only
      split_ifs with hin
      · cases hb : C.init set (init.map τ'.arr) with
        | error e => rw [build_error L hb]; exact ⟨h1, hothers, fun _ _ => rfl⟩
        | ok b =>
          obtain ⟨p, k1, k2, k3, k4, -, k6, k7⟩ := build_spec L hin hb
          refine ⟨?_, ?_, fun r hr => k7 r (hlt r hr)⟩
          · rw [k1, List.getElem?_append_left hi, h1]
          · intro j q hj hq r hr
            rw [k1] at hq
            by_cases hjl : j < τ'.objs.length
            · rw [List.getElem?_append_left hjl] at hq
              exact hothers j q hj hq r hr
            · rw [List.getElem?_append_right (by omega), List.getElem?_singleton] at hq
              split_ifs at hq
              cases hq
              rcases hr with hr | hr
              · rw [k4] at hr
                exact hst r hr
              · intro hmine
                have := hlt r hmine
                have := k6 r hr
                omega
      · exact ⟨h1, hothers, fun _ _ => rfl⟩
    | call j op =>
      have hj : j ≠ i := hst
      show (τ'.call C j op).objs[i]? = some o ∧ _ ∧ ∀ r, _ → (τ'.call C j op).arr r = _
      cases hp : τ'.objs[j]? with
      | none =>
        have : τ'.call C j op = τ' := by unfold LearnerStore.call; rw [hp]
        show _ ∧ (∀ j' p, j' ≠ i → (τ'.call C j op).objs[j']? = some p → _) ∧ _
        rw [this]
        exact ⟨h1, hothers, fun _ _ => rfl⟩
      | some p =>
        obtain ⟨p', k1, -, -, -, k5, k6, k7, k8⟩ := call_spec L hc' hp op
        have hjl : j < τ'.objs.length := (List.getElem?_eq_some_iff.mp hp).1
        have hpm : ∀ r, Spec.ArrayOf p r → ¬ Spec.ArrayOf o r := hothers j p hj hp
        have hnew : (∀ r, Spec.ArrayOf p' r → ¬ Spec.ArrayOf o r) ∧
            ∀ r, Spec.ArrayOf o r → (τ'.call C j op).arr r = τ'.arr r := by
          by_cases hr : C.isReset op = true
          · obtain ⟨e1, e2⟩ := k6 hr
            refine ⟨fun r hr => ?_, fun r _ => by rw [e2]⟩
            unfold Spec.ArrayOf at hr
            rw [e1, k5, or_self] at hr
            exact hpm r (.inr hr)
          · have hr' : C.isReset op = false := by simpa using hr
            cases hx : C.attr (C.apply (τ'.value C p) op) with
            | none =>
              obtain ⟨e1, e2⟩ := k7 hr' hx
              refine ⟨fun r hr => ?_, fun r _ => by rw [e2]⟩
              unfold Spec.ArrayOf at hr
              rw [e1, k5] at hr
              exact hpm r hr
            | some x =>
              obtain ⟨q, e1, -, -, e4, -, e6⟩ := k8 hr' x hx
              have hq : ¬ Spec.ArrayOf o q := by
                rcases e4 with rfl | e4
                · intro hmine
                  exact absurd (hlt _ hmine) (lt_irrefl _)
                · exact hpm q (.inl e4)
              refine ⟨fun r hr => ?_, fun r hr => e6 r ?_⟩
              · unfold Spec.ArrayOf at hr
                rw [e1, k5] at hr
                rcases hr with hr | hr
                · cases hr; exact hq
                · exact hpm r (.inr hr)
              · rintro rfl
                exact hq hr
        refine ⟨?_, ?_, hnew.2⟩
        · rw [k1, List.getElem?_set_ne hj, h1]
        · intro j' q hj' hq
          have hq' : (τ'.call C j op).objs[j']? = some q := hq
          rw [k1] at hq'
          by_cases hjj : j' = j
          · subst hjj
            rw [List.getElem?_set_self hjl] at hq'
            cases hq'
            exact hnew.1
          · rw [List.getElem?_set_ne (Ne.symm hjj)] at hq'
            exact hothers j' q hj' hq'

theorem run_snoc (σ : LearnerStore Obj V) (prog : List (LearnerStep S V Op)) (st : LearnerStep S V Op) :
    σ.run C (prog ++ [st]) = (σ.run C prog).apply C st := by
  unfold LearnerStore.run
  rw [List.foldl_append]
  rfl

theorem run_cons (σ : LearnerStore Obj V) (prog : List (LearnerStep S V Op)) (st : LearnerStep S V Op) :
    σ.run C (st :: prog) = (σ.apply C st).run C prog := rfl

/-- A call in place: array and attribute hold the new estimate. -/
theorem call_in_place (L : Spec.Lawful C) {τ : LearnerStore Obj V} (hc : Coherent C τ) {i : Nat} {o : LearnerObj Obj}
    (ho : τ.objs[i]? = some o) {r : Nat} (hr : o.attr = some r) {op : Op} (h1 : C.isReset op = false)
    (h2 : C.fresh op = false) : ∃ x, C.attr (C.apply (τ.value C o) op) = some x ∧ (τ.call C i op).arr r = x := by
  have hok := hc o (List.mem_of_getElem? ho)
  have hk := (L.keep (τ.value C o) op h1 (by rw [(value_attr L hok).1, hr]; rfl)).1
  obtain ⟨x, hx⟩ := Option.isSome_iff_exists.mp hk
  obtain ⟨o', -, -, -, -, -, -, -, k8⟩ := call_spec L hc ho op
  obtain ⟨q, -, -, e3, -, e5, -⟩ := k8 h1 x hx
  rw [h2, hr] at e3
  have : q = r := by simpa using e3
  exact ⟨x, hx, this ▸ e5⟩

/-- Two learners with one array: a call on the first gives the second, and whoever holds the array, the estimate of the
first. -/
theorem C120_shared (L : Spec.Lawful C) (σ : LearnerStore Obj V) (h0 : Spec.Started σ)
    (prog : List (LearnerStep S V Op)) (i j : Nat) (hij : j ≠ i) (o p : LearnerObj Obj)
    (ho : (σ.run C prog).objs[i]? = some o) (hp : (σ.run C prog).objs[j]? = some p) (r : Nat) (hor : o.attr = some r)
    (hpr : p.attr = some r) (op : Op) (h1 : C.isReset op = false) (h2 : C.fresh op = false) :
    ∃ x, C.attr (C.apply ((σ.run C prog).value C o) op) = some x ∧
      (σ.run C (prog ++ [.call i op])).arr r = x ∧
      (σ.run C (prog ++ [.call i op])).objs[j]? = some p ∧
      C.attr ((σ.run C (prog ++ [.call i op])).value C p) = some x := by
  have hc := ((Coherent.start (C := C) h0).run L prog).1
  obtain ⟨x, hx, hxr⟩ := call_in_place L hc ho hor h1 h2
  have hpj := (C120_refines L σ h0 prog i o ho op).2 j hij
  rw [hp] at hpj
  have hc' := ((Coherent.start (C := C) h0).run L (prog ++ [.call i op])).1
  refine ⟨x, hx, ?_, hpj, ?_⟩
  · rw [run_snoc]; exact hxr
  · rw [(value_attr L (hc' p (List.mem_of_getElem? hpj))).1, hpr, run_snoc]
    exact congrArg some hxr

/-- Building two learners from one array makes them share it. -/
theorem C120_built (L : Spec.Lawful C) (σ : LearnerStore Obj V) (prog : List (LearnerStep S V Op)) (r : Nat)
    (hr : r < (σ.run C prog).next) (s1 s2 : S) (a b : Obj)
    (h1 : C.init s1 (some ((σ.run C prog).arr r)) = .ok a) (h2 : C.init s2 (some ((σ.run C prog).arr r)) = .ok b) :
    ∃ o p, (σ.run C (prog ++ [.build s1 (some r), .build s2 (some r)])).objs = (σ.run C prog).objs ++ [o, p] ∧
      o.attr = some r ∧ p.attr = some r := by
  have e : σ.run C (prog ++ [.build s1 (some r), .build s2 (some r)]) =
      ((σ.run C prog).apply C (.build s1 (some r))).apply C (.build s2 (some r)) := by
    unfold LearnerStore.run
    rw [List.foldl_append]
    rfl
  rw [e]
  generalize σ.run C prog = τ at *
  have hin : ∀ q ∈ some r, q < τ.next := by
    intro q hq; cases hq; exact hr
  have e1 : τ.apply C (.build s1 (some r)) = τ.build C s1 (some r) := by
    show (if _ then _ else _) = _
    rw [if_pos hin]
  obtain ⟨o, k1, -, k3, k4, -, -, k7⟩ := build_spec L hin (o := a) (set := s1) h1
  have hin' : ∀ q ∈ some r, q < (τ.build C s1 (some r)).next := fun q hq => (hin q hq).trans_le k3
  have e2 : (τ.build C s1 (some r)).apply C (.build s2 (some r)) = (τ.build C s1 (some r)).build C s2 (some r) := by
    show (if _ then _ else _) = _
    rw [if_pos hin']
  obtain ⟨p, l1, -, -, l4, -⟩ := build_spec L hin' (o := b) (set := s2) (by
    show C.init s2 (some ((τ.build C s1 (some r)).arr r)) = _
    rw [k7 r hr]; exact h2)
  refine ⟨o, p, ?_, k4, l4⟩
  rw [e1, e2, l1, k1, List.append_assoc]
  rfl

/-- A store before anything has been made. -/
def exEmpty {Obj V : Type} (x : V) : LearnerStore Obj V := ⟨fun _ => x, 0, []⟩

/-- Two learners built from one array of zeros. -/
def exBoth : List (LearnerStep (ℚ × Decay ℚ × Option (Nat → Nat → Nat → ℚ)) (Arr1 ℚ) (TdOp ℚ)) :=
  [.newArray ⟨4, fun _ => 0⟩, .build (1/2, .int 0, none) (some 0), .build (1/2, .int 0, none) (some 0)]

/-- **C120 is false of the code.** Two policy learners are built from one array of zeros and the first is fitted to one move
to the right. The second, never called, now prefers that action as well. -/
theorem C120_refuted : ∃ (m : Mdp ℚ) (p p' : TdLearner ℚ),
    (let τ := (exEmpty ⟨4, fun _ => 0⟩).run tdClass exBoth
     let τ' := (exEmpty ⟨4, fun _ => 0⟩).run tdClass (exBoth ++ [.call 0 (.fit (.inl m) [[0, 1]])])
     τ.objs[1]?.map (τ.value tdClass) = some p ∧ τ'.objs[1]?.map (τ'.value tdClass) = some p') ∧
    (p.q.array.map fun x => x.get 0) = some 0 ∧ (p'.q.array.map fun x => x.get 0) = some (1/2) := by
  have key : ∀ x, exStrip = x → (match x with
      | .ok m =>
        let τ := (exEmpty ⟨4, fun _ => 0⟩).run tdClass exBoth
        let τ' := (exEmpty ⟨4, fun _ => 0⟩).run tdClass (exBoth ++ [.call 0 (.fit (.inl m) [[0, 1]])])
        (match τ.objs[1]?.map (τ.value tdClass), τ'.objs[1]?.map (τ'.value tdClass) with
          | some p, some p' => decide ((p.q.array.map fun x => x.get 0) = some 0) &&
              decide ((p'.q.array.map fun x => x.get 0) = some (1/2))
          | _, _ => false)
      | _ => false) = true → ∃ (m : Mdp ℚ) (p p' : TdLearner ℚ),
        (let τ := (exEmpty ⟨4, fun _ => 0⟩).run tdClass exBoth
         let τ' := (exEmpty ⟨4, fun _ => 0⟩).run tdClass (exBoth ++ [.call 0 (.fit (.inl m) [[0, 1]])])
         τ.objs[1]?.map (τ.value tdClass) = some p ∧ τ'.objs[1]?.map (τ'.value tdClass) = some p') ∧
        (p.q.array.map fun x => x.get 0) = some 0 ∧ (p'.q.array.map fun x => x.get 0) = some (1/2) := by
    intro x _ h
    cases x with
    | error e => cases h
    | ok m =>
      simp only at h
      split at h
      · next p p' h1 h2 =>
        rw [Bool.and_eq_true, decide_eq_true_iff, decide_eq_true_iff] at h
        exact ⟨m, p, p', ⟨h1, h2⟩, h⟩
      · cases h
  exact key _ rfl (by decide +kernel)

/-- The hypotheses of `C120_partial` are met by learners with arrays of their own: the first keeps its estimates. -/
example : (match exStrip with
    | .ok m =>
      let before : List (LearnerStep (ℚ × Decay ℚ × Option (Nat → Nat → Nat → ℚ)) (Arr1 ℚ) (TdOp ℚ)) :=
        [.newArray ⟨4, fun _ => 0⟩, .newArray ⟨4, fun _ => 0⟩, .build (1/2, .int 0, none) (some 0),
          .build (1/2, .int 0, none) (some 1)]
      let τ := (exEmpty ⟨4, fun _ => 0⟩).run tdClass before
      let τ' := (exEmpty ⟨4, fun _ => 0⟩).run tdClass (before ++ [.call 1 (.fit (.inl m) [[0, 1]])])
      (match τ.objs with
        | [o, p] => decide (o.attr = some 0 ∧ o.saved = some 2 ∧ p.attr = some 1 ∧ p.saved = some 3)
        | _ => false) &&
      (match τ'.objs.map fun o => ((τ'.value tdClass o).q.array.map fun x => x.get 0) with
        | [a, b] => decide (a = some 0 ∧ b = some (1/2))
        | _ => false)
    | _ => false) = true := by decide +kernel

/-! ## C121: returned estimates -/

/-- **C121 is false of the code.** `fit` returns the array of the learner; its next `fit` (or any other call but `reset` and
those storing a new array) overwrites it with the new estimate. -/
theorem C121_refuted (L : Spec.Lawful C) (σ : LearnerStore Obj V) (h0 : Spec.Started σ)
    (prog : List (LearnerStep S V Op)) (i : Nat) (o : LearnerObj Obj) (ho : (σ.run C prog).objs[i]? = some o) (r : Nat)
    (hr : o.attr = some r) (op : Op) (h1 : C.isReset op = false) (h2 : C.fresh op = false) :
    C.attr (C.apply ((σ.run C prog).value C o) op) = some ((σ.run C (prog ++ [.call i op])).arr r) := by
  have hc := ((Coherent.start (C := C) h0).run L prog).1
  obtain ⟨x, hx, hxr⟩ := call_in_place L hc ho hr h1 h2
  rw [hx, run_snoc]
  exact congrArg some hxr.symm

/-- A step that does not write into an existing array leaves it alone. -/
theorem apply_arr (L : Spec.Lawful C) {τ : LearnerStore Obj V} (hc : Coherent C τ) (st : LearnerStep S V Op) {r : Nat}
    (hr : r < τ.next) (h : ¬ Spec.WritesInto C τ r st) : (τ.apply C st).arr r = τ.arr r := by
  cases st with
  | newArray x =>
    show (if r = τ.next then x else τ.arr r) = _
    rw [if_neg (by omega)]
  | writeArray q x =>
    unfold LearnerStore.apply
    simp only
    split_ifs
    · have : r ≠ q := fun e => h e.symm
      simp [this]
    · rfl
  | build set init =>
    unfold LearnerStore.apply
    simp only
    split_ifs with hin
    · cases hb : C.init set (init.map τ.arr) with
      | error e => rw [build_error L hb]
      | ok b =>
        obtain ⟨p, -, -, -, -, -, -, k7⟩ := build_spec L hin hb
        exact k7 r hr
    · rfl
  | call i op =>
    show (τ.call C i op).arr r = _
    cases ho : τ.objs[i]? with
    | none => unfold LearnerStore.call; rw [ho]
    | some o =>
      obtain ⟨o', -, -, -, -, -, k6, k7, k8⟩ := call_spec L hc ho op
      by_cases h1 : C.isReset op = true
      · rw [(k6 h1).2]
      · have h1' : C.isReset op = false := by simpa using h1
        cases hx : C.attr (C.apply (τ.value C o) op) with
        | none => rw [(k7 h1' hx).2]
        | some x =>
          obtain ⟨q, -, -, e3, e4, -, e6⟩ := k8 h1' x hx
          refine e6 r ?_
          rintro rfl
          rcases e4 with e4 | e4
          · omega
          · by_cases h2 : C.fresh op = true
            · rw [if_pos h2] at e3; omega
            · exact h ⟨h1', by simpa using h2, o, ho, e4⟩

/-- **C121, what holds.** An array keeps its contents through every program none of whose steps writes into it: neither the
program itself nor a call other than `reset` of a learner whose current estimate it is. Missing: further fits of the learner
that returned it. -/
theorem C121_partial (L : Spec.Lawful C) (σ : LearnerStore Obj V) (h0 : Spec.Started σ)
    (before after : List (LearnerStep S V Op)) (r : Nat) (hr : r < (σ.run C before).next)
    (h : Spec.NeverWrites C r (σ.run C before) after) :
    (σ.run C (before ++ after)).arr r = (σ.run C before).arr r := by
  have hc := ((Coherent.start (C := C) h0).run L before).1
  have e : σ.run C (before ++ after) = (σ.run C before).run C after := by
    unfold LearnerStore.run
    rw [List.foldl_append]
  rw [e]
  clear e
  generalize σ.run C before = τ at *
  induction after generalizing τ with
  | nil => rfl
  | cons st after ih =>
    have ha := hc.apply L st
    rw [run_cons, ih _ (hr.trans_le ha.2) h.2 ha.1, apply_arr L hc st hr h.1]

/-- After `reset`, a learner leaves its former estimate alone, unless that is its saved array: whatever is called on it. -/
theorem C121_after_reset (L : Spec.Lawful C) (σ : LearnerStore Obj V) (h0 : Spec.Started σ)
    (before : List (LearnerStep S V Op)) (i : Nat) (o : LearnerObj Obj) (ho : (σ.run C before).objs[i]? = some o) (r : Nat)
    (hr : o.attr = some r) (hs : o.saved ≠ some r) (reset : Op) (hre : C.isReset reset = true) (ops : List Op) :
    (σ.run C (before ++ (.call i reset :: ops.map (.call i)))).arr r = (σ.run C before).arr r := by
  have hc := ((Coherent.start (C := C) h0).run L before).1
  have hrn : r < (σ.run C before).next := (hc o (List.mem_of_getElem? ho)).attr_lt r hr
  refine C121_partial L σ h0 before _ r hrn ?_
  have hno : ∀ (τ : LearnerStore Obj V) j op p, τ.objs[j]? = some p → p.attr ≠ some r →
      ¬ Spec.WritesInto C τ r (.call j op) := by
    rintro τ j op p hp hne ⟨-, -, q, hq, hqr⟩
    rw [hp] at hq
    cases hq
    exact hne hqr
  refine ⟨fun h => ?_, ?_⟩
  · rw [h.1] at hre; cases hre
  obtain ⟨o', k1, -, -, -, k5, k6, -, -⟩ := call_spec L hc ho reset
  have hi : i < (σ.run C before).objs.length := (List.getElem?_eq_some_iff.mp ho).1
  have ho' : ((σ.run C before).apply C (.call i reset)).objs[i]? = some o' := by
    show ((σ.run C before).call C i reset).objs[i]? = _
    rw [k1, List.getElem?_set_self hi]
  have hc' := hc.apply L (.call i reset)
  have hrn' := hrn.trans_le hc'.2
  have hs' : o'.saved ≠ some r := by rw [k5]; exact hs
  have ha' : o'.attr ≠ some r := by rw [(k6 hre).1]; exact hs
  generalize (σ.run C before).apply C (.call i reset) = τ at ho' hc' hrn'
  replace hc' := hc'.1
  clear k1 k5 k6
  induction ops generalizing τ o' with
  | nil => trivial
  | cons op ops ih =>
    refine ⟨hno τ i op o' ho' ha', ?_⟩
    obtain ⟨p, k1, -, -, k4, k5, k6, k7, k8⟩ := call_spec L hc' ho' op
    have hi : i < τ.objs.length := (List.getElem?_eq_some_iff.mp ho').1
    refine ih p (by rw [k5]; exact hs') ?_ (τ.apply C (.call i op)) ?_ (hrn'.trans_le k4) (hc'.apply L _).1
    · by_cases h1 : C.isReset op = true
      · rw [(k6 h1).1]; exact hs'
      · have h1' : C.isReset op = false := by simpa using h1
        cases hx : C.attr (C.apply (τ.value C o') op) with
        | none => rw [(k7 h1' hx).1]; exact ha'
        | some x =>
          obtain ⟨q, e1, -, -, e4, -⟩ := k8 h1' x hx
          rw [e1]
          rintro ⟨⟩
          rcases e4 with rfl | e4
          · exact lt_irrefl _ hrn'
          · exact ha' e4
    · show (τ.call C i op).objs[i]? = _
      rw [k1, List.getElem?_set_self hi]

/-- Calls that store a new array, or leave the estimate as it is, never change an array there is. -/
theorem C121_new_array (L : Spec.Lawful C) (σ : LearnerStore Obj V) (h0 : Spec.Started σ)
    (prog : List (LearnerStep S V Op)) (i : Nat) (op : Op)
    (h : C.fresh op = true ∨ ∀ o : Obj, C.apply o op = o) (r : Nat) (hr : r < (σ.run C prog).next) :
    (σ.run C (prog ++ [.call i op])).arr r = (σ.run C prog).arr r := by
  have hc := ((Coherent.start (C := C) h0).run L prog).1
  rw [run_snoc]
  generalize σ.run C prog = τ at *
  rcases h with h | h
  · refine apply_arr L hc _ hr ?_
    rintro ⟨-, h2, -⟩
    rw [h] at h2
    cases h2
  · show (τ.call C i op).arr r = _
    cases ho : τ.objs[i]? with
    | none => unfold LearnerStore.call; rw [ho]
    | some o =>
      obtain ⟨v1, -⟩ := value_attr L (hc o (List.mem_of_getElem? ho))
      obtain ⟨o', -, -, -, -, -, k6, k7, k8⟩ := call_spec L hc ho op
      by_cases h1 : C.isReset op = true
      · rw [(k6 h1).2]
      · have h1' : C.isReset op = false := by simpa using h1
        cases hx : C.attr (C.apply (τ.value C o) op) with
        | none => rw [(k7 h1' hx).2]
        | some x =>
          obtain ⟨q, -, -, e3, e4, e5, e6⟩ := k8 h1' x hx
          by_cases hq : r = q
          · subst hq
            rcases e4 with e4 | e4
            · omega
            · rw [h, v1, e4] at hx
              rw [e5]
              exact (Option.some.inj hx).symm
          · exact e6 r hq

section Library

variable {K : Type} [Field K] [LinearOrder K] [IsStrictOrderedRing K]

/-- Feature matching never changes an estimate it returned. -/
theorem C121_matching (σ : LearnerStore (Option (Arr1 K)) (Arr1 K)) (h0 : Spec.Started σ)
    (prog : List (LearnerStep Unit (Arr1 K) ((Mdp K ⊕ List (Mdp K)) × List (List Int) × List Int))) (i : Nat)
    (op : (Mdp K ⊕ List (Mdp K)) × List (List Int) × List Int) (r : Nat) (hr : r < (σ.run matchClass prog).next) :
    (σ.run matchClass (prog ++ [.call i op])).arr r = (σ.run matchClass prog).arr r := by
  refine C121_new_array matchClass_lawful σ h0 prog i op ?_ r hr
  cases h : matchFit op.1 op.2.1 op.2.2 with
  | ok x => left; show (match matchFit op.1 op.2.1 op.2.2 with | .ok _ => true | .error _ => false) = true; rw [h]
  | error e =>
    right
    intro o
    show (match matchFit op.1 op.2.1 op.2.2 with | .ok x => some x | .error _ => o) = o
    rw [h]

/-- The action learners do not change an estimate they returned as long as `reset` keeps its default `True`. -/
theorem C121_simple (count : Mdp K → List Nat → Option (Py (Nat → K))) (σ : LearnerStore (Option (Nat → K)) (Nat → K))
    (h0 : Spec.Started σ) (prog : List (LearnerStep Unit (Nat → K) (SimpleOp K))) (i : Nat) (mdps : List (Mdp K))
    (ts : List (List Nat)) (r : Nat) (hr : r < (σ.run (simpleClass count) prog).next) :
    (σ.run (simpleClass count) (prog ++ [.call i ⟨mdps, ts, true⟩])).arr r = (σ.run (simpleClass count) prog).arr r := by
  refine C121_new_array (simpleClass_lawful count) σ h0 prog i _ ?_ r hr
  cases mdps with
  | cons m l => exact .inl rfl
  | nil =>
    right
    intro o
    cases o <;> rfl

/-- With `reset=False` they do: the array returned before holds the new estimate. -/
theorem C121_simple_refuted (count : Mdp K → List Nat → Option (Py (Nat → K)))
    (σ : LearnerStore (Option (Nat → K)) (Nat → K)) (h0 : Spec.Started σ)
    (prog : List (LearnerStep Unit (Nat → K) (SimpleOp K))) (i : Nat) (o : LearnerObj (Option (Nat → K)))
    (ho : (σ.run (simpleClass count) prog).objs[i]? = some o) (r : Nat) (hr : o.attr = some r) (mdps : List (Mdp K))
    (ts : List (List Nat)) :
    (simpleClass count).apply ((σ.run (simpleClass count) prog).value (simpleClass count) o) ⟨mdps, ts, false⟩ =
      some ((σ.run (simpleClass count) (prog ++ [.call i ⟨mdps, ts, false⟩])).arr r) :=
  C121_refuted (simpleClass_lawful count) σ h0 prog i o ho r hr ⟨mdps, ts, false⟩ rfl rfl

/-- What the object-level model of the action learners returns is what the value-level one does. -/
theorem C121_simple_outcome (count : Mdp K → List Nat → Option (Py (Nat → K))) (mdps : List (Mdp K))
    (ts : List (List Nat)) (reset : Bool) (theta : Option (Nat → K)) :
    simpleBody count mdps ts reset theta = match simpleCall count mdps ts reset theta with
      | some (some x, .ok ()) => some (.ok x)
      | some (_, .error e) => some (.error e)
      | _ => none := by
  have hl : ∀ (mdps : List (Mdp K)) (ts : List (List Nat)) (th : Nat → K),
      simpleLoop count mdps ts th = match (simpleLeft count mdps ts th).map fun x => (some x.1, x.2) with
        | some (some x, .ok ()) => some (.ok x)
        | some (_, .error e) => some (.error e)
        | _ => none := by
    intro mdps
    induction mdps with
    | nil => intro ts th; cases ts <;> rfl
    | cons m mdps ih =>
      intro ts th
      cases ts with
      | nil => rfl
      | cons t ts =>
        unfold simpleLoop simpleLeft
        cases hc : count m t with
        | none => rfl
        | some c =>
          cases c with
          | error e => rfl
          | ok c => exact ih _ _
  unfold simpleBody simpleCall
  cases theta with
  | none =>
    simp only
    split_ifs
    · rfl
    · exact hl _ _ _
  | some th =>
    simp only
    split_ifs
    · rfl
    · exact hl _ _ _
    · exact hl _ _ _

end Library

/-- A first estimate is overwritten by the second fit; after a reset it is not. -/
example : (match exStrip with
    | .ok m =>
      let fit : LearnerStep (ℚ × Decay ℚ × Option (Nat → Nat → Nat → ℚ)) (Arr1 ℚ) (TdOp ℚ) :=
        .call 0 (.fit (.inl m) [[0, 1]])
      let before : List (LearnerStep (ℚ × Decay ℚ × Option (Nat → Nat → Nat → ℚ)) (Arr1 ℚ) (TdOp ℚ)) :=
        [.newArray ⟨4, fun _ => 0⟩, .build (1/2, .int 0, none) (some 0), fit]
      let run := (exEmpty ⟨4, fun _ => 0⟩).run (tdClass (K := ℚ))
      decide (((run before).objs.map fun o => (o.attr, o.saved)) = [(some 0, some 1)]) &&
        decide (((run before).arr 0).get 0 = 1/2) && decide (((run (before ++ [fit])).arr 0).get 0 = 3/4) &&
        decide (((run (before ++ [.call 0 .reset, fit])).arr 0).get 0 = 1/2)
    | _ => false) = true := by decide +kernel

end MaMDP
