import Verif.Spec.LearnerStore
import Verif.Lemmas.IRL

/-! # Lemmas about arrays shared between learners -/

set_option linter.unusedSectionVars false

namespace MaMDP

namespace LearnerStore

variable {S Obj V Op : Type} {C : LearnerClass S Obj V Op}

/-- The references of a learner match its state. -/
structure ObjOk (C : LearnerClass S Obj V Op) (next : Nat) (o : LearnerObj Obj) : Prop where
  attr : o.attr.isSome = (C.attr o.core).isSome
  saved : o.saved.isSome = (C.saved o.core).isSome
  attr_lt : ∀ r, o.attr = some r → r < next
  saved_lt : ∀ r, o.saved = some r → r < next
  same : C.aliased o.core = true → o.attr = o.saved
  apart : C.aliased o.core = false → ∀ r, o.attr = some r → o.saved ≠ some r

/-- All learners are like that. -/
def Coherent (C : LearnerClass S Obj V Op) (σ : LearnerStore Obj V) : Prop := ∀ o ∈ σ.objs, ObjOk C σ.next o

theorem ObjOk.mono {n m : Nat} {o : LearnerObj Obj} (h : ObjOk C n o) (hnm : n ≤ m) : ObjOk C m o :=
  ⟨h.attr, h.saved, fun r hr => (h.attr_lt r hr).trans_le hnm, fun r hr => (h.saved_lt r hr).trans_le hnm, h.same, h.apart⟩

variable (L : Spec.Lawful C)
include L

theorem value_attr {σ : LearnerStore Obj V} {o : LearnerObj Obj} (h : ObjOk C σ.next o) :
    C.attr (σ.value C o) = o.attr.map σ.arr ∧ C.saved (σ.value C o) = o.saved.map σ.arr ∧
      C.aliased (σ.value C o) = C.aliased o.core := by
  refine ⟨L.attr_load _ _ _ ?_, L.saved_load _ _ _ ?_, L.aliased_load _ _ _⟩
  · rw [Option.isSome_map]; exact h.attr
  · rw [Option.isSome_map]; exact h.saved

theorem value_eq {σ : LearnerStore Obj V} {o : LearnerObj Obj} (h1 : o.attr.map σ.arr = C.attr o.core)
    (h2 : o.saved.map σ.arr = C.saved o.core) : σ.value C o = o.core := by
  unfold value
  rw [h1, h2, L.load_eq]

/-- A call on an existing learner. -/
theorem call_spec {σ : LearnerStore Obj V} (hσ : Coherent C σ) {i : Nat} {o : LearnerObj Obj} (ho : σ.objs[i]? = some o)
    (op : Op) : ∃ o', (σ.call C i op).objs = σ.objs.set i o' ∧ ObjOk C (σ.call C i op).next o' ∧
      (σ.call C i op).value C o' = C.apply (σ.value C o) op ∧ σ.next ≤ (σ.call C i op).next ∧
      o'.saved = o.saved ∧
      (C.isReset op = true → o'.attr = o.saved ∧ (σ.call C i op).arr = σ.arr) ∧
      (C.isReset op = false → C.attr (C.apply (σ.value C o) op) = none →
        o'.attr = o.attr ∧ (σ.call C i op).arr = σ.arr) ∧
      (C.isReset op = false → ∀ x, C.attr (C.apply (σ.value C o) op) = some x → ∃ r,
        o'.attr = some r ∧ r < (σ.call C i op).next ∧
        r = (if C.fresh op then σ.next else o.attr.getD σ.next) ∧ (r = σ.next ∨ o.attr = some r) ∧
        (σ.call C i op).arr r = x ∧ ∀ q, q ≠ r → (σ.call C i op).arr q = σ.arr q) := by
  have hok := hσ o (List.mem_of_getElem? ho)
  obtain ⟨v1, v2, v3⟩ := value_attr L hok
  unfold call
  rw [ho]
  simp only
  by_cases hr : C.isReset op = true
  · rw [if_pos hr]
    obtain ⟨r1, r2, r3⟩ := L.reset (σ.value C o) op hr
    have hval : value C σ ⟨C.apply (σ.value C o) op, o.saved, o.saved⟩ = C.apply (σ.value C o) op :=
      value_eq L (by rw [r1, v2]) (by rw [r2, v2])
    refine ⟨⟨_, o.saved, o.saved⟩, rfl, ⟨?_, ?_, hok.saved_lt, hok.saved_lt, fun _ => rfl, ?_⟩, hval, le_refl _, rfl,
      fun _ => ⟨rfl, rfl⟩, fun h => ?_, fun h => ?_⟩
    · rw [r1, v2, Option.isSome_map]
    · rw [r2, v2, Option.isSome_map]
    · intro h; simp only at h; rw [r3] at h; cases h
    · rw [hr] at h; cases h
    · rw [hr] at h; cases h
  · rw [if_neg hr]
    have hr' : C.isReset op = false := by simpa using hr
    have hst := L.stays (σ.value C o) op hr' (by rw [v1, v2, v3]; intro h; rw [hok.same h])
    rw [v1, v2, v3, Option.isSome_map] at hst
    cases hx : C.attr (C.apply (σ.value C o) op) with
    | none =>
      simp only
      have ha : o.attr = none := by
        cases h : o.attr with
        | none => rfl
        | some r =>
          have := (L.keep (σ.value C o) op hr' (by rw [v1, h]; rfl)).1
          rw [hx] at this
          cases this
      have hal : C.aliased (C.apply (σ.value C o) op) = C.aliased o.core := by
        rcases L.start (σ.value C o) op hr' (by rw [v1, ha]; rfl) with h | h
        · rw [h.2, v3]
        · rw [hx] at h; cases h.1
      rw [ha] at hst
      simp only [Option.isSome_none, Bool.false_eq_true, and_false, if_false] at hst
      refine ⟨⟨_, o.attr, o.saved⟩, rfl, ⟨?_, ?_, hok.attr_lt, hok.saved_lt, ?_, ?_⟩, ?_, le_refl _, rfl, fun h => ?_,
        fun _ _ => ⟨rfl, trivial⟩, fun _ x h => ?_⟩
      · simp only; rw [hx, ha]; rfl
      · simp only; rw [hst, Option.isSome_map]
      · simp only; rw [hal]; exact hok.same
      · simp only; rw [hal]; exact hok.apart
      · exact value_eq L (by simp only; rw [hx, ha]; rfl) (by simp only; rw [hst])
      · exact absurd h hr
      · cases h
    | some x =>
      simp only
      generalize hr0 : (if C.fresh op then σ.next else o.attr.getD σ.next) = r
      have hcase : (o.attr = some r ∧ C.fresh op = false) ∨
          (r = σ.next ∧ (o.attr = none ∨ C.fresh op = true)) := by
        by_cases hf : C.fresh op = true
        · rw [if_pos hf] at hr0
          exact .inr ⟨hr0.symm, .inr hf⟩
        · rw [if_neg hf] at hr0
          cases ha : o.attr with
          | none => rw [ha] at hr0; exact .inr ⟨hr0.symm, .inl rfl⟩
          | some q => rw [ha] at hr0; exact .inl ⟨by rw [← hr0]; rfl, by simpa using hf⟩
      have hlt : r < σ.next + 1 := by
        rcases hcase with ⟨h, -⟩ | ⟨h, -⟩
        · exact (hok.attr_lt r h).trans (Nat.lt_succ_self _)
        · omega
      -- the saved array
      have hsv : o.saved.map (fun q => if q = r then x else σ.arr q) = C.saved (C.apply (σ.value C o) op) := by
        rw [hst]
        cases hs : o.saved with
        | none =>
          rw [if_neg]
          · rfl
          · rintro ⟨h1, h2⟩
            rw [hok.same h1, hs] at h2
            cases h2
        | some q =>
          rcases hcase with ⟨h, hf⟩ | ⟨h, h'⟩
          · by_cases hal : C.aliased o.core = true
            · rw [if_pos ⟨hal, by rw [h]; rfl⟩, hx]
              have : q = r := by
                have := hok.same hal
                rw [h, hs] at this
                exact (Option.some.inj this).symm
              simp [this]
            · rw [if_neg fun h' => hal h'.1]
              have hne : q ≠ r := by
                intro e
                exact hok.apart (by simpa using hal) r h (by rw [hs, e])
              simp [hne]
          · have hq : q ≠ r := by
              have := hok.saved_lt q hs
              omega
            rw [if_neg]
            · simp [hq]
            · rintro ⟨h1, h2⟩
              rcases h' with h' | h'
              · rw [h'] at h2; cases h2
              · have := (L.fresh op h' o.core).2
                rw [this] at h1
                cases h1
      refine ⟨⟨_, some r, o.saved⟩, rfl, ⟨?_, ?_, ?_, ?_, ?_, ?_⟩, ?_, Nat.le_succ _, rfl, fun h => absurd h hr,
        fun _ h => (by cases h), fun _ y hy => ⟨r, rfl, hlt, rfl, ?_, ?_, ?_⟩⟩
      · simp only; rw [hx]; rfl
      · simp only
        rw [← hsv, Option.isSome_map]
      · intro q hq
        cases hq
        exact hlt
      · intro q hq
        exact (hok.saved_lt q hq).trans (Nat.lt_succ_self _)
      · simp only
        intro h
        rcases hcase with ⟨h1, h2⟩ | ⟨h1, h2 | h2⟩
        · have := (L.keep (σ.value C o) op hr' (by rw [v1, h1]; rfl)).2
          rw [h, v3] at this
          rw [← h1, hok.same this.symm]
        · rcases L.start (σ.value C o) op hr' (by rw [v1, h2]; rfl) with h3 | h3
          · rw [hx] at h3; cases h3.1
          · rw [h] at h3; cases h3.2
        · rw [(L.fresh op h2 _).2] at h; cases h
      · simp only
        intro h q hq hs
        cases hq
        rcases hcase with ⟨h1, h2⟩ | ⟨h1, -⟩
        · have := (L.keep (σ.value C o) op hr' (by rw [v1, h1]; rfl)).2
          rw [h, v3] at this
          exact hok.apart this.symm r h1 hs
        · have := hok.saved_lt r hs
          omega
      · exact value_eq L (by simp only; rw [hx]; simp) (by simp only; exact hsv)
      · rcases hcase with ⟨h, -⟩ | ⟨h, -⟩
        · exact .inr h
        · exact .inl h
      · cases hy; simp
      · intro q hq; simp [hq]

theorem set_ok {n m : Nat} {l : List (LearnerObj Obj)} (h : ∀ o ∈ l, ObjOk C n o) (hnm : n ≤ m) {i : Nat}
    {o' : LearnerObj Obj} (ho : ObjOk C m o') : ∀ o ∈ l.set i o', ObjOk C m o := by
  intro o hmem
  rcases List.mem_or_eq_of_mem_set hmem with h1 | h1
  · exact (h o h1).mono hnm
  · rw [h1]; exact ho

theorem Coherent.call {σ : LearnerStore Obj V} (hσ : Coherent C σ) (i : Nat) (op : Op) : Coherent C (σ.call C i op) := by
  cases ho : σ.objs[i]? with
  | none => unfold LearnerStore.call; rw [ho]; exact hσ
  | some o =>
    obtain ⟨o', h1, h2, -, h4, -⟩ := call_spec L hσ ho op
    intro x hx
    rw [h1] at hx
    exact set_ok L hσ h4 h2 x hx

/-- A constructor that succeeds. -/
theorem build_spec {σ : LearnerStore Obj V} {set : S} {init : Option Nat} (hi : ∀ r ∈ init, r < σ.next) {o : Obj}
    (ho : C.init set (init.map σ.arr) = .ok o) : ∃ b : LearnerObj Obj,
      (σ.build C set init).objs = σ.objs ++ [b] ∧ ObjOk C (σ.build C set init).next b ∧ σ.next ≤ (σ.build C set init).next ∧
      b.attr = init ∧ (σ.build C set init).value C b = o ∧ (∀ r, b.saved = some r → r = σ.next) ∧
      ∀ r, r < σ.next → (σ.build C set init).arr r = σ.arr r := by
  obtain ⟨i1, i2, i3⟩ := L.init _ _ _ ho
  unfold build
  rw [ho]
  cases init with
  | none =>
    refine ⟨⟨o, none, none⟩, rfl, ⟨by rw [i1]; rfl, by rw [i2]; rfl, by simp, by simp, fun _ => rfl, by simp⟩, le_refl _,
      rfl, value_eq L (by rw [i1]) (by rw [i2]), by simp, fun _ _ => rfl⟩
  | some r =>
    have hr : r < σ.next := hi r rfl
    have hne : r ≠ σ.next := by omega
    refine ⟨⟨o, some r, some σ.next⟩, rfl, ⟨by rw [i1]; rfl, by rw [i2]; rfl, ?_, ?_, ?_, ?_⟩, Nat.le_succ _, rfl,
      value_eq L ?_ ?_, ?_, ?_⟩
    · intro q hq; cases hq; exact hr.trans (Nat.lt_succ_self _)
    · intro q hq; cases hq; exact Nat.lt_succ_self _
    · intro h; rw [i3] at h; cases h
    · intro _ q hq hs
      cases hq
      exact hne (Option.some.inj hs).symm
    · rw [i1]; simp [hne]
    · rw [i2]; simp
    · intro q hq; exact (Option.some.inj hq).symm
    · intro q hq
      have : q ≠ σ.next := by omega
      simp [this]

theorem build_error {σ : LearnerStore Obj V} {set : S} {init : Option Nat} {e : PyErr}
    (ho : C.init set (init.map σ.arr) = .error e) : σ.build C set init = σ := by
  unfold build
  rw [ho]

theorem Coherent.apply {σ : LearnerStore Obj V} (hσ : Coherent C σ) (st : LearnerStep S V Op) :
    Coherent C (σ.apply C st) ∧ σ.next ≤ (σ.apply C st).next := by
  cases st with
  | newArray x => exact ⟨fun o ho => (hσ o ho).mono (Nat.le_succ _), Nat.le_succ _⟩
  | writeArray r x =>
    unfold LearnerStore.apply
    simp only
    split_ifs
    · exact ⟨hσ, le_refl _⟩
    · exact ⟨hσ, le_refl _⟩
  | build set init =>
    unfold LearnerStore.apply
    simp only
    split_ifs with h
    · cases ho : C.init set (init.map σ.arr) with
      | error e => rw [build_error L ho]; exact ⟨hσ, le_refl _⟩
      | ok o =>
        obtain ⟨b, h1, h2, h3, -⟩ := build_spec L h ho
        refine ⟨fun x hx => ?_, h3⟩
        rw [h1, List.mem_append, List.mem_singleton] at hx
        rcases hx with hx | rfl
        · exact (hσ x hx).mono h3
        · exact h2
    · exact ⟨hσ, le_refl _⟩
  | call i op =>
    refine ⟨hσ.call L i op, ?_⟩
    unfold LearnerStore.apply
    simp only
    cases ho : σ.objs[i]? with
    | none => unfold LearnerStore.call; rw [ho]
    | some o =>
      obtain ⟨o', -, -, -, h4, -⟩ := call_spec L hσ ho op
      exact h4

theorem Coherent.run {σ : LearnerStore Obj V} (hσ : Coherent C σ) (prog : List (LearnerStep S V Op)) :
    Coherent C (σ.run C prog) ∧ σ.next ≤ (σ.run C prog).next := by
  induction prog generalizing σ with
  | nil => exact ⟨hσ, le_refl _⟩
  | cons st prog ih =>
    have h1 := hσ.apply L st
    have h2 := ih h1.1
    exact ⟨h2.1, h1.2.trans h2.2⟩

omit L in
theorem Coherent.start {σ : LearnerStore Obj V} (h : Spec.Started σ) : Coherent C σ := by
  intro o ho
  rw [h.2] at ho
  cases ho

end LearnerStore

end MaMDP
