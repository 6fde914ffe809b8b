import Verif.Model.LearnerStore

/-! # Vocabulary for arrays shared between learners -/

namespace MaMDP.Spec

variable {S Obj V Op : Type}

/-- What is true of the arrays of any learner of the class: the contents of its arrays can be exchanged, a new learner
holds what it was given in its attribute and as saved copy, `reset` makes the saved array the attribute, other calls keep an
array in the attribute once there is one, and change the saved one only if it is the same. -/
structure Lawful (C : LearnerClass S Obj V Op) : Prop where
  load_eq : ∀ o, C.load o (C.attr o) (C.saved o) = o
  attr_load : ∀ o a s, a.isSome = (C.attr o).isSome → C.attr (C.load o a s) = a
  saved_load : ∀ o a s, s.isSome = (C.saved o).isSome → C.saved (C.load o a s) = s
  aliased_load : ∀ o a s, C.aliased (C.load o a s) = C.aliased o
  init : ∀ set a o, C.init set a = .ok o → C.attr o = a ∧ C.saved o = a ∧ C.aliased o = false
  reset : ∀ o op, C.isReset op = true →
    C.attr (C.apply o op) = C.saved o ∧ C.saved (C.apply o op) = C.saved o ∧ C.aliased (C.apply o op) = true
  keep : ∀ o op, C.isReset op = false → (C.attr o).isSome = true →
    (C.attr (C.apply o op)).isSome = true ∧ C.aliased (C.apply o op) = C.aliased o
  start : ∀ o op, C.isReset op = false → C.attr o = none →
    C.attr (C.apply o op) = none ∧ C.aliased (C.apply o op) = C.aliased o ∨
      (C.attr (C.apply o op)).isSome = true ∧ C.aliased (C.apply o op) = false
  stays : ∀ o op, C.isReset op = false → (C.aliased o = true → C.attr o = C.saved o) →
    C.saved (C.apply o op) = if C.aliased o = true ∧ (C.attr o).isSome = true then C.attr (C.apply o op) else C.saved o
  fresh : ∀ op, C.fresh op = true → ∀ o, C.saved o = none ∧ C.aliased o = false

/-- A store in which the program has not made anything yet. -/
def Started (σ : LearnerStore Obj V) : Prop := σ.next = 0 ∧ σ.objs = []

/-- A step that writes into array `r`: by the program itself, or by a call of a learner whose attribute it is, other than
`reset` and calls that make a new array. -/
def WritesInto (C : LearnerClass S Obj V Op) (σ : LearnerStore Obj V) (r : Nat) : LearnerStep S V Op → Prop
  | .writeArray q _ => q = r
  | .call i op => C.isReset op = false ∧ C.fresh op = false ∧ ∃ o, σ.objs[i]? = some o ∧ o.attr = some r
  | _ => False

/-- No step of the program writes into array `r` at the time it is taken. -/
def NeverWrites (C : LearnerClass S Obj V Op) (r : Nat) : LearnerStore Obj V → List (LearnerStep S V Op) → Prop
  | _, [] => True
  | σ, st :: prog => ¬ WritesInto C σ r st ∧ NeverWrites C r (σ.apply C st) prog

/-- A step about arrays and learners other than learner `i` and the arrays in `mine`: it neither calls the learner nor
writes into one of these arrays nor builds another learner on one. -/
def Aside (i : Nat) (mine : Nat → Prop) : LearnerStep S V Op → Prop
  | .newArray _ => True
  | .writeArray q _ => ¬ mine q
  | .build _ init => ∀ r ∈ init, ¬ mine r
  | .call j _ => j ≠ i

/-- The arrays of a learner. -/
def ArrayOf (o : LearnerObj Obj) (r : Nat) : Prop := o.attr = some r ∨ o.saved = some r

end MaMDP.Spec
