import Verif.Model.ArraySharing

/-! # Vocabulary for shared arrays -/

namespace MaMDP.Spec

variable {K : Type} [Field K] [LinearOrder K] [IsStrictOrderedRing K]

/-- No two MDP objects refer to the same array, and all references are to arrays that exist. -/
structure Separate (σ : Store K) : Prop where
  exist : ∀ o ∈ σ.objs, o.feat < σ.next ∧ o.wall < σ.next
  apart : ∀ (i j : Nat) (oi oj : MdpObj K), σ.objs[i]? = some oi → σ.objs[j]? = some oj → i ≠ j →
    oi.feat ≠ oj.feat ∧ oi.wall ≠ oj.wall

/-- The caller's array number `r` is one no MDP object refers to. -/
def OwnFeatures (σ : Store K) (r : Nat) : Prop := r < σ.next ∧ ∀ o ∈ σ.objs, o.feat ≠ r

/-- The caller's wall array number `r` is one no MDP object refers to. -/
def OwnWalls (σ : Store K) (r : Nat) : Prop := r < σ.next ∧ ∀ o ∈ σ.objs, o.wall ≠ r

/-- A step that makes a new array, writes into an array of the program's own, builds an MDP from arrays that
no other MDP has, or calls a method of an existing MDP, passing only arrays to which no reference is kept. -/
def Careful (σ : Store K) : StoreOp K → Prop
  | .newFeatures _ => True
  | .newWalls _ => True
  | .writeFeature r _ _ _ => OwnFeatures σ r
  | .writeWall r _ _ => OwnWalls σ r
  | .build _ _ _ _ f w => OwnFeatures σ f.ref ∧ ∀ v, w = some v → OwnWalls σ v.ref
  | .object _ (.call _) => True
  | _ => False

/-- A program all of whose steps are careful at the time they are taken. -/
def CarefulProgram (σ : Store K) : List (StoreOp K) → Prop
  | [] => True
  | op :: ops => Careful σ op ∧ CarefulProgram (σ.apply op) ops

/-- Feature array number `r` is written into by the program itself, or given to an MDP. -/
def UsesFeatures (r : Nat) : StoreOp K → Prop
  | .writeFeature q _ _ _ => q = r
  | .build _ _ _ _ f _ => f.ref = r
  | _ => False

/-- Wall array number `r` is written into by the program itself, or given to an MDP. -/
def UsesWalls (r : Nat) : StoreOp K → Prop
  | .writeWall q _ _ => q = r
  | .build _ _ _ _ _ w => ∃ v, w = some v ∧ v.ref = r
  | _ => False

/-- The calls made on MDP number `j`. -/
def callsOn (j : Nat) : List (StoreOp K) → List (MdpOp K)
  | [] => []
  | .object i (.call op) :: ops => if i = j then op :: callsOn j ops else callsOn j ops
  | _ :: ops => callsOn j ops

/-- A program that calls methods of MDP number `i` and writes into feature arrays that existed when there
were `n` arrays. -/
def OnlyWith (i n : Nat) : StoreOp K → Prop
  | .object j (.call _) => j = i
  | .writeFeature r _ _ _ => r < n
  | _ => False

/-- The program before anything was made. -/
def noArrays : Store K := ⟨fun _ _ _ => 0, fun _ _ => 0, 0, []⟩

end MaMDP.Spec
