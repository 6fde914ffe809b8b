import Verif.Spec.Mirror
import Verif.Props.Algorithm

/-! Mirror images of grids. -/

set_option linter.unusedSectionVars false

namespace MaMDP

theorem flipY_lt {W H s : Nat} (hs : s < W * H) : Spec.flipY H s < W * H := by
  have hH : 0 < H := Nat.pos_of_ne_zero fun h => by simp [h] at hs
  unfold Spec.flipY
  have h1 : s / H < W := (Nat.div_lt_iff_lt_mul hH).2 hs
  have h2 : s / H * H + H ≤ W * H := by
    have := Nat.mul_le_mul_right H (Nat.succ_le_of_lt h1)
    rwa [Nat.succ_mul] at this
  omega

theorem flipX_lt {W H s : Nat} (hs : s < W * H) : Spec.flipX W H s < W * H := by
  have hH : 0 < H := Nat.pos_of_ne_zero fun h => by simp [h] at hs
  unfold Spec.flipX
  have h1 : s / H < W := (Nat.div_lt_iff_lt_mul hH).2 hs
  have h2 : (W - 1 - s / H) * H + H ≤ W * H := by
    have := Nat.mul_le_mul_right H (show W - 1 - s / H + 1 ≤ W by generalize s / H = x at h1 ⊢; omega)
    rwa [Nat.add_mul, one_mul] at this
  have := Nat.mod_lt s hH
  omega

theorem cell_flipY {W H s : Nat} (hs : s < W * H) :
    Spec.cell H (Spec.flipY H s) = ((Spec.cell H s).1, (H : Int) - 1 - (Spec.cell H s).2) := by
  have hH : 0 < H := Nat.pos_of_ne_zero fun h => by simp [h] at hs
  have hm := Nat.mod_lt s hH
  have hlt : H - 1 - s % H < H := by omega
  unfold Spec.cell Spec.flipY
  have e1 : (s / H * H + (H - 1 - s % H)) / H = s / H := by
    rw [Nat.add_comm, Nat.add_mul_div_right _ _ hH, Nat.div_eq_of_lt hlt, Nat.zero_add]
  have e2 : (s / H * H + (H - 1 - s % H)) % H = H - 1 - s % H := by
    rw [Nat.add_comm, Nat.add_mul_mod_self_right, Nat.mod_eq_of_lt hlt]
  rw [e1, e2]
  ext
  · rfl
  · push_cast [Nat.sub_sub]
    omega

theorem cell_flipX {W H s : Nat} (hs : s < W * H) :
    Spec.cell H (Spec.flipX W H s) = ((W : Int) - 1 - (Spec.cell H s).1, (Spec.cell H s).2) := by
  have hH : 0 < H := Nat.pos_of_ne_zero fun h => by simp [h] at hs
  have hlt := Nat.mod_lt s hH
  have h1 : s / H < W := (Nat.div_lt_iff_lt_mul hH).2 hs
  unfold Spec.cell Spec.flipX
  have e1 : ((W - 1 - s / H) * H + s % H) / H = W - 1 - s / H := by
    rw [Nat.add_comm, Nat.add_mul_div_right _ _ hH, Nat.div_eq_of_lt hlt, Nat.zero_add]
  have e2 : ((W - 1 - s / H) * H + s % H) % H = s % H := by
    rw [Nat.add_comm, Nat.add_mul_mod_self_right, Nat.mod_eq_of_lt hlt]
  rw [e1, e2]
  ext
  · change ((W - 1 - s / H : Nat) : Int) = (W : Int) - 1 - ((s / H : Nat) : Int)
    omega
  · rfl

theorem flipY_inj {W H s t : Nat} (hs : s < W * H) (ht : t < W * H) (h : Spec.flipY H s = Spec.flipY H t) : s = t := by
  have h1 := cell_flipY hs
  rw [h, cell_flipY ht] at h1
  simp only [Prod.mk.injEq] at h1
  exact cell_inj (H := H) (Prod.ext h1.1.symm (by omega))

theorem flipX_inj {W H s t : Nat} (hs : s < W * H) (ht : t < W * H) (h : Spec.flipX W H s = Spec.flipX W H t) :
    s = t := by
  have h1 := cell_flipX hs
  rw [h, cell_flipX ht] at h1
  simp only [Prod.mk.injEq] at h1
  exact cell_inj (H := H) (Prod.ext (by omega) h1.2.symm)

theorem move_flipY {W H : Nat} {selfT : Bool} {s a t : Nat} (hs : s < W * H) (ht : t < W * H) :
    GridKind.square.Move H selfT (Spec.flipY H s) (Spec.flipYAction a) (Spec.flipY H t) ↔
      GridKind.square.Move H selfT s a t := by
  have hst : Spec.flipY H t = Spec.flipY H s ↔ t = s := ⟨flipY_inj ht hs, fun h => by rw [h]⟩
  have ha : Spec.flipYAction a = 4 ↔ a = 4 := by
    unfold Spec.flipYAction
    split_ifs <;> simp_all
  unfold GridKind.Move
  rw [cell_flipY hs, cell_flipY ht]
  refine or_congr ?_ (and_congr_right fun _ => and_congr ha hst)
  generalize Spec.cell H s = c
  generalize Spec.cell H t = d
  change (∃ x, Spec.squareDir (Spec.flipYAction a) = some x ∧ _) ↔ ∃ x, Spec.squareDir a = some x ∧ _
  rcases a with _ | _ | _ | _ | a <;> simp [Spec.flipYAction, Spec.squareDir, Prod.ext_iff] <;> omega

theorem move_flipX {W H : Nat} {selfT : Bool} {s a t : Nat} (hs : s < W * H) (ht : t < W * H) :
    GridKind.square.Move H selfT (Spec.flipX W H s) (Spec.flipXAction a) (Spec.flipX W H t) ↔
      GridKind.square.Move H selfT s a t := by
  have hst : Spec.flipX W H t = Spec.flipX W H s ↔ t = s := ⟨flipX_inj ht hs, fun h => by rw [h]⟩
  have ha : Spec.flipXAction a = 4 ↔ a = 4 := by
    unfold Spec.flipXAction
    split_ifs <;> simp_all
  unfold GridKind.Move
  rw [cell_flipX hs, cell_flipX ht]
  refine or_congr ?_ (and_congr_right fun _ => and_congr ha hst)
  generalize Spec.cell H s = c
  generalize Spec.cell H t = d
  change (∃ x, Spec.squareDir (Spec.flipXAction a) = some x ∧ _) ↔ ∃ x, Spec.squareDir a = some x ∧ _
  rcases a with _ | _ | _ | _ | a <;> simp [Spec.flipXAction, Spec.squareDir, Prod.ext_iff] <;> omega

/-- With an odd number of rows the hexagonal grid is symmetric in the first coordinate. -/
theorem move_flipX_hex {W H : Nat} {selfT : Bool} {s a t : Nat} (hW : W % 2 = 1) (hs : s < W * H) (ht : t < W * H) :
    GridKind.hex.Move H selfT (Spec.flipX W H s) (Spec.flipXHex a) (Spec.flipX W H t) ↔
      GridKind.hex.Move H selfT s a t := by
  have hst : Spec.flipX W H t = Spec.flipX W H s ↔ t = s := ⟨flipX_inj ht hs, fun h => by rw [h]⟩
  have ha : Spec.flipXHex a = 6 ↔ a = 6 := by
    unfold Spec.flipXHex
    split_ifs <;> simp_all
  unfold GridKind.Move
  rw [cell_flipX hs, cell_flipX ht]
  refine or_congr ?_ (and_congr_right fun _ => and_congr ha hst)
  generalize Spec.cell H s = c
  generalize Spec.cell H t = d
  change (∃ x, Spec.hexDir ((W : Int) - 1 - c.1) (Spec.flipXHex a) = some x ∧ _) ↔ ∃ x, Spec.hexDir c.1 a = some x ∧ _
  have hpar : ((W : Int) - 1 - c.1) % 2 = 0 ↔ c.1 % 2 = 0 := by omega
  by_cases hc : c.1 % 2 = 0
  · have hc' := hpar.2 hc
    rcases a with _ | _ | _ | _ | _ | _ | a <;> simp [Spec.flipXHex, Spec.hexDir, Prod.ext_iff, hc, hc'] <;> omega
  · have hc' := mt hpar.1 hc
    rcases a with _ | _ | _ | _ | _ | _ | a <;> simp [Spec.flipXHex, Spec.hexDir, Prod.ext_iff, hc, hc'] <;> omega

end MaMDP
