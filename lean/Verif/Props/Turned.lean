import Verif.Props.Mirror
import Verif.Props.SoftUnique
import Verif.Spec.Turned

/-! # C112: square grids with exchanged coordinates, hexagonal grids turned by half -/

set_option linter.unusedSectionVars false

namespace MaMDP

theorem swapXY_lt {W H s : Nat} (hs : s < W * H) : Spec.swapXY W H s < H * W := by
  have hH : 0 < H := Nat.pos_of_ne_zero fun h => by simp [h] at hs
  have h1 : s / H < W := (Nat.div_lt_iff_lt_mul hH).2 hs
  have h2 := Nat.mod_lt s hH
  unfold Spec.swapXY
  calc s % H * W + s / H < s % H * W + W := by omega
    _ = (s % H + 1) * W := by ring
    _ ≤ H * W := Nat.mul_le_mul_right _ h2

theorem cell_swapXY {W H s : Nat} (hs : s < W * H) :
    Spec.cell W (Spec.swapXY W H s) = ((Spec.cell H s).2, (Spec.cell H s).1) := by
  have hH : 0 < H := Nat.pos_of_ne_zero fun h => by simp [h] at hs
  have h1 : s / H < W := (Nat.div_lt_iff_lt_mul hH).2 hs
  unfold Spec.cell Spec.swapXY
  rw [Nat.add_comm, Nat.add_mul_div_right _ _ (lt_of_le_of_lt (Nat.zero_le _) h1), Nat.div_eq_of_lt h1, Nat.add_mul_mod_self_right, Nat.mod_eq_of_lt h1,
    Nat.zero_add]

theorem swapXY_inj {W H s t : Nat} (hs : s < W * H) (ht : t < W * H) (h : Spec.swapXY W H s = Spec.swapXY W H t) : s = t := by
  have h1 := cell_swapXY hs
  rw [h, cell_swapXY ht] at h1
  simp only [Prod.mk.injEq] at h1
  exact cell_inj (H := H) (Prod.ext h1.2.symm h1.1.symm)

theorem move_swapXY {W H : Nat} {selfT : Bool} {s a t : Nat} (hs : s < W * H) (ht : t < W * H) :
    GridKind.square.Move W selfT (Spec.swapXY W H s) (Spec.swapAction a) (Spec.swapXY W H t) ↔
      GridKind.square.Move H selfT s a t := by
  have hst : Spec.swapXY W H t = Spec.swapXY W H s ↔ t = s := ⟨swapXY_inj ht hs, fun h => by rw [h]⟩
  have ha : Spec.swapAction a = 4 ↔ a = 4 := by
    unfold Spec.swapAction
    split_ifs <;> simp_all
  unfold GridKind.Move
  rw [cell_swapXY hs, cell_swapXY ht]
  refine or_congr ?_ (and_congr_right fun _ => and_congr ha hst)
  generalize Spec.cell H s = c
  generalize Spec.cell H t = d
  change (∃ x, Spec.squareDir (Spec.swapAction a) = some x ∧ _) ↔ ∃ x, Spec.squareDir a = some x ∧ _
  rcases a with _ | _ | _ | _ | a <;> simp [Spec.swapAction, Spec.squareDir, Prod.ext_iff] <;> omega

/-- Square grids with exchanged coordinates: a grid of `W` by `H` cells, and one of `H` by `W` with the walls in the corresponding
places, are renamed versions of each other. -/
theorem C112_swap {W H : Nat} {selfT : Bool} {m m' : Mdp ℝ} (hm : Mdp.GridReach .square W H selfT m)
    (hm' : Mdp.GridReach .square H W selfT m')
    (hwalls : ∀ s, s < W * H → m'.walls.get (Spec.swapXY W H s) = m.walls.get s) :
    Spec.Renamed m.trans m'.trans (Spec.swapXY W H) Spec.swapAction where
  nS := hm'.ok.nStates.trans ((Nat.mul_comm _ _).trans hm.ok.nStates.symm)
  nA := hm'.ok.nActions.trans hm.ok.nActions.symm
  state s hs := by
    change s < m.nStates at hs
    change Spec.swapXY W H s < m.nStates
    rw [hm.ok.nStates] at *
    exact (swapXY_lt hs).trans_eq (Nat.mul_comm _ _)
  state_inj s t hs ht h := by
    change s < m.nStates at hs
    change t < m.nStates at ht
    rw [hm.ok.nStates] at hs ht
    exact swapXY_inj hs ht h
  action a ha := by
    change a < m.nActions at ha
    change Spec.swapAction a < m.nActions
    have : 4 ≤ m.nActions := by rw [hm.ok.nActions]; exact Nat.le_add_right _ _
    unfold Spec.swapAction
    split_ifs <;> omega
  action_inj a b _ _ h := by unfold Spec.swapAction at h; split_ifs at h <;> omega
  p s a t hs _ ht := by
    change s < m.nStates at hs
    change t < m.nStates at ht
    rw [hm.ok.nStates] at hs ht
    change m'.sas (Spec.swapXY W H s) (Spec.swapAction a) (Spec.swapXY W H t) = m.sas s a t
    rw [hm'.ok.sas _ _ _ (swapXY_lt hs) (swapXY_lt ht), hm.ok.sas s a t hs ht, hwalls s hs, hwalls t ht]
    simp only [move_swapXY hs ht]

theorem halfTurn_eq {W H s : Nat} (hs : s < W * H) : Spec.halfTurn W H s = Spec.flipY H (Spec.flipX W H s) := by
  have hH : 0 < H := Nat.pos_of_ne_zero fun h => by simp [h] at hs
  have hlt := Nat.mod_lt s hH
  unfold Spec.halfTurn Spec.flipY Spec.flipX
  rw [Nat.add_comm ((W - 1 - s / H) * H) (s % H), Nat.add_mul_div_right _ _ hH, Nat.div_eq_of_lt hlt, Nat.add_mul_mod_self_right,
    Nat.mod_eq_of_lt hlt, Nat.zero_add]

theorem halfTurn_inj {W H s t : Nat} (hs : s < W * H) (ht : t < W * H) (h : Spec.halfTurn W H s = Spec.halfTurn W H t) :
    s = t := by
  rw [halfTurn_eq hs, halfTurn_eq ht] at h
  exact flipX_inj hs ht (flipY_inj (flipX_lt hs) (flipX_lt ht) h)

theorem cell_halfTurn {W H s : Nat} (hs : s < W * H) :
    Spec.cell H (Spec.halfTurn W H s) = ((W : Int) - 1 - (Spec.cell H s).1, (H : Int) - 1 - (Spec.cell H s).2) := by
  rw [halfTurn_eq hs, cell_flipY (flipX_lt hs), cell_flipX hs]

/-- With an even number of rows the hexagonal grid is symmetric under half a turn. -/
theorem move_halfTurn {W H : Nat} {selfT : Bool} {s a t : Nat} (hW : W % 2 = 0) (hs : s < W * H) (ht : t < W * H) :
    GridKind.hex.Move H selfT (Spec.halfTurn W H s) (Spec.oppositeHex a) (Spec.halfTurn W H t) ↔
      GridKind.hex.Move H selfT s a t := by
  have hst : Spec.halfTurn W H t = Spec.halfTurn W H s ↔ t = s := ⟨halfTurn_inj ht hs, fun h => by rw [h]⟩
  have ha : Spec.oppositeHex a = 6 ↔ a = 6 := by
    unfold Spec.oppositeHex
    split_ifs <;> omega
  unfold GridKind.Move
  rw [cell_halfTurn hs, cell_halfTurn ht]
  refine or_congr ?_ (and_congr_right fun _ => and_congr ha hst)
  generalize Spec.cell H s = c
  generalize Spec.cell H t = d
  change (∃ x, Spec.hexDir ((W : Int) - 1 - c.1) (Spec.oppositeHex a) = some x ∧ _) ↔ ∃ x, Spec.hexDir c.1 a = some x ∧ _
  have hbig : ∀ a, Spec.oppositeHex (a + 1 + 1 + 1 + 1 + 1 + 1) = a + 1 + 1 + 1 + 1 + 1 + 1 := by
    intro a
    unfold Spec.oppositeHex
    split_ifs <;> omega
  have hpar : ((W : Int) - 1 - c.1) % 2 = 0 ↔ ¬ c.1 % 2 = 0 := by omega
  by_cases hc : c.1 % 2 = 0
  · have hc' := mt hpar.1 (not_not.2 hc)
    rcases a with _ | _ | _ | _ | _ | _ | a
    iterate 6 (simp [Spec.oppositeHex, Spec.hexDir, Prod.ext_iff, hc, hc']; omega)
    rw [hbig a]; simp [Spec.hexDir]
  · have hc' := hpar.2 hc
    rcases a with _ | _ | _ | _ | _ | _ | a
    iterate 6 (simp [Spec.oppositeHex, Spec.hexDir, Prod.ext_iff, hc, hc']; omega)
    rw [hbig a]; simp [Spec.hexDir]

/-- Hexagonal grids with an even number of columns, turned by half a turn. -/
theorem C112_turn_hex {W H : Nat} {selfT : Bool} {m m' : Mdp ℝ} (hW : W % 2 = 0)
    (hm : Mdp.GridReach .hex W H selfT m) (hm' : Mdp.GridReach .hex W H selfT m')
    (hwalls : ∀ s, s < W * H → m'.walls.get (Spec.halfTurn W H s) = m.walls.get s) :
    Spec.Renamed m.trans m'.trans (Spec.halfTurn W H) Spec.oppositeHex :=
  renamed_grid hm hm' (fun _ hs => by rw [halfTurn_eq hs]; exact flipY_lt (flipX_lt hs)) (fun _ _ hs ht h => halfTurn_inj hs ht h)
    (by
      intro a ha
      have : 6 ≤ m.nActions := by rw [hm.ok.nActions]; exact Nat.le_add_right _ _
      unfold Spec.oppositeHex
      split_ifs <;> omega)
    (by intro a b h; unfold Spec.oppositeHex at h; split_ifs at h <;> omega)
    (fun _ _ _ hs ht => move_halfTurn hW hs ht) hwalls

/-- **C112** for the soft values the learners use: with enough iterations they agree up to the tolerance. -/
theorem C112_soft_partial (M M' : Trans ℝ) (σ τ : Nat → Nat) (h : Spec.Renamed M M' σ τ) (hM : Spec.SubStochastic M)
    (r r' : Nat → ℝ) (hr : ∀ t, t < M.nS → r' (σ t) = r t) (γ tol : ℝ) (h0 : 0 < γ) (h1 : γ < 1) (htol : 0 < tol) :
    ∃ N, ∀ k k', N ≤ k → N ≤ k' → ∃ v q v' q', solveSoft M r k γ tol = .ok (v, q) ∧ solveSoft M' r' k' γ tol = .ok (v', q') ∧
      ∀ s, s < M.nS → |v' (σ s) - v s| < 2 * tol * γ / (1 - γ) := by
  obtain ⟨V, e1, c1, -⟩ := C34_soft_converges M hM r γ h0 h1
  obtain ⟨V', e2, c2, -⟩ := C34_soft_converges M' (h.sub hM) r' γ h0 h1
  have same : ∀ s, s < M.nS → V' (σ s) = V s := by
    refine C34_unique M hM r γ h0 h1 (fun s => V' (σ s)) V (fun s hs => ?_) e1
    rw [e2 (σ s) (by rw [h.nS]; exact h.state s hs), h.nA, ← sum_renamed h.action h.action_inj]
    congr 2
    exact Finset.sum_congr rfl fun a ha => by rw [h.Q hr γ V' hs (Finset.mem_range.1 ha)]
  obtain ⟨N, hN⟩ := c1 tol htol
  obtain ⟨N', hN'⟩ := c2 tol htol
  refine ⟨max N N', fun k k' hk hk' => ?_⟩
  obtain ⟨v, q, a1, -, a2⟩ := hN k (le_trans (le_max_left _ _) hk)
  obtain ⟨v', q', b1, -, b2⟩ := hN' k' (le_trans (le_max_right _ _) hk')
  refine ⟨v, q, v', q', a1, b1, fun s hs => ?_⟩
  have h2 := abs_lt.1 (a2 s hs)
  have h3 := abs_lt.1 (b2 (σ s) (by rw [h.nS]; exact h.state s hs))
  rw [same s hs] at h3
  have e : 2 * tol * γ / (1 - γ) = tol * γ / (1 - γ) + tol * γ / (1 - γ) := by ring
  rw [abs_lt]
  constructor <;> linarith [h2.1, h2.2, h3.1, h3.2]

/-- A map of two by three cells with a wall in a corner, and its counterpart of three by two cells; a hexagonal map turned. -/
example : (∃ m m' : Mdp ℝ, Mdp.GridReach .square 2 3 false m ∧ Mdp.GridReach .square 3 2 false m' ∧ m.walls.get 2 = 1 ∧
      ∀ s, s < 2 * 3 → m'.walls.get (Spec.swapXY 2 3 s) = m.walls.get s) ∧
    ∃ m m' : Mdp ℝ, Mdp.GridReach .hex 2 3 false m ∧ Mdp.GridReach .hex 2 3 false m' ∧ m.walls.get 2 = 1 ∧
      ∀ s, s < 2 * 3 → m'.walls.get (Spec.halfTurn 2 3 s) = m.walls.get s := by
  have made : ∀ (kind : GridKind) (W H : Nat), 0 < W * H → ∀ i, ∃ m : Mdp ℝ, Mdp.GridReach kind W H false m ∧
      m.walls = ⟨W * H, fun s => if s = i then 1 else 0⟩ := by
    intro kind W H h0 i
    obtain ⟨m, h, -, -, -, -, -, -, hw⟩ := Mdp.initGrid_ok (K := ℝ) (kind := kind) (W := W) (H := H) (selfT := false)
      (f := ⟨1, W * H, fun _ _ => 0⟩) (w := some ⟨W * H, fun s => if s = i then 1 else 0⟩) h0 rfl (by
        rintro v hv
        cases hv
        exact ⟨rfl, fun j _ => by by_cases h : j = i <;> simp [h]⟩)
    exact ⟨m, .init h, hw⟩
  obtain ⟨m1, h1, w1⟩ := made .square 2 3 (by norm_num) 2
  obtain ⟨m2, h2, w2⟩ := made .square 3 2 (by norm_num) 4
  obtain ⟨m3, h3, w3⟩ := made .hex 2 3 (by norm_num) 2
  obtain ⟨m4, h4, w4⟩ := made .hex 2 3 (by norm_num) 3
  refine ⟨⟨m1, m2, h1, h2, by rw [w1]; simp, fun s hs => ?_⟩, m3, m4, h3, h4, by rw [w3]; simp, fun s hs => ?_⟩
  · rw [w1, w2]
    interval_cases s <;> simp [Spec.swapXY]
  · rw [w3, w4]
    interval_cases s <;> simp [Spec.halfTurn]

end MaMDP
