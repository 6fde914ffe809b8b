import Verif.Lemmas.WalledChoice
import Verif.Lemmas.Mirror
import Verif.Lemmas.Environment

/-! Lemmas for C165: a grid walled off inside a bigger one. -/

set_option linter.unusedSectionVars false

namespace MaMDP

variable {K : Type} [Field K] [LinearOrder K] [IsStrictOrderedRing K]
variable {kind : GridKind} {W H W' H' dx dy : Nat} {selfT : Bool}

theorem placed_cell {s : Nat} (hs : s < W * H) (hH : dy + H ≤ H') :
    Spec.placed H H' dx dy s / H' = s / H + dx ∧ Spec.placed H H' dx dy s % H' = s % H + dy := by
  have hp := pos_of_lt_mul hs
  have hm : s % H < H := Nat.mod_lt _ hp
  have hlt : s % H + dy < H' := by omega
  unfold Spec.placed
  constructor
  · rw [Nat.add_comm, Nat.add_mul_div_right _ _ (by omega), Nat.div_eq_of_lt hlt, Nat.zero_add]
  · rw [Nat.add_comm, Nat.add_mul_mod_self_right, Nat.mod_eq_of_lt hlt]

theorem cell_placed {s : Nat} (hs : s < W * H) (hH : dy + H ≤ H') :
    Spec.cell H' (Spec.placed H H' dx dy s) = ((Spec.cell H s).1 + dx, (Spec.cell H s).2 + dy) := by
  obtain ⟨h1, h2⟩ := placed_cell (dx := dx) hs hH
  unfold Spec.cell
  rw [h1, h2]
  push_cast
  rfl

theorem placed_lt {s : Nat} (hs : s < W * H) (hW : dx + W ≤ W') (hH : dy + H ≤ H') : Spec.placed H H' dx dy s < W' * H' := by
  have hp := pos_of_lt_mul hs
  obtain ⟨h1, -⟩ := placed_cell (dx := dx) hs hH
  have hd : s / H < W := Nat.div_lt_of_lt_mul (by rw [Nat.mul_comm]; exact hs)
  exact (Nat.div_lt_iff_lt_mul (by omega)).1 (by rw [h1]; omega)

theorem placed_lt_placed {s t : Nat} (h : s < t) (ht : t < W * H) (hH : dy + H ≤ H') :
    Spec.placed H H' dx dy s < Spec.placed H H' dx dy t := by
  have hp := pos_of_lt_mul ht
  have hms : s % H < H := Nat.mod_lt _ hp
  have hle : s / H ≤ t / H := Nat.div_le_div_right h.le
  unfold Spec.placed
  rcases Nat.eq_or_lt_of_le hle with he | hlt
  · have h1 := Nat.div_add_mod s H
    have h2 := Nat.div_add_mod t H
    rw [he] at h1 ⊢
    omega
  · have : (s / H + dx + 1) * H' ≤ (t / H + dx) * H' := Nat.mul_le_mul_right _ (by omega)
    rw [Nat.add_mul (s / H + dx) 1] at this
    omega

theorem move_placed {s a t : Nat} (hs : s < W * H) (ht : t < W * H) (hH : dy + H ≤ H') (heven : kind = .hex → dx % 2 = 0) :
    kind.Move H' selfT (Spec.placed H H' dx dy s) a (Spec.placed H H' dx dy t) ↔ kind.Move H selfT s a t := by
  have hinj : Spec.placed H H' dx dy t = Spec.placed H H' dx dy s ↔ t = s := by
    refine ⟨fun h => ?_, fun h => by rw [h]⟩
    rcases Nat.lt_trichotomy s t with hlt | he | hlt
    · have := placed_lt_placed (dx := dx) hlt ht hH
      omega
    · exact he.symm
    · have := placed_lt_placed (dx := dx) hlt hs hH
      omega
  unfold GridKind.Move
  rw [cell_placed hs hH, cell_placed ht hH]
  refine or_congr ?_ (and_congr_right fun _ => and_congr_right fun _ => hinj)
  generalize Spec.cell H s = c
  generalize Spec.cell H t = d
  have hdir : kind.dir (c.1 + dx) a = kind.dir c.1 a := by
    cases kind with
    | square => rfl
    | hex =>
      have := heven rfl
      change Spec.hexDir (c.1 + dx) a = Spec.hexDir c.1 a
      have hpar : (c.1 + dx) % 2 = c.1 % 2 := by omega
      unfold Spec.hexDir
      rw [hpar]
  simp only [hdir, Prod.ext_iff]
  refine exists_congr fun x => and_congr_right fun _ => ?_
  constructor <;> rintro ⟨h1, h2⟩ <;> constructor <;> omega

/-- A grid in a bigger grid with walls everywhere else. -/
theorem embedded_grid {m m' : Mdp K} (hm : Mdp.GridReach kind W H selfT m) (hm' : Mdp.GridReach kind W' H' selfT m')
    (hW : dx + W ≤ W') (hH : dy + H ≤ H') (heven : kind = .hex → dx % 2 = 0)
    (hwalls : ∀ s, s < W * H → m'.walls.get (Spec.placed H H' dx dy s) = m.walls.get s)
    (hout : ∀ t, t < W' * H' → ¬ Spec.Among (W * H) (Spec.placed H H' dx dy) t → m'.walls.get t = 1) :
    Spec.Embedded m.trans m'.trans (Spec.placed H H' dx dy) where
  nA := hm'.ok.nActions.trans hm.ok.nActions.symm
  state s hs := by
    change s < m.nStates at hs
    change _ < m'.nStates
    rw [hm.ok.nStates] at hs
    rw [hm'.ok.nStates]
    exact placed_lt hs hW hH
  order s t hst ht := by
    change t < m.nStates at ht
    rw [hm.ok.nStates] at ht
    exact placed_lt_placed hst ht hH
  p s a t hs _ ht := by
    change s < m.nStates at hs
    change t < m.nStates at ht
    rw [hm.ok.nStates] at hs ht
    change m'.sas _ a _ = m.sas s a t
    rw [hm'.ok.sas _ _ _ (placed_lt hs hW hH) (placed_lt ht hW hH), hm.ok.sas s a t hs ht, hwalls s hs, hwalls t ht]
    simp only [move_placed hs ht hH heven]
  out s a t hs _ ht hn := by
    change s < m'.nStates at hs
    change t < m'.nStates at ht
    change ¬ (Spec.Among m.nStates _ s ∧ Spec.Among m.nStates _ t) at hn
    rw [hm'.ok.nStates] at hs ht
    rw [hm.ok.nStates] at hn
    change m'.sas s a t = 0
    rw [hm'.ok.sas s a t hs ht]
    refine if_pos ?_
    by_contra hc
    rw [not_or] at hc
    exact hn ⟨by_contra fun h => hc.1 (hout s hs h), by_contra fun h => hc.2 (hout t ht h)⟩

end MaMDP
