import Verif.Lemmas.Mdp

/-! Shortest paths on the two grids. -/

set_option linter.unusedSectionVars false

namespace MaMDP

theorem hexD_comm (x1 y1 x2 y2 : Int) : hexD x1 y1 x2 y2 = hexD x2 y2 x1 y1 := by
  unfold hexD
  have h1 : |x1 - x2| = |x2 - x1| := abs_sub_comm _ _
  have h2 : |cz x1 y1 - cz x2 y2| = |cz x2 y2 - cz x1 y1| := abs_sub_comm _ _
  have h3 : |(x1 - x2) + (cz x1 y1 - cz x2 y2)| = |(x2 - x1) + (cz x2 y2 - cz x1 y1)| := by
    rw [← abs_neg]; congr 1; ring
  rw [h1, h2, h3]

theorem hexD_nonneg (x1 y1 x2 y2 : Int) : 0 ≤ hexD x1 y1 x2 y2 :=
  le_trans (abs_nonneg _) (le_max_left _ _)

theorem hexD_eq_zero (x1 y1 x2 y2 : Int) : hexD x1 y1 x2 y2 = 0 ↔ x1 = x2 ∧ y1 = y2 := by
  constructor
  · intro h
    unfold hexD at h
    have h1 : |x1 - x2| ≤ 0 := h ▸ le_max_left _ _
    have h2 : |cz x1 y1 - cz x2 y2| ≤ 0 := h ▸ le_trans (le_max_left _ _) (le_max_right _ _)
    have h1' : x1 - x2 = 0 := abs_eq_zero.1 (le_antisymm h1 (abs_nonneg _))
    have h2' : cz x1 y1 - cz x2 y2 = 0 := abs_eq_zero.1 (le_antisymm h2 (abs_nonneg _))
    unfold cz at h2'
    have : x1 = x2 := by omega
    subst this
    exact ⟨rfl, by omega⟩
  · rintro ⟨rfl, rfl⟩; simp [hexD]

theorem hexD_triangle (x1 y1 x2 y2 x3 y3 : Int) :
    hexD x1 y1 x3 y3 ≤ hexD x1 y1 x2 y2 + hexD x2 y2 x3 y3 := by
  unfold hexD
  apply max_le
  · calc |x1 - x3| ≤ |x1 - x2| + |x2 - x3| := abs_sub_le _ _ _
      _ ≤ _ := add_le_add (le_max_left _ _) (le_max_left _ _)
  apply max_le
  · calc |cz x1 y1 - cz x3 y3| ≤ |cz x1 y1 - cz x2 y2| + |cz x2 y2 - cz x3 y3| := abs_sub_le _ _ _
      _ ≤ _ := add_le_add (le_trans (le_max_left _ _) (le_max_right _ _))
        (le_trans (le_max_left _ _) (le_max_right _ _))
  · calc |(x1 - x3) + (cz x1 y1 - cz x3 y3)|
        = |((x1 - x2) + (cz x1 y1 - cz x2 y2)) + ((x2 - x3) + (cz x2 y2 - cz x3 y3))| := by
          congr 1; ring
      _ ≤ |(x1 - x2) + (cz x1 y1 - cz x2 y2)| + |(x2 - x3) + (cz x2 y2 - cz x3 y3)| := abs_add_le _ _
      _ ≤ _ := add_le_add (le_trans (le_max_right _ _) (le_max_right _ _))
        (le_trans (le_max_right _ _) (le_max_right _ _))

/-- The distance in cube differences. -/
def hm (u w : Int) : Int := max |u| (max |w| |u + w|)

theorem hm_cases (u w : Int) :
    (0 ≤ u ∧ 0 ≤ w ∧ hm u w = u + w) ∨ (u ≤ 0 ∧ w ≤ 0 ∧ hm u w = -(u + w)) ∨
     (0 ≤ u ∧ w ≤ 0 ∧ 0 ≤ u + w ∧ hm u w = u) ∨ (0 ≤ u ∧ w ≤ 0 ∧ u + w ≤ 0 ∧ hm u w = -w) ∨
     (u ≤ 0 ∧ 0 ≤ w ∧ 0 ≤ u + w ∧ hm u w = w) ∨ (u ≤ 0 ∧ 0 ≤ w ∧ u + w ≤ 0 ∧ hm u w = -u) := by
  unfold hm
  rcases abs_cases u with ⟨h1, h1'⟩ | ⟨h1, h1'⟩ <;> rcases abs_cases w with ⟨h2, h2'⟩ | ⟨h2, h2'⟩ <;>
  rcases abs_cases (u + w) with ⟨h3, h3'⟩ | ⟨h3, h3'⟩ <;> rw [h1, h2, h3] <;> omega

theorem hm4 {u w : Int} (h : 0 < u) (h' : 0 ≤ w ∨ 0 < u + w) : hm (u - 1) w = hm u w - 1 := by
  have h1 := hm_cases u w
  have h2 := hm_cases (u - 1) w
  generalize hm u w = a at *
  generalize hm (u - 1) w = b at *
  omega

theorem hm5 {u w : Int} (h : 0 < u) (h' : w < 0) : hm (u - 1) (w + 1) = hm u w - 1 := by
  have h1 := hm_cases u w
  have h2 := hm_cases (u - 1) (w + 1)
  generalize hm u w = a at *
  generalize hm (u - 1) (w + 1) = b at *
  omega

theorem hm_neg (u w : Int) : hm (-u) (-w) = hm u w := by
  unfold hm
  rw [show -u + -w = -(u + w) by ring, abs_neg, abs_neg, abs_neg]

theorem hm1 {u w : Int} (h : u < 0) (h' : w ≤ 0 ∨ u + w < 0) : hm (u + 1) w = hm u w - 1 := by
  have := hm4 (u := -u) (w := -w) (by omega) (by omega)
  rw [hm_neg, show -u - 1 = -(u + 1) by ring, hm_neg] at this
  exact this

theorem hm2 {u w : Int} (h : u < 0) (h' : 0 < w) : hm (u + 1) (w - 1) = hm u w - 1 := by
  have := hm5 (u := -u) (w := -w) (by omega) (by omega)
  rw [hm_neg, show -u - 1 = -(u + 1) by ring, show -w + 1 = -(w - 1) by ring, hm_neg] at this
  exact this

theorem hm3 {w : Int} (h' : 0 < w) : hm 0 (w - 1) = hm 0 w - 1 := by
  have h1 := hm_cases 0 w
  have h2 := hm_cases 0 (w - 1)
  omega

theorem hm0 {w : Int} (h' : w < 0) : hm 0 (w + 1) = hm 0 w - 1 := by
  have h1 := hm_cases 0 w
  have h2 := hm_cases 0 (w + 1)
  omega

theorem hexD_hm (x1 y1 x2 y2 : Int) :
    hexD x1 y1 x2 y2 = hm (x1 - x2) (cz x1 y1 - cz x2 y2) := rfl

/-- From any cell other than the target some hexagon move gets closer; and on a `W × H` rectangle
the move can be chosen to stay inside. -/
theorem hexD_descend (x1 y1 x2 y2 : Int) (h : 0 < hexD x1 y1 x2 y2) :
    ∃ a d, Spec.hexDir x1 a = some d ∧
      hexD (x1 + d.1) (y1 + d.2) x2 y2 = hexD x1 y1 x2 y2 - 1 ∧
      (∀ W H : Int, 0 ≤ x1 → x1 < W → 0 ≤ x2 → x2 < W → 0 ≤ y1 → y1 < H → 0 ≤ y2 → y2 < H →
        0 ≤ x1 + d.1 ∧ x1 + d.1 < W ∧ 0 ≤ y1 + d.2 ∧ y1 + d.2 < H) := by
  have hne : ¬ (x1 = x2 ∧ y1 = y2) := fun hh => by
    rw [(hexD_eq_zero _ _ _ _).2 hh] at h; exact lt_irrefl _ h
  have step : ∀ (a : Nat) (dx dy dz : Int), Spec.hexDir x1 a = some (dx, dy) →
      cz (x1 + dx) (y1 + dy) = cz x1 y1 + dz →
      hm (x1 - x2 + dx) (cz x1 y1 - cz x2 y2 + dz) = hm (x1 - x2) (cz x1 y1 - cz x2 y2) - 1 →
      (∀ W H : Int, 0 ≤ x1 → x1 < W → 0 ≤ x2 → x2 < W → 0 ≤ y1 → y1 < H → 0 ≤ y2 → y2 < H →
        0 ≤ x1 + dx ∧ x1 + dx < W ∧ 0 ≤ y1 + dy ∧ y1 + dy < H) →
      ∃ a d, Spec.hexDir x1 a = some d ∧
      hexD (x1 + d.1) (y1 + d.2) x2 y2 = hexD x1 y1 x2 y2 - 1 ∧
      (∀ W H : Int, 0 ≤ x1 → x1 < W → 0 ≤ x2 → x2 < W → 0 ≤ y1 → y1 < H → 0 ≤ y2 → y2 < H →
        0 ≤ x1 + d.1 ∧ x1 + d.1 < W ∧ 0 ≤ y1 + d.2 ∧ y1 + d.2 < H) := by
    intro a dx dy dz h1 h2 h3 h4
    refine ⟨a, (dx, dy), h1, ?_, h4⟩
    rw [hexD_hm, hexD_hm, h2, ← h3]
    congr 1 <;> ring
  have ecz1 : cz x1 y1 = y1 - (x1 + x1 % 2) / 2 := rfl
  have ecz2 : cz x2 y2 = y2 - (x2 + x2 % 2) / 2 := rfl
  rcases lt_trichotomy (x1 - x2) 0 with hu | hu | hu
  · by_cases hw : cz x1 y1 - cz x2 y2 ≤ 0
    · rcases Int.emod_two_eq_zero_or_one x1 with hp | hp
      · refine step 1 1 1 0 (by simp [Spec.hexDir, hp]) (by unfold cz; omega) ?_ ?_
        · rw [add_zero]; exact hm1 hu (Or.inl hw)
        · intros; omega
      · refine step 1 1 0 0 (by simp [Spec.hexDir, hp]) (by unfold cz; omega) ?_ ?_
        · rw [add_zero]; exact hm1 hu (Or.inl hw)
        · intros; omega
    · by_cases hs : (x1 - x2) + (cz x1 y1 - cz x2 y2) < 0 ∧ x1 % 2 = 1
      · refine step 1 1 0 0 (by simp [Spec.hexDir, hs.2]) (by unfold cz; omega) ?_ ?_
        · rw [add_zero]; exact hm1 hu (Or.inr hs.1)
        · intros; omega
      · rcases Int.emod_two_eq_zero_or_one x1 with hp | hp
        · refine step 2 1 0 (-1) (by simp [Spec.hexDir, hp]) (by unfold cz; omega) ?_ ?_
          · exact hm2 hu (by omega)
          · intros; omega
        · refine step 2 1 (-1) (-1) (by simp [Spec.hexDir, hp]) (by unfold cz; omega) ?_ ?_
          · exact hm2 hu (by omega)
          · intros; omega
  · have hx : x1 = x2 := by omega
    subst hx
    by_cases hw : y1 < y2
    · refine step 0 0 1 1 (by simp [Spec.hexDir]) (by unfold cz; omega) ?_ ?_
      · rw [hu]; exact hm0 (by omega)
      · intros; omega
    · refine step 3 0 (-1) (-1) (by simp [Spec.hexDir]) (by unfold cz; omega) ?_ ?_
      · rw [hu]; exact hm3 (by omega)
      · intros; omega
  · by_cases hw : 0 ≤ cz x1 y1 - cz x2 y2
    · rcases Int.emod_two_eq_zero_or_one x1 with hp | hp
      · refine step 4 (-1) 0 0 (by simp [Spec.hexDir, hp]) (by unfold cz; omega) ?_ ?_
        · rw [add_zero]; exact hm4 hu (Or.inl hw)
        · intros; omega
      · refine step 4 (-1) (-1) 0 (by simp [Spec.hexDir, hp]) (by unfold cz; omega) ?_ ?_
        · rw [add_zero]; exact hm4 hu (Or.inl hw)
        · intros; omega
    · by_cases hs : 0 < (x1 - x2) + (cz x1 y1 - cz x2 y2) ∧ x1 % 2 = 0
      · refine step 4 (-1) 0 0 (by simp [Spec.hexDir, hs.2]) (by unfold cz; omega) ?_ ?_
        · rw [add_zero]; exact hm4 hu (Or.inr hs.1)
        · intros; omega
      · rcases Int.emod_two_eq_zero_or_one x1 with hp | hp
        · refine step 5 (-1) 1 1 (by simp [Spec.hexDir, hp]) (by unfold cz; omega) ?_ ?_
          · exact hm5 hu (by omega)
          · intros; omega
        · refine step 5 (-1) 0 1 (by simp [Spec.hexDir, hp]) (by unfold cz; omega) ?_ ?_
          · exact hm5 hu (by omega)
          · intros; omega

/-- A path is at least as long as the distance. -/
theorem hexPath_ge {n : Nat} {p q : Int × Int} (h : Spec.Path Spec.HexStep n p q) :
    hexD p.1 p.2 q.1 q.2 ≤ n := by
  induction h with
  | nil p => rw [(hexD_eq_zero _ _ _ _).2 ⟨rfl, rfl⟩]; simp
  | @cons n p q r hs _ ih =>
    obtain ⟨a, d, h1, rfl⟩ := hs
    have := hexD_of_dir p.1 p.2 a d h1
    have t := hexD_triangle p.1 p.2 (p.1 + d.1) (p.2 + d.2) r.1 r.2
    rw [this] at t
    simp only at ih
    push_cast
    omega

/-- On a rectangle there is a path of exactly that length, staying inside. -/
theorem hexPath_exists (W H : Int) (n : Nat) : ∀ (p q : Int × Int),
    0 ≤ p.1 → p.1 < W → 0 ≤ p.2 → p.2 < H → 0 ≤ q.1 → q.1 < W → 0 ≤ q.2 → q.2 < H →
    hexD p.1 p.2 q.1 q.2 = n →
    Spec.Path (fun p q => Spec.HexStep p q ∧ 0 ≤ q.1 ∧ q.1 < W ∧ 0 ≤ q.2 ∧ q.2 < H) n p q := by
  induction n with
  | zero =>
    intro p q _ _ _ _ _ _ _ _ h
    have := (hexD_eq_zero _ _ _ _).1 (by exact_mod_cast h)
    have : p = q := Prod.ext this.1 this.2
    subst this
    exact Spec.Path.nil _
  | succ n ih =>
    intro p q h1 h2 h3 h4 h5 h6 h7 h8 h
    obtain ⟨a, d, e1, e2, e3⟩ := hexD_descend p.1 p.2 q.1 q.2 (by rw [h]; push_cast; omega)
    have b := e3 W H h1 h2 h5 h6 h3 h4 h7 h8
    refine Spec.Path.cons (q := (p.1 + d.1, p.2 + d.2)) ⟨⟨a, d, e1, rfl⟩, b⟩
      (ih _ _ b.1 b.2.1 b.2.2.1 b.2.2.2 h5 h6 h7 h8 ?_)
    simp only
    rw [e2, h]; push_cast; ring

/-- Without a rectangle. -/
theorem hexPath_plane (n : Nat) : ∀ (p q : Int × Int), hexD p.1 p.2 q.1 q.2 = n →
    Spec.Path Spec.HexStep n p q := by
  induction n with
  | zero =>
    intro p q h
    have := (hexD_eq_zero _ _ _ _).1 (by exact_mod_cast h)
    have : p = q := Prod.ext this.1 this.2
    subst this
    exact Spec.Path.nil _
  | succ n ih =>
    intro p q h
    obtain ⟨a, d, e1, e2, _⟩ := hexD_descend p.1 p.2 q.1 q.2 (by rw [h]; push_cast; omega)
    refine Spec.Path.cons (q := (p.1 + d.1, p.2 + d.2)) ⟨a, d, e1, rfl⟩ (ih _ _ ?_)
    simp only
    rw [e2, h]; push_cast; ring

/-! ### square grid -/

/-- Manhattan distance. -/
def manh (p q : Int × Int) : Int := |p.1 - q.1| + |p.2 - q.2|

theorem squarePath_ge {n : Nat} {p q : Int × Int} (h : Spec.Path Spec.SquareStep n p q) :
    manh p q ≤ n := by
  induction h with
  | nil p => simp [manh]
  | @cons n p q r hs _ ih =>
    obtain ⟨a, d, h1, rfl⟩ := hs
    have hd : |d.1| + |d.2| = 1 := by
      have ha := squareDir_lt a d h1
      interval_cases a <;> simp [Spec.squareDir] at h1 <;> subst h1 <;> simp
    unfold manh at *
    simp only at ih
    have t1 := abs_add_le (p.1 + d.1 - r.1) (-d.1)
    have t2 := abs_add_le (p.2 + d.2 - r.2) (-d.2)
    rw [abs_neg] at t1 t2
    rw [show p.1 + d.1 - r.1 + -d.1 = p.1 - r.1 by ring] at t1
    rw [show p.2 + d.2 - r.2 + -d.2 = p.2 - r.2 by ring] at t2
    push_cast
    omega

theorem squarePath_exists (W H : Int) (n : Nat) : ∀ (p q : Int × Int),
    0 ≤ p.1 → p.1 < W → 0 ≤ p.2 → p.2 < H → 0 ≤ q.1 → q.1 < W → 0 ≤ q.2 → q.2 < H →
    manh p q = n →
    Spec.Path (fun p q => Spec.SquareStep p q ∧ 0 ≤ q.1 ∧ q.1 < W ∧ 0 ≤ q.2 ∧ q.2 < H) n p q := by
  induction n with
  | zero =>
    intro p q _ _ _ _ _ _ _ _ h
    unfold manh at h
    have e1 := abs_nonneg (p.1 - q.1)
    have e2 := abs_nonneg (p.2 - q.2)
    have f1 : |p.1 - q.1| = 0 := by push_cast at h; omega
    have f2 : |p.2 - q.2| = 0 := by push_cast at h; omega
    rw [abs_eq_zero] at f1 f2
    have : p = q := Prod.ext (by omega) (by omega)
    subst this
    exact Spec.Path.nil _
  | succ n ih =>
    intro p q h1 h2 h3 h4 h5 h6 h7 h8 h
    unfold manh at h ih
    have step : ∀ a (d : Int × Int), Spec.squareDir a = some d →
        0 ≤ p.1 + d.1 → p.1 + d.1 < W → 0 ≤ p.2 + d.2 → p.2 + d.2 < H →
        |p.1 + d.1 - q.1| + |p.2 + d.2 - q.2| = n →
        Spec.Path (fun p q => Spec.SquareStep p q ∧ 0 ≤ q.1 ∧ q.1 < W ∧ 0 ≤ q.2 ∧ q.2 < H)
          (n + 1) p q := by
      intro a d e1 b1 b2 b3 b4 e
      exact Spec.Path.cons (q := (p.1 + d.1, p.2 + d.2)) ⟨⟨a, d, e1, rfl⟩, b1, b2, b3, b4⟩
        (ih _ _ b1 b2 b3 b4 h5 h6 h7 h8 e)
    have c : ∀ z : Int, |z| = if 0 ≤ z then z else -z := fun z => by
      split_ifs with hz
      · exact abs_of_nonneg hz
      · exact abs_of_neg (by omega)
    rw [c, c] at h
    push_cast at h
    rcases lt_trichotomy p.1 q.1 with hx | hx | hx
    · exact step 1 (1, 0) rfl (by simp only; omega) (by simp only; omega) (by simp only; omega)
        (by simp only; omega) (by rw [c, c]; simp only; split_ifs at h ⊢ <;> omega)
    · rcases lt_trichotomy p.2 q.2 with hy | hy | hy
      · exact step 0 (0, 1) rfl (by simp only; omega) (by simp only; omega) (by simp only; omega)
          (by simp only; omega) (by rw [c, c]; simp only; split_ifs at h ⊢ <;> omega)
      · split_ifs at h <;> omega
      · exact step 2 (0, -1) rfl (by simp only; omega) (by simp only; omega) (by simp only; omega)
          (by simp only; omega) (by rw [c, c]; simp only; split_ifs at h ⊢ <;> omega)
    · exact step 3 (-1, 0) rfl (by simp only; omega) (by simp only; omega) (by simp only; omega)
        (by simp only; omega) (by rw [c, c]; simp only; split_ifs at h ⊢ <;> omega)

/-! ### from cells back to states -/

theorem cell_inj {H s t : Nat} (h : Spec.cell H s = Spec.cell H t) : s = t := by
  simp only [Spec.cell, Prod.mk.injEq, Nat.cast_inj] at h
  exact state_eq_of_coords h.1 h.2

theorem cell_bounds {W H s : Nat} (h : s < W * H) :
    0 ≤ (Spec.cell H s).1 ∧ (Spec.cell H s).1 < W ∧ 0 ≤ (Spec.cell H s).2 ∧ (Spec.cell H s).2 < H := by
  have hH := pos_of_lt_mul h
  simp only [Spec.cell]
  refine ⟨by positivity, ?_, by positivity, ?_⟩
  · exact_mod_cast Nat.div_lt_of_lt_mul (by rwa [Nat.mul_comm] at h)
  · exact_mod_cast Nat.mod_lt _ hH

theorem exists_cell {W H : Nat} {p : Int × Int} (h1 : 0 ≤ p.1) (h2 : p.1 < W) (h3 : 0 ≤ p.2)
    (h4 : p.2 < H) : ∃ s, s < W * H ∧ Spec.cell H s = p := by
  obtain ⟨x, hx⟩ := Int.eq_ofNat_of_zero_le h1
  obtain ⟨y, hy⟩ := Int.eq_ofNat_of_zero_le h3
  have hx' : x < W := by omega
  have hy' : y < H := by omega
  refine ⟨x * H + y, ?_, ?_⟩
  · calc x * H + y < x * H + H := by omega
      _ = (x + 1) * H := by ring
      _ ≤ W * H := Nat.mul_le_mul_right _ hx'
  · have e1 : (x * H + y) / H = x := by
      rw [Nat.mul_comm, Nat.mul_add_div (by omega), Nat.div_eq_of_lt hy', add_zero]
    have e2 : (x * H + y) % H = y := by
      rw [Nat.mul_comm, Nat.mul_add_mod, Nat.mod_eq_of_lt hy']
    simp only [Spec.cell, e1, e2]
    exact Prod.ext hx.symm hy.symm

end MaMDP
