import Verif.Model.GridUtils
import Verif.Spec.Grid
import Verif.Lemmas.Py
import Mathlib.Tactic.Ring
import Mathlib.Tactic.NormNum
import Mathlib.Tactic.IntervalCases
import Mathlib.Tactic.Positivity

/-! Lemmas about grids. -/

namespace MaMDP

/-! ### coordinates -/

theorem gridCoords_idx (W H : Nat) :
    (gridCoords W H fun _ _ => false).2 =
      (List.range (W * H)).map fun s => (s / H, s % H) := by
  simp only [gridCoords, Bool.not_false, List.filter_true]
  induction W with
  | zero => simp
  | succ W ih =>
    rw [List.range_succ, List.flatMap_append, ih, Nat.succ_mul, List.range_add, List.map_append]
    congr 1
    simp only [List.flatMap_cons, List.flatMap_nil, List.append_nil, List.map_map]
    apply List.map_congr_left
    intro y hy
    have hy : y < H := by simpa using hy
    simp only [Function.comp]
    rw [Nat.mul_comm W H, Nat.mul_add_div (by omega), Nat.mul_add_mod, Nat.div_eq_of_lt hy,
      Nat.mod_eq_of_lt hy]
    rfl

theorem gridCoords_length (W H : Nat) : (gridCoords W H fun _ _ => false).2.length = W * H := by
  rw [gridCoords_idx]; simp

theorem gridCoords_get {W H s : Nat} (h : s < W * H) :
    (gridCoords W H fun _ _ => false).2[s]? = some (s / H, s % H) := by
  rw [gridCoords_idx]; simp [h]

theorem gridCoords_get_none {W H s : Nat} (h : ¬ s < W * H) :
    (gridCoords W H fun _ _ => false).2[s]? = none := by
  rw [gridCoords_idx]; simp; omega

theorem pos_of_lt_mul {W H s : Nat} (h : s < W * H) : 0 < H := by
  rcases Nat.eq_zero_or_pos H with rfl | h'
  · simp at h
  · exact h'

/-- Two states with equal coordinates are equal. -/
theorem state_eq_of_coords {H s t : Nat} (h1 : s / H = t / H) (h2 : s % H = t % H) : s = t := by
  rw [← Nat.div_add_mod s H, ← Nat.div_add_mod t H, h1, h2]

/-! ### hex distance -/

/-- The rational arithmetic of `offset_distance` done in integers (all numerators are even). -/
theorem offsetDistance_eq (x1 y1 x2 y2 : Int) :
    offsetDistance x1 y1 x2 y2 =
      .ok ((|(x1 : Rat) - x2| +
        |(-(x1 : Rat) - (y1 - ((x1 + (x1 % 2 : Int)) / 2 : Int))) -
          (-(x2 : Rat) - (y2 - ((x2 + (x2 % 2 : Int)) / 2 : Int)))| +
        |((y1 : Rat) - ((x1 + (x1 % 2 : Int)) / 2 : Int)) -
          ((y2 : Rat) - ((x2 + (x2 % 2 : Int)) / 2 : Int))|) / 2) := by
  have key : ∀ x : Int, (((x + (x % 2 : Int)) / 2 : Int) : Rat) =
      ((x : Rat) + ((x % 2 : Int) : Rat)) / 2 := by
    intro x
    have h2 : ((x + x % 2) / 2) * 2 = x + x % 2 := by omega
    have : (((x + x % 2) / 2 : Int) : Rat) * 2 = (x : Rat) + ((x % 2 : Int) : Rat) := by
      exact_mod_cast h2
    linarith
  simp only [offsetDistance, cubeDistance, offsetToCube, key]
  simp

/-- Half the sum of three absolute values that sum to zero is their maximum. -/
theorem half_sum_abs (u w : Int) :
    (|u| + |-u - w| + |w|) = 2 * max |u| (max |w| |u + w|) := by
  rcases abs_cases u with ⟨h1, h1'⟩ | ⟨h1, h1'⟩ <;> rcases abs_cases w with ⟨h2, h2'⟩ | ⟨h2, h2'⟩ <;>
  rcases abs_cases (u + w) with ⟨h3, h3'⟩ | ⟨h3, h3'⟩ <;>
  rcases abs_cases (-u - w) with ⟨h4, h4'⟩ | ⟨h4, h4'⟩ <;>
  rw [h1, h2, h3, h4] <;> omega

/-- The cube z coordinate. -/
def cz (x y : Int) : Int := y - (x + x % 2) / 2

/-- Integer hexagon distance. -/
def hexD (x1 y1 x2 y2 : Int) : Int :=
  max |x1 - x2| (max |cz x1 y1 - cz x2 y2| |(x1 - x2) + (cz x1 y1 - cz x2 y2)|)

theorem offsetDistance_hexD (x1 y1 x2 y2 : Int) :
    offsetDistance x1 y1 x2 y2 = .ok ((hexD x1 y1 x2 y2 : Int) : Rat) := by
  rw [offsetDistance_eq]
  congr 1
  have h := half_sum_abs (x1 - x2) (cz x1 y1 - cz x2 y2)
  have h' : ((|x1 - x2| + |-(x1 - x2) - (cz x1 y1 - cz x2 y2)| + |cz x1 y1 - cz x2 y2| : Int) : Rat)
      = 2 * (hexD x1 y1 x2 y2 : Int) := by
    rw [h]; unfold hexD; push_cast; rfl
  have e2 : (-(x1 : Rat) - (y1 - ((x1 + (x1 % 2 : Int)) / 2 : Int))) -
          (-(x2 : Rat) - (y2 - ((x2 + (x2 % 2 : Int)) / 2 : Int))) =
        ((-(x1 - x2) - (cz x1 y1 - cz x2 y2) : Int) : Rat) := by
    unfold cz; push_cast; ring
  have e3 : ((y1 : Rat) - ((x1 + (x1 % 2 : Int)) / 2 : Int)) -
          ((y2 : Rat) - ((x2 + (x2 % 2 : Int)) / 2 : Int)) =
        ((cz x1 y1 - cz x2 y2 : Int) : Rat) := by
    unfold cz; push_cast; ring
  have e1 : (x1 : Rat) - x2 = ((x1 - x2 : Int) : Rat) := by push_cast; ring
  rw [e1, e2, e3, ← Int.cast_abs, ← Int.cast_abs, ← Int.cast_abs, ← Int.cast_add, ← Int.cast_add, h']
  ring

/-- Distance one means one of the six moves, and the lookup returns that move. -/
theorem hexD_one_action (x1 y1 x2 y2 : Int) (h : hexD x1 y1 x2 y2 = 1) :
    ∃ a d, hexActionOf x1 (x2 - x1) (y2 - y1) = .ok a ∧ a < 6 ∧ Spec.hexDir x1 a = some d ∧
      x2 = x1 + d.1 ∧ y2 = y1 + d.2 := by
  unfold hexD cz at h
  have hb1 : |x1 - x2| ≤ 1 := by rw [← h]; exact le_max_left _ _
  have hb2 := le_trans (le_trans (le_max_left _ _) (le_max_right _ _)) h.le
  have hb3 := le_trans (le_trans (le_max_right _ _) (le_max_right _ _)) h.le
  have hne : ¬ (x1 = x2 ∧ y1 = y2) := by
    rintro ⟨rfl, rfl⟩; simp at h
  rw [abs_le] at hb1 hb2 hb3
  obtain ⟨dx, rfl⟩ : ∃ dx, x2 = x1 + dx := ⟨x2 - x1, by ring⟩
  obtain ⟨dy, rfl⟩ : ∃ dy, y2 = y1 + dy := ⟨y2 - y1, by ring⟩
  have hdx1 : -1 ≤ dx := by omega
  have hdx2 : dx ≤ 1 := by omega
  rcases Int.emod_two_eq_zero_or_one x1 with hp | hp
  · interval_cases dx
    · have : dy = 0 ∨ dy = 1 := by omega
      rcases this with rfl | rfl
      · exact ⟨4, (-1, 0), by simp [hexActionOf, hp], by omega, by simp [Spec.hexDir, hp], by simp, by simp⟩
      · exact ⟨5, (-1, 1), by simp [hexActionOf, hp], by omega, by simp [Spec.hexDir, hp], by simp, by simp⟩
    · have : dy = -1 ∨ dy = 1 := by omega
      rcases this with rfl | rfl
      · exact ⟨3, (0, -1), by simp [hexActionOf], by omega, by simp [Spec.hexDir], by simp, by simp⟩
      · exact ⟨0, (0, 1), by simp [hexActionOf], by omega, by simp [Spec.hexDir], by simp, by simp⟩
    · have : dy = 0 ∨ dy = 1 := by omega
      rcases this with rfl | rfl
      · exact ⟨2, (1, 0), by simp [hexActionOf, hp], by omega, by simp [Spec.hexDir, hp], by simp, by simp⟩
      · exact ⟨1, (1, 1), by simp [hexActionOf, hp], by omega, by simp [Spec.hexDir, hp], by simp, by simp⟩
  · interval_cases dx
    · have : dy = 0 ∨ dy = -1 := by omega
      rcases this with rfl | rfl
      · exact ⟨5, (-1, 0), by simp [hexActionOf, hp], by omega, by simp [Spec.hexDir, hp], by simp, by simp⟩
      · exact ⟨4, (-1, -1), by simp [hexActionOf, hp], by omega, by simp [Spec.hexDir, hp], by simp, by simp⟩
    · have : dy = -1 ∨ dy = 1 := by omega
      rcases this with rfl | rfl
      · exact ⟨3, (0, -1), by simp [hexActionOf], by omega, by simp [Spec.hexDir], by simp, by simp⟩
      · exact ⟨0, (0, 1), by simp [hexActionOf], by omega, by simp [Spec.hexDir], by simp, by simp⟩
    · have : dy = 0 ∨ dy = -1 := by omega
      rcases this with rfl | rfl
      · exact ⟨1, (1, 0), by simp [hexActionOf, hp], by omega, by simp [Spec.hexDir, hp], by simp, by simp⟩
      · exact ⟨2, (1, -1), by simp [hexActionOf, hp], by omega, by simp [Spec.hexDir, hp], by simp, by simp⟩

/-- Each of the six moves has distance one. -/
theorem hexD_of_dir (x1 y1 : Int) (a : Nat) (d : Int × Int) (h : Spec.hexDir x1 a = some d) :
    hexD x1 y1 (x1 + d.1) (y1 + d.2) = 1 := by
  have ha : a < 6 := by
    by_contra hc
    obtain ⟨k, rfl⟩ : ∃ k, a = k + 6 := ⟨a - 6, by omega⟩
    simp [Spec.hexDir] at h
  have aux : ∀ u w : Int, max |u| (max |w| |u + w|) = 1 ↔
      (-1 ≤ u ∧ u ≤ 1) ∧ (-1 ≤ w ∧ w ≤ 1) ∧ (-1 ≤ u + w ∧ u + w ≤ 1) ∧ ¬ (u = 0 ∧ w = 0) := by
    intro u w
    rcases abs_cases u with ⟨h1, h1'⟩ | ⟨h1, h1'⟩ <;> rcases abs_cases w with ⟨h2, h2'⟩ | ⟨h2, h2'⟩ <;>
    rcases abs_cases (u + w) with ⟨h3, h3'⟩ | ⟨h3, h3'⟩ <;> rw [h1, h2, h3] <;> omega
  unfold hexD
  rw [aux]
  unfold cz
  rcases Int.emod_two_eq_zero_or_one x1 with hp | hp <;>
  interval_cases a <;> simp [Spec.hexDir, hp] at h <;> subst h <;> simp only <;> omega

theorem hexDir_inj (x : Int) (a b : Nat) (d : Int × Int) (ha : Spec.hexDir x a = some d)
    (hb : Spec.hexDir x b = some d) : a = b := by
  have h6 : ∀ a d, Spec.hexDir x a = some d → a < 6 := by
    intro a d h
    by_contra hc
    obtain ⟨k, rfl⟩ : ∃ k, a = k + 6 := ⟨a - 6, by omega⟩
    simp [Spec.hexDir] at h
  have h1 := h6 _ _ ha
  have h2 := h6 _ _ hb
  rcases Int.emod_two_eq_zero_or_one x with hp | hp <;>
  interval_cases a <;> simp [Spec.hexDir, hp] at ha <;> subst ha <;>
  interval_cases b <;> simp [Spec.hexDir, hp] at hb ⊢

theorem hexDir_lt (x : Int) (a : Nat) (d : Int × Int) (h : Spec.hexDir x a = some d) : a < 6 := by
  by_contra hc
  obtain ⟨k, rfl⟩ : ∃ k, a = k + 6 := ⟨a - 6, by omega⟩
  simp [Spec.hexDir] at h

theorem squareDir_lt (a : Nat) (d : Int × Int) (h : Spec.squareDir a = some d) : a < 4 := by
  by_contra hc
  obtain ⟨k, rfl⟩ : ∃ k, a = k + 4 := ⟨a - 4, by omega⟩
  simp [Spec.squareDir] at h

theorem squareDir_inj (a b : Nat) (d : Int × Int) (ha : Spec.squareDir a = some d)
    (hb : Spec.squareDir b = some d) : a = b := by
  have h1 := squareDir_lt _ _ ha
  have h2 := squareDir_lt _ _ hb
  interval_cases a <;> simp [Spec.squareDir] at ha <;> subst ha <;>
  interval_cases b <;> simp [Spec.squareDir] at hb ⊢

theorem sq_sum_one (u w : Int) (h : u ^ 2 + w ^ 2 = 1) :
    (u = 0 ∧ w = 1) ∨ (u = 0 ∧ w = -1) ∨ (u = 1 ∧ w = 0) ∨ (u = -1 ∧ w = 0) := by
  have hu : u ^ 2 ≤ 1 := by nlinarith [sq_nonneg w]
  have hw : w ^ 2 ≤ 1 := by nlinarith [sq_nonneg u]
  have hu1 : -1 ≤ u ∧ u ≤ 1 := ⟨by nlinarith, by nlinarith⟩
  have hw1 : -1 ≤ w ∧ w ≤ 1 := ⟨by nlinarith, by nlinarith⟩
  obtain ⟨a, b⟩ := hu1
  obtain ⟨c, d⟩ := hw1
  interval_cases u <;> interval_cases w <;> simp_all

theorem square_one_action (x1 y1 x2 y2 : Int) (h : (x1 - x2) ^ 2 + (y1 - y2) ^ 2 = 1) :
    ∃ a d, squareActionOf (x2 - x1) (y2 - y1) = .ok a ∧ Spec.squareDir a = some d ∧
      x2 = x1 + d.1 ∧ y2 = y1 + d.2 := by
  rcases sq_sum_one _ _ h with ⟨h1, h2⟩ | ⟨h1, h2⟩ | ⟨h1, h2⟩ | ⟨h1, h2⟩
  · have e1 : x2 - x1 = 0 := by omega
    have e2 : y2 - y1 = -1 := by omega
    exact ⟨2, (0, -1), by rw [e1, e2]; rfl, rfl, by simp only; omega, by simp only; omega⟩
  · have e1 : x2 - x1 = 0 := by omega
    have e2 : y2 - y1 = 1 := by omega
    exact ⟨0, (0, 1), by rw [e1, e2]; rfl, rfl, by simp only; omega, by simp only; omega⟩
  · have e1 : x2 - x1 = -1 := by omega
    have e2 : y2 - y1 = 0 := by omega
    exact ⟨3, (-1, 0), by rw [e1, e2]; rfl, rfl, by simp only; omega, by simp only; omega⟩
  · have e1 : x2 - x1 = 1 := by omega
    have e2 : y2 - y1 = 0 := by omega
    exact ⟨1, (1, 0), by rw [e1, e2]; rfl, rfl, by simp only; omega, by simp only; omega⟩

/-! ### a uniform view of both grids -/

/-- The direction table of a grid kind. -/
def GridKind.dir : GridKind → Int → Nat → Option (Int × Int)
  | .square => fun _ => Spec.squareDir
  | .hex => Spec.hexDir

theorem GridKind.dir_lt {kind : GridKind} {x a d} (h : kind.dir x a = some d) :
    a < kind.nMoves := by
  cases kind
  · exact squareDir_lt _ _ h
  · exact hexDir_lt _ _ _ h

theorem GridKind.dir_inj {kind : GridKind} {x a b d} (h : kind.dir x a = some d)
    (h' : kind.dir x b = some d) : a = b := by
  cases kind
  · exact squareDir_inj _ _ _ h h'
  · exact hexDir_inj _ _ _ _ h h'

/-- Adjacent states: the lookup returns the direction; non-adjacent: no direction fits. -/
theorem adjacency_action (kind : GridKind) {W H i j : Nat} (hi : i < W * H) (hj : j < W * H) :
    let coords := (gridCoords W H fun _ _ => false).2
    let adj := kind.adjacency coords
    (adj i j = true → ∃ a d, kind.getAction i j adj coords = .ok a ∧
      kind.dir (Spec.cell H i).1 a = some d ∧
      Spec.cell H j = ((Spec.cell H i).1 + d.1, (Spec.cell H i).2 + d.2)) ∧
    (∀ a d, kind.dir (Spec.cell H i).1 a = some d →
      Spec.cell H j = ((Spec.cell H i).1 + d.1, (Spec.cell H i).2 + d.2) → adj i j = true) := by
  intro coords adj
  have ci := gridCoords_get hi
  have cj := gridCoords_get hj
  cases kind
  · constructor
    · intro h
      have h' := h
      simp only [adj, GridKind.adjacency, squareAdjacency, coords, ci, cj, decide_eq_true_eq] at h'
      obtain ⟨a, d, h1, h2, h3, h4⟩ := square_one_action _ _ _ _ h'
      refine ⟨a, d, ?_, h2, ?_⟩
      · simp only [GridKind.getAction, getActionSquare, coords, ci, cj]
        rw [show adj i j = true from h]
        exact h1
      · simp only [Spec.cell, Prod.mk.injEq]; exact ⟨h3, h4⟩
    · intro a d h1 h2
      simp only [adj, GridKind.adjacency, squareAdjacency, coords, ci, cj, decide_eq_true_eq]
      have ha := squareDir_lt _ _ h1
      simp only [Spec.cell, Prod.mk.injEq] at h2
      rw [h2.1, h2.2]
      simp only [GridKind.dir] at h1
      interval_cases a <;> simp [Spec.squareDir] at h1 <;> subst h1 <;> ring
  · constructor
    · intro h
      have h' := h
      simp only [adj, GridKind.adjacency, hexAdjacency, coords, ci, cj, decide_eq_true_eq,
        offsetDistance_hexD] at h'
      have h'' : hexD ((i / H : Nat) : Int) ((i % H : Nat) : Int) ((j / H : Nat) : Int)
          ((j % H : Nat) : Int) = 1 := by
        have := Except.ok.inj h'
        exact_mod_cast this
      obtain ⟨a, d, h1, _, h2, h3, h4⟩ := hexD_one_action _ _ _ _ h''
      refine ⟨a, d, ?_, h2, ?_⟩
      · simp only [GridKind.getAction, getActionHex, coords, ci, cj]
        rw [show adj i j = true from h]
        exact h1
      · simp only [Spec.cell, Prod.mk.injEq]; exact ⟨h3, h4⟩
    · intro a d h1 h2
      simp only [adj, GridKind.adjacency, hexAdjacency, coords, ci, cj, decide_eq_true_eq,
        offsetDistance_hexD]
      have := hexD_of_dir (Spec.cell H i).1 (Spec.cell H i).2 a d h1
      simp only [Spec.cell, Prod.mk.injEq] at h2
      rw [h2.1, h2.2]
      simp only [Spec.cell] at this
      rw [this]; simp

/-! ### the double loop -/

section loop
variable {K : Type _} [Zero K] [One K]

omit [Zero K] in
theorem innerLoop (i : Nat) (adj : Nat → Nat → Bool) (act : Nat → Nat → Py Nat)
    (av : Nat → Nat → Nat) (l : List Nat)
    (hact : ∀ j ∈ l, adj i j = true → act i j = .ok (av i j)) (sas : Nat → Nat → Nat → K) :
    l.foldlM (fun sas j =>
      if adj i j then do
        let a ← act i j
        pure (upd3 sas i a j 1)
      else pure sas) sas =
    (Except.ok (fun p q r => if p = i ∧ r ∈ l ∧ adj i r = true ∧ q = av i r then 1 else sas p q r) :
      Py (Nat → Nat → Nat → K)) := by
  induction l generalizing sas with
  | nil => simp [pure, Except.pure]
  | cons j l ih =>
    rw [List.foldlM_cons]
    have ih' := fun s => ih (fun j hj => hact j (List.mem_cons_of_mem _ hj)) s
    by_cases h : adj i j = true
    · rw [if_pos h, hact j List.mem_cons_self h]
      have : (do let a ← (Except.ok (av i j) : Py Nat); pure (upd3 sas i a j 1) :
          Py (Nat → Nat → Nat → K)) = Except.ok (upd3 sas i (av i j) j 1) := rfl
      rw [this]
      change List.foldlM _ (upd3 sas i (av i j) j 1) l = _
      rw [ih']
      congr 1
      funext p q r
      simp only [upd3, List.mem_cons]
      by_cases h1 : p = i ∧ r ∈ l ∧ adj i r = true ∧ q = av i r
      · rw [if_pos h1, if_pos ⟨h1.1, Or.inr h1.2.1, h1.2.2⟩]
      · rw [if_neg h1]
        by_cases h2 : p = i ∧ q = av i j ∧ r = j
        · rw [if_pos h2, if_pos]
          obtain ⟨rfl, rfl, rfl⟩ := h2
          exact ⟨rfl, Or.inl rfl, h, rfl⟩
        · rw [if_neg h2, if_neg]
          rintro ⟨rfl, h3 | h3, h4, h5⟩
          · subst h3; exact h2 ⟨rfl, h5, rfl⟩
          · exact h1 ⟨rfl, h3, h4, h5⟩
    · rw [if_neg h]
      change List.foldlM _ sas l = _
      rw [ih']
      congr 1
      funext p q r
      simp only [List.mem_cons]
      by_cases h1 : p = i ∧ r ∈ l ∧ adj i r = true ∧ q = av i r
      · rw [if_pos h1, if_pos ⟨h1.1, Or.inr h1.2.1, h1.2.2⟩]
      · rw [if_neg h1, if_neg]
        rintro ⟨rfl, h3 | h3, h4, h5⟩
        · subst h3; exact h h4
        · exact h1 ⟨rfl, h3, h4, h5⟩

theorem sasLoop_ok (n nA : Nat) (selfT : Bool) (adj : Nat → Nat → Bool) (act : Nat → Nat → Py Nat)
    (av : Nat → Nat → Nat)
    (hact : ∀ i, i < n → ∀ j, j < n → adj i j = true → act i j = .ok (av i j)) :
    sasLoop n nA selfT adj act =
    (Except.ok (fun p q r =>
      if p < n ∧ ((r < n ∧ adj p r = true ∧ q = av p r) ∨ (selfT = true ∧ q = nA - 1 ∧ r = p))
      then 1 else 0) : Py (Nat → Nat → Nat → K)) := by
  have key : ∀ (l : List Nat) (_ : ∀ i ∈ l, i < n) (sas : Nat → Nat → Nat → K),
      l.foldlM (fun sas i => do
        let sas ← (List.range n).foldlM (fun sas j =>
          if adj i j then do
            let a ← act i j
            pure (upd3 sas i a j 1)
          else pure sas) sas
        pure (if selfT then upd3 sas i (nA - 1) i 1 else sas)) sas =
      (Except.ok (fun p q r => if p ∈ l ∧ ((r < n ∧ adj p r = true ∧ q = av p r) ∨
        (selfT = true ∧ q = nA - 1 ∧ r = p)) then 1 else sas p q r) :
        Py (Nat → Nat → Nat → K)) := by
    intro l
    induction l with
    | nil => intro _ sas; simp [pure, Except.pure]
    | cons i l ih =>
      intro hl sas
      rw [List.foldlM_cons]
      rw [innerLoop i adj act av (List.range n)
        (fun j hj => hact i (hl i List.mem_cons_self) j (by simpa using hj))]
      change List.foldlM _ (if selfT = true then upd3 _ i (nA - 1) i 1 else _) l = _
      rw [ih (fun i hi => hl i (List.mem_cons_of_mem _ hi))]
      congr 1
      funext p q r
      simp only [List.mem_cons, List.mem_range]
      by_cases h1 : p ∈ l ∧ ((r < n ∧ adj p r = true ∧ q = av p r) ∨
        (selfT = true ∧ q = nA - 1 ∧ r = p))
      · rw [if_pos h1, if_pos ⟨Or.inr h1.1, h1.2⟩]
      · rw [if_neg h1]
        by_cases h2 : (p = i ∨ p ∈ l) ∧ ((r < n ∧ adj p r = true ∧ q = av p r) ∨
          (selfT = true ∧ q = nA - 1 ∧ r = p))
        · rw [if_pos h2]
          have hp : p = i := by
            rcases h2.1 with h | h
            · exact h
            · exact absurd ⟨h, h2.2⟩ h1
          subst hp
          rcases h2.2 with ⟨h3, h4, h5⟩ | ⟨h3, h4, h5⟩
          · cases selfT <;> simp [upd3, h3, h4, h5]
          · subst h3; simp [upd3, h4, h5]
        · rw [if_neg h2]
          have h3 : ¬ (p = i ∧ r < n ∧ adj i r = true ∧ q = av i r) := by
            rintro ⟨rfl, h⟩; exact h2 ⟨Or.inl rfl, Or.inl h⟩
          cases selfT
          · simp [h3]
          · simp only [if_true, upd3]
            rw [if_neg h3, if_neg]
            rintro ⟨rfl, h4, h5⟩
            exact h2 ⟨Or.inl rfl, Or.inr ⟨rfl, h4, h5⟩⟩
  unfold sasLoop
  rw [key _ (fun i hi => by simpa using hi)]
  simp

end loop

/-- The transition relation of a grid in terms of cells. -/
def GridKind.Move (kind : GridKind) (H : Nat) (selfT : Bool) (s a t : Nat) : Prop :=
  (∃ d, kind.dir (Spec.cell H s).1 a = some d ∧
    Spec.cell H t = ((Spec.cell H s).1 + d.1, (Spec.cell H s).2 + d.2)) ∨
  (selfT = true ∧ a = kind.nMoves ∧ t = s)

instance (kind : GridKind) (H : Nat) (selfT : Bool) (s a t : Nat) :
    Decidable (kind.Move H selfT s a t) := by
  unfold GridKind.Move
  cases h : kind.dir (Spec.cell H s).1 a with
  | none =>
    apply decidable_of_iff (selfT = true ∧ a = kind.nMoves ∧ t = s); simp
  | some d =>
    apply decidable_of_iff ((Spec.cell H t = ((Spec.cell H s).1 + d.1, (Spec.cell H s).2 + d.2)) ∨
      (selfT = true ∧ a = kind.nMoves ∧ t = s)); simp

/-- `_get_sas` succeeds, with the documented shape and entries. -/
theorem getSas_ok {K : Type _} [Zero K] [One K] (kind : GridKind) (W H : Nat) (selfT : Bool) :
    ∃ f, getSas kind W H selfT =
      (Except.ok ⟨W * H, kind.nMoves + (if selfT then 1 else 0), W * H, f⟩ : Py (Arr3 K)) ∧
    ∀ s a t, s < W * H → t < W * H →
      f s a t = if kind.Move H selfT s a t then (1 : K) else 0 := by
  classical
  set coords := (gridCoords W H fun _ _ => false).2 with hc
  set adj := kind.adjacency coords with hadj
  let av : Nat → Nat → Nat := fun i j =>
    match kind.getAction i j adj coords with | .ok a => a | .error _ => 0
  have hact : ∀ i, i < W * H → ∀ j, j < W * H → adj i j = true →
      kind.getAction i j adj coords = .ok (av i j) := by
    intro i hi j hj h
    obtain ⟨a, d, h1, _⟩ := (adjacency_action kind hi hj).1 h
    have h1' : kind.getAction i j adj coords = .ok a := h1
    simp only [av, h1']
  have h := sasLoop_ok (K := K) (W * H) (kind.nMoves + (if selfT then 1 else 0)) selfT adj
    (fun i j => kind.getAction i j adj coords) av hact
  refine ⟨fun p q r => if p < W * H ∧ ((r < W * H ∧ adj p r = true ∧ q = av p r) ∨
      (selfT = true ∧ q = (kind.nMoves + (if selfT then 1 else 0)) - 1 ∧ r = p)) then 1 else 0,
    ?_, ?_⟩
  · unfold getSas
    simp only [← hc, ← hadj]
    rw [h]
    rfl
  · intro s a t hs ht
    have key : (s < W * H ∧ ((t < W * H ∧ adj s t = true ∧ a = av s t) ∨
        (selfT = true ∧ a = (kind.nMoves + (if selfT then 1 else 0)) - 1 ∧ t = s))) ↔
        kind.Move H selfT s a t := by
      unfold GridKind.Move
      constructor
      · rintro ⟨_, ⟨_, h1, h2⟩ | ⟨h1, h2, h3⟩⟩
        · obtain ⟨b, d, h3, h4, h5⟩ := (adjacency_action kind hs ht).1 h1
          have h3' := (hact s hs t ht h1).symm.trans h3
          have : a = b := by rw [h2]; exact Except.ok.inj h3'
          subst this
          exact Or.inl ⟨d, h4, h5⟩
        · subst h1
          exact Or.inr ⟨rfl, by simpa using h2, h3⟩
      · rintro (⟨d, h1, h2⟩ | ⟨h1, h2, h3⟩)
        · have hA := (adjacency_action kind hs ht).2 a d h1 h2
          refine ⟨hs, Or.inl ⟨ht, hA, ?_⟩⟩
          obtain ⟨b, d', h3, h4, h5⟩ := (adjacency_action kind hs ht).1 hA
          have h3' := (hact s hs t ht hA).symm.trans h3
          have hb : av s t = b := Except.ok.inj h3'
          rw [hb]
          have hd : d = d' := by
            rw [h2] at h5
            simp only [Prod.mk.injEq] at h5
            ext <;> omega
          subst hd
          exact GridKind.dir_inj h1 h4
        · subst h1
          exact ⟨hs, Or.inr ⟨rfl, by simpa using h2, h3⟩⟩
    exact if_congr key rfl rfl

end MaMDP
