import Verif.Model.Plotting
import Verif.Spec.Plotting
import Verif.Lemmas.Eyeline
import Mathlib.Tactic.Linarith
import Mathlib.Tactic.NormNum
import Mathlib.Tactic.Ring
import Mathlib.Tactic.Positivity

/-! Lemmas about plots. -/

set_option linter.unusedSectionVars false

namespace MaMDP

variable {K : Type} [Field K] [LinearOrder K] [IsStrictOrderedRing K]

/-! ### Minimum and maximum ignoring NaN -/

theorem foldl_min_spec : ∀ (l : List K) (v : K), l.foldl min v ∈ v :: l ∧ ∀ u ∈ v :: l, l.foldl min v ≤ u := by
  intro l
  induction l with
  | nil => intro v; simp
  | cons a l ih =>
    intro v
    obtain ⟨h1, h2⟩ := ih (min v a)
    simp only [List.foldl_cons]
    constructor
    · rcases List.mem_cons.1 h1 with h | h
      · rw [h]
        rcases min_choice v a with h' | h' <;> rw [h'] <;> simp
      · simp [h]
    · intro u hu
      have hm := h2 (min v a) List.mem_cons_self
      simp only [List.mem_cons] at hu
      rcases hu with rfl | rfl | hu
      · exact hm.trans (min_le_left _ _)
      · exact hm.trans (min_le_right _ _)
      · exact h2 u (List.mem_cons_of_mem _ hu)

theorem foldl_max_spec : ∀ (l : List K) (v : K), l.foldl max v ∈ v :: l ∧ ∀ u ∈ v :: l, u ≤ l.foldl max v := by
  intro l
  induction l with
  | nil => intro v; simp
  | cons a l ih =>
    intro v
    obtain ⟨h1, h2⟩ := ih (max v a)
    simp only [List.foldl_cons]
    constructor
    · rcases List.mem_cons.1 h1 with h | h
      · rw [h]
        rcases max_choice v a with h' | h' <;> rw [h'] <;> simp
      · simp [h]
    · intro u hu
      have hm := h2 (max v a) List.mem_cons_self
      simp only [List.mem_cons] at hu
      rcases hu with rfl | rfl | hu
      · exact (le_max_left _ _).trans hm
      · exact (le_max_right _ _).trans hm
      · exact h2 u (List.mem_cons_of_mem _ hu)

theorem mem_defined {n : Nat} {x : Nat → Option K} {v : K} : v ∈ defined n x ↔ ∃ i, i < n ∧ x i = some v := by
  unfold defined; simp

theorem nanMin_spec {l : List K} {v : K} (hv : v ∈ l) : ∃ lo, nanMin l = some lo ∧ lo ∈ l ∧ ∀ u ∈ l, lo ≤ u := by
  cases l with
  | nil => simp at hv
  | cons a l => exact ⟨_, rfl, foldl_min_spec l a⟩

theorem nanMax_spec {l : List K} {v : K} (hv : v ∈ l) : ∃ hi, nanMax l = some hi ∧ hi ∈ l ∧ ∀ u ∈ l, u ≤ hi := by
  cases l with
  | nil => simp at hv
  | cons a l => exact ⟨_, rfl, foldl_max_spec l a⟩

/-- What `normalise` computes as soon as there is a number. -/
theorem normalise_eq {n : Nat} {x : Nat → Option K} {i : Nat} {v : K} (hi : i < n) (hv : x i = some v) :
    ∃ lo top, (∃ j, j < n ∧ x j = some lo) ∧ (∃ j, j < n ∧ x j = some top) ∧
      (∀ j u, j < n → x j = some u → lo ≤ u ∧ u ≤ top) ∧
      normalise n x = .ok fun j => (x j).bind fun u => if top - lo = 0 then none else some ((u - lo) / (top - lo)) := by
  obtain ⟨lo, h1, h2, h3⟩ := nanMin_spec (mem_defined.2 ⟨i, hi, hv⟩)
  obtain ⟨top', h4, h5, h6⟩ := nanMax_spec (l := defined n fun j => (x j).map fun v => v - lo)
    (mem_defined.2 ⟨i, hi, by rw [hv]; rfl⟩)
  obtain ⟨jl, hjl, hxl⟩ := mem_defined.1 h2
  obtain ⟨jt, hjt, hxt⟩ := mem_defined.1 h5
  cases hx : x jt with
  | none => rw [hx] at hxt; cases hxt
  | some top =>
    rw [hx] at hxt
    simp only [Option.map_some, Option.some.injEq] at hxt
    refine ⟨lo, top, ⟨jl, hjl, hxl⟩, ⟨jt, hjt, hx⟩, fun j u hj hu => ⟨h3 u (mem_defined.2 ⟨j, hj, hu⟩), ?_⟩, ?_⟩
    · have := h6 (u - lo) (mem_defined.2 ⟨j, hj, by rw [hu]; rfl⟩)
      rw [← hxt] at this
      linarith
    · unfold normalise
      rw [if_neg (by omega), h1]
      simp only
      rw [h4]
      simp only
      congr 1
      funext j
      rw [hxt]
      cases x j <;> rfl

/-! ### Honeycomb -/

theorem hexPoint_eq (r : K) (x z : Nat) : hexPoint r x z = Spec.honeycomb r (innerRadius r) x z := by
  unfold hexPoint Spec.honeycomb
  rcases Nat.mod_two_eq_zero_or_one x with h | h
  · simp only [h]; ext <;> simp <;> ring
  · simp only [h]; ext <;> simp <;> ring

theorem foldl_upd2 (g : Nat → Nat → K × K) : ∀ (l : List (Nat × Nat)) (c : Nat → Nat → K × K) (x z : Nat),
    l.foldl (fun c p => upd2 c p.1 p.2 (g p.1 p.2)) c x z = if (x, z) ∈ l then g x z else c x z := by
  intro l
  induction l with
  | nil => intro c x z; simp
  | cons p l ih =>
    intro c x z
    rw [List.foldl_cons, ih]
    by_cases h : (x, z) ∈ l
    · simp [h]
    · by_cases hp : (x, z) = p
      · subst hp; simp [h, upd2]
      · have : ¬ (x = p.1 ∧ z = p.2) := fun h' => hp (Prod.ext h'.1 h'.2)
        simp [h, hp, upd2, this]

theorem mem_drawn {W H : Nat} {hide : List (Int × Int)} {x z : Nat} :
    (x, z) ∈ drawnCells W H hide ↔ x < W ∧ z < H ∧ ((x : Int), (z : Int)) ∉ hide := by
  unfold drawnCells
  simp only [List.mem_filter, List.mem_flatMap, List.mem_range, List.mem_map, Prod.mk.injEq, decide_eq_true_eq]
  constructor
  · rintro ⟨⟨a, ha, b, hb, rfl, rfl⟩, h⟩; exact ⟨ha, hb, h⟩
  · rintro ⟨ha, hb, h⟩; exact ⟨⟨x, ha, z, hb, rfl, rfl⟩, h⟩

theorem draw_eq {r : K} {W H : Nat} {hide : List (Int × Int)} {c : Nat → Nat → K × K}
    (h : drawHexagons r W H hide = .ok c) (x z : Nat) :
    c x z = if (x, z) ∈ drawnCells W H hide then hexPoint r x z else (0, 0) := by
  unfold drawHexagons at h
  simp only at h
  split_ifs at h with h0
  cases h
  exact foldl_upd2 (hexPoint r) _ _ _ _

/-- Distance of two hexagons in the units of `Spec.centre`. -/
theorem dist2_eq (r : K) (x z x' z' : Nat) : Spec.dist2 (hexPoint r x z) (hexPoint r x' z') =
    (9 / 4 * (((Spec.centre .hex (x, z)).1 - (Spec.centre .hex (x', z')).1 : Int) : K) ^ 2 +
      (86602540 / 100000000) ^ 2 * (((Spec.centre .hex (x, z)).2 - (Spec.centre .hex (x', z')).2 : Int) : K) ^ 2) * r ^ 2 := by
  rw [hexPoint_eq, hexPoint_eq]
  unfold Spec.dist2 Spec.honeycomb Spec.centre innerRadius
  simp only
  push_cast
  ring

theorem centre_parity (p q : Nat × Nat) : ((Spec.centre .hex p).1 - (Spec.centre .hex q).1) % 2 =
    ((Spec.centre .hex p).2 - (Spec.centre .hex q).2) % 2 := by
  unfold Spec.centre
  simp only
  split_ifs <;> omega

/-- The three cases for the distance of two hexagons. -/
theorem dist2_cases (r : K) (hr : 0 < r) (dx dy : Int) (hp : dx % 2 = dy % 2) (hne : ¬ (dx = 0 ∧ dy = 0)) :
    let d := (9 / 4 * (dx : K) ^ 2 + (86602540 / 100000000) ^ 2 * (dy : K) ^ 2) * r ^ 2
    (((dx = 0 ∧ (dy = 2 ∨ dy = -2)) ∨ ((dx = 1 ∨ dx = -1) ∧ (dy = 1 ∨ dy = -1))) ∧
      3 * r ^ 2 * (1 - 1 / 10 ^ 7) < d ∧ d ≤ 3 * r ^ 2) ∨
    (¬ ((dx = 0 ∧ (dy = 2 ∨ dy = -2)) ∨ ((dx = 1 ∨ dx = -1) ∧ (dy = 1 ∨ dy = -1))) ∧ 8 * r ^ 2 < d) := by
  intro d
  have hr2 : 0 < r ^ 2 := by positivity
  by_cases h : (dx = 0 ∧ (dy = 2 ∨ dy = -2)) ∨ ((dx = 1 ∨ dx = -1) ∧ (dy = 1 ∨ dy = -1))
  · left
    refine ⟨h, ?_⟩
    have : d = (86602540 / 100000000) ^ 2 * 4 * r ^ 2 ∨ d = (9 / 4 + (86602540 / 100000000) ^ 2) * r ^ 2 := by
      rcases h with ⟨rfl, rfl | rfl⟩ | ⟨rfl | rfl, rfl | rfl⟩ <;> simp only [d] <;> push_cast
      · left; ring
      · left; ring
      all_goals right; ring
    rcases this with h | h <;> rw [h] <;> constructor <;> nlinarith
  · right
    refine ⟨h, ?_⟩
    have key : (8 : K) < 9 / 4 * (dx : K) ^ 2 + (86602540 / 100000000) ^ 2 * (dy : K) ^ 2 := by
      have hdx : (0 : K) ≤ (dx : K) ^ 2 := sq_nonneg _
      have hdy : (0 : K) ≤ (dy : K) ^ 2 := sq_nonneg _
      have big : ∀ (z k : Int), 0 ≤ k → (k ≤ z ∨ z ≤ -k) → ((k ^ 2 : Int) : K) ≤ (z : K) ^ 2 := by
        intro z k hk hz
        have : k ^ 2 ≤ z ^ 2 := by rcases hz with hz | hz <;> nlinarith
        exact_mod_cast this
      have hcases : (2 ≤ dx ∨ dx ≤ -2) ∨ ((dx = 1 ∨ dx = -1) ∧ (3 ≤ dy ∨ dy ≤ -3)) ∨ (4 ≤ dy ∨ dy ≤ -4) := by
        omega
      rcases hcases with h1 | ⟨h1, h2⟩ | h1
      · have := big dx 2 (by norm_num) h1
        norm_num at this
        nlinarith
      · have h3 := big dy 3 (by norm_num) h2
        have h4 : (dx : K) ^ 2 = 1 := by rcases h1 with rfl | rfl <;> norm_num
        norm_num at h3
        rw [h4]
        nlinarith
      · have := big dy 4 (by norm_num) h1
        norm_num at this
        nlinarith
    exact mul_lt_mul_of_pos_right key hr2

/-- Neighbours of a state on the hexagonal grid. -/
theorem adjacent_iff {W H : Nat} {selfT : Bool} {m : Mdp K} (h : Mdp.GridReach .hex W H selfT m) {s t : Nat}
    (hs : s < W * H) (ht : t < W * H) (hne : s ≠ t) {dx dy : Int}
    (hdx : dx = (Spec.at' .hex H t).1 - (Spec.at' .hex H s).1)
    (hdy : dy = (Spec.at' .hex H t).2 - (Spec.at' .hex H s).2) :
    m.adjacency s t = true ↔
      (dx = 0 ∧ (dy = 2 ∨ dy = -2)) ∨ ((dx = 1 ∨ dx = -1) ∧ (dy = 1 ∨ dy = -1)) := by
  have g := h.ok
  rw [g.adj s t hs ht]
  constructor
  · rintro ⟨a, ha, hm⟩
    by_cases hlt : a < GridKind.hex.nMoves
    · have hah := (move_iff hlt).1 hm
      unfold Spec.Ahead at hah
      have h1 : dx = (Spec.heading .hex a).1 := by rw [hdx, hah]; simp
      have h2 : dy = (Spec.heading .hex a).2 := by rw [hdy, hah]; simp
      rw [h1, h2]
      have ha6 : a < 6 := hlt
      interval_cases a <;> simp [Spec.heading]
    · rcases hm with ⟨d, hd, -⟩ | ⟨-, -, rfl⟩
      · exfalso
        have ha6 : ¬ a < 6 := hlt
        simp only [GridKind.dir] at hd
        unfold Spec.hexDir at hd
        split at hd <;> first | omega | cases hd
      · exact absurd rfl hne
  · intro hd
    have : ∃ a, a < 6 ∧ (Spec.heading .hex a) = (dx, dy) := by
      rcases hd with ⟨h1, h2 | h2⟩ | ⟨h1 | h1, h2 | h2⟩ <;> rw [h1, h2]
      · exact ⟨0, by decide⟩
      · exact ⟨3, by decide⟩
      · exact ⟨1, by decide⟩
      · exact ⟨2, by decide⟩
      · exact ⟨5, by decide⟩
      · exact ⟨4, by decide⟩
    obtain ⟨a, ha, hh⟩ := this
    refine ⟨a, by rw [g.nActions]; exact lt_of_lt_of_le ha (Nat.le_add_right 6 _), (move_iff (show a < GridKind.hex.nMoves from ha)).2 ?_⟩
    unfold Spec.Ahead
    rw [hh]
    rw [hdx, hdy]
    ext <;> push_cast <;> ring

end MaMDP
