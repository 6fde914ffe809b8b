import Verif.Lemmas.HexPath
import Mathlib.Tactic.NormNum

/-! # C01 - C08: grid geometry -/

set_option linter.unusedSectionVars false

namespace MaMDP

variable {K : Type} [Field K] [LinearOrder K] [IsStrictOrderedRing K]

/-! ## C01: state IDs and coordinates -/

/-- The coordinate table and `state_to_idx` both give `(s / H, s % H)`. -/
theorem C01_state_coords (W H s : Nat) (h : s < W * H) :
    getStateCoords W H s = .ok (s / H, s % H) ∧ unravelIndex W H s = .ok (s / H, s % H) := by
  constructor
  · simp only [getStateCoords, gridCoords_length, pyIdx_nat, if_pos h, gridCoords_get h]
  · unfold unravelIndex
    rw [if_pos ⟨by positivity, by exact_mod_cast h⟩]
    simp

/-- `grid_coords` numbers the cells `0, 1, ...` and lists no cell twice. -/
theorem C01_grid_coords (W H : Nat) :
    (gridCoords W H fun _ _ => false).1 = List.range (W * H) ∧
    (gridCoords W H fun _ _ => false).2.length = W * H ∧
    (gridCoords W H fun _ _ => false).2.Nodup ∧
    ∀ p, p ∈ (gridCoords W H fun _ _ => false).2 ↔ p.1 < W ∧ p.2 < H := by
  refine ⟨?_, gridCoords_length W H, ?_, ?_⟩
  · change List.range (gridCoords W H fun _ _ => false).2.length = _
    rw [gridCoords_length]
  · rw [gridCoords_idx]
    refine List.Nodup.map_on ?_ List.nodup_range
    intro s _ t _ h
    rw [Prod.mk.injEq] at h
    exact state_eq_of_coords h.1 h.2
  · intro p
    simp [gridCoords]
    constructor
    · rintro ⟨a, ha, b, hb, rfl⟩; exact ⟨ha, hb⟩
    · rintro ⟨h1, h2⟩; exact ⟨p.1, h1, p.2, h2, rfl⟩

/-- `idx_to_state(state_to_idx(s)) = s` whenever `state_to_idx(s)` succeeds. -/
theorem C01_state_idx_state (W H : Nat) (s : Int) (x y : Nat) (h : unravelIndex W H s = .ok (x, y)) :
    x < W ∧ y < H ∧ ∃ k : Nat, (k : Int) = s ∧ ravelMultiIndex W H x y = .ok k := by
  unfold unravelIndex at h
  split_ifs at h with hs
  obtain ⟨k, rfl⟩ := Int.eq_ofNat_of_zero_le hs.1
  have hk : k < W * H := by exact_mod_cast hs.2
  have hH := pos_of_lt_mul hk
  simp at h
  obtain ⟨rfl, rfl⟩ := h
  have b1 : k / H < W := Nat.div_lt_of_lt_mul (by rwa [Nat.mul_comm] at hk)
  have b2 : k % H < H := Nat.mod_lt _ hH
  refine ⟨b1, b2, k, rfl, ?_⟩
  unfold ravelMultiIndex
  rw [if_pos ⟨by positivity, by exact_mod_cast b1, by positivity, by exact_mod_cast b2⟩]
  have := Nat.div_add_mod k H
  simp only [Int.toNat_natCast, Except.ok.injEq]
  rw [Nat.mul_comm]; exact this

/-- `state_to_idx(idx_to_state(x, y)) = (x, y)` whenever `idx_to_state` succeeds. -/
theorem C01_idx_state_idx (W H : Nat) (x y : Int) (s : Nat) (h : ravelMultiIndex W H x y = .ok s) :
    s < W * H ∧ ∃ a b : Nat, (a : Int) = x ∧ (b : Int) = y ∧ unravelIndex W H s = .ok (a, b) := by
  unfold ravelMultiIndex at h
  split_ifs at h with hb
  obtain ⟨a, rfl⟩ := Int.eq_ofNat_of_zero_le hb.1
  obtain ⟨b, rfl⟩ := Int.eq_ofNat_of_zero_le hb.2.2.1
  simp at h
  have ha : a < W := by exact_mod_cast hb.2.1
  have hbb : b < H := by exact_mod_cast hb.2.2.2
  subst h
  have hs : a * H + b < W * H := by
    calc a * H + b < a * H + H := by omega
      _ = (a + 1) * H := by ring
      _ ≤ W * H := Nat.mul_le_mul_right _ ha
  refine ⟨hs, a, b, rfl, rfl, ?_⟩
  rw [(C01_state_coords W H _ hs).2]
  rw [Nat.mul_comm a H, Nat.mul_add_div (by omega), Nat.div_eq_of_lt hbb, Nat.mul_add_mod,
    Nat.mod_eq_of_lt hbb, add_zero]

/-- Both conversions raise `ValueError` exactly outside the grid. -/
theorem C01_errors (W H : Nat) (s x y : Int) :
    (unravelIndex W H s = .error .valueError ↔ s < 0 ∨ (W * H : Int) ≤ s) ∧
    (ravelMultiIndex W H x y = .error .valueError ↔ x < 0 ∨ (W : Int) ≤ x ∨ y < 0 ∨ (H : Int) ≤ y) := by
  unfold unravelIndex ravelMultiIndex
  constructor
  · split_ifs with h
    · simp; omega
    · simp; omega
  · split_ifs with h
    · simp; omega
    · simp; omega

example : unravelIndex 3 4 7 = .ok (1, 3) ∧ ravelMultiIndex 3 4 1 3 = .ok 7 ∧
    getStateCoords 3 4 7 = .ok (1, 3) ∧ unravelIndex 3 4 12 = .error .valueError := by decide

/-- Reshaping a flat array to the grid puts the value of state `s` at the coordinates of `s`. -/
theorem C01_flat_to_grid (W H : Nat) (v : Arr1 K) (hv : v.d0 = W * H) :
    ∃ g, Mdp.flatToGrid W H v = .ok g ∧ g.d0 = W ∧ g.d1 = H ∧
      ∀ s, s < W * H → g.get (s / H) (s % H) = v.get s := by
  refine ⟨_, by unfold Mdp.flatToGrid; rw [if_pos hv], rfl, rfl, ?_⟩
  intro s _
  simp only
  rw [Nat.mul_comm, Nat.div_add_mod]

example : ∃ g, Mdp.flatToGrid 2 3 (⟨6, fun i => (i : Rat)⟩) = .ok g ∧ g.get 1 2 = 5 :=
  ⟨_, rfl, by norm_num⟩

/-- A flat array of any other length is refused with `ValueError`. -/
theorem C01_flat_to_grid_errors (W H : Nat) (v : Arr1 K) :
    (∃ g, Mdp.flatToGrid W H v = .ok g) ∨ v.d0 ≠ W * H ∧ Mdp.flatToGrid W H v = .error .valueError := by
  unfold Mdp.flatToGrid
  split_ifs with h
  · exact Or.inl ⟨_, rfl⟩
  · exact Or.inr ⟨h, rfl⟩

/-- `features_as_grid` puts feature `f` of state `s` into layer `f` at the coordinates of `s`, for every feature,
those of the agents included; it has one layer per feature. An MDP that is not a grid has no such view, and a
feature array that does not have one column per cell is refused. -/
theorem C01_features_as_grid (m : Mdp K) :
    (∀ W H, m.shape = some (W, H) → m.features.d1 = W * H →
      ∃ g, m.featuresAsGrid = .ok g ∧ g.d0 = m.features.d0 ∧ g.d1 = W ∧ g.d2 = H ∧
        ∀ f s, f < m.features.d0 → s < W * H → g.get f (s / H) (s % H) = m.features.get f s) ∧
    (∀ W H, m.shape = some (W, H) → m.features.d1 ≠ W * H → 0 < m.features.d0 →
      m.featuresAsGrid = .error .valueError) ∧
    (m.shape = none → m.featuresAsGrid = .error .attributeError) := by
  unfold Mdp.featuresAsGrid
  refine ⟨?_, ?_, ?_⟩
  · intro W H hs hd
    rw [hs]
    simp only
    rw [if_pos (by rw [hd]; rfl)]
    refine ⟨_, rfl, rfl, rfl, rfl, ?_⟩
    intro f s _ _
    simp only
    rw [Nat.mul_comm, Nat.div_add_mod]
  · intro W H hs hd h0
    rw [hs]
    simp only
    rw [if_neg]
    exact fun h => hd (Nat.eq_of_mul_eq_mul_left h0 h)
  · intro hs
    rw [hs]

example : ∃ m : Mdp Rat, Mdp.initGrid .square 2 3 true (⟨2, 6, fun f s => if f = 1 then (s : Rat) else 7⟩) none = .ok m ∧
    ∃ g, m.featuresAsGrid = .ok g ∧ g.get 1 1 2 = 5 ∧ g.get 0 1 2 = 7 := by
  have key : ∀ x, Mdp.initGrid (K := Rat) .square 2 3 true (⟨2, 6, fun f s => if f = 1 then (s : Rat) else 7⟩) none = x →
      (match x with
        | .ok m => (match m.featuresAsGrid with
          | .ok g => decide (g.get 1 1 2 = 5) && decide (g.get 0 1 2 = 7)
          | .error _ => false)
        | .error _ => false) = true → ∃ m, x = .ok m ∧
        ∃ g, m.featuresAsGrid = .ok g ∧ g.get 1 1 2 = 5 ∧ g.get 0 1 2 = 7 := by
    intro x hx h
    clear hx
    split at h
    · rename_i m
      split at h
      · rename_i g hg
        exact ⟨m, rfl, g, hg, by simpa using h⟩
      · cases h
    · cases h
  exact key _ rfl (by decide +kernel)

/-! ## C02, C03: transitions -/

/-- Building a square grid MDP succeeds, and its transition array is exactly the compass moves
(plus staying, with self transitions). -/
theorem C02_square_transitions (W H : Nat) (selfT : Bool) (f : Arr2 K) (hpos : 0 < W * H)
    (hf : f.d1 = W * H) :
    ∃ m, Mdp.initGrid .square W H selfT f none = .ok m ∧ m.nStates = W * H ∧
      m.nActions = (if selfT then 5 else 4) ∧
      ∀ s a t, s < W * H → a < m.nActions → t < W * H →
        (Spec.SquareMove H selfT s a t → m.sas s a t = 1) ∧
        (¬ Spec.SquareMove H selfT s a t → m.sas s a t = 0) := by
  obtain ⟨m, h1, h2, h3⟩ := Mdp.initGrid_ok (kind := .square) (selfT := selfT) (f := f) (w := none)
    hpos hf (by simp)
  have hw := h3.2.2.2.2.2
  refine ⟨m, h1, h2.nStates, by rw [h2.nActions]; cases selfT <;> rfl, ?_⟩
  intro s a t hs _ ht
  have key : GridKind.square.Move H selfT s a t ↔ Spec.SquareMove H selfT s a t := Iff.rfl
  have := h2.sas s a t hs ht
  rw [hw] at this
  simp only [zero_ne_one, or_self, if_false] at this
  rw [this]
  constructor
  · intro h; rw [if_pos (key.2 h)]
  · intro h; rw [if_neg (fun h' => h (key.1 h'))]

/-- The hypotheses are satisfiable: on the 3x4 grid, action 1 (+x) takes state 1 = (0,1) to
state 5 = (1,1). -/
example : Spec.SquareMove 4 false 1 1 5 := Or.inl ⟨(1, 0), rfl, by decide⟩
example : ∃ m : Mdp Rat, Mdp.initGrid .square 3 4 false ⟨2, 12, fun _ _ => 0⟩ none = .ok m ∧
    m.sas 1 1 5 = 1 ∧ m.sas 1 0 5 = 0 := by
  obtain ⟨m, h1, _, h3, h4⟩ := C02_square_transitions (K := Rat) 3 4 false ⟨2, 12, fun _ _ => 0⟩
    (by decide) rfl
  refine ⟨m, h1, (h4 1 1 5 (by decide) (by rw [h3]; decide) (by decide)).1
    (Or.inl ⟨(1, 0), rfl, by decide⟩), (h4 1 0 5 (by decide) (by rw [h3]; decide) (by decide)).2 ?_⟩
  rintro (⟨d, h, h'⟩ | ⟨h, _⟩)
  · simp [Spec.squareDir] at h
    subst h
    exact absurd h' (by decide)
  · exact absurd h (by decide)

/-- Building a hexagonal grid MDP succeeds, and its transition array is exactly the six hexagon
moves (plus staying, with self transitions). -/
theorem C03_hex_transitions (W H : Nat) (selfT : Bool) (f : Arr2 K) (hpos : 0 < W * H)
    (hf : f.d1 = W * H) :
    ∃ m, Mdp.initGrid .hex W H selfT f none = .ok m ∧ m.nStates = W * H ∧
      m.nActions = (if selfT then 7 else 6) ∧
      ∀ s a t, s < W * H → a < m.nActions → t < W * H →
        (Spec.HexMove H selfT s a t → m.sas s a t = 1) ∧
        (¬ Spec.HexMove H selfT s a t → m.sas s a t = 0) := by
  obtain ⟨m, h1, h2, h3⟩ := Mdp.initGrid_ok (kind := .hex) (selfT := selfT) (f := f) (w := none)
    hpos hf (by simp)
  have hw := h3.2.2.2.2.2
  refine ⟨m, h1, h2.nStates, by rw [h2.nActions]; cases selfT <;> rfl, ?_⟩
  intro s a t hs _ ht
  have key : GridKind.hex.Move H selfT s a t ↔ Spec.HexMove H selfT s a t := Iff.rfl
  have := h2.sas s a t hs ht
  rw [hw] at this
  simp only [zero_ne_one, or_self, if_false] at this
  rw [this]
  constructor
  · intro h; rw [if_pos (key.2 h)]
  · intro h; rw [if_neg (fun h' => h (key.1 h'))]

/-- On the 3x4 hex grid, from the even column state 1 = (0,1) action 1 goes to (1,2) = 6; from the
odd column state 5 = (1,1) it goes to (2,1) = 9. -/
example : Spec.HexMove 4 true 1 1 6 ∧ Spec.HexMove 4 true 5 1 9 ∧ Spec.HexMove 4 true 5 6 5 :=
  ⟨Or.inl ⟨(1, 1), rfl, by decide⟩, Or.inl ⟨(1, 0), rfl, by decide⟩, Or.inr ⟨rfl, rfl, rfl⟩⟩

/-- An empty grid is rejected. -/
theorem C02_C03_empty (kind : GridKind) (W H : Nat) (selfT : Bool) (f : Arr2 K)
    (w : Option (Arr1 K)) (h : W * H = 0) :
    Mdp.initGrid kind W H selfT f w = .error .valueError := by
  obtain ⟨g, hg, -⟩ := getSas_ok (K := K) kind W H selfT
  unfold Mdp.initGrid
  rw [hg]
  simp [Mdp.init, Mdp.setSas, h]

example : (0 : Nat) * 5 = 0 := rfl

/-! ## C04: determinism -/

/-- In every reachable state of every grid MDP: entries are 0/1, at most one successor, and the
deterministic flag is set. -/
theorem C04_deterministic (kind : GridKind) (W H : Nat) (selfT : Bool) (m : Mdp K)
    (h : Mdp.GridReach kind W H selfT m) :
    m.deterministic = true ∧
    (∀ s a t, s < m.nStates → a < m.nActions → t < m.nStates →
      m.sas s a t = 0 ∨ m.sas s a t = 1) ∧
    (∀ s a t u, s < m.nStates → a < m.nActions → t < m.nStates → u < m.nStates →
      m.sas s a t ≠ 0 → m.sas s a u ≠ 0 → t = u) := by
  have g := h.ok
  refine ⟨g.det, ?_, ?_⟩
  · intro s a t hs _ ht
    rw [g.nStates] at hs ht
    rw [g.sas s a t hs ht]
    split_ifs <;> simp
  · intro s a t u hs _ ht hu h1 h2
    rw [g.nStates] at hs ht hu
    obtain ⟨-, -, m1⟩ := (g.sas_ne_zero hs ht).1 h1
    obtain ⟨-, -, m2⟩ := (g.sas_ne_zero hs hu).1 h2
    rcases m1 with ⟨d, e1, e2⟩ | ⟨e1, e2, e3⟩
    · rcases m2 with ⟨d', e1', e2'⟩ | ⟨_, e2', _⟩
      · rw [e1] at e1'
        cases e1'
        exact cell_inj (e2.trans e2'.symm)
      · have := GridKind.dir_lt e1
        omega
    · rcases m2 with ⟨d', e1', e2'⟩ | ⟨_, _, e3'⟩
      · have := GridKind.dir_lt e1'
        omega
      · rw [e3, e3']

/-- A reachable state with a wall: the 2x3 hex grid with state 4 walled by `add_wall_xy`. -/
example : ∃ m : Mdp Rat, Mdp.GridReach .hex 2 3 true m := by
  obtain ⟨m, h, -⟩ := Mdp.initGrid_ok (K := Rat) (kind := .hex) (W := 2) (H := 3) (selfT := true)
    (f := ⟨1, 6, fun _ _ => 1⟩) (w := none) (by decide) rfl (by simp)
  exact ⟨_, .step (.addWallXY [1] [1]) (.init h) (by simp)⟩

/-! ## C05: reversibility -/

theorem C05_square_reversible (W H : Nat) (selfT : Bool) (m : Mdp K)
    (h : Mdp.GridReach .square W H selfT m) (s a t : Nat) (hs : s < m.nStates) (ht : t < m.nStates)
    (ha : a < 4) (hm : m.sas s a t ≠ 0) : m.sas t ((a + 2) % 4) s = 1 := by
  have g := h.ok
  rw [g.nStates] at hs ht
  obtain ⟨w1, w2, m1⟩ := (g.sas_ne_zero hs ht).1 hm
  · refine (g.sas_eq_one ht hs).2 ⟨w2, w1, ?_⟩
    rcases m1 with ⟨d, e1, e2⟩ | ⟨_, e2, _⟩
    · left
      have e1' : Spec.squareDir a = some d := e1
      refine ⟨(-d.1, -d.2), ?_, ?_⟩
      · change Spec.squareDir ((a + 2) % 4) = some (-d.1, -d.2)
        interval_cases a <;> simp [Spec.squareDir] at e1' ⊢ <;> subst e1' <;> simp
      · rw [e2]; ext <;> simp
    · simp only [GridKind.nMoves] at e2; omega

theorem C05_hex_reversible (W H : Nat) (selfT : Bool) (m : Mdp K)
    (h : Mdp.GridReach .hex W H selfT m) (s a t : Nat) (hs : s < m.nStates) (ht : t < m.nStates)
    (ha : a < 6) (hm : m.sas s a t ≠ 0) : m.sas t ((a + 3) % 6) s = 1 := by
  have g := h.ok
  rw [g.nStates] at hs ht
  obtain ⟨w1, w2, m1⟩ := (g.sas_ne_zero hs ht).1 hm
  · refine (g.sas_eq_one ht hs).2 ⟨w2, w1, ?_⟩
    rcases m1 with ⟨d, e1, e2⟩ | ⟨_, e2, _⟩
    · left
      have e1' : Spec.hexDir (Spec.cell H s).1 a = some d := e1
      have e3 : (Spec.cell H t).1 = (Spec.cell H s).1 + d.1 := by rw [e2]
      refine ⟨(-d.1, -d.2), ?_, ?_⟩
      · change Spec.hexDir (Spec.cell H t).1 ((a + 3) % 6) = some (-d.1, -d.2)
        rw [e3]
        generalize (Spec.cell H s).1 = x at e1'
        rcases Int.emod_two_eq_zero_or_one x with hp | hp
        · have p1 : (x + 1) % 2 = 1 := by omega
          have p2 : (x + -1) % 2 = 1 := by omega
          interval_cases a <;> simp [Spec.hexDir, hp] at e1' ⊢ <;> subst e1' <;> simp [p1, p2]
        · have p1 : (x + 1) % 2 = 0 := by omega
          have p2 : (x + -1) % 2 = 0 := by omega
          interval_cases a <;> simp [Spec.hexDir, hp] at e1' ⊢ <;> subst e1' <;> simp [p1, p2]
      · rw [e2]; ext <;> simp
    · simp only [GridKind.nMoves] at e2; omega

/-- The hypothesis `m.sas s a t ≠ 0` is met e.g. by state 1 and action 1 of the 3x4 grid. -/
example : ∃ m : Mdp Rat, Mdp.GridReach .square 3 4 false m ∧ m.sas 1 1 5 ≠ 0 := by
  obtain ⟨m, h1, _, h3, h4⟩ := C02_square_transitions (K := Rat) 3 4 false ⟨2, 12, fun _ _ => 0⟩
    (by decide) rfl
  refine ⟨m, .init h1, ?_⟩
  rw [(h4 1 1 5 (by decide) (by rw [h3]; decide) (by decide)).1 (Or.inl ⟨(1, 0), rfl, by decide⟩)]
  norm_num

/-! ## C06: hex distance -/

/-- `offset_distance` never raises, returns a whole number, and that number is the length of a
shortest chain of hexagon moves. -/
theorem C06_shortest_path (x1 y1 x2 y2 : Int) :
    ∃ n : Nat, offsetDistance x1 y1 x2 y2 = .ok (n : Rat) ∧
      Spec.IsDist Spec.HexStep (x1, y1) (x2, y2) n := by
  obtain ⟨n, hn⟩ := Int.eq_ofNat_of_zero_le (hexD_nonneg x1 y1 x2 y2)
  refine ⟨n, ?_, hexPath_plane n _ _ (by simpa using hn), ?_⟩
  · rw [offsetDistance_hexD, hn]; simp
  · intro m hm
    have := hexPath_ge hm
    simp only at this
    omega

/-- `offset_distance` is a metric. -/
theorem C06_metric (x1 y1 x2 y2 x3 y3 : Int) :
    ∃ d12 d21 d13 d23 : Rat, offsetDistance x1 y1 x2 y2 = .ok d12 ∧
      offsetDistance x2 y2 x1 y1 = .ok d21 ∧ offsetDistance x1 y1 x3 y3 = .ok d13 ∧
      offsetDistance x2 y2 x3 y3 = .ok d23 ∧
      0 ≤ d12 ∧ (d12 = 0 ↔ x1 = x2 ∧ y1 = y2) ∧ d12 = d21 ∧ d13 ≤ d12 + d23 := by
  refine ⟨_, _, _, _, offsetDistance_hexD .., offsetDistance_hexD .., offsetDistance_hexD ..,
    offsetDistance_hexD .., ?_, ?_, ?_, ?_⟩
  · exact_mod_cast hexD_nonneg ..
  · rw [← hexD_eq_zero x1 y1 x2 y2]; exact_mod_cast Iff.rfl
  · rw [hexD_comm]
  · exact_mod_cast hexD_triangle ..

example : offsetDistance 0 0 3 4 = .ok 5 := by decide +kernel

/-! ## C07: recovering the action -/

theorem C07_action_of_adjacent (kind : GridKind) (W H : Nat) (selfT : Bool) (f : Arr2 K) (m : Mdp K)
    (hm : Mdp.initGrid kind W H selfT f none = .ok m) (A B : Nat) (hA : A < W * H) (hB : B < W * H) :
    let coords := (gridCoords W H fun _ _ => false).2
    let adj := kind.adjacency coords
    (adj A B = true ↔ A ≠ B ∧ ∃ a, a < m.nActions ∧ m.sas A a B = 1) ∧
    (adj A B = true → ∃ a, kind.getAction A B adj coords = .ok a ∧ a < m.nActions ∧
      m.sas A a B = 1 ∧ ∀ b, b < m.nActions → m.sas A b B = 1 → b = a) ∧
    (adj A B = false → kind.getAction A B adj coords = .error .valueError) := by
  intro coords adj
  obtain ⟨p1, p2, p3⟩ := Mdp.initGrid_inv hm
  obtain ⟨m', h1, g, h3⟩ := Mdp.initGrid_ok (kind := kind) (selfT := selfT) (f := f) (w := none)
    p1 p2 p3
  rw [hm] at h1
  cases h1
  have hw := h3.2.2.2.2.2
  have sas : ∀ a, m.sas A a B = if kind.Move H selfT A a B then (1 : K) else 0 := by
    intro a
    have := g.sas A a B hA hB
    rw [hw] at this
    simpa using this
  have sas1 : ∀ a, m.sas A a B = 1 ↔ kind.Move H selfT A a B := by
    intro a; rw [sas a]; split_ifs with h <;> simp [h]
  have adjne : adj A B = true → A ≠ B := by
    rintro h rfl
    obtain ⟨a, d, _, e1, e2⟩ := (adjacency_action kind hA hA).1 h
    have e1' : (Spec.cell H A).1 = (Spec.cell H A).1 + d.1 := congrArg Prod.fst e2
    have e2' : (Spec.cell H A).2 = (Spec.cell H A).2 + d.2 := congrArg Prod.snd e2
    have hd : d = (0, 0) := Prod.ext (by simp only; omega) (by simp only; omega)
    subst hd
    have ha := GridKind.dir_lt e1
    cases kind
    · simp only [GridKind.nMoves, GridKind.dir] at *
      interval_cases a <;> simp [Spec.squareDir] at e1
    · simp only [GridKind.nMoves, GridKind.dir] at *
      rcases Int.emod_two_eq_zero_or_one (Spec.cell H A).1 with hp | hp <;>
      interval_cases a <;> simp [Spec.hexDir, hp] at e1
  have move_ne : ∀ a, A ≠ B → kind.Move H selfT A a B →
      ∃ d, kind.dir (Spec.cell H A).1 a = some d ∧
        Spec.cell H B = ((Spec.cell H A).1 + d.1, (Spec.cell H A).2 + d.2) := by
    intro a hne h
    rcases h with h | ⟨_, _, h⟩
    · exact h
    · exact absurd h.symm hne
  have lt : ∀ a d, kind.dir (Spec.cell H A).1 a = some d → a < m.nActions := by
    intro a d h; rw [g.nActions]; have := GridKind.dir_lt h; omega
  refine ⟨⟨fun h => ⟨adjne h, ?_⟩, ?_⟩, ?_, ?_⟩
  · obtain ⟨a, d, _, e1, e2⟩ := (adjacency_action kind hA hB).1 h
    exact ⟨a, lt a d e1, (sas1 a).2 (Or.inl ⟨d, e1, e2⟩)⟩
  · rintro ⟨hne, a, ha, h⟩
    obtain ⟨d, e1, e2⟩ := move_ne a hne ((sas1 a).1 h)
    exact (adjacency_action kind hA hB).2 a d e1 e2
  · intro h
    obtain ⟨a, d, e0, e1, e2⟩ := (adjacency_action kind hA hB).1 h
    refine ⟨a, e0, lt a d e1, (sas1 a).2 (Or.inl ⟨d, e1, e2⟩), ?_⟩
    intro b _ hb
    obtain ⟨d', e1', e2'⟩ := move_ne b (adjne h) ((sas1 b).1 hb)
    have hd : d' = d := by
      rw [e2] at e2'
      simp only [Prod.mk.injEq] at e2'
      ext <;> omega
    subst hd
    exact GridKind.dir_inj e1' e1
  · intro h
    cases kind
    · simp only [GridKind.getAction, getActionSquare, coords, gridCoords_get hA, gridCoords_get hB]
      rw [if_pos]
      have h' : adj A B = false := h
      rw [h']; rfl
    · simp only [GridKind.getAction, getActionHex, coords, gridCoords_get hA, gridCoords_get hB]
      rw [if_pos]
      have h' : adj A B = false := h
      rw [h']; rfl

/-- **C07 (missing states).** Asking for the action between states that are not both on the grid raises `IndexError`. -/
theorem C07_outside (kind : GridKind) (W H A B : Nat) (T : Nat → Nat → Bool) (h : W * H ≤ A ∨ W * H ≤ B) :
    kind.getAction A B T (gridCoords W H fun _ _ => false).2 = .error .indexError := by
  have hl : (gridCoords W H fun _ _ => false).2.length = W * H := gridCoords_length W H
  rcases h with h | h
  · have e : (gridCoords W H fun _ _ => false).2[A]? = none := List.getElem?_eq_none (by omega)
    cases kind
    · simp only [GridKind.getAction, getActionSquare, e]
    · simp only [GridKind.getAction, getActionHex, e]
  · have e : (gridCoords W H fun _ _ => false).2[B]? = none := List.getElem?_eq_none (by omega)
    cases kind
    · simp only [GridKind.getAction, getActionSquare, e]
      cases (gridCoords W H fun _ _ => false).2[A]? <;> rfl
    · simp only [GridKind.getAction, getActionHex, e]
      cases (gridCoords W H fun _ _ => false).2[A]? <;> rfl

/-- Both cases occur: states 1 and 5 of the 3x4 square grid are adjacent, 1 and 6 are not. -/
example : squareAdjacency (gridCoords 3 4 fun _ _ => false).2 1 5 = true ∧
    squareAdjacency (gridCoords 3 4 fun _ _ => false).2 1 6 = false ∧
    hexAdjacency (gridCoords 3 4 fun _ _ => false).2 1 6 = true := by decide +kernel

/-! ## C08: connectivity -/

/-- One valid move of an MDP. -/
def Spec.MdpStep (m : Mdp K) (s t : Nat) : Prop :=
  s < m.nStates ∧ t < m.nStates ∧ ∃ a, a < m.nActions ∧ 0 < m.sas s a t

theorem path_of_cells {W H : Nat} {P : Int × Int → Int × Int → Prop} {Q : Nat → Nat → Prop}
    (hPQ : ∀ s t, s < W * H → t < W * H → P (Spec.cell H s) (Spec.cell H t) → Q s t)
    (hin : ∀ p q, P p q → 0 ≤ q.1 ∧ q.1 < W ∧ 0 ≤ q.2 ∧ q.2 < H)
    {n : Nat} {p q : Int × Int} (h : Spec.Path P n p q) :
    ∀ s t, s < W * H → t < W * H → Spec.cell H s = p → Spec.cell H t = q →
      Spec.Path Q n s t := by
  induction h with
  | nil p =>
    intro s t _ _ e1 e2
    have := cell_inj (e1.trans e2.symm)
    subst this
    exact .nil _
  | @cons n p q r hs _ ih =>
    intro s t h1 h2 e1 e2
    obtain ⟨b1, b2, b3, b4⟩ := hin _ _ hs
    obtain ⟨u, hu, eu⟩ := exists_cell (W := W) (H := H) b1 b2 b3 b4
    refine .cons (hPQ s u h1 hu ?_) (ih u t hu h2 eu e2)
    rw [e1, eu]; exact hs

theorem path_mono {α : Type} {P : α → α → Prop} {R : Nat → Nat → Prop} {g : Nat → α}
    (h : ∀ s t, R s t → P (g s) (g t) ∨ s = t) {n : Nat} {s t : Nat} (hp : Spec.Path R n s t) :
    ∃ k, k ≤ n ∧ Spec.Path P k (g s) (g t) := by
  induction hp with
  | nil p => exact ⟨0, le_refl _, .nil _⟩
  | @cons n p q r hs _ ih =>
    obtain ⟨k, hk, hp⟩ := ih
    rcases h p q hs with h1 | rfl
    · exact ⟨k + 1, by omega, .cons h1 hp⟩
    · exact ⟨k, by omega, hp⟩

theorem mdpStep_iff {kind : GridKind} {W H : Nat} {selfT : Bool} {f : Arr2 K} {m : Mdp K}
    (hm : Mdp.initGrid kind W H selfT f none = .ok m) (s t : Nat) :
    Spec.MdpStep m s t ↔ s < W * H ∧ t < W * H ∧ ∃ a, a < m.nActions ∧ kind.Move H selfT s a t := by
  obtain ⟨p1, p2, p3⟩ := Mdp.initGrid_inv hm
  obtain ⟨m', h1, g, h3⟩ := Mdp.initGrid_ok (kind := kind) (selfT := selfT) (f := f) (w := none)
    p1 p2 p3
  rw [hm] at h1
  cases h1
  have hw := h3.2.2.2.2.2
  unfold Spec.MdpStep
  rw [g.nStates]
  constructor
  · rintro ⟨hs, ht, a, ha, h⟩
    refine ⟨hs, ht, a, ha, ?_⟩
    rw [g.sas s a t hs ht, hw] at h
    simp only [zero_ne_one, or_self, if_false] at h
    by_contra hc
    rw [if_neg hc] at h
    exact lt_irrefl _ h
  · rintro ⟨hs, ht, a, ha, h⟩
    refine ⟨hs, ht, a, ha, ?_⟩
    rw [g.sas s a t hs ht, hw]
    simp [h]

/-- Square grid: the least number of moves between two states is the Manhattan distance of their
cells (so every state is reachable from every other). -/
theorem C08_square_connected (W H : Nat) (selfT : Bool) (f : Arr2 K) (m : Mdp K)
    (hm : Mdp.initGrid .square W H selfT f none = .ok m) (s t : Nat) (hs : s < W * H) (ht : t < W * H) :
    ∃ n : Nat, (n : Int) = |((s / H : Nat) : Int) - (t / H : Nat)| + |((s % H : Nat) : Int) - (t % H : Nat)| ∧
      Spec.IsDist (Spec.MdpStep m) s t n := by
  obtain ⟨n, hn⟩ := Int.eq_ofNat_of_zero_le
    (show 0 ≤ manh (Spec.cell H s) (Spec.cell H t) from add_nonneg (abs_nonneg _) (abs_nonneg _))
  have hA : m.nActions = 4 + (if selfT then 1 else 0) := by
    obtain ⟨p1, p2, p3⟩ := Mdp.initGrid_inv hm
    obtain ⟨m', h1, g, -⟩ := Mdp.initGrid_ok (kind := .square) (selfT := selfT) (f := f) (w := none)
      p1 p2 p3
    rw [hm] at h1; cases h1; exact g.nActions
  refine ⟨n, hn.symm, ?_, ?_⟩
  · obtain ⟨a1, a2, a3, a4⟩ := cell_bounds hs
    obtain ⟨b1, b2, b3, b4⟩ := cell_bounds ht
    have := squarePath_exists W H n _ _ a1 a2 a3 a4 b1 b2 b3 b4 hn
    refine path_of_cells (W := W) (H := H) ?_ (fun p q h => h.2) this s t hs ht rfl rfl
    rintro s t hs ht ⟨⟨a, d, e1, e2⟩, -⟩
    rw [mdpStep_iff hm]
    refine ⟨hs, ht, a, ?_, Or.inl ⟨d, e1, e2⟩⟩
    have := squareDir_lt a d e1
    omega
  · intro k hk
    obtain ⟨j, hj, hp⟩ := path_mono (P := Spec.SquareStep) (g := Spec.cell H) (by
      intro s t h
      rw [mdpStep_iff hm] at h
      obtain ⟨-, -, a, -, ⟨d, e1, e2⟩ | ⟨-, -, e⟩⟩ := h
      · exact Or.inl ⟨a, d, e1, e2⟩
      · exact Or.inr e.symm) hk
    have := squarePath_ge hp
    rw [hn] at this
    omega

/-- Hex grid: the least number of moves between two states equals `offset_distance` of their
cells: every state is reachable from every other and shortest paths never need to leave the
rectangle. -/
theorem C08_hex_connected (W H : Nat) (selfT : Bool) (f : Arr2 K) (m : Mdp K)
    (hm : Mdp.initGrid .hex W H selfT f none = .ok m) (s t : Nat) (hs : s < W * H) (ht : t < W * H) :
    ∃ n : Nat, offsetDistance (s / H : Nat) (s % H : Nat) (t / H : Nat) (t % H : Nat) = .ok (n : Rat) ∧
      Spec.IsDist (Spec.MdpStep m) s t n := by
  obtain ⟨n, hn⟩ := Int.eq_ofNat_of_zero_le
    (hexD_nonneg ((s / H : Nat) : Int) (s % H : Nat) (t / H : Nat) (t % H : Nat))
  have hA : m.nActions = 6 + (if selfT then 1 else 0) := by
    obtain ⟨p1, p2, p3⟩ := Mdp.initGrid_inv hm
    obtain ⟨m', h1, g, -⟩ := Mdp.initGrid_ok (kind := .hex) (selfT := selfT) (f := f) (w := none)
      p1 p2 p3
    rw [hm] at h1; cases h1; exact g.nActions
  refine ⟨n, by rw [offsetDistance_hexD, hn]; simp, ?_, ?_⟩
  · obtain ⟨a1, a2, a3, a4⟩ := cell_bounds hs
    obtain ⟨b1, b2, b3, b4⟩ := cell_bounds ht
    have := hexPath_exists W H n _ _ a1 a2 a3 a4 b1 b2 b3 b4 hn
    refine path_of_cells (W := W) (H := H) ?_ (fun p q h => h.2) this s t hs ht rfl rfl
    rintro s t hs ht ⟨⟨a, d, e1, e2⟩, -⟩
    rw [mdpStep_iff hm]
    refine ⟨hs, ht, a, ?_, Or.inl ⟨d, e1, e2⟩⟩
    have := hexDir_lt _ a d e1
    omega
  · intro k hk
    obtain ⟨j, hj, hp⟩ := path_mono (P := Spec.HexStep) (g := Spec.cell H) (by
      intro s t h
      rw [mdpStep_iff hm] at h
      obtain ⟨-, -, a, -, ⟨d, e1, e2⟩ | ⟨-, -, e⟩⟩ := h
      · exact Or.inl ⟨a, d, e1, e2⟩
      · exact Or.inr e.symm) hk
    have := hexPath_ge hp
    simp only [Spec.cell] at this
    rw [hn] at this
    omega

example : ∃ m : Mdp Rat, Mdp.initGrid .hex 5 4 true ⟨1, 20, fun _ _ => 0⟩ none = .ok m := by
  obtain ⟨m, h, -⟩ := Mdp.initGrid_ok (K := Rat) (kind := .hex) (W := 5) (H := 4) (selfT := true)
    (f := ⟨1, 20, fun _ _ => 0⟩) (w := none) (by decide) rfl (by simp)
  exact ⟨m, h⟩

end MaMDP
