import Verif.Lemmas.Features
import Verif.Lemmas.HexPath
import Mathlib.Tactic.NormNum

/-! # C09 - C22: the MDP object -/

set_option linter.unusedSectionVars false

namespace MaMDP

variable {K : Type} [Field K] [LinearOrder K] [IsStrictOrderedRing K]

/-- A concrete grid MDP used by the examples: 2x3 square grid, two features. -/
theorem exampleGrid (kind : GridKind) (selfT : Bool) :
    ∃ m : Mdp Rat, Mdp.initGrid kind 2 3 selfT ⟨2, 6, fun f s => if s = f + 1 then 1 else 0⟩ none = .ok m ∧
      Mdp.GridOk kind 2 3 selfT m ∧ m.walls = ⟨6, fun _ => 0⟩ ∧
      m.features = ⟨2, 6, fun f s => if s = f + 1 then 1 else 0⟩ ∧ m.nAgents = 0 := by
  obtain ⟨m, h, g, hf, _, hn, _, _, hw⟩ := Mdp.initGrid_ok (K := Rat) (kind := kind) (W := 2) (H := 3)
    (selfT := selfT) (f := ⟨2, 6, fun f s => if s = f + 1 then 1 else 0⟩) (w := none)
    (by decide) rfl (by simp)
  exact ⟨m, h, g, hw, hf, hn⟩

/-! ## C01: the features of a grid as a picture -/

/-- After any calls on a grid MDP other than replacing its transitions, `features_as_grid` succeeds and shows every
feature of every state at the coordinates of the state. -/
theorem C01_features_grid_reach {kind : GridKind} {W H : Nat} {selfT : Bool} {m : Mdp K}
    (h : Mdp.GridReach kind W H selfT m) :
    ∃ g, m.featuresAsGrid = .ok g ∧ g.d0 = m.nFeatures ∧ g.d1 = W ∧ g.d2 = H ∧
      ∀ f s, f < m.nFeatures → s < W * H → g.get f (s / H) (s % H) = m.features.get f s := by
  have o := h.ok
  unfold Mdp.featuresAsGrid
  rw [o.shape]
  simp only
  rw [if_pos (by rw [o.featStates]; rfl)]
  refine ⟨_, rfl, rfl, rfl, rfl, ?_⟩
  intro f s _ _
  simp only
  rw [Nat.mul_comm, Nat.div_add_mod]

/-! ## C09 walls block, and nothing else changes -/

/-- After a successful wall assignment on any MDP. -/
theorem C09_walls_block (m m' : Mdp K) (w : Arr1 K) (h : m.setWalls w = (m', .ok ())) :
    m'.walls = w ∧ ∀ s a t,
      ((w.get s = 1 ∨ w.get t = 1) → m'.sas s a t = 0) ∧
      (w.get s ≠ 1 → w.get t ≠ 1 → m'.sas s a t = m.originalSas.get s a t) := by
  rw [Mdp.setWalls_ok h]
  refine ⟨rfl, fun s a t => ⟨fun h => ?_, fun h1 h2 => ?_⟩⟩
  · simp [Mdp.maskWalls, h]
  · simp [Mdp.maskWalls, h1, h2]

/-- In every reachable state of a grid MDP a walled state can be neither entered nor left, and the
moves between other states are exactly the moves of the wall-free grid. -/
theorem C09_walls_grid (W H : Nat) (selfT : Bool) :
    (∀ m : Mdp K, Mdp.GridReach .square W H selfT m → ∀ s a t, s < W * H → t < W * H →
      (0 < m.sas s a t ↔ m.walls.get s = 0 ∧ m.walls.get t = 0 ∧ Spec.SquareMove H selfT s a t)) ∧
    (∀ m : Mdp K, Mdp.GridReach .hex W H selfT m → ∀ s a t, s < W * H → t < W * H →
      (0 < m.sas s a t ↔ m.walls.get s = 0 ∧ m.walls.get t = 0 ∧ Spec.HexMove H selfT s a t)) := by
  have aux : ∀ (kind : GridKind) (m : Mdp K), Mdp.GridReach kind W H selfT m → ∀ s a t, s < W * H →
      t < W * H → (0 < m.sas s a t ↔ m.walls.get s = 0 ∧ m.walls.get t = 0 ∧
        kind.Move H selfT s a t) := by
    intro kind m h s a t hs ht
    have g := h.ok
    have z : ∀ i, i < W * H → (m.walls.get i ≠ 1 ↔ m.walls.get i = 0) := by
      intro i hi
      rcases g.walls01 i hi with h | h <;> simp [h]
    rw [g.sas_pos hs ht, z s hs, z t ht]
  exact ⟨aux .square, aux .hex⟩

/-- A wall assignment that succeeds and blocks a cell. -/
example : ∃ m m' : Mdp Rat, m.setWalls ⟨6, fun i => if i = 4 then 1 else 0⟩ = (m', .ok ()) := by
  obtain ⟨m, h, g, -⟩ := exampleGrid .square false
  obtain ⟨m', h', -⟩ := Mdp.setWalls_grid g.pos g.shape g.orig g.featStates g.origFeatStates g.origFeat
    ⟨6, fun i => if i = 4 then 1 else 0⟩ rfl (fun i _ => by
      by_cases h : i = 4 <;> simp [h])
  exact ⟨m, m', h'⟩

/-! ## C10 history independence -/

/-- Whatever happened before (any operations, including direct transition assignments), the
transitions after a successful wall assignment depend only on the original array and the walls. -/
theorem C10_walls_history (m : Mdp K) (ops : List (MdpOp K)) (w : Arr1 K) (m' : Mdp K)
    (h : (m.run ops).setWalls w = (m', .ok ())) (s a t : Nat) :
    m'.sas s a t = if w.get s = 1 ∨ w.get t = 1 then 0 else m.originalSas.get s a t := by
  rw [Mdp.setWalls_ok h, (Mdp.run_frame ops m).2]
  rfl

/-- Two different histories, same walls: same transition function, same flags. -/
theorem C10_confluent (m : Mdp K) (ops1 ops2 : List (MdpOp K)) (w : Arr1 K) (m1 m2 : Mdp K)
    (h1 : (m.run ops1).setWalls w = (m1, .ok ())) (h2 : (m.run ops2).setWalls w = (m2, .ok ())) :
    m1.sas = m2.sas ∧ m1.nStates = m2.nStates ∧ m1.nActions = m2.nActions ∧ m1.walls = m2.walls ∧
      m1.deterministic = m2.deterministic ∧ m1.adjacency = m2.adjacency := by
  rw [Mdp.setWalls_ok h1, Mdp.setWalls_ok h2, (Mdp.run_frame ops1 m).2, (Mdp.run_frame ops2 m).2]
  exact ⟨rfl, rfl, rfl, rfl, rfl, rfl⟩

/-- On a grid MDP a valid wall array is always accepted, after any history. -/
theorem C10_valid_walls_accepted (kind : GridKind) (W H : Nat) (selfT : Bool) (f : Arr2 K)
    (w0 : Option (Arr1 K)) (m : Mdp K) (hm : Mdp.initGrid kind W H selfT f w0 = .ok m)
    (ops : List (MdpOp K)) (w : Arr1 K) (hlen : w.d0 = W * H)
    (h01 : ∀ i, i < W * H → w.get i = 0 ∨ w.get i = 1) :
    ((m.run ops).setWalls w).2 = .ok () := by
  have g := (Mdp.GridReach.init hm).ok
  obtain ⟨f, ho, hf⟩ := g.orig
  have hv := Mdp.validSas_grid g.pos hf
  unfold Mdp.setWalls
  rw [(Mdp.run_frame ops m).1, g.shape, (Mdp.run_frame ops m).2, ho]
  simp only
  rw [if_neg (by simpa using hlen), if_neg (by
    rintro ⟨i, hi, hh⟩; exact hh (h01 i (hlen ▸ hi))), Mdp.setSas_valid _ hv]

/-- `reset_walls` restores the original transitions, after any history that keeps the wall array
well-sized. -/
theorem C10_reset_walls (kind : GridKind) (W H : Nat) (selfT : Bool) (m : Mdp K)
    (h : Mdp.GridReach kind W H selfT m) :
    ∃ m', m.resetWalls = (m', .ok ()) ∧ (∀ i, i < W * H → m'.walls.get i = 0) ∧
      ∀ s a t, m'.sas s a t = m.originalSas.get s a t := by
  have g := h.ok
  obtain ⟨m', h1, -⟩ := Mdp.setWalls_grid
      (m := { m with walls := { m.walls with get := fun i => m.walls.get i * 0 } })
      g.pos g.shape g.orig g.featStates g.origFeatStates g.origFeat
      { m.walls with get := fun i => m.walls.get i * 0 } g.wallsLen (fun i _ => by simp)
  refine ⟨m', h1, ?_, ?_⟩
  · intro i _; rw [Mdp.setWalls_ok h1]; simp
  · intro s a t
    rw [Mdp.setWalls_ok h1]
    simp [Mdp.maskWalls]

/-- A reachable state with walls, to which the above applies. -/
example : ∃ m : Mdp Rat, Mdp.GridReach .square 2 3 false m ∧ m.walls.get 4 = 1 := by
  obtain ⟨m, h, g, -⟩ := exampleGrid .square false
  obtain ⟨m', h', -, hw, -⟩ := Mdp.setWalls_grid g.pos g.shape g.orig g.featStates g.origFeatStates
    g.origFeat ⟨6, fun i => if i = 4 then 1 else 0⟩ rfl (fun i _ => by
      by_cases h : i = 4 <;> simp [h])
  refine ⟨m.apply (.setWalls ⟨6, fun i => if i = 4 then 1 else 0⟩), .step _ (.init h) (by simp), ?_⟩
  simp only [Mdp.apply, h', hw]; simp

/-! ## C11 rejection -/

theorem C11_invalid_walls (m : Mdp K) (W H : Nat) (hshape : m.shape = some (W, H)) (w : Arr1 K) :
    (w.d0 ≠ W * H → m.setWalls w = (m, .error .attributeError)) ∧
    (w.d0 = W * H → (∃ i, i < W * H ∧ w.get i ≠ 0 ∧ w.get i ≠ 1) →
      m.setWalls w = (m, .error .valueError)) := by
  constructor
  · intro h
    have := Mdp.setWalls_reject hshape w (Or.inl h)
    exact Prod.ext this.1 (by rw [this.2, if_pos h])
  · rintro h ⟨i, hi, h0, h1⟩
    have := Mdp.setWalls_reject hshape w (Or.inr ⟨i, h ▸ hi, by tauto⟩)
    exact Prod.ext this.1 (by rw [this.2, if_neg (by simpa using h)])

example : ∃ m : Mdp Rat, m.shape = some (2, 3) ∧ (∃ i, i < 2 * 3 ∧ (2 : Rat) ≠ 0 ∧ (2 : Rat) ≠ 1) := by
  obtain ⟨m, -, g, -⟩ := exampleGrid .square false
  exact ⟨m, g.shape, 0, by norm_num⟩

/-! ## C12 add_wall_xy -/

/-- What a coordinate argument of `add_wall_xy` denotes: two entries are a half-open range,
anything else the listed coordinates. -/
def Spec.InCoords (arg : List Int) (i : Int) : Prop :=
  (∃ a b, arg = [a, b] ∧ a ≤ i ∧ i < b) ∨ (arg.length ≠ 2 ∧ i ∈ arg)

theorem mem_wallRange (arg : List Int) (i : Int) : i ∈ Mdp.wallRange arg ↔ Spec.InCoords arg i := by
  unfold Mdp.wallRange Spec.InCoords
  split
  · rename_i a b
    simp only [List.mem_map, List.mem_range, List.length_cons, List.length_nil]
    constructor
    · rintro ⟨k, hk, rfl⟩; exact Or.inl ⟨a, b, rfl, by omega, by omega⟩
    · rintro (⟨a', b', h, h1, h2⟩ | ⟨h, -⟩)
      · simp at h
        obtain ⟨rfl, rfl⟩ := h
        exact ⟨(i - a).toNat, by omega, by omega⟩
      · simp at h
  · rename_i h
    constructor
    · intro hi
      right
      refine ⟨?_, hi⟩
      intro hl
      obtain ⟨a, b, rfl⟩ := List.length_eq_two.1 hl
      exact h a b rfl
    · rintro (⟨a, b, rfl, -⟩ | ⟨-, hi⟩)
      · exact absurd rfl (h a b)
      · exact hi

/-- If every requested cell is inside the grid, exactly those cells become walls (earlier walls
stay); otherwise `ValueError` and nothing changes. -/
theorem C12_add_wall_xy (kind : GridKind) (W H : Nat) (selfT : Bool) (m : Mdp K)
    (h : Mdp.GridReach kind W H selfT m) (x y : List Int) :
    ((∀ i j, Spec.InCoords x i → Spec.InCoords y j → 0 ≤ i ∧ i < W ∧ 0 ≤ j ∧ j < H) →
      ∃ m', m.addWallXY x y = (m', .ok ()) ∧ ∀ s, s < W * H →
        (m'.walls.get s = 1 ∨ m'.walls.get s = 0) ∧ (m'.walls.get s = 1 ↔ m.walls.get s = 1 ∨
          (Spec.InCoords x (s / H : Nat) ∧ Spec.InCoords y (s % H : Nat)))) ∧
    ((∃ i j, Spec.InCoords x i ∧ Spec.InCoords y j ∧ ¬ (0 ≤ i ∧ i < W ∧ 0 ≤ j ∧ j < H)) →
      m.addWallXY x y = (m, .error .valueError)) := by
  classical
  have g := h.ok
  have hH : 0 < H := by have := g.pos; exact pos_of_lt_mul this
  have spec := Mdp.wallCells_spec (W := W) (H := H) (Mdp.wallRange x) (Mdp.wallRange y) m.walls
  simp only [mem_wallRange] at spec
  unfold Mdp.addWallXY
  rw [g.shape]
  simp only
  constructor
  · intro hin
    obtain ⟨w, h1, h2, h3⟩ := spec.1 (fun i hi j hj => hin i j hi hj)
    rw [h1]
    simp only
    have hmem : ∀ s : Nat, (∃ i, Spec.InCoords x i ∧ ∃ j, Spec.InCoords y j ∧ (s : Int) = i * H + j) ↔
        (Spec.InCoords x (s / H : Nat) ∧ Spec.InCoords y (s % H : Nat)) := by
      intro s
      constructor
      · rintro ⟨i, hi, j, hj, e⟩
        obtain ⟨b1, b2, b3, b4⟩ := hin i j hi hj
        obtain ⟨i, rfl⟩ := Int.eq_ofNat_of_zero_le b1
        obtain ⟨j, rfl⟩ := Int.eq_ofNat_of_zero_le b3
        have e' : s = H * i + j := by
          have : (s : Int) = ((H * i + j : Nat) : Int) := by rw [e]; push_cast; ring
          exact_mod_cast this
        have hj' : j < H := by exact_mod_cast b4
        rw [e', Nat.mul_add_div hH, Nat.div_eq_of_lt hj', Nat.mul_add_mod, Nat.mod_eq_of_lt hj', add_zero]
        exact ⟨hi, hj⟩
      · rintro ⟨h1, h2⟩
        refine ⟨_, h1, _, h2, ?_⟩
        have := Nat.div_add_mod s H
        rw [Nat.mul_comm] at this
        exact_mod_cast this.symm
    have hw01 : ∀ i, i < W * H → w i = 0 ∨ w i = 1 := by
      intro i hi
      by_cases hc : ∃ x_1, Spec.InCoords x x_1 ∧ ∃ y_1, Spec.InCoords y y_1 ∧ (i : Int) = x_1 * H + y_1
      · exact Or.inr (h2 i hc)
      · rw [h3 i hc]; exact g.walls01 i hi
    obtain ⟨m', e1, -, e2, -⟩ := Mdp.setWalls_grid g.pos g.shape g.orig g.featStates g.origFeatStates
      g.origFeat ⟨m.walls.d0, w⟩ g.wallsLen hw01
    refine ⟨m', e1, ?_⟩
    intro s hs
    rw [e2]
    simp only
    rw [← hmem s]
    refine ⟨(hw01 s hs).symm, ?_⟩
    by_cases hc : ∃ i, Spec.InCoords x i ∧ ∃ j, Spec.InCoords y j ∧ (s : Int) = i * H + j
    · simp only [h2 s hc, hc, or_true]
    · rw [h3 s hc]
      simp only [hc, or_false]
  · rintro ⟨i, j, hi, hj, hb⟩
    rw [spec.2 ⟨i, hi, j, hj, hb⟩]

example : Spec.InCoords [1] 1 ∧ Spec.InCoords [0, 2] 1 ∧ ¬ Spec.InCoords [0, 2] 2 := by
  refine ⟨Or.inr (by simp), Or.inl ⟨0, 2, rfl, by omega, by omega⟩, ?_⟩
  rintro (⟨a, b, h, h1, h2⟩ | ⟨h, -⟩)
  · simp at h; omega
  · simp at h

/-! ## C13 adjacency attribute -/

/-- C13 is false of the code: after adding a wall, `mdp.adjacency` still lists transitions that
no longer exist. -/
theorem C13_refuted : ∃ m : Mdp Rat, Mdp.GridReach .square 2 3 false m ∧
    m.adjacency 1 4 = true ∧ ∀ a, a < m.nActions → m.sas 1 a 4 = 0 := by
  obtain ⟨m, h, g, -⟩ := exampleGrid .square false
  have hr : Mdp.GridReach .square 2 3 false (m.apply (.setWalls ⟨6, fun i => if i = 4 then 1 else 0⟩)) :=
    .step _ (.init h) (by simp)
  have g' := hr.ok
  obtain ⟨m', h', -, hw, -⟩ := Mdp.setWalls_grid g.pos g.shape g.orig g.featStates g.origFeatStates
    g.origFeat ⟨6, fun i => if i = 4 then 1 else 0⟩ rfl (fun i _ => by
      by_cases h : i = 4 <;> simp [h])
  simp only [Mdp.apply, h'] at hr g'
  refine ⟨m', hr, ?_, ?_⟩
  · rw [g'.adj 1 4 (by decide) (by decide), g'.nActions]
    exact ⟨1, by decide, by decide⟩
  · intro a _
    rw [g'.sas 1 a 4 (by decide) (by decide), hw]
    simp

/-- What does hold: every existing transition is listed, and between two non-walled states the
attribute is exact. -/
theorem C13_partial (kind : GridKind) (W H : Nat) (selfT : Bool) (m : Mdp K)
    (h : Mdp.GridReach kind W H selfT m) (s t : Nat) (hs : s < m.nStates) (ht : t < m.nStates) :
    ((∃ a, a < m.nActions ∧ 0 < m.sas s a t) → m.adjacency s t = true) ∧
    (m.walls.get s = 0 → m.walls.get t = 0 → m.adjacency s t = true →
      ∃ a, a < m.nActions ∧ 0 < m.sas s a t) := by
  have g := h.ok
  rw [g.nStates] at hs ht
  rw [g.adj s t hs ht]
  constructor
  · rintro ⟨a, ha, h'⟩
    exact ⟨a, ha, ((g.sas_pos hs ht).1 h').2.2⟩
  · rintro w1 w2 ⟨a, ha, h'⟩
    exact ⟨a, ha, (g.sas_pos hs ht).2 ⟨by simp [w1], by simp [w2], h'⟩⟩

/-! ## C14 queries agree -/

theorem C14_queries (m : Mdp K) (hA : 0 < m.nActions) (s1 s2 : Int) (i j : Nat)
    (hi : pyIdx m.nStates s1 = some i) (hj : pyIdx m.nStates s2 = some j) :
    (∃ b, m.isAdjacent s1 s2 = .ok b ∧ (b = true ↔ ∃ a, a < m.nActions ∧ 0 < m.sas i a j)) ∧
    (∀ rm, m.isAdjacent s1 s2 = .ok true ↔ ∃ l, m.statePairToAction s1 s2 rm = .ok l) ∧
    (∀ rm, m.isAdjacent s1 s2 = .ok false → m.statePairToAction s1 s2 rm = .error .attributeError) ∧
    (∀ l, m.statePairToAction s1 s2 true = .ok l → ∃ a, l = [a] ∧ a < m.nActions ∧
      0 < m.sas i a j ∧ (∀ b, b < m.nActions → m.sas i b j ≤ m.sas i a j) ∧
      (∀ b, b < a → m.sas i b j < m.sas i a j)) ∧
    (∀ l, m.statePairToAction s1 s2 false = .ok l →
      l.Nodup ∧ ∀ a, a ∈ l ↔ a < m.nActions ∧ 0 < m.sas i a j) := by
  have hmax : 0 < npMax m.nActions (fun a => m.sas i a j) ↔ ∃ a, a < m.nActions ∧ 0 < m.sas i a j := by
    constructor
    · intro h
      obtain ⟨a, ha, e⟩ := exists_npMax (fun a => m.sas i a j) hA
      exact ⟨a, ha, e ▸ h⟩
    · rintro ⟨a, ha, h⟩
      exact lt_of_lt_of_le h (le_npMax (fun a => m.sas i a j) ha)
  have hA' : m.nActions ≠ 0 := by omega
  have hsp : ∀ rm, m.statePairToAction s1 s2 rm =
      if 0 < npMax m.nActions (fun a => m.sas i a j) then
      if rm then .ok [npArgmax m.nActions fun a => m.sas i a j]
      else .ok (npWhere m.nActions fun a => decide (0 < m.sas i a j))
      else .error .attributeError := by
    intro rm; simp only [Mdp.statePairToAction, hi, hj, if_neg hA']
  have hia : m.isAdjacent s1 s2 = .ok (decide (∃ a, a < m.nActions ∧ 0 < m.sas i a j)) := by
    simp only [Mdp.isAdjacent, hi, hj]
  refine ⟨⟨_, hia, by simp⟩, ?_, ?_, ?_, ?_⟩
  · intro rm
    rw [hia, hsp]
    simp only [Except.ok.injEq, decide_eq_true_eq]
    rw [← hmax]
    constructor
    · intro h
      rw [if_pos h]
      cases rm <;> simp
    · rintro ⟨l, h⟩
      by_contra hc
      rw [if_neg hc] at h
      simp at h
  · intro rm
    rw [hia, hsp]
    simp only [Except.ok.injEq, decide_eq_false_iff_not]
    rw [← hmax]
    intro h
    rw [if_neg h]
  · intro l h
    rw [hsp] at h
    split_ifs at h with h1 h2
    · simp only [Except.ok.injEq] at h
      refine ⟨_, h.symm, npArgmax_lt _ hA, ?_, fun b hb => le_npArgmax (fun a => m.sas i a j) hb,
        fun b hb => npArgmax_first (fun a => m.sas i a j) hb⟩
      rw [npMax_eq] at h1
      exact h1
    · exact absurd rfl h2
  · intro l h
    rw [hsp] at h
    simp only [Bool.false_eq_true, if_false] at h
    split_ifs at h with h1
    simp only [Except.ok.injEq] at h
    subst h
    refine ⟨npWhere_nodup _ _, fun a => ?_⟩
    rw [mem_npWhere]; simp

/-- Out-of-range states raise `IndexError` in all queries. -/
theorem C14_index_error (m : Mdp K) (s1 s2 : Int) (rm : Bool)
    (h : pyIdx m.nStates s1 = none ∨ pyIdx m.nStates s2 = none) :
    m.isAdjacent s1 s2 = .error .indexError ∧
    m.statePairToAction s1 s2 rm = .error .indexError := by
  unfold Mdp.isAdjacent Mdp.statePairToAction
  rcases h with h | h
  · simp [h]
  · rw [h]
    constructor <;> (split <;> simp_all)

/-- `state_valid_actions` lists exactly the actions leading somewhere. -/
theorem C14_valid_actions (m : Mdp K) (state : Int) (s : Nat) (hs : pyIdx m.nStates state = some s) :
    ∃ l, m.stateValidActions state = .ok l ∧
      ∀ a, a ∈ l ↔ a < m.nActions ∧ ∃ t, t < m.nStates ∧ m.sas s a t ≠ 0 := by
  refine ⟨_, by simp only [Mdp.stateValidActions, hs]; rfl, ?_⟩
  intro a
  simp only [List.mem_flatMap, List.mem_range, List.mem_map]
  constructor
  · rintro ⟨a', ha', t, ht, rfl⟩
    rw [mem_npWhere] at ht
    exact ⟨ha', t, ht.1, by simpa using ht.2⟩
  · rintro ⟨ha, t, ht, hne⟩
    exact ⟨a, ha, t, mem_npWhere.2 ⟨ht, by simpa using hne⟩, rfl⟩

theorem nodup_flatMap_const (n : Nat) (f : Nat → List Nat) (h : ∀ a, a < n → (f a).length ≤ 1) :
    ((List.range n).flatMap fun a => (f a).map fun _ => a).Nodup := by
  rw [List.nodup_flatMap]
  constructor
  · intro a ha
    have := h a (by simpa using ha)
    match hf : f a with
    | [] => simp
    | [x] => simp
    | x :: y :: l => rw [hf] at this; simp at this
  · apply List.Pairwise.imp (R := fun a b => a ≠ b)
    · intro a b hne
      rw [Function.onFun, List.disjoint_left]
      intro c hc hc'
      simp only [List.mem_map] at hc hc'
      obtain ⟨_, _, rfl⟩ := hc
      obtain ⟨_, _, rfl⟩ := hc'
      exact hne rfl
    · exact List.nodup_range

/-- In a grid MDP each valid action is listed once. -/
theorem C14_valid_actions_grid (kind : GridKind) (W H : Nat) (selfT : Bool) (m : Mdp K)
    (h : Mdp.GridReach kind W H selfT m) (s : Nat) (hs : s < m.nStates) :
    ∃ l, m.stateValidActions s = .ok l ∧ l.Nodup ∧
      ∀ a, a ∈ l ↔ a < m.nActions ∧ ∃ t, t < m.nStates ∧ 0 < m.sas s a t := by
  have g := h.ok
  obtain ⟨l, h1, h2⟩ := C14_valid_actions m s s (by simp [hs])
  refine ⟨l, h1, ?_, ?_⟩
  · simp only [Mdp.stateValidActions, pyIdx_nat, if_pos hs, Except.ok.injEq] at h1
    rw [← h1]
    apply nodup_flatMap_const
    intro a _
    by_contra hc
    have hnd := npWhere_nodup m.nStates fun t => decide (m.sas s a t ≠ 0)
    match hl : npWhere m.nStates fun t => decide (m.sas s a t ≠ 0) with
    | [] => rw [hl] at hc; simp at hc
    | [x] => rw [hl] at hc; simp at hc
    | x :: y :: l' =>
      have hx : x ∈ npWhere m.nStates fun t => decide (m.sas s a t ≠ 0) := by rw [hl]; simp
      have hy : y ∈ npWhere m.nStates fun t => decide (m.sas s a t ≠ 0) := by rw [hl]; simp
      rw [hl] at hnd
      rw [mem_npWhere] at hx hy
      have hs' := g.nStates ▸ hs
      have m1 := ((g.sas_ne_zero hs' (g.nStates ▸ hx.1)).1 (by simpa using hx.2)).2.2
      have m2 := ((g.sas_ne_zero hs' (g.nStates ▸ hy.1)).1 (by simpa using hy.2)).2.2
      have : x = y := by
        rcases m1 with ⟨d, e1, e2⟩ | ⟨e1, e2, e3⟩
        · rcases m2 with ⟨d', e1', e2'⟩ | ⟨_, e2', _⟩
          · rw [e1] at e1'
            cases e1'
            exact cell_inj (e2.trans e2'.symm)
          · have := GridKind.dir_lt e1
            omega
        · rcases m2 with ⟨d', e1', e2'⟩ | ⟨_, _, e3'⟩
          · have := GridKind.dir_lt e1'
            omega
          · rw [e3, e3']
      simp [this] at hnd
  · intro a
    rw [h2 a]
    refine and_congr_right fun _ => exists_congr fun t => and_congr_right fun ht => ?_
    rw [g.sas_ne_zero (g.nStates ▸ hs) (g.nStates ▸ ht), g.sas_pos (g.nStates ▸ hs) (g.nStates ▸ ht)]

example : ∃ m : Mdp Rat, 0 < m.nActions ∧ pyIdx m.nStates (-1) = some 5 ∧
    pyIdx m.nStates 2 = some 2 ∧ m.isAdjacent (-1) 2 = .ok true := by
  obtain ⟨m, -, g, hw, -⟩ := exampleGrid .square false
  have hn := g.nStates
  have ha := g.nActions
  have i1 : pyIdx m.nStates (-1) = some 5 := by rw [hn]; decide
  have i2 : pyIdx m.nStates 2 = some 2 := by rw [hn]; decide
  refine ⟨m, by rw [ha]; decide, i1, i2, ?_⟩
  simp only [Mdp.isAdjacent, i1, i2, Except.ok.injEq, decide_eq_true_eq]
  refine ⟨3, by rw [ha]; decide, (g.sas_pos (by decide) (by decide)).2 ⟨?_, ?_, by decide⟩⟩ <;>
    simp [hw]

/-! ## C15, C16 get_next_state -/

/-- For a valid action `get_next_state` returns the successor. -/
theorem C15_next_state (kind : GridKind) (W H : Nat) (selfT : Bool) (m : Mdp K)
    (h : Mdp.GridReach kind W H selfT m) (s a t : Nat) (hs : s < m.nStates) (ha : a < m.nActions)
    (ht : t < m.nStates) (hv : 0 < m.sas s a t) : m.getNextState s a = .ok t := by
  have g := h.ok
  unfold Mdp.getNextState
  rw [if_neg (by omega)]
  simp only [pyIdx_nat, if_pos hs, if_pos ha, g.det, if_true, Except.ok.injEq]
  have hs' := g.nStates ▸ hs
  have ht' := g.nStates ▸ ht
  have hm := (g.sas_pos hs' ht').1 hv
  have uniq : ∀ u, u < m.nStates → u ≠ t → m.sas s a u = 0 := by
    intro u hu hne
    by_contra hc
    have hu' := g.nStates ▸ hu
    have hm' := ((g.sas_ne_zero hs' hu').1 hc).2.2
    apply hne
    rcases hm.2.2 with ⟨d, e1, e2⟩ | ⟨e1, e2, e3⟩
    · rcases hm' with ⟨d', e1', e2'⟩ | ⟨_, e2', _⟩
      · rw [e1] at e1'
        cases e1'
        exact cell_inj (e2'.trans e2.symm)
      · have := GridKind.dir_lt e1
        omega
    · rcases hm' with ⟨d', e1', e2'⟩ | ⟨_, _, e3'⟩
      · have := GridKind.dir_lt e1'
        omega
      · rw [e3, e3']
  by_contra hc
  have h1 := le_npArgmax (fun u => m.sas s a u) ht
  have h2 := uniq (npArgmax m.nStates fun u => m.sas s a u) (npArgmax_lt _ (by omega)) hc
  exact absurd hv (not_lt.2 (h2 ▸ h1))

/-- Errors: a negative action fails the assertion, a too large one is an `IndexError`. -/
theorem C15_errors (m : Mdp K) (s a : Int) :
    (a < 0 → m.getNextState s a = .error .assertionError) ∧
    (0 ≤ a → (m.nActions : Int) ≤ a → m.getNextState s a = .error .indexError) := by
  unfold Mdp.getNextState
  constructor
  · intro h; rw [if_pos h]
  · intro h h'
    rw [if_neg (by omega)]
    have : pyIdx m.nActions a = none := pyIdx_eq_none.2 (Or.inl h')
    rw [this]
    split <;> simp_all

example : ∃ m : Mdp Rat, Mdp.GridReach .square 2 3 false m ∧ 0 < m.sas 1 1 4 := by
  obtain ⟨m, h, g, hw, -⟩ := exampleGrid .square false
  exact ⟨m, .init h, (g.sas_pos (by decide) (by decide)).2 ⟨by simp [hw], by simp [hw], by decide⟩⟩

/-- C16 is false of the code: an action that leads nowhere "moves" to state 0. -/
theorem C16_refuted : ∃ m : Mdp Rat, Mdp.GridReach .square 2 3 false m ∧
    m.getNextState 5 0 = .ok 0 ∧ m.sas 5 0 0 = 0 := by
  obtain ⟨m, h, g, hw, -⟩ := exampleGrid .square false
  have hn : m.nStates = 6 := g.nStates
  have ha : m.nActions = 4 := g.nActions
  have z : ∀ t, t < 6 → m.sas 5 0 t = 0 := by
    intro t ht
    rw [g.sas 5 0 t (by decide) ht, hw]
    simp only [zero_ne_one, or_self, if_false]
    interval_cases t <;> decide
  refine ⟨m, .init h, ?_, z 0 (by decide)⟩
  unfold Mdp.getNextState
  rw [if_neg (by omega), hn, ha]
  simp only [g.det, if_true]
  have : npArgmax 6 (fun t => m.sas 5 0 t) = 0 :=
    npArgmax_eq _ (by decide) (fun i hi => by
      show m.sas 5 0 i ≤ m.sas 5 0 0
      rw [z i hi, z 0 (by decide)]) (fun i hi => by omega)
  exact congrArg _ this

/-- What does hold: the returned state is always a state of the MDP; if the action is possible it
is a possible successor; if not, it is state 0. -/
theorem C16_partial (kind : GridKind) (W H : Nat) (selfT : Bool) (m : Mdp K)
    (h : Mdp.GridReach kind W H selfT m) (s a : Nat) (hs : s < m.nStates) (ha : a < m.nActions) :
    ∃ t, m.getNextState s a = .ok t ∧ t < m.nStates ∧
      ((∃ u, u < m.nStates ∧ 0 < m.sas s a u) → 0 < m.sas s a t) ∧
      ((¬ ∃ u, u < m.nStates ∧ 0 < m.sas s a u) → t = 0) := by
  have g := h.ok
  have e : m.getNextState s a = .ok (npArgmax m.nStates fun u => m.sas s a u) := by
    unfold Mdp.getNextState
    rw [if_neg (by omega)]
    simp only [pyIdx_nat, if_pos hs, if_pos ha, g.det, if_true]
  refine ⟨_, e, npArgmax_lt _ (by omega), ?_, ?_⟩
  · rintro ⟨u, hu, hp⟩
    exact lt_of_lt_of_le hp (le_npArgmax (fun u => m.sas s a u) hu)
  · intro hn
    have z : ∀ u, u < m.nStates → m.sas s a u = 0 := by
      intro u hu
      by_contra hc
      apply hn
      refine ⟨u, hu, ?_⟩
      rw [g.sas_pos (g.nStates ▸ hs) (g.nStates ▸ hu)]
      exact (g.sas_ne_zero (g.nStates ▸ hs) (g.nStates ▸ hu)).1 hc
    exact npArgmax_eq _ (by omega) (fun i hi => by
      show m.sas s a i ≤ m.sas s a 0
      rw [z i hi, z 0 (by omega)]) (fun i hi => by omega)

/-! ## C17 trajectories -/

/-- A list of in-range states, each adjacent to the next. -/
def Spec.IsTrajectory (m : Mdp K) (t : List Nat) : Prop :=
  (∀ s ∈ t, s < m.nStates) ∧
    ∀ i, (h : i + 1 < t.length) → ∃ a, a < m.nActions ∧ 0 < m.sas t[i] a t[i + 1]

theorem trajectoryLoop_ok {kind : GridKind} {W H : Nat} {selfT : Bool} {m : Mdp K}
    (h : Mdp.GridReach kind W H selfT m) : ∀ (t : List Nat), Spec.IsTrajectory m t →
    ∃ l, m.trajectoryLoop (t.map (fun (n : Nat) => (n : Int))) = .ok l ∧
      l.map Prod.fst = (t.map (fun (n : Nat) => (n : Int))).dropLast ∧
      ∀ i (hi : i < l.length) (hi' : i + 1 < t.length), l[i].2 < m.nActions ∧
        m.getNextState l[i].1 l[i].2 = .ok t[i + 1] := by
  have g := h.ok
  intro t
  induction t with
  | nil => intro _; exact ⟨[], rfl, rfl, by simp⟩
  | cons s t ih =>
    cases t with
    | nil => intro _; exact ⟨[], rfl, rfl, by simp⟩
    | cons u rest =>
      rintro ⟨h1, h2⟩
      have hs : s < m.nStates := h1 s (by simp)
      have hu : u < m.nStates := h1 u (by simp)
      obtain ⟨a, ha, hp⟩ := h2 0 (by simp)
      simp only [List.getElem_cons_zero, List.getElem_cons_succ, zero_add] at hp
      obtain ⟨l, e1, e2, e3⟩ := ih ⟨fun x hx => h1 x (List.mem_cons_of_mem _ hx), fun i hi => by
        have := h2 (i + 1) (by simp at hi ⊢; omega)
        simpa using this⟩
      have hA : 0 < m.nActions := by omega
      have hpos : 0 < npMax m.nActions (fun a => m.sas s a u) :=
        lt_of_lt_of_le hp (le_npMax (fun a => m.sas s a u) ha)
      have sp : m.statePairToAction s u true =
          .ok [npArgmax m.nActions fun a => m.sas s a u] := by
        simp only [Mdp.statePairToAction, pyIdx_nat, if_pos hs, if_pos hu]
        rw [if_neg (by omega), if_pos hpos]; rfl
      refine ⟨((s : Int), npArgmax m.nActions fun a => m.sas s a u) :: l, ?_, ?_, ?_⟩
      · simp only [List.map_cons, Mdp.trajectoryLoop, sp, pyIdx_nat, if_pos hs, if_pos hu]
        simp only [List.map_cons] at e1
        rw [e1]
      · simp only [List.map_cons, List.dropLast_cons_cons] at e2 ⊢
        rw [e2]
      · intro i hi hi'
        cases i with
        | zero =>
          simp only [List.getElem_cons_zero, List.getElem_cons_succ, zero_add]
          refine ⟨npArgmax_lt _ hA, ?_⟩
          refine C15_next_state kind W H selfT m h s _ u hs (npArgmax_lt _ hA) hu ?_
          rw [npMax_eq] at hpos
          exact hpos
        | succ i =>
          simp only [List.getElem_cons_succ]
          exact e3 i (by simpa using hi) (by simpa using hi')

/-- A trajectory converts to one state-action pair per move, and replaying the actions with
`get_next_state` reproduces it. -/
theorem C17_trajectory_replay (kind : GridKind) (W H : Nat) (selfT : Bool) (m : Mdp K)
    (h : Mdp.GridReach kind W H selfT m) (t : List Nat) (hne : t ≠ []) (ht : Spec.IsTrajectory m t) :
    ∃ l, m.trajectoryToStateAction (t.map (fun (n : Nat) => (n : Int))) = .ok l ∧
      l.length + 1 = t.length ∧
      ∀ i (hi : i < l.length) (hi' : i + 1 < t.length), l[i].1 = t[i] ∧ l[i].2 < m.nActions ∧
        m.getNextState l[i].1 l[i].2 = .ok t[i + 1] := by
  obtain ⟨l, e1, e2, e3⟩ := trajectoryLoop_ok h t ht
  have hlen : l.length + 1 = t.length := by
    have := congrArg List.length e2
    simp at this
    have := List.length_pos_of_ne_nil hne
    omega
  refine ⟨l, ?_, hlen, ?_⟩
  · unfold Mdp.trajectoryToStateAction
    rw [if_neg (by simpa using hne)]; exact e1
  · intro i hi hi'
    refine ⟨?_, e3 i hi hi'⟩
    have : (l.map Prod.fst)[i]'(by simpa using hi) =
        ((t.map (fun (n : Nat) => (n : Int))).dropLast)[i]'(by simp; omega) := by
      simp only [e2]
    simpa using this

/-- Errors: the empty trajectory raises `ValueError`; a trajectory of in-range states with a
non-adjacent consecutive pair raises `AttributeError`. -/
theorem C17_trajectory_errors (m : Mdp K) (hA : 0 < m.nActions) (t : List Nat) :
    (t = [] → m.trajectoryToStateAction (t.map (fun (n : Nat) => (n : Int))) = .error .valueError) ∧
    ((∀ s ∈ t, s < m.nStates) →
      (∃ i, ∃ h : i + 1 < t.length, ∀ a, a < m.nActions → ¬ 0 < m.sas t[i] a t[i + 1]) →
      m.trajectoryToStateAction (t.map (fun (n : Nat) => (n : Int))) = .error .attributeError) := by
  constructor
  · rintro rfl; rfl
  · intro hr hbad
    have hne : t ≠ [] := by rintro rfl; obtain ⟨i, h, -⟩ := hbad; simp at h
    unfold Mdp.trajectoryToStateAction
    rw [if_neg (by simpa using hne)]
    clear hne
    induction t with
    | nil => obtain ⟨i, h, -⟩ := hbad; simp at h
    | cons s t ih =>
      cases t with
      | nil => obtain ⟨i, h, -⟩ := hbad; simp at h
      | cons u rest =>
        have hs : s < m.nStates := hr s (by simp)
        have hu : u < m.nStates := hr u (by simp)
        simp only [List.map_cons, Mdp.trajectoryLoop]
        by_cases hadj : 0 < npMax m.nActions (fun a => m.sas s a u)
        · have sp : m.statePairToAction s u true =
              .ok [npArgmax m.nActions fun a => m.sas s a u] := by
            simp only [Mdp.statePairToAction, pyIdx_nat, if_pos hs, if_pos hu]
            rw [if_neg (by omega), if_pos hadj]; rfl
          simp only [sp, pyIdx_nat, if_pos hs, if_pos hu]
          have := ih (fun x hx => hr x (List.mem_cons_of_mem _ hx)) (by
            obtain ⟨i, hi, hb⟩ := hbad
            cases i with
            | zero =>
              exfalso
              obtain ⟨a, ha, e⟩ := exists_npMax (fun a => m.sas s a u) hA
              have := hb a ha
              simp only [List.getElem_cons_zero, List.getElem_cons_succ, zero_add] at this
              exact this (e ▸ hadj)
            | succ i =>
              refine ⟨i, by simpa using hi, fun a ha => ?_⟩
              have := hb a ha
              simpa using this)
          simp only [List.map_cons] at this
          rw [this]
        · have sp : m.statePairToAction s u true = .error .attributeError := by
            simp only [Mdp.statePairToAction, pyIdx_nat, if_pos hs, if_pos hu]
            rw [if_neg (by omega), if_neg hadj]
          simp only [sp]

example : ∃ m : Mdp Rat, Mdp.GridReach .square 2 3 false m ∧ Spec.IsTrajectory m [0, 1, 4, 5] := by
  obtain ⟨m, h, g, hw, -⟩ := exampleGrid .square false
  refine ⟨m, .init h, ?_, ?_⟩
  · intro s hs; rw [g.nStates]; simp at hs; omega
  · intro i hi
    have hi : i + 1 < 4 := hi
    have ha : m.nActions = 4 := g.nActions
    have key : ∀ s a t, s < 6 → t < 6 → GridKind.square.Move 3 false s a t → 0 < m.sas s a t :=
      fun s a t hs ht hm => (g.sas_pos hs ht).2 ⟨by simp [hw], by simp [hw], hm⟩
    rw [ha]
    have hi : i < 3 := by omega
    interval_cases i
    · exact ⟨0, by decide, key 0 0 1 (by decide) (by decide) (by decide)⟩
    · exact ⟨1, by decide, key 1 1 4 (by decide) (by decide) (by decide)⟩
    · exact ⟨0, by decide, key 4 0 5 (by decide) (by decide) (by decide)⟩

/-! ## C18 consuming -/

/-- `consume_features` with valid indices: zeroes exactly the listed positive features of the
state, counts each once, leaves everything else alone; a second call does nothing. -/
theorem C18_consume (m : Mdp K) (fs : List Int) (state : Int) (j : Nat)
    (hj : pyIdx m.features.d1 state = some j)
    (hfs : ∀ f ∈ fs, ∃ r, pyIdx m.features.d0 f = some r) :
    ∃ m' c, m.consumeFeatures fs state = (m', .ok c) ∧
      (∀ r s, (s = j ∧ (∃ f ∈ fs, pyIdx m.features.d0 f = some r) ∧ 0 < m.features.get r s →
          m'.features.get r s = 0) ∧
        (¬ (s = j ∧ (∃ f ∈ fs, pyIdx m.features.d0 f = some r) ∧ 0 < m.features.get r s) →
          m'.features.get r s = m.features.get r s)) ∧
      (∀ r, ((∃ f ∈ fs, pyIdx m.features.d0 f = some r) ∧ 0 < m.features.get r j → c r = 1) ∧
        (¬ ((∃ f ∈ fs, pyIdx m.features.d0 f = some r) ∧ 0 < m.features.get r j) → c r = 0)) ∧
      (∃ g, m' = { m with features := { m.features with get := g } }) ∧
      (∃ c', m'.consumeFeatures fs state = (m', .ok c') ∧ ∀ r, c' r = 0) := by
  classical
  obtain ⟨g, c, h1, h2, h3⟩ := Mdp.consumeLoop_ok state j fs m (fun _ => 0) hj hfs
  refine ⟨_, c, h1, ?_, ?_, ⟨g, rfl⟩, ?_⟩
  · intro r s
    simp only [h2 r s]
    exact ⟨fun h => if_pos h, fun h => if_neg h⟩
  · intro r
    rw [h3 r]
    exact ⟨fun h => by rw [if_pos h], fun h => by rw [if_neg h]⟩
  · obtain ⟨g', c', h1', h2', h3'⟩ := Mdp.consumeLoop_ok state j fs
      { m with features := { m.features with get := g } } (fun _ => 0) hj hfs
    have hg : g' = g := by
      funext r s
      rw [h2' r s]
      split_ifs with hc
      · obtain ⟨e1, e2, e3⟩ := hc
        simp only [h2 r s] at e3 ⊢
        split_ifs at e3 ⊢ with hh
        · rfl
        · exact absurd ⟨e1, e2, e3⟩ hh
      · rfl
    subst hg
    refine ⟨c', h1', ?_⟩
    intro r
    rw [h3' r]
    rw [if_neg]
    rintro ⟨e2, e3⟩
    simp only [h2 r j] at e3
    split_ifs at e3 with hh
    · exact absurd e3 (lt_irrefl _)
    · exact hh ⟨trivial, e2, e3⟩

/-- An index that is out of range raises `IndexError`. -/
theorem C18_consume_error (m : Mdp K) (f : Int) (fs : List Int) (state : Int)
    (h : pyIdx m.features.d0 f = none ∨ pyIdx m.features.d1 state = none) :
    m.consumeFeatures (f :: fs) state = (m, .error .indexError) := by
  unfold Mdp.consumeFeatures Mdp.consumeLoop
  rcases h with h | h
  · simp [h]
  · rw [h]; split <;> simp_all

example : ∃ m : Mdp Rat, pyIdx m.features.d1 (-4) = some 2 ∧
    (∀ f ∈ [1, -1, (0 : Int)], ∃ r, pyIdx m.features.d0 f = some r) ∧ 0 < m.features.get 1 2 := by
  obtain ⟨m, -, g, -, hf, -⟩ := exampleGrid .square false
  refine ⟨m, by rw [hf]; decide, ?_, by rw [hf]; norm_num⟩
  rw [hf]
  intro f hf
  simp at hf
  rcases hf with rfl | rfl | rfl
  · exact ⟨1, by decide⟩
  · exact ⟨1, by decide⟩
  · exact ⟨0, by decide⟩

/-! ## C19 agent features -/

/-- Adding an agent feature or moving one. -/
inductive AgentOp
  | add (p : Int)
  | move (i : Nat) (p : Int)

/-- The list of agent positions an agent operation should produce on an MDP with `n` states
(`none`: the operation's arguments are invalid). -/
def Spec.agentPositions (n : Nat) (ps : List Nat) : AgentOp → Option (List Nat)
  | .add p => (pyIdx n p).map fun k => ps ++ [k]
  | .move i p => if i < ps.length then (pyIdx n p).map fun k => ps.set i k else none

/-- Agent features: the own rows are those of `base`, followed by one one-hot row per agent. -/
structure Spec.AgentRows (base : Arr2 K) (ps : List Nat) (m : Mdp K) : Prop where
  count : m.nAgents = ps.length
  rows : m.features.d0 = base.d0 + ps.length
  states : m.features.d1 = m.nStates
  own : ∀ r s, r < base.d0 → m.features.get r s = base.get r s
  agent : ∀ i (h : i < ps.length) s, m.features.get (base.d0 + i) s = if s = ps[i] then 1 else 0

/-- Perform an agent operation. -/
def Mdp.agentOp (m : Mdp K) : AgentOp → Mdp K × Py Unit
  | .add p => m.addAgentFeature p
  | .move i p => m.updateAgentFeature i p

/-- One valid addition or move keeps the description exact. -/
theorem C19_agent_op (base : Arr2 K) (ps ps' : List Nat) (m : Mdp K) (op : AgentOp)
    (h : Spec.AgentRows base ps m) (hop : Spec.agentPositions m.nStates ps op = some ps') :
    ∃ m', m.agentOp op = (m', .ok ()) ∧ Spec.AgentRows base ps' m' ∧ m'.nStates = m.nStates ∧
      m'.sas = m.sas := by
  cases op with
  | add p =>
    simp only [Spec.agentPositions, Option.map_eq_some_iff] at hop
    obtain ⟨k, hk, rfl⟩ := hop
    refine ⟨(m.addAgentFeature p).1, ?_⟩
    have e : m.agentOp (.add p) = (({ m with nAgents := m.nAgents + 1 } : Mdp K).setFeatures
        ⟨m.features.d0 + 1, m.features.d1, fun f s =>
          if f = m.features.d0 then (if s = k then 1 else 0) else m.features.get f s⟩) := by
      simp only [Mdp.agentOp, Mdp.addAgentFeature, hk]
      rw [if_neg (by simpa using h.states)]
    have e' : m.addAgentFeature p = m.agentOp (.add p) := rfl
    rw [e', e]
    unfold Mdp.setFeatures
    rw [if_neg (by simpa using h.states)]
    refine ⟨rfl, ?_, rfl, rfl⟩
    refine ⟨by simp [h.count], by simp [h.rows]; omega, h.states, ?_, ?_⟩
    · intro r s hr
      simp only [h.rows]
      rw [if_neg (by omega)]; exact h.own r s hr
    · intro i hi s
      simp only [h.rows]
      simp only [List.length_append, List.length_singleton] at hi
      by_cases hl : i < ps.length
      · rw [if_neg (by omega), List.getElem_append_left hl]; exact h.agent i hl s
      · have : i = ps.length := by omega
        subst this
        simp
  | move i p =>
    simp only [Spec.agentPositions] at hop
    split_ifs at hop with hi
    simp only [Option.map_eq_some_iff] at hop
    obtain ⟨k, hk, rfl⟩ := hop
    have hrow : pyIdx m.features.d0 ((m.nFeatures : Int) - m.nAgents + (i : Int)) =
        some (base.d0 + i) := by
      have : ((m.nFeatures : Int) - m.nAgents + (i : Int)) = ((base.d0 + i : Nat) : Int) := by
        simp only [Mdp.nFeatures]; rw [h.rows, h.count]; push_cast; ring
      rw [this, pyIdx_nat, h.rows, if_pos (by omega)]
    rw [← h.states] at hk
    refine ⟨(m.updateAgentFeature i p).1, ?_⟩
    simp only [Mdp.agentOp, Mdp.updateAgentFeature, hrow, hk]
    refine ⟨trivial, ?_, trivial, trivial⟩
    refine ⟨by simpa using h.count, by simpa using h.rows, h.states, ?_, ?_⟩
    · intro r s hr
      simp only [upd2]
      rw [if_neg (by omega), if_neg (by omega)]; exact h.own r s hr
    · intro i' hi' s
      simp only [List.length_set] at hi'
      simp only [upd2, List.getElem_set]
      by_cases hii : i = i'
      · subst hii
        simp
      · rw [if_neg (by omega), if_neg (by omega), if_neg hii]
        exact h.agent i' hi' s

/-- Any valid sequence of additions and moves, then removal: the MDP's own rows are untouched
throughout, the agent rows are one-hot at the agents' positions, and removal restores exactly the
original rows. -/
theorem C19_agent_features (base : Arr2 K) : ∀ (ops : List AgentOp) (ps ps' : List Nat) (m : Mdp K),
    Spec.AgentRows base ps m →
    ops.foldlM (fun ps op => Spec.agentPositions m.nStates ps op) ps = some ps' →
    ∃ m', ops.foldl (fun m op => (m.agentOp op).1) m = m' ∧ Spec.AgentRows base ps' m' ∧
      (ps' ≠ [] → ∃ m'', m'.removeAgentFeatures = (m'', .ok ()) ∧ m''.nAgents = 0 ∧
        m''.features.d0 = base.d0 ∧ ∀ r s, r < base.d0 → m''.features.get r s = base.get r s) := by
  intro ops
  induction ops with
  | nil =>
    intro ps ps' m h hops
    simp at hops
    subst hops
    refine ⟨m, rfl, h, fun hne => ?_⟩
    have hpos := List.length_pos_of_ne_nil hne
    have hz : m.nAgents ≠ 0 := by rw [h.count]; omega
    unfold Mdp.removeAgentFeatures Mdp.setFeatures
    simp only [if_neg hz]
    rw [if_neg (by simpa using h.states)]
    refine ⟨_, rfl, rfl, ?_, fun r s hr => h.own r s hr⟩
    simp [h.rows, h.count]
  | cons op ops ih =>
    intro ps ps' m h hops
    rw [List.foldlM_cons] at hops
    obtain ⟨ps1, h1, h2⟩ := Option.bind_eq_some_iff.1 hops
    obtain ⟨m1, e1, e2, e3, -⟩ := C19_agent_op base ps ps1 m op h h1
    rw [← e3] at h2
    obtain ⟨m', f1, f2⟩ := ih ps1 ps' m1 e2 h2
    refine ⟨m', ?_, f2⟩
    rw [List.foldl_cons, e1]; exact f1

/-- The starting description holds for a freshly built MDP, and a concrete sequence is valid. -/
example : ∃ m : Mdp Rat, Spec.AgentRows m.features [] m ∧
    [AgentOp.add 3, .add (-1), .move 0 4].foldlM
      (fun ps op => Spec.agentPositions m.nStates ps op) [] = some [4, 5] := by
  obtain ⟨m, -, g, -, hf, hn⟩ := exampleGrid .hex true
  refine ⟨m, ⟨hn, by simp, by rw [g.featStates, g.nStates], fun _ _ _ => rfl, by simp⟩, ?_⟩
  rw [g.nStates]; decide

/-! ## C20 removing no agents -/

/-- C20 is false of the code: with no agents, `remove_agent_features` deletes every feature. -/
theorem C20_refuted (m : Mdp K) (h : m.nAgents = 0) (hd : m.features.d1 = m.nStates) :
    ∃ m', m.removeAgentFeatures = (m', .ok ()) ∧ m'.nFeatures = 0 := by
  unfold Mdp.removeAgentFeatures Mdp.setFeatures
  simp only [h, if_true]
  rw [if_neg (by simpa using hd)]
  exact ⟨_, rfl, rfl⟩

/-- ... including an MDP that does have features. -/
theorem C20_refuted_witness : ∃ m m' : Mdp Rat, m.nAgents = 0 ∧ m.nFeatures = 2 ∧
    m.removeAgentFeatures = (m', .ok ()) ∧ m'.nFeatures = 0 := by
  obtain ⟨m, -, g, -, hf, hn⟩ := exampleGrid .square false
  obtain ⟨m', h1, h2⟩ := C20_refuted m hn (by rw [g.featStates, g.nStates])
  exact ⟨m, m', hn, by simp [Mdp.nFeatures, hf], h1, h2⟩

/-- What does hold: with at least one agent, exactly the agent rows are dropped. -/
theorem C20_partial (m : Mdp K) (h : 0 < m.nAgents) (hd : m.features.d1 = m.nStates) :
    ∃ m', m.removeAgentFeatures = (m', .ok ()) ∧ m'.nAgents = 0 ∧
      m'.features.d0 = m.features.d0 - m.nAgents ∧ m'.features.get = m.features.get := by
  unfold Mdp.removeAgentFeatures Mdp.setFeatures
  simp only [if_neg (Nat.ne_of_gt h)]
  rw [if_neg (by simpa using hd)]
  exact ⟨_, rfl, rfl, rfl, rfl⟩

example : ∃ m : Mdp Rat, 0 < m.nAgents ∧ m.features.d1 = m.nStates := by
  obtain ⟨m, -, g, -, hf, hn⟩ := exampleGrid .square false
  obtain ⟨m', h1, h2, -⟩ := C19_agent_op m.features [] [3] m (.add 3)
    ⟨hn, by simp, by rw [g.featStates, g.nStates], fun _ _ _ => rfl, by simp⟩
    (by rw [g.nStates]; decide)
  exact ⟨m', by rw [h2.count]; decide, h2.states⟩

/-! ## C21 reset -/

/-- Operations that do not assign a new feature array. -/
def MdpOp.keepsAssignment : MdpOp K → Prop
  | .setFeatures _ => False
  | .addAgentFeature _ => False
  | .removeAgentFeatures => False
  | .setSas _ => False
  | _ => True

theorem apply_keeps {kind : GridKind} {W H : Nat} {selfT : Bool} {m : Mdp K}
    (h : Mdp.GridReach kind W H selfT m) (op : MdpOp K) (hop : op.keepsAssignment) :
    (m.apply op).originalFeatures = m.originalFeatures := by
  have g := h.ok
  have hw : ∀ (m : Mdp K) w, (m.setWalls w).1.originalFeatures = m.originalFeatures := by
    intro m w
    cases hs : m.setWalls w with
    | mk m1 r =>
      cases r with
      | ok u => cases u; rw [Mdp.setWalls_ok hs]
      | error e =>
        unfold Mdp.setWalls at hs
        split at hs
        · simp at hs; rw [← hs.1]
        · split_ifs at hs
          · simp at hs; rw [← hs.1]
          · simp at hs; rw [← hs.1]
          · have e1 : (m.setSas m.originalSas).1.originalFeatures = m.originalFeatures := by
              unfold Mdp.setSas; split_ifs <;> rfl
            split at hs
            · rename_i heq
              rw [heq] at e1
              simp only [Prod.mk.injEq] at hs
              rw [← hs.1]; exact e1
            · simp at hs
  cases op with
  | setSas x => exact hop.elim
  | setFeatures f => exact hop.elim
  | addAgentFeature p => exact hop.elim
  | removeAgentFeatures => exact hop.elim
  | setWalls w => exact hw m w
  | addWallXY x y =>
    simp only [Mdp.apply, Mdp.addWallXY]
    split
    · rfl
    · split
      · rfl
      · exact hw m _
  | resetWalls =>
    simp only [Mdp.apply, Mdp.resetWalls]
    exact hw { m with walls := { m.walls with get := fun i => m.walls.get i * 0 } } _
  | updateAgentFeature i p =>
    simp only [Mdp.apply, Mdp.updateAgentFeature]
    split
    · rfl
    · split <;> rfl
  | consumeFeatures fs s =>
    simp only [Mdp.apply, Mdp.consumeFeatures]
    obtain ⟨g, hg⟩ := Mdp.consumeLoop_frame s fs m fun _ => 0
    rw [hg]
  | reset =>
    simp only [Mdp.apply, Mdp.reset, Mdp.setFeatures]
    split_ifs <;> rfl

/-- Assign features, then do anything that does not assign features again (consuming, moving
agents, changing walls, resetting): `reset()` succeeds and restores the assigned array; and doing
it twice is the same as doing it once. -/
theorem C21_reset (kind : GridKind) (W H : Nat) (selfT : Bool) (m : Mdp K)
    (h : Mdp.GridReach kind W H selfT m) (f : Arr2 K) (hf : f.d1 = m.nStates) (ops : List (MdpOp K))
    (hops : ∀ op ∈ ops, op.keepsAssignment) :
    ∃ m', (((m.apply (.setFeatures f)).run ops).reset) = (m', .ok ()) ∧ m'.features = f ∧
      m'.reset = (m', .ok ()) := by
  have h0 : Mdp.GridReach kind W H selfT (m.apply (.setFeatures f)) := .step _ h (by simp)
  have hof : (m.apply (.setFeatures f)).originalFeatures = f := by
    simp only [Mdp.apply, Mdp.setFeatures]
    rw [if_neg (by simpa using hf)]
  have key : ∀ (ops : List (MdpOp K)) (m : Mdp K), Mdp.GridReach kind W H selfT m →
      (∀ op ∈ ops, op.keepsAssignment) →
      Mdp.GridReach kind W H selfT (m.run ops) ∧ (m.run ops).originalFeatures = m.originalFeatures := by
    intro ops
    induction ops with
    | nil => intro m h _; exact ⟨h, rfl⟩
    | cons op ops ih =>
      intro m h hops
      have hop := hops op List.mem_cons_self
      have h1 : Mdp.GridReach kind W H selfT (m.apply op) :=
        .step op h (by rintro x rfl; exact hop)
      obtain ⟨e1, e2⟩ := ih (m.apply op) h1 fun op' h' => hops op' (List.mem_cons_of_mem _ h')
      exact ⟨e1, e2.trans (apply_keeps h op hop)⟩
  obtain ⟨e1, e2⟩ := key ops _ h0 hops
  have g := e1.ok
  generalize hm1 : (m.apply (.setFeatures f)).run ops = m1 at *
  rw [hof] at e2
  have hd : f.d1 = m1.nStates := by rw [← e2, g.origFeatStates, g.nStates]
  unfold Mdp.reset Mdp.setFeatures
  rw [e2, if_neg (by simpa using hd)]
  refine ⟨_, rfl, rfl, ?_⟩
  simp only
  rw [if_neg (by simpa using hd)]

example : ∀ op ∈ [MdpOp.consumeFeatures [0] 1, .updateAgentFeature 0 2, .resetWalls, (.reset : MdpOp Rat)],
    op.keepsAssignment := by
  intro op h; simp at h; rcases h with rfl | rfl | rfl | rfl <;> trivial

/-! ## C22 base class constructor -/

/-- C22 is false of the code: the base class constructor raises `AttributeError` for every valid
input (with or without walls), because `self.shape` is never set. -/
theorem C22_refuted (features : Arr2 K) (sas : Arr3 K) (walls : Option (Arr1 K))
    (hs : Spec.ValidTransitions sas) (hf : features.d1 = sas.d0) :
    Mdp.initBase features sas walls = .error .attributeError := by
  unfold Mdp.initBase Mdp.init
  rw [Mdp.setSas_valid _ ((Mdp.validTransitions_iff sas).1 hs)]
  simp only [Mdp.setFeatures]
  rw [if_neg (by simpa using hf)]
  simp [Mdp.setWalls, Mdp.blank]

/-- A valid input: one feature, two states, two actions. -/
example : Spec.ValidTransitions (⟨2, 2, 2, fun s a t => if a = 0 then (if t = s then 1 else 0) else 1 / 2⟩ : Arr3 Rat) := by
  refine ⟨rfl, by decide, by decide, ?_⟩
  intro s a t _ _ _
  simp only
  split_ifs <;> norm_num

/-- No input at all builds a base-class MDP. -/
theorem C22_refuted_all (features : Arr2 K) (sas : Arr3 K) (walls : Option (Arr1 K)) (m : Mdp K) :
    Mdp.initBase features sas walls ≠ .ok m := by
  intro h
  unfold Mdp.initBase Mdp.init at h
  cases hs : (Mdp.blank none false sas).setSas sas with
  | mk m1 r =>
    rw [hs] at h
    have e0 := (Mdp.setSas_frame (Mdp.blank none false sas) sas).1
    rw [hs] at e0
    cases r with
    | error e => simp at h
    | ok u =>
      simp only at h
      cases hf : m1.setFeatures features with
      | mk m2 r2 =>
        rw [hf] at h
        have e1 := (Mdp.setFeatures_frame m1 features).1
        rw [hf] at e1
        simp only at e0 e1
        rw [e0] at e1
        cases r2 with
        | error e => simp at h
        | ok u =>
          have e2 : m2.shape = none := e1
          simp [Mdp.setWalls, e2] at h

/-- What does hold: the grid subclasses build, for every non-empty shape, matching features and
valid walls, and keep the given features and walls. -/
theorem C22_partial (kind : GridKind) (W H : Nat) (selfT : Bool) (f : Arr2 K) (w : Option (Arr1 K))
    (hpos : 0 < W * H) (hf : f.d1 = W * H)
    (hw : ∀ v, w = some v → v.d0 = W * H ∧ ∀ i, i < W * H → v.get i = 0 ∨ v.get i = 1) :
    ∃ m, Mdp.initGrid kind W H selfT f w = .ok m ∧ m.features = f ∧ m.nAgents = 0 ∧
      m.nStates = W * H ∧ (∀ v, w = some v → m.walls = v) := by
  obtain ⟨m, h1, g, h2, -, h3, -, -, h4⟩ := Mdp.initGrid_ok (kind := kind) (selfT := selfT) hpos hf hw
  refine ⟨m, h1, h2, h3, g.nStates, ?_⟩
  rintro v rfl
  exact h4

example : (0 < 2 * 3) ∧ (∀ i, i < 2 * 3 → (fun i : Nat => if i = 4 then (1 : Rat) else 0) i = 0 ∨
    (fun i : Nat => if i = 4 then (1 : Rat) else 0) i = 1) := by
  refine ⟨by decide, fun i _ => ?_⟩
  by_cases h : i = 4 <;> simp [h]

end MaMDP
