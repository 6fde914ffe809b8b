import Verif.Model.BoolWalls
import Verif.Props.Mdp

/-! # C175: walls may be given as booleans -/

set_option linter.unusedSectionVars false

namespace MaMDP

variable {K : Type} [Field K] [LinearOrder K] [IsStrictOrderedRing K]

/-- **C175 is false of the code**: on a grid made with walls of booleans, after any operations other than assignments of walls or
transitions, `reset_walls` raises `TypeError` and changes nothing, while with the same walls as numbers it succeeds and opens every
state. -/
theorem C175_refuted (kind : GridKind) (W H : Nat) (selfT : Bool) (f : Arr2 K) (w : Arr1 K) (m : Mdp K)
    (hm : Mdp.initGrid kind W H selfT f (some w) = .ok m) (ops : List (MdpOp K × Bool))
    (hops : ∀ op ∈ ops, (∀ w', op.1 ≠ .setWalls w') ∧ ∀ x, op.1 ≠ .setSas x) :
    ((Mdp.runOf (m, true) ops).1.resetWallsOf (Mdp.runOf (m, true) ops).2) = ((Mdp.runOf (m, true) ops).1, .error .typeError) ∧
    ∃ m', (Mdp.runOf (m, true) ops).1.resetWallsOf false = (m', .ok ()) ∧ ∀ s, s < W * H → m'.walls.get s = 0 := by
  have key : ∀ (ops : List (MdpOp K × Bool)) (m : Mdp K), Mdp.GridReach kind W H selfT m →
      (∀ op ∈ ops, (∀ w', op.1 ≠ .setWalls w') ∧ ∀ x, op.1 ≠ .setSas x) →
      (Mdp.runOf (m, true) ops).2 = true ∧ Mdp.GridReach kind W H selfT (Mdp.runOf (m, true) ops).1 := by
    intro ops
    induction ops with
    | nil => intro m h _; exact ⟨rfl, h⟩
    | cons op ops ih =>
      intro m h hops
      have h0 := hops op List.mem_cons_self
      have ih := fun m h => ih m h fun op ho => hops op (List.mem_cons_of_mem _ ho)
      obtain ⟨op, g⟩ := op
      have h1 : ∀ x, op ≠ .setSas x := h0.2
      match op, h1 with
      | .setSas x, h1 => exact absurd rfl (h1 x)
      | .setWalls w', _ => exact absurd rfl (h0.1 w')
      | .resetWalls, _ => exact ih m h
      | .addWallXY x y, h1 => exact ih _ (h.step _ h1)
      | .setFeatures f, h1 => exact ih _ (h.step _ h1)
      | .addAgentFeature p, h1 => exact ih _ (h.step _ h1)
      | .updateAgentFeature i p, h1 => exact ih _ (h.step _ h1)
      | .removeAgentFeatures, h1 => exact ih _ (h.step _ h1)
      | .consumeFeatures fs s, h1 => exact ih _ (h.step _ h1)
      | .reset, h1 => exact ih _ (h.step _ h1)
  obtain ⟨h1, h2⟩ := key ops m (.init hm) hops
  refine ⟨by rw [h1]; rfl, ?_⟩
  obtain ⟨m', h3, h4, -⟩ := C10_reset_walls kind W H selfT _ h2
  exact ⟨m', h3, h4⟩

/-- **C175**, what does hold: every history without `reset_walls` does the same as with numbers, whatever the arrays passed. Missing:
histories with `reset_walls` while the walls are booleans. -/
theorem C175_partial (m : Mdp K) (bools : Bool) (ops : List (MdpOp K × Bool)) (h : ∀ op ∈ ops, op.1 ≠ .resetWalls) :
    (Mdp.runOf (m, bools) ops).1 = m.run (ops.map Prod.fst) := by
  induction ops generalizing m bools with
  | nil => rfl
  | cons op ops ih =>
    have h0 := h op List.mem_cons_self
    have ih := fun m b => ih m b fun op ho => h op (List.mem_cons_of_mem _ ho)
    obtain ⟨op, g⟩ := op
    match op, h0 with
    | .resetWalls, h0 => exact absurd rfl h0
    | .setWalls w', _ =>
      show (Mdp.runOf (Mdp.applyOf (m, bools) (.setWalls w', g)) ops).1 = Mdp.run (m.setWalls w').1 (ops.map Prod.fst)
      unfold Mdp.applyOf
      rcases hw : m.setWalls w' with ⟨m', e | ⟨⟩⟩
      · simp only [hw]; exact ih _ _
      · simp only [hw]; exact ih _ _
    | .setSas x, _ => exact ih _ _
    | .addWallXY x y, _ => exact ih _ _
    | .setFeatures f, _ => exact ih _ _
    | .addAgentFeature p, _ => exact ih _ _
    | .updateAgentFeature i p, _ => exact ih _ _
    | .removeAgentFeatures, _ => exact ih _ _
    | .consumeFeatures fs s, _ => exact ih _ _
    | .reset, _ => exact ih _ _

/-- If only arrays of numbers are ever passed, this is the MDP of the other theorems. -/
theorem C175_numbers (m : Mdp K) (ops : List (MdpOp K × Bool)) (h : ∀ op ∈ ops, op.2 = false) :
    Mdp.runOf (m, false) ops = (m.run (ops.map Prod.fst), false) := by
  induction ops generalizing m with
  | nil => rfl
  | cons op ops ih =>
    have h0 := h op List.mem_cons_self
    have ih := fun m => ih m fun op ho => h op (List.mem_cons_of_mem _ ho)
    obtain ⟨op, g⟩ := op
    cases h0
    match op with
    | .setWalls w' =>
      show Mdp.runOf (Mdp.applyOf (m, false) (.setWalls w', false)) ops = (Mdp.run (m.setWalls w').1 (ops.map Prod.fst), false)
      unfold Mdp.applyOf
      rcases hw : m.setWalls w' with ⟨m', e | ⟨⟩⟩
      · simp only [hw]; exact ih _
      · simp only [hw]; exact ih _
    | .resetWalls => exact ih _
    | .setSas x => exact ih _
    | .addWallXY x y => exact ih _
    | .setFeatures f => exact ih _
    | .addAgentFeature p => exact ih _
    | .updateAgentFeature i p => exact ih _
    | .removeAgentFeatures => exact ih _
    | .consumeFeatures fs s => exact ih _
    | .reset => exact ih _

/-- The way out: assigning an array of zeros succeeds and does what `reset_walls` does to walls that are numbers. -/
theorem C175_zeros (kind : GridKind) (W H : Nat) (selfT : Bool) (m : Mdp K) (hm : Mdp.GridReach kind W H selfT m) (bools : Bool) :
    (m.setWalls ⟨W * H, fun _ => 0⟩).2 = .ok () ∧
    Mdp.applyOf (m, bools) (.setWalls ⟨W * H, fun _ => 0⟩, false) = ((m.resetWallsOf false).1, false) := by
  have g := hm.ok
  obtain ⟨m1, h1, -⟩ := Mdp.setWalls_grid g.pos g.shape g.orig g.featStates g.origFeatStates g.origFeat
    ⟨W * H, fun _ => (0 : K)⟩ rfl fun _ _ => .inl rfl
  obtain ⟨m2, h2, -⟩ := C10_reset_walls kind W H selfT m hm
  refine ⟨by rw [h1], ?_⟩
  have e : m1 = m2 := by
    have h2' := h2
    unfold Mdp.resetWalls at h2'
    rw [Mdp.setWalls_ok h1, Mdp.setWalls_ok h2']
    simp only [mul_zero, g.wallsLen]
  show (match m.setWalls ⟨W * H, fun _ => 0⟩ with
    | (m, .error _) => (m, bools)
    | (m, .ok ()) => (m, false)) = (m.resetWalls.1, false)
  rw [h1, h2, e]

/-- A grid of two by three cells with a wall of booleans: what `C175_refuted` speaks about, with an operation before. -/
example : (match Mdp.initGrid .square 2 3 false (⟨1, 6, fun _ s => if s = 0 then 1 else 0⟩ : Arr2 Rat)
      (some ⟨6, fun i => if i = 4 then 1 else 0⟩) with
    | .ok m =>
      let p := Mdp.runOf (m, true) [(.addWallXY [0] [1], false)]
      decide (p.1.walls.get 1 = 1 ∧ p.1.walls.get 4 = 1) &&
      (match p.1.resetWallsOf p.2, p.1.resetWallsOf false with
        | (m1, .error e), (m2, .ok ()) => decide (e = .typeError ∧ m1.walls.get 4 = 1 ∧ m2.walls.get 4 = 0)
        | _, _ => false)
    | .error _ => false) = true := by decide +kernel

end MaMDP
