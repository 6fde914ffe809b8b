import Verif.Lemmas.EnvInit
import Verif.Props.Mdp

/-! # C10 and C21, further histories -/

set_option linter.unusedSectionVars false

namespace MaMDP

variable {K : Type} [Field K] [LinearOrder K] [IsStrictOrderedRing K]

theorem setWalls_len {W H : Nat} {m : Mdp K} (hs : m.shape = some (W, H)) (hw : m.walls.d0 = W * H) (w : Arr1 K) :
    (m.setWalls w).1.walls.d0 = W * H := by
  unfold Mdp.setWalls
  rw [hs]
  dsimp only
  split_ifs with h1 h2
  · exact hw
  · exact hw
  · have e1 : (m.setSas m.originalSas).1.walls = m.walls := by unfold Mdp.setSas; split_ifs <;> rfl
    split
    · rename_i heq
      rw [heq] at e1
      rw [e1]; exact hw
    · push Not at h1
      exact h1

theorem apply_walls_len {W H : Nat} {m : Mdp K} (hs : m.shape = some (W, H)) (hw : m.walls.d0 = W * H) (op : MdpOp K) :
    (m.apply op).walls.d0 = W * H := by
  have hf : ∀ f, (m.setFeatures f).1.walls = m.walls := by intro f; unfold Mdp.setFeatures; split_ifs <;> rfl
  cases op with
  | setSas x => simp only [Mdp.apply, Mdp.setSas]; split_ifs <;> exact hw
  | setFeatures f => simp only [Mdp.apply, hf]; exact hw
  | setWalls w => exact setWalls_len hs hw w
  | addWallXY x y =>
    simp only [Mdp.apply, Mdp.addWallXY, hs]
    split
    · exact hw
    · exact setWalls_len hs hw _
  | resetWalls => exact setWalls_len (m := { m with walls := { m.walls with get := fun i => m.walls.get i * 0 } }) hs hw _
  | addAgentFeature p =>
    simp only [Mdp.apply, Mdp.addAgentFeature]
    split
    · exact hw
    · split_ifs
      · exact hw
      · unfold Mdp.setFeatures; split_ifs <;> exact hw
  | removeAgentFeatures =>
    simp only [Mdp.apply, Mdp.removeAgentFeatures]
    generalize hx : m.setFeatures _ = x
    have h1 : x.1.walls = m.walls := by rw [← hx]; exact hf _
    rcases x with ⟨m1, _ | u⟩
    · dsimp only at h1 ⊢; rw [h1]; exact hw
    · dsimp only at h1 ⊢; rw [h1]; exact hw
  | updateAgentFeature i p =>
    simp only [Mdp.apply, Mdp.updateAgentFeature]
    split
    · exact hw
    · split <;> exact hw
  | consumeFeatures fs s =>
    simp only [Mdp.apply, Mdp.consumeFeatures]
    obtain ⟨g, hg⟩ := Mdp.consumeLoop_frame s fs m fun _ => 0
    rw [hg]; exact hw
  | reset => simp only [Mdp.apply, Mdp.reset, hf]; exact hw

theorem run_walls_len {W H : Nat} : ∀ (ops : List (MdpOp K)) (m : Mdp K), m.shape = some (W, H) → m.walls.d0 = W * H →
    (m.run ops).walls.d0 = W * H
  | [], _, _, hw => hw
  | op :: ops, m, hs, hw => by
    have h1 := (Mdp.run_frame [op] m).1
    exact run_walls_len ops (m.apply op) (h1.trans hs) (apply_walls_len hs hw op)

/-- **C10** (resetting): after any operations whatever on a grid MDP, assignments of other transition arrays included,
`reset_walls` succeeds, no state is walled afterwards, and transitions and sizes are those of the wall-free grid. -/
theorem C10_reset_any (kind : GridKind) (W H : Nat) (selfT : Bool) (f : Arr2 K) (w0 : Option (Arr1 K)) (m : Mdp K)
    (hm : Mdp.initGrid kind W H selfT f w0 = .ok m) (ops : List (MdpOp K)) :
    ∃ m', (m.run ops).resetWalls = (m', .ok ()) ∧ (∀ i, i < W * H → m'.walls.get i = 0) ∧
      (∀ s a t, m'.sas s a t = m.originalSas.get s a t) ∧ m'.nStates = m.nStates ∧ m'.nActions = m.nActions ∧
      ∀ s a t, s < W * H → t < W * H → m'.sas s a t = if kind.Move H selfT s a t then 1 else 0 := by
  have g := (Mdp.GridReach.init hm).ok
  have hl := run_walls_len ops m g.shape g.wallsLen
  obtain ⟨f', ho, hf⟩ := g.orig
  have hv := Mdp.validSas_grid g.pos hf
  have key : ∀ (w : Arr1 K), w.d0 = W * H → (∀ i, i < W * H → w.get i = 0 ∨ w.get i = 1) → ∀ v : Arr1 K,
      ({ m.run ops with walls := v }.setWalls w).2 = .ok () := by
    intro w hlen h01 v
    unfold Mdp.setWalls
    dsimp only
    rw [(Mdp.run_frame ops m).1, g.shape, (Mdp.run_frame ops m).2, ho]
    simp only
    rw [if_neg (by simpa using hlen), if_neg (by
      rintro ⟨i, hi, hh⟩; exact hh (h01 i (hlen ▸ hi))), Mdp.setSas_valid _ hv]
  have h2 := key { (m.run ops).walls with get := fun i => (m.run ops).walls.get i * 0 } hl (fun i _ => by simp)
    { (m.run ops).walls with get := fun i => (m.run ops).walls.get i * 0 }
  have h1 : (m.run ops).resetWalls = ((m.run ops).resetWalls.1, .ok ()) := Prod.ext rfl h2
  have e := Mdp.setWalls_ok h1
  have ho' := (Mdp.run_frame ops m).2
  refine ⟨_, h1, fun i _ => ?_, fun s a t => ?_, ?_, ?_, fun s a t hs ht => ?_⟩
  · rw [e]; simp
  · rw [e]; simp [Mdp.maskWalls, ho']
  · rw [e]; dsimp only; rw [ho', ho, g.nStates]
  · rw [e]; dsimp only; rw [ho', ho, g.nActions]
  · rw [e]; simp only [Mdp.maskWalls, ho', ho, mul_zero, zero_ne_one, or_self, if_false]; exact hf s a t hs ht

/-- A foreign transition array was assigned before. -/
example : ∃ m : Mdp Rat, Mdp.initGrid .square 2 3 false ⟨1, 6, fun _ _ => 0⟩ none = .ok m ∧
    (m.run [.setSas ⟨2, 1, 2, fun _ _ _ => 1 / 2⟩]).nStates = 2 ∧ (m.run [.setSas ⟨2, 1, 2, fun _ _ _ => 1 / 2⟩]).resetWalls.1.nStates = 6 := by
  obtain ⟨m, hm, g, -⟩ := Mdp.initGrid_ok (K := Rat) (kind := .square) (W := 2) (H := 3) (selfT := false)
    (f := ⟨1, 6, fun _ _ => 0⟩) (w := none) (by decide) rfl (by intro v hv; cases hv)
  refine ⟨m, hm, ?_, ?_⟩
  · have hv : Spec.ValidTransitions (⟨2, 1, 2, fun _ _ _ => 1 / 2⟩ : Arr3 Rat) :=
      ⟨rfl, by decide, by decide, fun _ _ _ _ _ _ => by norm_num⟩
    simp only [Mdp.run, List.foldl_cons, List.foldl_nil, Mdp.apply]
    rw [Mdp.setSas_valid _ ((Mdp.validTransitions_iff _).1 hv)]
  · obtain ⟨m', h, -, -, h2, -⟩ := C10_reset_any .square 2 3 false _ none m hm [.setSas ⟨2, 1, 2, fun _ _ _ => 1 / 2⟩]
    rw [h]
    exact h2.trans g.nStates

theorem reset_restores {kind : GridKind} {W H : Nat} {selfT : Bool} {m : Mdp K} (h : Mdp.GridReach kind W H selfT m)
    (ops : List (MdpOp K)) (hops : ∀ op ∈ ops, op.keepsAssignment) :
    ∃ m', (m.run ops).reset = (m', .ok ()) ∧ m'.features = m.originalFeatures ∧ m'.reset = (m', .ok ()) := by
  have key : ∀ (ops : List (MdpOp K)) (m : Mdp K), Mdp.GridReach kind W H selfT m →
      (∀ op ∈ ops, op.keepsAssignment) →
      Mdp.GridReach kind W H selfT (m.run ops) ∧ (m.run ops).originalFeatures = m.originalFeatures := by
    intro ops
    induction ops with
    | nil => intro m h _; exact ⟨h, rfl⟩
    | cons op ops ih =>
      intro m h hops
      have hop := hops op List.mem_cons_self
      have h1 : Mdp.GridReach kind W H selfT (m.apply op) := .step op h (by rintro x rfl; exact hop)
      obtain ⟨e1, e2⟩ := ih (m.apply op) h1 fun op' h' => hops op' (List.mem_cons_of_mem _ h')
      exact ⟨e1, e2.trans (apply_keeps h op hop)⟩
  obtain ⟨e1, e2⟩ := key ops m h hops
  have g := e1.ok
  generalize m.run ops = m1 at *
  have hd : m.originalFeatures.d1 = m1.nStates := by rw [← e2, g.origFeatStates, g.nStates]
  unfold Mdp.reset Mdp.setFeatures
  rw [e2, if_neg (by simpa using hd)]
  refine ⟨_, rfl, rfl, ?_⟩
  simp only
  rw [if_neg (by simpa using hd)]

/-- **C21** (agents): an agent's feature is added, or the agents' features are removed; then anything that does not assign
features again. `reset()` succeeds and restores the features as that call left them, and can be repeated. -/
theorem C21_agents (kind : GridKind) (W H : Nat) (selfT : Bool) (m m1 : Mdp K) (h : Mdp.GridReach kind W H selfT m)
    (hcall : (∃ p, m.addAgentFeature p = (m1, .ok ())) ∨ m.removeAgentFeatures = (m1, .ok ()))
    (ops : List (MdpOp K)) (hops : ∀ op ∈ ops, op.keepsAssignment) :
    ∃ m', (m1.run ops).reset = (m', .ok ()) ∧ m'.features = m1.features ∧ m'.reset = (m', .ok ()) := by
  have hs : ∀ (x y : Mdp K) (f : Arr2 K), x.setFeatures f = (y, .ok ()) → y.originalFeatures = y.features := by
    intro x y f hx
    unfold Mdp.setFeatures at hx
    split_ifs at hx
    · cases (Prod.mk.inj hx).2
    · obtain ⟨rfl, -⟩ := Prod.mk.inj hx
      rfl
  have h1 : Mdp.GridReach kind W H selfT m1 ∧ m1.originalFeatures = m1.features := by
    rcases hcall with ⟨p, hp⟩ | hr
    · refine ⟨by have := Mdp.GridReach.step (.addAgentFeature p) h (by simp); rwa [Mdp.apply, hp] at this, ?_⟩
      unfold Mdp.addAgentFeature at hp
      dsimp only at hp
      split at hp
      · cases (Prod.mk.inj hp).2
      · split_ifs at hp
        · cases (Prod.mk.inj hp).2
        · exact hs _ _ _ hp
    · refine ⟨by have := Mdp.GridReach.step .removeAgentFeatures h (by simp); rwa [Mdp.apply, hr] at this, ?_⟩
      unfold Mdp.removeAgentFeatures at hr
      dsimp only at hr
      split at hr
      · cases (Prod.mk.inj hr).2
      · rename_i heq
        have h2 := hs m _ _ heq
        obtain ⟨rfl, -⟩ := Prod.mk.inj hr
        exact h2
  rw [← h1.2]
  exact reset_restores h1.1 ops hops

/-- An agent is put on a 2×3 grid, moves, eats and walls come and go: `reset()` brings back the features, with the agent
where it was put. -/
example : ∃ (m m1 m' : Mdp Rat), m.addAgentFeature 4 = (m1, .ok ()) ∧
    (m1.run [.updateAgentFeature 1 2, .consumeFeatures [0] 4, .addWallXY [0] [1], .resetWalls]).reset = (m', .ok ()) ∧
    m'.features.get 1 4 = 1 ∧ m'.features.get 0 4 = 7 := by
  obtain ⟨m, hm, g, hf, -⟩ := Mdp.initGrid_ok (K := Rat) (kind := .square) (W := 2) (H := 3) (selfT := false)
    (f := ⟨1, 6, fun _ _ => 7⟩) (w := none) (by decide) rfl (by intro v hv; cases hv)
  have hs : m.nStates = 6 := g.nStates
  have hadd := Env.addAgentFeature_ok (m := m) (p := 4) (j := 4) (by rw [hf, hs]) (by rw [hs]; decide)
  obtain ⟨m', h, h1, -⟩ := C21_agents .square 2 3 false m _ (.init hm) (Or.inl ⟨4, hadd⟩)
    [.updateAgentFeature 1 2, .consumeFeatures [0] 4, .addWallXY [0] [1], .resetWalls]
    (by intro op h; simp at h; rcases h with rfl | rfl | rfl | rfl <;> trivial)
  refine ⟨m, _, m', hadd, h, ?_, ?_⟩
  · rw [h1]; simp [Env.addRow, hf]
  · rw [h1]; simp [Env.addRow, hf]

end MaMDP
