import Verif.Lemmas.Mdp

/-! Lemmas about features and wall histories. -/

set_option linter.unusedSectionVars false

namespace MaMDP.Mdp

variable {K : Type} [Field K] [LinearOrder K] [IsStrictOrderedRing K]

/-- Shape and original transitions never change. -/
theorem setSas_frame (m : Mdp K) (x : Arr3 K) : (m.setSas x).1.shape = m.shape ∧
    (m.setSas x).1.originalSas = m.originalSas ∧ (m.setSas x).1.walls = m.walls := by
  unfold setSas; split_ifs <;> simp

theorem setFeatures_frame (m : Mdp K) (f : Arr2 K) : (m.setFeatures f).1.shape = m.shape ∧
    (m.setFeatures f).1.originalSas = m.originalSas ∧ (m.setFeatures f).1.walls = m.walls ∧
    (m.setFeatures f).1.nAgents = m.nAgents := by
  unfold setFeatures; split_ifs <;> simp

theorem setWalls_frame (m : Mdp K) (w : Arr1 K) : (m.setWalls w).1.shape = m.shape ∧
    (m.setWalls w).1.originalSas = m.originalSas := by
  unfold setWalls
  split
  · simp
  · split_ifs
    · simp
    · simp
    · have := setSas_frame m m.originalSas
      split
      · rename_i heq; rw [heq] at this; exact ⟨this.1, this.2.1⟩
      · rename_i heq; rw [heq] at this; exact ⟨this.1, this.2.1⟩

theorem apply_frame (m : Mdp K) (op : MdpOp K) : (m.apply op).shape = m.shape ∧
    (m.apply op).originalSas = m.originalSas := by
  cases op with
  | setSas x => exact ⟨(setSas_frame m x).1, (setSas_frame m x).2.1⟩
  | setWalls w => exact setWalls_frame m w
  | addWallXY x y =>
    simp only [Mdp.apply, addWallXY]
    split
    · simp
    · split
      · simp
      · exact setWalls_frame m _
  | resetWalls =>
    simp only [Mdp.apply, resetWalls]
    exact setWalls_frame { m with walls := { m.walls with get := fun i => m.walls.get i * 0 } } _
  | setFeatures f => exact ⟨(setFeatures_frame m f).1, (setFeatures_frame m f).2.1⟩
  | addAgentFeature p =>
    simp only [Mdp.apply, addAgentFeature]
    split
    · simp
    · split_ifs
      · simp
      · exact ⟨(setFeatures_frame _ _).1, (setFeatures_frame _ _).2.1⟩
  | updateAgentFeature i p =>
    simp only [Mdp.apply, updateAgentFeature]
    split
    · simp
    · split <;> simp
  | removeAgentFeatures =>
    simp only [Mdp.apply, removeAgentFeatures]
    generalize (if m.nAgents = 0 then 0 else m.features.d0 - m.nAgents) = k
    have := setFeatures_frame m { m.features with d0 := k }
    split
    · rename_i heq; rw [heq] at this; exact ⟨this.1, this.2.1⟩
    · rename_i heq; rw [heq] at this; exact ⟨this.1, this.2.1⟩
  | consumeFeatures fs s =>
    simp only [Mdp.apply, consumeFeatures]
    obtain ⟨g, hg⟩ := consumeLoop_frame s fs m fun _ => 0
    rw [hg]; simp
  | reset => exact ⟨(setFeatures_frame m _).1, (setFeatures_frame m _).2.1⟩

theorem run_frame (ops : List (MdpOp K)) : ∀ m : Mdp K, (m.run ops).shape = m.shape ∧
    (m.run ops).originalSas = m.originalSas := by
  induction ops with
  | nil => intro m; exact ⟨rfl, rfl⟩
  | cons op ops ih =>
    intro m
    have h1 := ih (m.apply op)
    have h2 := apply_frame m op
    exact ⟨h1.1.trans h2.1, h1.2.trans h2.2⟩

/-- What a successful wall assignment does. -/
theorem setWalls_ok {m m' : Mdp K} {w : Arr1 K} (h : m.setWalls w = (m', .ok ())) :
    m' = { m with
      deterministic := !(any3 m.originalSas fun v => 0 < v ∧ v < 1)
      adjacency := fun s t => decide (0 < npSum m.originalSas.d1 fun a => m.originalSas.get s a t)
      nStates := m.originalSas.d0
      nActions := m.originalSas.d1
      sas := maskWalls w m.originalSas.get
      walls := w } := by
  unfold setWalls at h
  split at h
  · simp at h
  · split_ifs at h
    · simp at h
    · simp at h
    cases hs : m.setSas m.originalSas with
    | mk m1 r =>
      rw [hs] at h
      cases r with
      | error e => simp at h
      | ok u =>
        have hv := m.validSas_of_ok (x := m.originalSas) (by rw [hs])
        rw [m.setSas_valid hv] at hs
        simp only [Prod.mk.injEq] at hs
        obtain ⟨rfl, -⟩ := hs
        simp at h
        rw [← h]

/-- Effect of the loop of `consume_features` when every index is valid. -/
theorem consumeLoop_ok (state : Int) (j : Nat) : ∀ (fs : List Int) (m : Mdp K) (c : Nat → Nat),
    pyIdx m.features.d1 state = some j → (∀ f ∈ fs, ∃ r, pyIdx m.features.d0 f = some r) →
    ∃ g c', consumeLoop state fs m c = ({ m with features := { m.features with get := g } }, .ok c') ∧
      (∀ r s, g r s = if s = j ∧ (∃ f ∈ fs, pyIdx m.features.d0 f = some r) ∧
        0 < m.features.get r s then 0 else m.features.get r s) ∧
      (∀ r, c' r = c r + if (∃ f ∈ fs, pyIdx m.features.d0 f = some r) ∧ 0 < m.features.get r j
        then 1 else 0) := by
  classical
  intro fs
  induction fs with
  | nil => intro m c _ _; exact ⟨m.features.get, c, rfl, by simp, by simp⟩
  | cons f fs ih =>
    intro m c hj hfs
    obtain ⟨r0, hr0⟩ := hfs f List.mem_cons_self
    have hfs' : ∀ f ∈ fs, ∃ r, pyIdx m.features.d0 f = some r :=
      fun f hf => hfs f (List.mem_cons_of_mem _ hf)
    unfold consumeLoop
    simp only [hr0, hj]
    split_ifs with hpos
    · obtain ⟨g, c', h1, h2, h3⟩ := ih
        { m with features := { m.features with get := upd2 m.features.get r0 j 0 } }
        (upd1 c r0 (c r0 + 1)) hj hfs'
      refine ⟨g, c', h1, ?_, ?_⟩
      · intro r s
        rw [h2 r s]
        simp only [upd2]
        by_cases hrs : r = r0 ∧ s = j
        · obtain ⟨rfl, rfl⟩ := hrs
          simp [hr0, hpos]
        · simp only [if_neg hrs]
          apply if_congr _ rfl rfl
          constructor
          · rintro ⟨e1, ⟨f', e2, e3⟩, e4⟩
            exact ⟨e1, ⟨f', List.mem_cons_of_mem _ e2, e3⟩, e4⟩
          · rintro ⟨e1, ⟨f', e2, e3⟩, e4⟩
            rcases List.mem_cons.1 e2 with rfl | e2
            · rw [hr0] at e3; cases e3; exact absurd ⟨rfl, e1⟩ hrs
            · exact ⟨e1, ⟨f', e2, e3⟩, e4⟩
      · intro r
        rw [h3 r]
        simp only [upd1, upd2]
        by_cases hr : r = r0
        · subst hr
          simp [hr0, hpos]
        · simp only [hr, false_and, if_false]
          congr 1
          apply if_congr _ rfl rfl
          constructor
          · rintro ⟨⟨f', e2, e3⟩, e4⟩
            exact ⟨⟨f', List.mem_cons_of_mem _ e2, e3⟩, e4⟩
          · rintro ⟨⟨f', e2, e3⟩, e4⟩
            rcases List.mem_cons.1 e2 with rfl | e2
            · rw [hr0] at e3; cases e3; exact absurd rfl hr
            · exact ⟨⟨f', e2, e3⟩, e4⟩
    · obtain ⟨g, c', h1, h2, h3⟩ := ih m c hj hfs'
      refine ⟨g, c', h1, ?_, ?_⟩
      · intro r s
        rw [h2 r s]
        apply if_congr _ rfl rfl
        constructor
        · rintro ⟨e1, ⟨f', e2, e3⟩, e4⟩
          exact ⟨e1, ⟨f', List.mem_cons_of_mem _ e2, e3⟩, e4⟩
        · rintro ⟨e1, ⟨f', e2, e3⟩, e4⟩
          rcases List.mem_cons.1 e2 with rfl | e2
          · rw [hr0] at e3; cases e3; subst e1; exact absurd e4 hpos
          · exact ⟨e1, ⟨f', e2, e3⟩, e4⟩
      · intro r
        rw [h3 r]
        congr 1
        apply if_congr _ rfl rfl
        constructor
        · rintro ⟨⟨f', e2, e3⟩, e4⟩
          exact ⟨⟨f', List.mem_cons_of_mem _ e2, e3⟩, e4⟩
        · rintro ⟨⟨f', e2, e3⟩, e4⟩
          rcases List.mem_cons.1 e2 with rfl | e2
          · rw [hr0] at e3; cases e3; exact absurd e4 hpos
          · exact ⟨⟨f', e2, e3⟩, e4⟩

end MaMDP.Mdp
