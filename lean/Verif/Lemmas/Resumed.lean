import Verif.Spec.Resumed
import Verif.Lemmas.Relisted
import Verif.Lemmas.EnvIO

/-! # Environments that differ in their past only -/

set_option linter.unusedSectionVars false

namespace MaMDP

variable {K δ : Type} [Field K] [LinearOrder K] [IsStrictOrderedRing K]
variable {kind : GridKind} {W H : Nat} {selfT : Bool} {m m' : Mdp K}

namespace Mdp

/-- The transitions of a grid MDP are those of the grid and its present walls. -/
structure FromGrid (kind : GridKind) (W H : Nat) (selfT : Bool) (m : Mdp K) (g : Arr3 K) : Prop where
  grid : getSas kind W H selfT = .ok g
  shape : m.shape = some (W, H)
  selfT : m.selfTransitions = selfT
  orig : m.originalSas = g
  nStates : m.nStates = g.d0
  nActions : m.nActions = g.d1
  sas : m.sas = maskWalls m.walls g.get
  det : m.deterministic = !(any3 g fun v => 0 < v ∧ v < 1)
  adj : m.adjacency = fun s t => decide (0 < npSum g.d1 fun a => g.get s a t)

theorem FromGrid.congr {g : Arr3 K} (h : FromGrid kind W H selfT m g) (h1 : m'.shape = m.shape)
    (h2 : m'.selfTransitions = m.selfTransitions) (h3 : m'.originalSas = m.originalSas) (h4 : m'.nStates = m.nStates)
    (h5 : m'.nActions = m.nActions) (h6 : m'.sas = m.sas) (h7 : m'.walls = m.walls)
    (h8 : m'.deterministic = m.deterministic) (h9 : m'.adjacency = m.adjacency) : FromGrid kind W H selfT m' g :=
  ⟨h.grid, h1.trans h.shape, h2.trans h.selfT, h3.trans h.orig, h4.trans h.nStates, h5.trans h.nActions,
    by rw [h6, h7]; exact h.sas, h8.trans h.det, h9.trans h.adj⟩

theorem FromGrid.setWalls {g : Arr3 K} (h : FromGrid kind W H selfT m g) (w : Arr1 K) :
    FromGrid kind W H selfT (m.setWalls w).1 g ∨ (m.setWalls w).1 = m ∧ (m.setWalls w).2 ≠ .ok () := by
  by_cases hw : (m.setWalls w).2 = .ok ()
  · left
    have h1 : m.setWalls w = ((m.setWalls w).1, .ok ()) := by rw [← hw]
    rw [setWalls_ok h1]
    exact ⟨h.grid, h.shape, h.selfT, h.orig, by rw [h.orig], by rw [h.orig], by rw [h.orig], by rw [h.orig], by rw [h.orig]⟩
  · right
    refine ⟨?_, hw⟩
    unfold Mdp.setWalls at hw ⊢
    simp only [h.shape] at hw ⊢
    by_cases h1 : w.d0 ≠ W * H
    · rw [if_pos h1]
    rw [if_neg h1] at hw ⊢
    by_cases h2 : ∃ i, i < w.d0 ∧ ¬ (w.get i = 0 ∨ w.get i = 1)
    · rw [if_pos h2]
    rw [if_neg h2] at hw ⊢
    have h3 := m.setSas_fail (x := m.originalSas)
    rcases h4 : m.setSas m.originalSas with ⟨y, er | u⟩
    · rw [h4] at h3
      exact h3 (by simp)
    · rw [h4] at hw
      exact absurd rfl hw

theorem FromGrid.setFeatures {g : Arr3 K} (h : FromGrid kind W H selfT m g) (f : Arr2 K) :
    FromGrid kind W H selfT (m.setFeatures f).1 g := by
  unfold Mdp.setFeatures
  split_ifs
  · exact h
  · exact h.congr rfl rfl rfl rfl rfl rfl rfl rfl rfl

theorem GridReach.fromGrid (h : GridReach kind W H selfT m) : ∃ g, FromGrid kind W H selfT m g := by
  induction h with
  | @init f w m h =>
    unfold initGrid at h
    cases hg : getSas (K := K) kind W H selfT with
    | error e => rw [hg] at h; cases h
    | ok g =>
      rw [hg] at h
      simp only [Mdp.init] at h
      refine ⟨g, ?_⟩
      rcases h1 : (blank (some (W, H)) selfT g).setSas g with ⟨m1, er | u⟩
      · rw [h1] at h; cases h
      rw [h1] at h
      simp only at h
      have e1 : m1.shape = some (W, H) ∧ m1.selfTransitions = selfT ∧ m1.originalSas = g := by
        unfold setSas at h1
        split_ifs at h1 <;> cases h1
        exact ⟨rfl, rfl, rfl⟩
      rcases h2 : m1.setFeatures f with ⟨m2, er | u⟩
      · rw [h2] at h; cases h
      rw [h2] at h
      simp only at h
      have e2 : m2.shape = some (W, H) ∧ m2.selfTransitions = selfT ∧ m2.originalSas = g := by
        unfold Mdp.setFeatures at h2
        split_ifs at h2 <;> cases h2
        exact e1
      split at h
      · cases h
      rename_i m3 h3
      cases h
      rw [setWalls_ok h3]
      simp only [e2.2.2]
      exact ⟨hg, e2.1, e2.2.1, rfl, rfl, rfl, rfl, rfl, rfl⟩
  | @step m op hr hop ih =>
    obtain ⟨g, h⟩ := ih
    have hok := hr.ok
    refine ⟨g, ?_⟩
    have hw : ∀ w, FromGrid kind W H selfT (m.setWalls w).1 g := by
      intro w
      rcases h.setWalls w with h1 | ⟨h1, -⟩
      · exact h1
      · rw [h1]; exact h
    cases op with
    | setSas x => exact absurd rfl (hop x)
    | setWalls w => exact hw w
    | addWallXY x y =>
      change FromGrid kind W H selfT (m.addWallXY x y).1 g
      unfold addWallXY
      rw [h.shape]
      simp only
      split
      · exact h
      · exact hw _
    | resetWalls =>
      change FromGrid kind W H selfT m.resetWalls.1 g
      obtain ⟨m1, h1, -⟩ := setWalls_grid
        (m := { m with walls := { m.walls with get := fun i => m.walls.get i * 0 } })
        hok.pos hok.shape hok.orig hok.featStates hok.origFeatStates hok.origFeat
        { m.walls with get := fun i => m.walls.get i * 0 } hok.wallsLen (fun i _ => by simp)
      have h2 : m.resetWalls = (m1, .ok ()) := h1
      rw [h2, setWalls_ok h1]
      simp only [h.orig]
      exact ⟨h.grid, h.shape, h.selfT, rfl, rfl, rfl, rfl, rfl, rfl⟩
    | setFeatures f => exact h.setFeatures f
    | addAgentFeature p =>
      change FromGrid kind W H selfT (m.addAgentFeature p).1 g
      have h0 : FromGrid kind W H selfT { m with nAgents := m.nAgents + 1 } g := h.congr rfl rfl rfl rfl rfl rfl rfl rfl rfl
      unfold addAgentFeature
      simp only
      split
      · exact h0
      · split_ifs
        · exact h0
        · exact h0.setFeatures _
    | updateAgentFeature i p =>
      change FromGrid kind W H selfT (m.updateAgentFeature i p).1 g
      unfold updateAgentFeature
      split
      · exact h
      · simp only
        split <;> exact h.congr rfl rfl rfl rfl rfl rfl rfl rfl rfl
    | removeAgentFeatures =>
      change FromGrid kind W H selfT m.removeAgentFeatures.1 g
      unfold removeAgentFeatures
      simp only
      have h1 := h.setFeatures { m.features with d0 := if m.nAgents = 0 then 0 else m.features.d0 - m.nAgents }
      rcases h2 : m.setFeatures { m.features with d0 := if m.nAgents = 0 then 0 else m.features.d0 - m.nAgents } with ⟨y, _ | _⟩
      · rw [h2] at h1; exact h1
      · rw [h2] at h1; exact h1.congr rfl rfl rfl rfl rfl rfl rfl rfl rfl
    | consumeFeatures fs s =>
      change FromGrid kind W H selfT (consumeLoop s fs m fun _ => 0).1 g
      obtain ⟨x, hx⟩ := Mdp.consumeLoop_frame s fs m fun _ => 0
      rw [hx]
      exact h.congr rfl rfl rfl rfl rfl rfl rfl rfl rfl
    | reset => exact h.setFeatures _

/-- The same MDP up to what reset restores, the names of the features and the count taken when it was built. -/
def Akin (m m' : Mdp K) : Prop :=
  ∃ F O ns q, m' = { m with features := F, originalFeatures := O, featureNames := ns, nNonAgent := q } ∧
    F.d0 = m.features.d0 ∧ F.d1 = m.features.d1 ∧
    ∀ f s, f < m.features.d0 → s < m.features.d1 → F.get f s = m.features.get f s

theorem Akin.update (h : Akin m m') (i p : Int) :
    Akin (m.updateAgentFeature i p).1 (m'.updateAgentFeature i p).1 ∧
    (m'.updateAgentFeature i p).2 = (m.updateAgentFeature i p).2 := by
  obtain ⟨F, O, ns, q, rfl, h1, h2, h3⟩ := h
  unfold updateAgentFeature
  simp only [nFeatures, h1, h2]
  cases pyIdx m.features.d0 ((m.features.d0 : Int) - m.nAgents + i) with
  | none => exact ⟨⟨F, O, ns, q, rfl, h1, h2, h3⟩, rfl⟩
  | some r =>
    simp only
    cases pyIdx m.features.d1 p with
    | none =>
      refine ⟨⟨_, O, ns, q, rfl, rfl, rfl, fun f s hf hs => ?_⟩, rfl⟩
      simp only [h3 f s hf hs]
    | some j =>
      refine ⟨⟨_, O, ns, q, rfl, rfl, rfl, fun f s hf hs => ?_⟩, rfl⟩
      simp only [upd2, h3 f s hf hs]

theorem Akin.eat {state : Int} : ∀ (l : List Int) (m m' : Mdp K) (c : Nat → Nat), Akin m m' →
    Akin (consumeLoop state l m c).1 (consumeLoop state l m' c).1 ∧
    (consumeLoop state l m' c).2 = (consumeLoop state l m c).2 := by
  intro l
  induction l with
  | nil => intro m m' c h; exact ⟨h, rfl⟩
  | cons f l ih =>
    intro m m' c h
    obtain ⟨F, O, ns, q, rfl, h1, h2, h3⟩ := h
    unfold consumeLoop
    simp only [h1, h2]
    cases hf : pyIdx m.features.d0 f with
    | none => exact ⟨⟨F, O, ns, q, rfl, h1, h2, h3⟩, rfl⟩
    | some r =>
      cases hs : pyIdx m.features.d1 state with
      | none => exact ⟨⟨F, O, ns, q, rfl, h1, h2, h3⟩, rfl⟩
      | some s =>
        simp only [h3 r s (pyIdx_lt hf) (pyIdx_lt hs)]
        by_cases h0 : 0 < m.features.get r s
        · rw [if_pos h0, if_pos h0]
          refine ih _ _ _ ⟨_, O, ns, q, rfl, rfl, rfl, fun f s hf hs => ?_⟩
          simp only [upd2, h3 f s hf hs]
        · rw [if_neg h0, if_neg h0]
          exact ih _ _ _ ⟨F, O, ns, q, rfl, h1, h2, h3⟩

theorem Akin.setWalls (h : Akin m m') (w : Arr1 K) :
    Akin (m.setWalls w).1 (m'.setWalls w).1 ∧ (m'.setWalls w).2 = (m.setWalls w).2 := by
  obtain ⟨F, O, ns, q, rfl, h0⟩ := h
  obtain ⟨sh, x2, x3, x4, x5, x6, x7, x8, x9, x10, x11, x12, x13, x14⟩ := m
  unfold Mdp.setWalls
  cases sh with
  | none => exact ⟨⟨F, O, ns, q, rfl, h0⟩, rfl⟩
  | some s =>
    simp only
    by_cases h1 : w.d0 ≠ s.1 * s.2
    · rw [if_pos h1, if_pos h1]; exact ⟨⟨F, O, ns, q, rfl, h0⟩, rfl⟩
    rw [if_neg h1, if_neg h1]
    by_cases h2 : ∃ i, i < w.d0 ∧ ¬ (w.get i = 0 ∨ w.get i = 1)
    · rw [if_pos h2, if_pos h2]; exact ⟨⟨F, O, ns, q, rfl, h0⟩, rfl⟩
    rw [if_neg h2, if_neg h2]
    unfold Mdp.setSas
    simp only
    split_ifs <;> exact ⟨⟨F, O, ns, q, rfl, h0⟩, rfl⟩

theorem Akin.addWallXY (h : Akin m m') (x y : List Int) :
    Akin (m.addWallXY x y).1 (m'.addWallXY x y).1 ∧ (m'.addWallXY x y).2 = (m.addWallXY x y).2 := by
  have hsh : m'.shape = m.shape := by obtain ⟨F, O, ns, q, h0, -⟩ := h; rw [h0]
  have hwl : m'.walls = m.walls := by obtain ⟨F, O, ns, q, h0, -⟩ := h; rw [h0]
  unfold Mdp.addWallXY
  rw [hsh, hwl]
  cases m.shape with
  | none => exact ⟨h, rfl⟩
  | some s =>
    simp only
    cases Mdp.wallCells s.1 s.2 (Mdp.wallRange x) (Mdp.wallRange y) m.walls with
    | error er => exact ⟨h, rfl⟩
    | ok w => exact h.setWalls w

theorem Akin.resetWalls (h : Akin m m') :
    Akin m.resetWalls.1 m'.resetWalls.1 ∧ m'.resetWalls.2 = m.resetWalls.2 := by
  have hwl : m'.walls = m.walls := by obtain ⟨F, O, ns, q, h0, -⟩ := h; rw [h0]
  unfold Mdp.resetWalls
  rw [hwl]
  refine Mdp.Akin.setWalls ?_ _
  obtain ⟨F, O, ns, q, h0, h1⟩ := h
  exact ⟨F, O, ns, q, by rw [h0], h1⟩

end Mdp

namespace Agent

/-- The same agent with another past: `k` holds what it has eaten more, `P` and `P'` where they have been before. -/
structure Akin (k : Nat → Nat) (P P' : List Int) (a a' : Agent K δ) : Prop where
  name : a'.name = a.name
  nMoves : a'.nMoves = a.nMoves
  reward : a'.reward = a.reward
  consumes : a'.consumes = a.consumes
  selector : a'.selector = a.selector
  idx : a'.idx = a.idx
  featIdx : a'.featIdx = a.featIdx
  alg : a'.alg = a.alg
  position : a'.position = a.position
  consumed : ∀ f, a.consumed f = k f + a'.consumed f
  history : ∃ l, a.history = P ++ l ∧ a'.history = P' ++ l

variable {k : Nat → Nat} {P P' : List Int} {a a' : Agent K δ}

/-- Closes a goal `Akin` between agents whose fields are those of akin agents. -/
local macro "akin_but" h:term : tactic => `(tactic| refine ⟨by first | rfl | exact ($h).1, by first | rfl | exact ($h).2,
  by first | rfl | exact ($h).3, by first | rfl | exact ($h).4, by first | rfl | exact ($h).5,
  by first | rfl | exact ($h).6, by first | rfl | exact ($h).7, by first | rfl | exact ($h).8,
  by first | rfl | exact ($h).9, ?_, ?_⟩)

local macro "akin" h:term : tactic => `(tactic| (akin_but $h; exacts [($h).10, ($h).11]))

theorem Akin.getPolicy (h : Akin k P P' a a') (d : Nat → δ) :
    Akin k P P' (a.getPolicy d).1 (a'.getPolicy d).1 ∧ (a'.getPolicy d).2 = (a.getPolicy d).2 ∧
    ((a.getPolicy d).2 = .ok () → (a'.getPolicy d).1.pi = (a.getPolicy d).1.pi ∧
      (a'.getPolicy d).1.piP = (a.getPolicy d).1.piP) := by
  unfold Agent.getPolicy
  rw [h.alg, h.selector]
  cases a.alg.qValues with
  | none => exact ⟨h, rfl, fun h => by cases h⟩
  | some q =>
    simp only
    cases a.selector.piP q with
    | error e => exact ⟨h, rfl, fun h => by cases h⟩
    | ok x =>
      simp only
      cases a.selector.pi q d with
      | error e => exact ⟨by akin h, rfl, fun h => by cases h⟩
      | ok p => exact ⟨by akin h, rfl, fun _ => ⟨rfl, rfl⟩⟩

theorem Akin.setPosition (h : Akin k P P' a a') (hm : Mdp.Akin m m') (p : Int) :
    Mdp.Akin (a.setPosition m p).1 (a'.setPosition m' p).1 ∧
    Akin k P P' (a.setPosition m p).2.1 (a'.setPosition m' p).2.1 ∧
    (a'.setPosition m' p).2.2 = (a.setPosition m p).2.2 := by
  have hn : m'.nStates = m.nStates := by obtain ⟨F, O, ns, q, rfl, -⟩ := hm; rfl
  have hu := hm.update a.idx p
  unfold Agent.setPosition
  rw [hn, h.idx]
  by_cases hp : (m.nStates : Int) ≤ p
  · rw [if_pos hp, if_pos hp]; exact ⟨hm, h, rfl⟩
  · rw [if_neg hp, if_neg hp]
    rcases h1 : m.updateAgentFeature a.idx p with ⟨x1, r1⟩
    rcases h2 : m'.updateAgentFeature a.idx p with ⟨x2, r2⟩
    rw [h1, h2] at hu
    obtain ⟨hu1, hu2⟩ := hu
    simp only at hu1 hu2
    subst hu2
    cases r2 with
    | error e => exact ⟨hu1, h, rfl⟩
    | ok u => exact ⟨hu1, by akin h, rfl⟩

theorem Akin.step (h : Akin k P P' a a') (hm : Mdp.Akin m m') (d : Nat → δ) :
    Mdp.Akin (a.step m d).1 (a'.step m' d).1 ∧ Akin k P P' (a.step m d).2.1 (a'.step m' d).2.1 ∧
    (a'.step m' d).2.2 = (a.step m d).2.2 := by
  have hg : ∀ s x, m'.getNextState s x = m.getNextState s x := by obtain ⟨F, O, ns, q, rfl, -⟩ := hm; intros; rfl
  unfold Agent.step
  rw [h.alg]
  by_cases hf : a.alg.fitComplete = false
  · rw [if_pos hf, if_pos hf]; exact ⟨hm, h, rfl⟩
  rw [if_neg hf, if_neg hf]
  have hgp := h.getPolicy d
  rcases h1 : a.getPolicy d with ⟨b, r⟩
  rcases h2 : a'.getPolicy d with ⟨b', r'⟩
  rw [h1, h2] at hgp
  obtain ⟨g1, g2, g3⟩ := hgp
  simp only at g1 g2 g3
  subst g2
  cases r' with
  | error e => exact ⟨hm, g1, rfl⟩
  | ok u =>
    obtain ⟨g3, -⟩ := g3 rfl
    simp only
    rw [g3]
    cases hpi : b.pi with
    | none => exact ⟨hm, g1, rfl⟩
    | some pi =>
      simp only
      rw [g1.position]
      cases pyIdx pi.d0 b.position with
      | none => exact ⟨hm, g1, rfl⟩
      | some s =>
        simp only [hg]
        by_cases hs : pi.get s < 0
        · rw [if_pos hs, if_pos hs]; exact ⟨hm, g1, rfl⟩
        rw [if_neg hs, if_neg hs]
        cases m.getNextState b.position (pi.get s) with
        | error e => exact ⟨hm, g1, rfl⟩
        | ok t =>
          simp only
          have hp := g1.setPosition hm t
          rcases h3 : b.setPosition m t with ⟨x1, b1, r1⟩
          rcases h4 : b'.setPosition m' t with ⟨x2, b2, r2⟩
          rw [h3, h4] at hp
          obtain ⟨p1, p2, p3⟩ := hp
          simp only at p1 p2 p3
          subst p3
          cases r2 with
          | error e => exact ⟨p1, p2, rfl⟩
          | ok u =>
            simp only
            have hu := p1.update b1.idx b1.position
            rw [p2.idx, p2.position]
            rcases h5 : x1.updateAgentFeature b1.idx b1.position with ⟨y1, q1⟩
            rcases h6 : x2.updateAgentFeature b1.idx b1.position with ⟨y2, q2⟩
            rw [h5, h6] at hu
            obtain ⟨u1, u2⟩ := hu
            simp only at u1 u2
            subst u2
            obtain ⟨l, l1, l2⟩ := p2.history
            have hh : Akin k P P' { b1 with history := b1.history ++ [b1.position] }
                { b2 with history := b2.history ++ [b1.position], idx := b1.idx, position := b1.position } := by
              akin_but p2
              · exact p2.10
              · exact ⟨l ++ [b1.position], by simp [l1], by simp [l2]⟩
            cases q2 with
            | error e => exact ⟨u1, hh, rfl⟩
            | ok u => exact ⟨u1, hh, rfl⟩

theorem Akin.consume (h : Akin k P P' a a') (hm : Mdp.Akin m m') :
    Mdp.Akin (a.consume m).1 (a'.consume m').1 ∧ Akin k P P' (a.consume m).2.1 (a'.consume m').2.1 ∧
    (a'.consume m').2.2 = (a.consume m).2.2 := by
  unfold Agent.consume Mdp.consumeFeatures
  rw [h.consumes, h.position]
  by_cases he : a.consumes = []
  · rw [if_pos he, if_pos he]; exact ⟨hm, h, rfl⟩
  rw [if_neg he, if_neg he]
  have hc := Mdp.Akin.eat (state := a.position) a.consumes m m' (fun _ => 0) hm
  rcases hx : Mdp.consumeLoop a.position a.consumes m (fun _ => 0) with ⟨y, r⟩
  rcases hy : Mdp.consumeLoop a.position a.consumes m' (fun _ => 0) with ⟨y', r'⟩
  rw [hx, hy] at hc
  obtain ⟨c1, c2⟩ := hc
  simp only at c1 c2
  subst c2
  cases r' with
  | error e => exact ⟨c1, h, rfl⟩
  | ok c =>
    refine ⟨c1, ?_, rfl⟩
    akin_but h
    · intro f
      change a.consumed f + c f = k f + (a'.consumed f + c f)
      rw [h.10 f, Nat.add_assoc]
    · exact h.11

theorem Akin.stepProba (h : Akin k P P' a a') (hm : Mdp.Akin m m') (p : Option (Arr1 K)) (d : Nat → δ) :
    Akin k P P' (a.stepProba m p d).1 (a'.stepProba m' p d).1 ∧ (a'.stepProba m' p d).2 = (a.stepProba m p d).2 := by
  obtain ⟨F, O, ns, q, rfl, -⟩ := hm
  have hst : a'.probaStart { m with features := F, originalFeatures := O, featureNames := ns, nNonAgent := q } p = a.probaStart m p := by
    unfold probaStart
    rw [h.position]
  unfold Agent.stepProba
  rw [hst, h.alg]
  cases a.probaStart m p with
  | error e => exact ⟨h, rfl⟩
  | ok v =>
    simp only
    by_cases h1 : v.d0 ≠ m.nStates
    · rw [if_pos h1, if_pos h1]; exact ⟨h, rfl⟩
    rw [if_neg h1, if_neg h1]
    by_cases h2 : a.alg.fitComplete = false
    · rw [if_pos h2, if_pos h2]; exact ⟨h, rfl⟩
    rw [if_neg h2, if_neg h2]
    have hgp := h.getPolicy d
    rcases h3 : a.getPolicy d with ⟨b, r⟩
    rcases h4 : a'.getPolicy d with ⟨b', r'⟩
    rw [h3, h4] at hgp
    obtain ⟨g1, g2, g3⟩ := hgp
    simp only at g1 g2 g3
    subst g2
    cases r' with
    | error e => exact ⟨g1, rfl⟩
    | ok u =>
      obtain ⟨-, g3⟩ := g3 rfl
      simp only
      rw [g3]
      have hpl : ∀ P pos l out, probaLoop { m with features := F, originalFeatures := O, featureNames := ns, nNonAgent := q } P pos l out =
          probaLoop m P pos l out := by
        intro P pos l
        induction l with
        | nil => intro out; rfl
        | cons x l ih =>
          intro out
          unfold probaLoop
          have : ∀ s a, ({ m with features := F, originalFeatures := O, featureNames := ns, nNonAgent := q } : Mdp K).getNextState s a =
              m.getNextState s a := fun _ _ => rfl
          rw [this]
          cases m.getNextState x.1 x.2 with
          | error e => rfl
          | ok t => exact ih _
      cases b.piP with
      | none => exact ⟨g1, rfl⟩
      | some Q =>
        simp only
        rw [hpl]
        cases probaLoop m Q (normalise v) ((npWhere m.nStates fun s => Ext.isPos (normalise v s)).flatMap fun s =>
              (List.range Q.d1).map fun x => (s, x)) (fun _ => .fin 0) with
        | error e => exact ⟨g1, rfl⟩
        | ok out => exact ⟨g1, rfl⟩

theorem Akin.fit (h : Akin k P P' a a') (hm : Mdp.Akin m m') (hcol : m.features.d1 = m.nStates)
    (hw : a.reward.d0 = m.features.d0) (n : Nat) (γ tol : K) (d : Nat → δ) :
    Akin k P P' (a.fit m (valueIterationFit m n γ tol) d).1 (a'.fit m' (valueIterationFit m' n γ tol) d).1 ∧
    (a'.fit m' (valueIterationFit m' n γ tol) d).2 = (a.fit m (valueIterationFit m n γ tol) d).2 := by
  have hmv : Spec.FeaturesMoved (fun f => f) m m' := by
    obtain ⟨F, O, ns, q, rfl, h1, h2, h3⟩ := hm
    refine ⟨rfl, hcol, h2.trans hcol, ?_, fun f g _ _ h => h, ?_, ?_⟩
    · intro f hf; change f < F.d0; rw [h1]; exact hf
    · intro f s hf hs; exact h3 f s hf (by rw [hcol]; exact hs)
    · intro g s hg hno _
      exact absurd rfl (hno g (by change g < F.d0 at hg; rw [h1] at hg; exact hg))
  have hN' : m'.nFeatures = m.features.d0 := by obtain ⟨F, O, ns, q, rfl, h1, -⟩ := hm; exact h1
  have key := C137_planning hmv a a.reward hw (by rw [hN']; exact hw) (fun _ _ => rfl) n γ tol d
  have key' : a.fit m' (valueIterationFit m' n γ tol) d = a.fit m (valueIterationFit m n γ tol) d := by
    have e1 : ({ a with reward := a.reward } : Agent K δ) = a := rfl
    rw [e1] at key
    rw [key]
    have := (Agent.fit_same a m (valueIterationFit m n γ tol) d).1.reward
    rw [← this]
  rw [← key']
  generalize valueIterationFit m' n γ tol = o
  unfold Agent.fit
  rw [h.alg, h.reward]
  rcases algFit o m'.nFeatures m'.nStates m'.nActions (.of1 a.reward) a.alg with ⟨st, _ | _⟩
  · exact ⟨by akin h, rfl⟩
  · have h1 : Akin k P P' { a with alg := st } { a' with alg := st, reward := a.reward } := by
      akin h
    exact ⟨(h1.getPolicy d).1, (h1.getPolicy d).2.1⟩

end Agent

namespace Env

variable {e e' : Env K δ} {k : String → Nat → Nat} {P P' : String → List Int} {N : Nat}

/-- The same environment with another past. -/
structure Akin (k : String → Nat → Nat) (P P' : String → List Int) (N : Nat) (e e' : Env K δ) : Prop where
  mdp : Mdp.Akin e.mdp e'.mdp
  names : e'.agentNames = e.agentNames
  len : e'.agents.length = e.agents.length
  steps : e.nSteps = N + e'.nSteps
  agents : ∀ n, (e.agent? n = none ∧ e'.agent? n = none) ∨
    ∃ a a', e.agent? n = some a ∧ e'.agent? n = some a' ∧ Agent.Akin (k n) (P n) (P' n) a a'

/-- Every reward has as many entries as there are features. -/
def RewardsFit (e : Env K δ) : Prop := ∀ a ∈ e.agents, a.reward.d0 = e.mdp.features.d0

theorem RewardsFit.later (h : RewardsFit e) (ho : Ok kind W H selfT e) (ho' : Ok kind W H selfT e') (hl : Later e e') :
    RewardsFit e' := by
  intro a' ha
  obtain ⟨a, h1, -, -, -, -, -, -, h2, -⟩ := hl.back ho ho' ha
  rw [h2, hl.d0]
  exact h a h1

theorem Akin.lookup (h : Akin k P P' N e e') (n : String) :
    (∃ er, e.lookup n = .error er ∧ e'.lookup n = .error er) ∨
    ∃ a a', e.lookup n = .ok a ∧ e'.lookup n = .ok a' ∧ e.agent? n = some a ∧ e'.agent? n = some a' ∧
      Agent.Akin (k n) (P n) (P' n) a a' := by
  unfold Env.lookup
  rw [h.names]
  by_cases hn : n ∈ e.agentNames
  · rw [if_neg (not_not.2 hn), if_neg (not_not.2 hn)]
    rcases h.agents n with ⟨h1, h2⟩ | ⟨a, a', h1, h2, h3⟩
    · rw [h1, h2]; exact .inl ⟨_, rfl, rfl⟩
    · rw [h1, h2]; exact .inr ⟨a, a', rfl, rfl, rfl, rfl, h3⟩
  · rw [if_pos hn, if_pos hn]
    exact .inl ⟨_, rfl, rfl⟩

theorem Akin.put (h : Akin k P P' N e e') (ho : (e.agents.map (·.name)).Nodup) (ho' : (e'.agents.map (·.name)).Nodup)
    {n : String} {a a' b b' : Agent K δ} (ha : e.agent? n = some a) (ha' : e'.agent? n = some a')
    (hb : b.name = n) (hbb : Agent.Akin (k n) (P n) (P' n) b b') (hm : Mdp.Akin m m') :
    Akin k P P' N (e.put m b) (e'.put m' b') := by
  have hb' : b'.name = n := hbb.name.trans hb
  have same : ∀ (e : Env K δ) (m : Mdp K) (a b : Agent K δ), (e.agents.map (·.name)).Nodup → e.agent? n = some a → b.name = n →
      (e.put m b).agent? n = some b := by
    intro e m a b ho ha hb
    obtain ⟨h1, h2⟩ := agent?_mem ha
    exact (agent?_eq (by rw [names_put]; exact ho)).2
      ⟨(mem_put (by rw [hb, ← h2]; exact List.mem_map_of_mem (f := (·.name)) h1)).2 (.inl rfl), hb⟩
  refine ⟨hm, h.names, by simpa [Env.put] using h.len, h.steps, fun n' => ?_⟩
  by_cases hn : n' = n
  · subst hn
    exact .inr ⟨b, b', same e m a b ho ha hb, same e' m' a' b' ho' ha' hb', hbb⟩
  · rw [agent?_put_other m b (by rw [hb]; exact hn), agent?_put_other m' b' (by rw [hb']; exact hn)]
    exact h.agents n'

theorem Akin.bump (h : Akin k P P' N e e') : Akin k P P' N { e with nSteps := e.nSteps + 1 }
    { e' with nSteps := e'.nSteps + 1 } :=
  ⟨h.mdp, h.names, h.len, by have := h.steps; simp only; omega, h.agents⟩

theorem Akin.setMdp (h : Akin k P P' N e e') (hm : Mdp.Akin m m') :
    Akin k P P' N { e with mdp := m } { e' with mdp := m' } :=
  ⟨hm, h.names, h.len, h.steps, h.agents⟩

theorem Akin.fit (h : Akin k P P' N e e') (ho : Ok kind W H selfT e) (ho' : Ok kind W H selfT e') (hr : RewardsFit e)
    (n : String) (i : Nat) (γ tol : K) (d : Nat → δ) :
    Akin k P P' N (e.fit n (valueIterationFit e.mdp i γ tol) d).1 (e'.fit n (valueIterationFit e'.mdp i γ tol) d).1 ∧
    (e'.fit n (valueIterationFit e'.mdp i γ tol) d).2 = (e.fit n (valueIterationFit e.mdp i γ tol) d).2 := by
  have hcol : e.mdp.features.d1 = e.mdp.nStates := by rw [ho.reach.ok.featStates, ho.reach.ok.nStates]
  unfold Env.fit
  rcases h.lookup n with ⟨er, h1, h2⟩ | ⟨a, a', h1, h2, h3, h4, ha⟩
  · rw [h1, h2]; exact ⟨h, rfl⟩
  · rw [h1, h2]
    simp only
    have hn := agent?_mem h3
    have hf := ha.fit h.mdp hcol (hr a hn.1) i γ tol d
    have hsame := Agent.fit_same a e.mdp (valueIterationFit e.mdp i γ tol) d
    exact ⟨h.put ho.nodup ho'.nodup h3 h4 (hsame.1.name.trans hn.2) hf.1 h.mdp, hf.2⟩

theorem Akin.step (h : Akin k P P' N e e') (ho : Ok kind W H selfT e) (ho' : Ok kind W H selfT e') (n : String)
    (d : Nat → δ) : Akin k P P' N (e.step n d).1 (e'.step n d).1 ∧ (e'.step n d).2 = (e.step n d).2 := by
  unfold Env.step
  rcases h.lookup n with ⟨er, h1, h2⟩ | ⟨a, a', h1, h2, h3, h4, ha⟩
  · rw [h1, h2]; exact ⟨h, rfl⟩
  · rw [h1, h2]
    simp only
    have hn := (agent?_mem h3).2
    have hst := ha.step h.mdp d
    have hsn := step_name a e.mdp d
    rcases hx : a.step e.mdp d with ⟨x, b, r⟩
    rcases hy : a'.step e'.mdp d with ⟨x', b', r'⟩
    rw [hx, hy] at hst
    rw [hx] at hsn
    obtain ⟨s1, s2, s3⟩ := hst
    simp only at s1 s2 s3 hsn
    subst s3
    cases r' with
    | error er => exact ⟨h.put ho.nodup ho'.nodup h3 h4 (hsn.trans hn) s2 s1, rfl⟩
    | ok u =>
      simp only
      have hc := s2.consume s1
      have hcn := consume_name b x
      rcases hx2 : b.consume x with ⟨y, c, q⟩
      rcases hy2 : b'.consume x' with ⟨y', c', q'⟩
      rw [hx2, hy2] at hc
      rw [hx2] at hcn
      obtain ⟨c1, c2, c3⟩ := hc
      simp only at c1 c2 c3 hcn
      subst c3
      have hp := h.put ho.nodup ho'.nodup h3 h4 (hcn.trans (hsn.trans hn)) c2 c1
      cases q' with
      | error er => exact ⟨hp, rfl⟩
      | ok u => exact ⟨hp.bump, by simp only [c2.position]⟩

theorem Akin.stepProba (h : Akin k P P' N e e') (ho : Ok kind W H selfT e) (ho' : Ok kind W H selfT e') (n : String)
    (p : Option (Arr1 K)) (d : Nat → δ) :
    Akin k P P' N (e.stepProba n p d).1 (e'.stepProba n p d).1 ∧ (e'.stepProba n p d).2 = (e.stepProba n p d).2 := by
  unfold Env.stepProba
  rcases h.lookup n with ⟨er, h1, h2⟩ | ⟨a, a', h1, h2, h3, h4, ha⟩
  · rw [h1, h2]; exact ⟨h, rfl⟩
  · rw [h1, h2]
    simp only
    have hn := (agent?_mem h3).2
    have hst := ha.stepProba h.mdp p d
    have hsn := (Agent.stepProba_same a e.mdp p d).1.name
    rcases hx : a.stepProba e.mdp p d with ⟨b, r⟩
    rcases hy : a'.stepProba e'.mdp p d with ⟨b', r'⟩
    rw [hx, hy] at hst
    rw [hx] at hsn
    obtain ⟨s1, s2⟩ := hst
    simp only at s1 s2 hsn
    subst s2
    have hp := h.put ho.nodup ho'.nodup h3 h4 (hsn.trans hn) s1 h.mdp
    cases r' with
    | error er => exact ⟨hp, rfl⟩
    | ok u => exact ⟨hp.bump, rfl⟩

theorem Akin.setAgentPosition (h : Akin k P P' N e e') (ho : Ok kind W H selfT e) (ho' : Ok kind W H selfT e')
    (n : String) (p : Int) :
    Akin k P P' N (e.setAgentPosition n p).1 (e'.setAgentPosition n p).1 ∧
    (e'.setAgentPosition n p).2 = (e.setAgentPosition n p).2 := by
  unfold Env.setAgentPosition
  rcases h.lookup n with ⟨er, h1, h2⟩ | ⟨a, a', h1, h2, h3, h4, ha⟩
  · rw [h1, h2]; exact ⟨h, rfl⟩
  · rw [h1, h2]
    simp only
    have hn := (agent?_mem h3).2
    have hst := ha.setPosition h.mdp p
    exact ⟨h.put ho.nodup ho'.nodup h3 h4 ((setPosition_name a e.mdp p).trans hn) hst.2.1 hst.1, hst.2.2⟩

theorem Akin.caught (h : Akin k P P' N e e') (ho : (e.agents.map (·.name)).Nodup) (ho' : (e'.agents.map (·.name)).Nodup)
    {n : String} {a a' : Agent K δ} (ha : Agent.Akin (k n) (P n) (P' n) a a') : e'.caught a' = e.caught a := by
  rw [Bool.eq_iff_iff]
  unfold Env.caught
  rw [ha.consumes, ha.position]
  simp only [List.any_eq_true, Bool.and_eq_true, decide_eq_true_eq]
  constructor
  · rintro ⟨f, hf, b', hb', hb1, hb2⟩
    have hq := (agent?_eq ho').2 ⟨hb', rfl⟩
    rcases h.agents b'.name with ⟨-, h4⟩ | ⟨b, b1, h3, h4, hs⟩
    · rw [h4] at hq; cases hq
    · rw [h4] at hq
      cases hq
      exact ⟨f, hf, b, (agent?_mem h3).1, by rw [← hs.featIdx]; exact hb1, by rw [← hs.position]; exact hb2⟩
  · rintro ⟨f, hf, b, hb, hb1, hb2⟩
    have hq := (agent?_eq ho).2 ⟨hb, rfl⟩
    rcases h.agents b.name with ⟨h3, -⟩ | ⟨b1, b', h3, h4, hs⟩
    · rw [h3] at hq; cases hq
    · rw [h3] at hq
      cases hq
      exact ⟨f, hf, b', (agent?_mem h4).1, by rw [hs.featIdx]; exact hb1, by rw [hs.position]; exact hb2⟩

theorem Akin.stepLoop (n : String) (A B : List Nat) (t : Nat) (stop : Bool)
    (orc orc' : Nat → StepOracle K δ) (horc : ∀ i, (orc' i).draws = (orc i).draws) :
    ∀ (j i : Nat) (e e' : Env K δ) (acc : List Int), Akin k P P' N e e' → Ok kind W H selfT e → Ok kind W H selfT e' →
    Akin k P P' N (stepLoop n A B t false stop orc j i e acc).1 (stepLoop n A B t false stop orc' j i e' acc).1 ∧
    (stepLoop n A B t false stop orc' j i e' acc).2 = (stepLoop n A B t false stop orc j i e acc).2 := by
  intro j
  induction j with
  | zero => intro i e e' acc h _ _; exact ⟨h, rfl⟩
  | succ j ih =>
    intro i e e' acc h ho ho'
    unfold Env.stepLoop refitFor
    simp only [Bool.false_eq_true, if_false]
    rw [horc i]
    have hst := h.step ho ho' n (orc i).draws
    have o1 := ho.step n (orc i).draws
    have o2 := ho'.step n (orc i).draws
    rcases hx : e.step n (orc i).draws with ⟨x, r⟩
    rcases hy : e'.step n (orc i).draws with ⟨x', r'⟩
    rw [hx, hy] at hst
    rw [hx] at o1
    rw [hy] at o2
    obtain ⟨s1, s2⟩ := hst
    simp only at s1 s2 o1 o2
    subst s2
    cases r' with
    | error er => exact ⟨s1, rfl⟩
    | ok u =>
      simp only
      rcases s1.lookup n with ⟨er, h1, h2⟩ | ⟨a, a', h1, h2, h3, h4, ha⟩
      · rw [h1, h2]; exact ⟨s1, rfl⟩
      · rw [h1, h2]
        simp only
        rw [s1.caught o1.nodup o2.nodup ha, ha.position]
        by_cases hc : (x.caught a && stop) = true
        · rw [if_pos hc, if_pos hc]; exact ⟨s1, rfl⟩
        · rw [if_neg hc, if_neg hc]; exact ih _ _ _ _ s1 o1 o2

theorem Akin.allSteps (h : Akin k P P' N e e') (n : String) : e'.allSteps n = e.allSteps n := by
  unfold Env.allSteps
  rw [h.names]
  congr 1
  funext y
  rcases h.agents y with ⟨h1, h2⟩ | ⟨a, a', h1, h2, ha⟩
  · rw [h1, h2]
  · rw [h1, h2]; simp only [ha.nMoves]

theorem Akin.stepMulti (h : Akin k P P' N e e') (ho : Ok kind W H selfT e)
    (ho' : Ok kind W H selfT e') (n : String) (s : StepsArg) (p : Option (List Nat)) (t : Nat) (stop : Bool)
    (orc orc' : Nat → StepOracle K δ) (horc : ∀ i, (orc' i).draws = (orc i).draws) :
    Akin k P P' N (e.stepMulti n s p t false stop orc).1 (e'.stepMulti n s p t false stop orc').1 ∧
    (e'.stepMulti n s p t false stop orc').2 = (e.stepMulti n s p t false stop orc).2 := by
  unfold Env.stepMulti
  rcases h.lookup n with ⟨er, h1, h2⟩ | ⟨a, a', h1, h2, h3, h4, ha⟩
  · rw [h1, h2]; exact ⟨h, rfl⟩
  rw [h1, h2, h.allSteps n]
  simp only [ha.nMoves, h.len]
  cases e.allSteps n with
  | error er => exact ⟨h, rfl⟩
  | ok L =>
    simp only
    by_cases hl : (p.getD L).length ≠ e.agents.length
    · rw [if_pos hl, if_pos hl]; exact ⟨h, rfl⟩
    rw [if_neg hl, if_neg hl]
    cases s.count a.nMoves with
    | error er => exact ⟨h, rfl⟩
    | ok j =>
      simp only
      by_cases hl2 : ¬ ∀ x ∈ p.getD L, 0 < x
      · rw [if_pos hl2, if_pos hl2]; exact ⟨h, rfl⟩
      rw [if_neg hl2, if_neg hl2]
      exact Akin.stepLoop n _ _ t stop orc orc' horc j 0 e e' [] h ho ho'

theorem Akin.call (h : Akin k P P' N e e') (ho : Ok kind W H selfT e) (ho' : Ok kind W H selfT e') (hr : RewardsFit e)
    (op : Spec.PlayOp K δ) (hop : Spec.GoesOn op) :
    Akin k P P' N (e.apply (op.call e)) (e'.apply (op.call e')) ∧
    Spec.answer e' (op.call e') = Spec.answer e (op.call e) := by
  cases op with
  | plan n i γ tol d =>
    have := h.fit ho ho' hr n i γ tol d
    exact ⟨this.1, congrArg Spec.EnvAnswer.done this.2⟩
  | step n d =>
    have := h.step ho ho' n d
    exact ⟨this.1, congrArg Spec.EnvAnswer.moved this.2⟩
  | ask n p d =>
    have := h.stepProba ho ho' n p d
    exact ⟨this.1, congrArg Spec.EnvAnswer.spread this.2⟩
  | put n p =>
    have := h.setAgentPosition ho ho' n p
    exact ⟨this.1, congrArg Spec.EnvAnswer.done this.2⟩
  | walk n s p stop d =>
    have := h.stepMulti ho ho' n s p 1 stop (fun i => ⟨fun _ => valueIterationFit e.mdp 0 0 0, d i, d i⟩)
      (fun i => ⟨fun _ => valueIterationFit e'.mdp 0 0 0, d i, d i⟩) (fun _ => rfl)
    exact ⟨this.1, congrArg Spec.EnvAnswer.walked this.2⟩
  | again => exact absurd hop id
  | walls w =>
    have := h.mdp.setWalls w
    exact ⟨h.setMdp this.1, congrArg Spec.EnvAnswer.done this.2⟩
  | wallsAt x y =>
    have := h.mdp.addWallXY x y
    exact ⟨h.setMdp this.1, congrArg Spec.EnvAnswer.done this.2⟩
  | noWalls =>
    have := h.mdp.resetWalls
    exact ⟨h.setMdp this.1, congrArg Spec.EnvAnswer.done this.2⟩

theorem Akin.play : ∀ (l : List (Spec.PlayOp K δ)) (e e' : Env K δ), (∀ op ∈ l, Spec.GoesOn op) →
    Akin k P P' N e e' → Ok kind W H selfT e → Ok kind W H selfT e' → RewardsFit e →
    Akin k P P' N (Spec.play e l) (Spec.play e' l) ∧ Ok kind W H selfT (Spec.play e l) ∧
    Ok kind W H selfT (Spec.play e' l) ∧ RewardsFit (Spec.play e l) := by
  intro l
  induction l with
  | nil => intro e e' _ h ho ho' hr; exact ⟨h, ho, ho', hr⟩
  | cons op l ih =>
    intro e e' hl h ho ho' hr
    exact ih _ _ (fun o hm => hl o (List.mem_cons_of_mem _ hm)) (h.call ho ho' hr op (hl op List.mem_cons_self)).1
      (ho.run [op.call e]) (ho'.run [op.call e'])
      (hr.later ho (ho.run [op.call e]) (later_run [op.call e] ho))

theorem setPosition_nonAgent (a : Agent K δ) (m : Mdp K) (p : Int) : (a.setPosition m p).1.nNonAgent = m.nNonAgent := by
  unfold Agent.setPosition
  split_ifs
  · rfl
  · have : (m.updateAgentFeature a.idx p).1.nNonAgent = m.nNonAgent := by
      unfold Mdp.updateAgentFeature
      split
      · rfl
      · simp only; split <;> rfl
    split <;> rename_i heq <;> rw [heq] at this <;> exact this

theorem step_nonAgent (a : Agent K δ) (m : Mdp K) (d : Nat → δ) : (a.step m d).1.nNonAgent = m.nNonAgent := by
  have hu : ∀ (m : Mdp K) (i : Nat) (p : Int), (m.updateAgentFeature i p).1.nNonAgent = m.nNonAgent := by
    intro m i p
    unfold Mdp.updateAgentFeature
    split
    · rfl
    · simp only; split <;> rfl
  unfold Agent.step
  split_ifs
  · rfl
  split
  · rfl
  split
  · rfl
  split
  · rfl
  split_ifs
  · rfl
  split
  · rfl
  rename_i b _ _ _ _ _ _ _ _ _ t _
  have h1 := setPosition_nonAgent b m t
  split
  · rename_i heq; rw [heq] at h1; exact h1
  · rename_i x b1 heq
    rw [heq] at h1
    have h2 := hu x b1.idx b1.position
    simp only
    split <;> rename_i heq2 <;> rw [heq2] at h2 <;> exact h2.trans h1

theorem consume_nonAgent (a : Agent K δ) (m : Mdp K) : (a.consume m).1.nNonAgent = m.nNonAgent := by
  unfold Agent.consume Mdp.consumeFeatures
  split_ifs
  · rfl
  · obtain ⟨x, hx⟩ := Mdp.consumeLoop_frame a.position a.consumes m fun _ => 0
    split <;> rename_i heq <;> rw [heq] at hx <;> simp only at hx <;> rw [hx]

/-- The count of own features taken when the MDP was built never changes. -/
theorem nonAgent_run (ops : List (EnvOp K δ)) (h : Ok kind W H selfT e) :
    (e.run ops).mdp.nNonAgent = e.mdp.nNonAgent := by
  refine (run_induct (fun e' => Ok kind W H selfT e' ∧ e'.mdp.nNonAgent = e.mdp.nNonAgent)
    ?_ ?_ ?_ ?_ ?_ ?_ ?_ ?_ ?_ ops e ⟨h, rfl⟩).2
  · rintro e' n o d ⟨h1, h2⟩
    refine ⟨h1.fit n o d, ?_⟩
    unfold fit
    split <;> exact h2
  · rintro e' n d ⟨h1, h2⟩
    refine ⟨h1.step n d, ?_⟩
    unfold step
    split
    · exact h2
    · rename_i a _
      have h3 := step_nonAgent a e'.mdp d
      split
      · rename_i heq; rw [heq] at h3; exact h3.trans h2
      · rename_i x b heq
        rw [heq] at h3
        have h4 := consume_nonAgent b x
        split <;> rename_i heq2 <;> rw [heq2] at h4 <;> exact h4.trans (h3.trans h2)
  · rintro e' n p d ⟨h1, h2⟩
    refine ⟨h1.stepProba n p d, ?_⟩
    unfold stepProba
    split
    · exact h2
    · split <;> exact h2
  · rintro e' ⟨h1, h2⟩
    rw [(reset_eq h1).1]
    exact ⟨(reset_eq h1).2, h2⟩
  · rintro e' n p ⟨h1, h2⟩
    refine ⟨h1.setAgentPosition n p, ?_⟩
    unfold setAgentPosition
    split
    · exact h2
    · exact (setPosition_nonAgent _ _ _).trans h2
  · rintro e' w ⟨h1, h2⟩
    exact ⟨h1.setWalls w, Eq.trans (Mdp.setWalls_feat h1.reach.ok w).2.2.2.1 h2⟩
  · rintro e' x y ⟨h1, h2⟩
    exact ⟨h1.addWallXY x y, Eq.trans (Mdp.addWallXY_feat h1.reach.ok x y).2.2.2.1 h2⟩
  · rintro e' ⟨h1, h2⟩
    exact ⟨h1.resetWalls, Eq.trans (Mdp.resetWalls_feat h1.reach.ok).2.2.2.1 h2⟩
  · rintro e' n st ⟨h1, h2⟩
    refine ⟨h1.setAlgorithm n st, ?_⟩
    unfold setAlgorithm
    split <;> exact h2

/-- What the agents of `e` have eaten so far. -/
def eatenSoFar (e : Env K δ) (n : String) (f : Nat) : Nat := ((e.agent? n).map fun a => a.consumed f).getD 0

/-- Where the agents of `e` have been so far. -/
def seenSoFar (e : Env K δ) (n : String) : List Int := ((e.agent? n).map fun a => a.history).getD []

/-- Where the agents of `e` stand, as a history. -/
def standing (e : Env K δ) (n : String) : List Int := ((e.agent? n).map fun a => [a.position]).getD []

theorem init_akin {m m' m2 : Mdp K} {specs : List (AgentSpec K δ)} {e0 : Env K δ}
    (hm : Mdp.GridReach kind W H selfT m) (hinit : init m specs = (m', .ok e0)) (hnd : (specs.map (·.name)).Nodup)
    (ops : List (EnvOp K δ)) (hs : Spec.AllInSight (e0.run ops)) (hm2 : Mdp.GridReach kind W H selfT m2)
    (hd : m2.features.d0 - m2.nAgents = (Spec.featuresNow (e0.run ops)).d0) (hq : m2.nNonAgent = m.nNonAgent)
    (hw : m2.walls = (e0.run ops).mdp.walls)
    (hf : ∀ f s, f < (Spec.featuresNow (e0.run ops)).d0 → s < (Spec.featuresNow (e0.run ops)).d1 →
      m2.features.get f s = (Spec.featuresNow (e0.run ops)).get f s) :
    ∃ m2' e2, init m2 ((e0.run ops).agents.map Spec.agentNow) = (m2', .ok e2) ∧ Ok kind W H selfT (e0.run ops) ∧
      Ok kind W H selfT e2 ∧ RewardsFit (e0.run ops) ∧
      Akin (eatenSoFar (e0.run ops)) (seenSoFar (e0.run ops)) (standing (e0.run ops)) (e0.run ops).nSteps (e0.run ops) e2 := by
  obtain ⟨-, x2, x3, x4, -, -, x7, x8, x9, -, -, -, -, -, x15, -⟩ := init_facts hm hinit
  obtain ⟨l1, x15⟩ := x15 hnd
  obtain ⟨sv, hlen⟩ := savable hm hinit hnd ops
  obtain ⟨ho, hl⟩ := started hm hinit ops
  have hnames : (e0.run ops).agents.map (·.name) = e0.agents.map (·.name) := names_run ops x2
  have hfeat : ∀ a ∈ (e0.run ops).agents, a.featIdx = a.idx + m.nNonAgent := by
    intro a ha
    obtain ⟨b, hb, -, h2, -, -, h5, -⟩ := hl.back x2 ho ha
    obtain ⟨i, hi⟩ := List.mem_iff_getElem?.1 hb
    obtain ⟨sp, p, r, -, -, -, h6⟩ := x15 i b hi
    rw [h5, h2, h6]
    rfl
  have hnames0 : e0.agents.map (·.name) = specs.map (·.name) := by
    refine List.ext_getElem? fun i => ?_
    rw [List.getElem?_map, List.getElem?_map]
    rcases hi : e0.agents[i]? with _ | a
    · have h1 : e0.agents.length ≤ i := List.getElem?_eq_none_iff.1 hi
      rw [List.getElem?_eq_none (by omega)]; rfl
    · obtain ⟨sp, p, r, h1, -, -, h4⟩ := x15 i a hi
      rw [h1, h4]; rfl
  have hagn : (e0.run ops).agentNames = (e0.run ops).agents.map (·.name) := by rw [hl.names, x4, hnames, hnames0]
  have hna : (e0.run ops).mdp.nAgents = (e0.run ops).agents.length := by rw [hl.nAgents, x8, hlen]
  have hst : (e0.run ops).mdp.nStates = W * H := ho.reach.ok.nStates
  have hcol : (e0.run ops).mdp.features.d1 = W * H := ho.reach.ok.featStates
  obtain ⟨-, s2, s3, s4, s5⟩ := sv
  have hqn : (e0.run ops).mdp.nNonAgent = m.nNonAgent := by
    rw [nonAgent_run ops x2]
    exact (init_facts hm hinit).2.2.2.2.2.2.2.2.2.1
  have hown : (Spec.featuresNow (e0.run ops)).d0 = m.features.d0 - m.nAgents := by
    change (e0.run ops).mdp.features.d0 - (e0.run ops).mdp.nAgents = _
    rw [s2, hna]; omega
  generalize e0.run ops = e at *
  have hv : ∀ sp ∈ e.agents.map Spec.agentNow,
      Spec.ValidAgent m2.nStates (m2.features.d0 - m2.nAgents) (e.agents.map Spec.agentNow).length sp := by
    intro sp hsp
    obtain ⟨a, ha, rfl⟩ := List.mem_map.1 hsp
    rw [hd, hown, List.length_map, hm2.ok.nStates]
    obtain ⟨j, hj, -⟩ := ho.pos a ha
    rw [hst] at hj
    refine ⟨?_, ⟨a.position, rfl, ?_⟩, s5 a ha⟩
    · rw [← s4 a ha]
      exact ⟨_, rfl⟩
    · have h1 : ¬ pyIdx (W * H) a.position = none := by rw [hj]; simp
      rw [pyIdx_eq_none] at h1
      push Not at h1
      omega
  obtain ⟨e2, he2⟩ := (init_valid hm2 _).2 hv
  rcases hi2 : init m2 (e.agents.map Spec.agentNow) with ⟨m2', z⟩
  rw [hi2] at he2
  simp only at he2
  subst he2
  obtain ⟨-, y2, -, y4, y5, -, y7, y8, y9, y10, y11, y12, y13, y14, y15, -⟩ := init_facts hm2 hi2
  have hnd2 : ((e.agents.map Spec.agentNow).map (·.name)).Nodup := by
    rw [List.map_map]; exact ho.nodup
  obtain ⟨l2, y15⟩ := y15 hnd2
  rw [List.length_map] at l2 y7 y8
  have key : ∀ n a, e.agent? n = some a → ∃ a', e2.agent? n = some a' ∧
      a' = newAgent a.idx (a.idx + m2.nNonAgent) (Spec.agentNow a) a.position a.reward := by
    intro n a hq
    obtain ⟨ha, hn⟩ := agent?_mem hq
    obtain ⟨i, hi⟩ := List.mem_iff_getElem?.1 ha
    have hlt : i < e2.agents.length := by rw [l2]; exact (List.getElem?_eq_some_iff.1 hi).1
    obtain ⟨sp, p, r, z1, z2, z3, z4⟩ := y15 i _ (List.getElem?_eq_getElem hlt)
    rw [List.getElem?_map, hi] at z1
    cases z1
    cases z2
    have hr : (⟨m2.features.d0 - m2.nAgents + (e.agents.map Spec.agentNow).length, fun x => r [x]⟩ : Arr1 K) = a.reward := by
      have z5 : PyArr.of1 a.reward = .nd [m2.features.d0 - m2.nAgents + (e.agents.map Spec.agentNow).length] r := z3
      unfold PyArr.of1 at z5
      injection z5 with z6 z7
      injection z6 with z6 _
      rw [← z6, ← z7]
      rfl
    rw [hr] at z4
    refine ⟨_, (agent?_eq y2.nodup).2 ⟨List.getElem_mem hlt, ?_⟩, ?_⟩
    · rw [z4, ← hn]; rfl
    · rw [z4, s3 i a hi]
  refine ⟨m2', e2, rfl, ho, y2, fun a ha => by rw [s4 a ha, s2], ?_, ?_, ?_, ?_, ?_⟩
  · obtain ⟨g, hg⟩ := ho.reach.fromGrid
    obtain ⟨g2, hg2⟩ := y2.reach.fromGrid
    have hgg : g2 = g := by
      have := hg2.grid
      rw [hg.grid] at this
      cases this
      rfl
    subst hgg
    have hwalls : e2.mdp.walls = e.mdp.walls := y12.trans hw
    have hnag : e2.mdp.nAgents = e.mdp.nAgents := by rw [y8, hna]
    have hd0 : e2.mdp.features.d0 = e.mdp.features.d0 := by rw [y7, hd, hown, s2]
    have hd1 : e2.mdp.features.d1 = e.mdp.features.d1 := by rw [y2.reach.ok.featStates, hcol]
    refine ⟨e2.mdp.features, e2.mdp.originalFeatures, e2.mdp.featureNames, e2.mdp.nNonAgent, ?_, hd0, hd1, ?_⟩
    · have a1 := hg2.shape.trans hg.shape.symm
      have a2 := hg2.selfT.trans hg.selfT.symm
      have a3 := hg2.orig.trans hg.orig.symm
      have a4 := hg2.nStates.trans hg.nStates.symm
      have a5 := hg2.nActions.trans hg.nActions.symm
      have a6 : e2.mdp.sas = e.mdp.sas := by rw [hg2.sas, hg.sas, hwalls]
      have a7 := hg2.det.trans hg.det.symm
      have a8 := hg2.adj.trans hg.adj.symm
      generalize e2.mdp = M2 at *
      generalize e.mdp = M at *
      obtain ⟨x1, x2, x3, x4, x5, x6, x7, x8, x9, x10, x11, x12, x13, x14⟩ := M2
      obtain ⟨u1, u2, u3, u4, u5, u6, u7, u8, u9, u10, u11, u12, u13, u14⟩ := M
      simp only at a1 a2 a3 a4 a5 a6 a7 a8 hwalls hnag
      subst a1 a2 a3 a4 a5 a6 a7 a8 hwalls hnag
      rfl
    · intro f s hfd hsd
      by_cases h1 : f < (Spec.featuresNow e).d0
      · rw [y13 f s (by rw [hd]; exact h1), hf f s h1 hsd]
        rfl
      · obtain ⟨i, rfl⟩ : ∃ i, f = m.features.d0 - m.nAgents + i := ⟨f - (m.features.d0 - m.nAgents), by omega⟩
        have hi : i < e.agents.length := by rw [s2] at hfd; omega
        have hget := List.getElem?_eq_getElem hi
        obtain ⟨p, z1, z2⟩ := y14 i (Spec.agentNow e.agents[i]) (by rw [List.getElem?_map, hget]; rfl)
        cases z1
        have hmem := List.getElem_mem hi
        obtain ⟨j, hj, hr1, -⟩ := ho.pos _ hmem
        have hjj := stateOf_eq hj
        have hone := hs _ hmem
        have hidx := s3 i _ hget
        have hrow : e.mdp.features.d0 - e.mdp.nAgents = m.features.d0 - m.nAgents := hown
        rw [hrow, hidx] at hone
        have har : e.mdp.agentRow e.agents[i].idx = m.features.d0 - m.nAgents + i := by
          unfold Mdp.agentRow
          rw [hidx]
          omega
        rw [har] at hr1
        rw [hd, hown] at z2
        rw [z2 s, hm2.ok.nStates, ← hst, ← hjj]
        by_cases hsj : s = j
        · rw [if_pos hsj, hsj, hjj]; exact hone.symm
        · rw [if_neg hsj, hr1 s (by rw [hst, ← hcol]; exact hsd) hsj]
  · rw [y4, List.map_map, hagn]; rfl
  · exact l2
  · rw [y5]; rfl
  · intro n
    rcases hq1 : e.agent? n with _ | a
    · refine .inl ⟨rfl, ?_⟩
      rcases hq' : e2.agent? n with _ | a'
      · rfl
      · exfalso
        obtain ⟨ha, hna'⟩ := agent?_mem hq'
        have h1 : n ∈ e2.agentNames := (y2.names n).2 (List.mem_map.2 ⟨a', ha, hna'⟩)
        rw [y4, List.map_map] at h1
        obtain ⟨b, hb, hbn⟩ := List.mem_map.1 h1
        rw [(agent?_eq ho.nodup).2 ⟨hb, hbn⟩] at hq1
        cases hq1
    · obtain ⟨a', h1, h2⟩ := key n a hq1
      refine .inr ⟨a, a', rfl, h1, ?_⟩
      subst h2
      refine ⟨rfl, rfl, rfl, rfl, rfl, rfl, ?_, rfl, rfl, fun f => ?_, [], ?_, ?_⟩
      · rw [hfeat a (agent?_mem hq1).1, ← hq]; rfl
      · unfold eatenSoFar; rw [hq1]; rfl
      · unfold seenSoFar; rw [hq1]; simp
      · unfold standing; rw [hq1]; simp [newAgent]

end Env

end MaMDP
