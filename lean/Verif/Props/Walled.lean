import Verif.Lemmas.Walled
import Verif.Lemmas.WalledGrid
import Verif.Props.Exploring
import Verif.Props.Algorithm

/-! # A map walled off inside a bigger one plays as on its own (C165) -/

set_option linter.unusedSectionVars false

namespace MaMDP

variable {K : Type} [Field K] [LinearOrder K] [IsStrictOrderedRing K]

/-- **C165**: adding states that can be neither entered nor left changes nothing for the others: value iteration fails
alike or stops with exactly the same values and action values; the added states are worth 0 and have no action. -/
theorem C165_values (M M' : Trans K) (σ : Nat → Nat) (h : Spec.Embedded M M' σ) (hA : 0 < M.nA)
    (r r' : Nat → K) (hr : ∀ t, t < M.nS → r' (σ t) = r t) (maxIter : Nat) (γ tol : K) :
    (∃ er, solveHard M r maxIter γ tol = .error er ∧ solveHard M' r' maxIter γ tol = .error er) ∨
    ∃ v q v' q', solveHard M r maxIter γ tol = .ok (v, q) ∧ solveHard M' r' maxIter γ tol = .ok (v', q') ∧
      (∀ s, s < M.nS → v' (σ s) = v s ∧ ∀ a, a < M.nA → q' (σ s) a = q s a) ∧
      (∀ s, s < M'.nS → ¬ Spec.Among M.nS σ s → v' s = 0 ∧ ∀ a, a < M.nA → q' s a = .ninf) := by
  have hA' : M'.nA ≠ 0 := by rw [h.nA]; omega
  unfold solveHard
  rw [if_neg (fun h => absurd h.2.1 (by omega)), if_neg (fun h => hA' h.2.1)]
  unfold solveVI
  by_cases hg : ¬ (γ < 1 ∧ 0 < γ)
  · rw [if_pos hg, if_pos hg]
    exact .inl ⟨_, rfl, rfl⟩
  rw [if_neg hg, if_neg hg]
  obtain ⟨h1, h2, h3⟩ := h.viLoop_in hA hr γ tol maxIter (fun _ => 0) (fun _ => 0) none none (fun _ _ => rfl)
    (fun _ _ _ => rfl) (.inl ⟨rfl, rfl⟩)
  rcases e1 : viLoop (hardBackup M.nA) M r γ tol maxIter (fun _ => 0) none with ⟨v, q⟩
  rcases e2 : viLoop (hardBackup M'.nA) M' r' γ tol maxIter (fun _ => 0) none with ⟨v', q'⟩
  rw [e1, e2] at h1 h3
  rw [e2] at h2
  simp only at h1 h2 h3
  rcases h3 with ⟨rfl, rfl⟩ | ⟨x, x', rfl, rfl, hx⟩
  · exact .inl ⟨_, rfl, rfl⟩
  · refine .inr ⟨_, _, _, _, rfl, rfl, fun s hs => ⟨h1 s hs, fun a ha => ?_⟩, fun s hs hn => ⟨h2 s hs hn, fun a ha => ?_⟩⟩
    · simp only [maskQ, h.npSum_in hs ha, hx s a hs ha]
    · simp only [maskQ, h.npSum_out hs hn ha, if_true]

variable {kind : GridKind} {W H W' H' dx dy : Nat} {selfT : Bool}

/-- **C165**: a grid in a bigger one of the same kind, at any offset (on hexagonal grids an even one in the first
coordinate), all other cells being walls, is such a world. -/
theorem C165_grid {m m' : Mdp K} (hm : Mdp.GridReach kind W H selfT m) (hm' : Mdp.GridReach kind W' H' selfT m')
    (hW : dx + W ≤ W') (hH : dy + H ≤ H') (heven : kind = .hex → dx % 2 = 0)
    (hwalls : ∀ s, s < W * H → m'.walls.get (Spec.placed H H' dx dy s) = m.walls.get s)
    (hout : ∀ t, t < W' * H' → ¬ Spec.Among (W * H) (Spec.placed H H' dx dy) t → m'.walls.get t = 1) :
    Spec.Embedded m.trans m'.trans (Spec.placed H H' dx dy) :=
  embedded_grid hm hm' hW hH heven hwalls hout

theorem worldIn_grid {m m' : Mdp K} (hm : Mdp.GridReach kind W H selfT m) {σ : Nat → Nat}
    (h : Spec.Embedded m.trans m'.trans σ) : WorldIn m.trans m'.trans σ := by
  obtain ⟨h1, h2, h3, h4⟩ := C27_grid kind W H selfT m hm
  refine ⟨h, h4, h3, h1, fun s a t hs ha ht hp => ?_⟩
  obtain ⟨-, y, hy, hq⟩ := mem_nextStates.1 (grid_back hm hs (mem_nextStates.2 ⟨ht, a, ha, hp.ne'⟩))
  exact ⟨y, hy, s, hs, lt_of_le_of_ne (h1.nonneg t y s ht hy hs) (Ne.symm hq)⟩

theorem mdpIn_grid {m m' : Mdp K} {f f' : Arr2 K} {w w' : Option (Arr1 K)} (hm : Mdp.initGrid kind W H selfT f w = .ok m)
    (hm' : Mdp.initGrid kind W' H' selfT f' w' = .ok m') {σ : Nat → Nat} (hfd : f'.d0 = f.d0)
    (hf : ∀ i s, i < f.d0 → s < W * H → f'.get i (σ s) = f.get i s) :
    MdpIn m.trans m'.trans σ m m' ∧ m.nAgents = 0 ∧ m.trans.nS = W * H ∧ m'.trans.nS = W' * H' := by
  obtain ⟨p1, p2, p3⟩ := Mdp.initGrid_inv hm
  obtain ⟨m1, e1, ok, f1, o1, n1, k1, -⟩ := Mdp.initGrid_ok (kind := kind) (selfT := selfT) p1 p2 p3
  rw [hm] at e1
  cases e1
  obtain ⟨p1', p2', p3'⟩ := Mdp.initGrid_inv hm'
  obtain ⟨m1', e1', ok', f1', o1', n1', k1', -⟩ := Mdp.initGrid_ok (kind := kind) (selfT := selfT) p1' p2' p3'
  rw [hm'] at e1'
  cases e1'
  have hS : m.trans.nS = W * H := ok.nStates
  have hS' : m'.trans.nS = W' * H' := ok'.nStates
  have hF : FeatIn m.trans.nS m'.trans.nS σ f f' := ⟨hfd, p2.trans hS.symm, p2'.trans hS'.symm, fun i s hi hs => hf i s hi (by
    rw [← hS]; exact hs)⟩
  exact ⟨⟨rfl, rfl, ok.det, ok'.det, by rw [f1, f1']; exact hF, by rw [o1, o1']; exact hF, n1'.trans n1.symm,
    by rw [k1, k1', hfd]⟩, n1, hS, hS'⟩

/-- What C165 says of a game, for selectors that look at each state separately. -/
theorem game_walled {δ : Type} {m m' : Mdp K} {f f' : Arr2 K} {w w' : Option (Arr1 K)}
    (hm : Mdp.initGrid kind W H selfT f w = .ok m)
    (hm' : Mdp.initGrid kind W' H' selfT f' w' = .ok m') (hW : dx + W ≤ W') (hH : dy + H ≤ H')
    (heven : kind = .hex → dx % 2 = 0)
    (hwalls : ∀ s, s < W * H → m'.walls.get (Spec.placed H H' dx dy s) = m.walls.get s)
    (hout : ∀ t, t < W' * H' → ¬ Spec.Among (W * H) (Spec.placed H H' dx dy) t → m'.walls.get t = 1)
    (hfd : f'.d0 = f.d0) (hf : ∀ i s, i < f.d0 → s < W * H → f'.get i (Spec.placed H H' dx dy s) = f.get i s)
    (specs specs' : List (AgentSpec K δ)) (hspecs : List.Forall₂ (Spec.SameSpec m.trans (Spec.placed H H' dx dy)) specs specs')
    (can : δ → Prop)
    (hsel : WorldIn m.trans m'.trans (Spec.placed H H' dx dy) → ∀ sp ∈ specs,
      RowWise m.trans m'.trans (Spec.placed H H' dx dy) can sp.selector) :
    (∃ er, (Env.init m specs).2 = .error er ∧ (Env.init m' specs').2 = .error er) ∨
    ∃ e e', (Env.init m specs).2 = .ok e ∧ (Env.init m' specs').2 = .ok e' ∧
      ∀ l l', List.Forall₂ (Spec.SameCall m.trans (W' * H') (Spec.placed H H' dx dy) can) l l' →
        Spec.SameGame (W * H) (Spec.placed H H' dx dy) (Spec.play e l) (Spec.play e' l') ∧
        ∀ c c', Spec.SameCall m.trans (W' * H') (Spec.placed H H' dx dy) can c c' →
          Spec.SameAnswer (W * H) (Spec.placed H H' dx dy) (Spec.answer (Spec.play e l) (c.call (Spec.play e l)))
            (Spec.answer (Spec.play e' l') (c'.call (Spec.play e' l'))) := by
  have hw := worldIn_grid (.init hm) (embedded_grid (.init hm) (.init hm') hW hH heven hwalls hout)
  obtain ⟨hmi, h0, hS, hS'⟩ := mdpIn_grid (σ := Spec.placed H H' dx dy) hm hm' hfd hf
  rcases init_in hw hmi h0 hspecs (hsel hw) with h | ⟨e, e', h1, h2, he⟩
  · exact .inl h
  · refine .inr ⟨e, e', h1, h2, fun l l' hl => ?_⟩
    rw [← hS'] at hl
    have hp := he.play hw hl
    rw [← hS, ← hS']
    exact ⟨hp.game, fun c c' hc => (hp.call hw hc).2⟩

/-- **C165**: a game of greedy agents on a map walled off inside a bigger one is the game on the map alone: for any
sequence of calls (planning by value iteration, steps, several steps, putting agents somewhere, starting again) with the
same outcomes of the generator, all answers, positions, trajectories, meals, values and features are the same, state `s`
having the number `Spec.placed … s`. -/
theorem C165_greedy {m m' : Mdp K} {f f' : Arr2 K} {w w' : Option (Arr1 K)} (hm : Mdp.initGrid kind W H selfT f w = .ok m)
    (hm' : Mdp.initGrid kind W' H' selfT f' w' = .ok m') (hW : dx + W ≤ W') (hH : dy + H ≤ H')
    (heven : kind = .hex → dx % 2 = 0)
    (hwalls : ∀ s, s < W * H → m'.walls.get (Spec.placed H H' dx dy s) = m.walls.get s)
    (hout : ∀ t, t < W' * H' → ¬ Spec.Among (W * H) (Spec.placed H H' dx dy) t → m'.walls.get t = 1)
    (hfd : f'.d0 = f.d0) (hf : ∀ i s, i < f.d0 → s < W * H → f'.get i (Spec.placed H H' dx dy s) = f.get i s)
    (specs specs' : List (AgentSpec K Nat)) (hspecs : List.Forall₂ (Spec.SameSpec m.trans (Spec.placed H H' dx dy)) specs specs')
    (hsel : ∀ sp ∈ specs, sp.selector = maxSelector) :
    (∃ er, (Env.init m specs).2 = .error er ∧ (Env.init m' specs').2 = .error er) ∨
    ∃ e e', (Env.init m specs).2 = .ok e ∧ (Env.init m' specs').2 = .ok e' ∧
      ∀ l l', List.Forall₂ (Spec.SameCall m.trans (W' * H') (Spec.placed H H' dx dy) fun _ => True) l l' →
        Spec.SameGame (W * H) (Spec.placed H H' dx dy) (Spec.play e l) (Spec.play e' l') ∧
        ∀ c c', Spec.SameCall m.trans (W' * H') (Spec.placed H H' dx dy) (fun _ => True) c c' →
          Spec.SameAnswer (W * H) (Spec.placed H H' dx dy) (Spec.answer (Spec.play e l) (c.call (Spec.play e l)))
            (Spec.answer (Spec.play e' l') (c'.call (Spec.play e' l'))) :=
  game_walled hm hm' hW hH heven hwalls hout hfd hf specs specs' hspecs _ fun hw sp hsp => by
    rw [hsel sp hsp]
    exact rowWise_max hw

/-- **C165**: the same for softmax agents, each with its own temperature. -/
theorem C165_softmax {m m' : Mdp ℝ} {f f' : Arr2 ℝ} {w w' : Option (Arr1 ℝ)} (hm : Mdp.initGrid kind W H selfT f w = .ok m)
    (hm' : Mdp.initGrid kind W' H' selfT f' w' = .ok m') (hW : dx + W ≤ W') (hH : dy + H ≤ H')
    (heven : kind = .hex → dx % 2 = 0)
    (hwalls : ∀ s, s < W * H → m'.walls.get (Spec.placed H H' dx dy s) = m.walls.get s)
    (hout : ∀ t, t < W' * H' → ¬ Spec.Among (W * H) (Spec.placed H H' dx dy) t → m'.walls.get t = 1)
    (hfd : f'.d0 = f.d0) (hf : ∀ i s, i < f.d0 → s < W * H → f'.get i (Spec.placed H H' dx dy s) = f.get i s)
    (specs specs' : List (AgentSpec ℝ ℝ)) (hspecs : List.Forall₂ (Spec.SameSpec m.trans (Spec.placed H H' dx dy)) specs specs')
    (hsel : ∀ sp ∈ specs, ∃ T, 0 < T ∧ sp.selector = softmaxSelector T) :
    (∃ er, (Env.init m specs).2 = .error er ∧ (Env.init m' specs').2 = .error er) ∨
    ∃ e e', (Env.init m specs).2 = .ok e ∧ (Env.init m' specs').2 = .ok e' ∧
      ∀ l l', List.Forall₂ (Spec.SameCall m.trans (W' * H') (Spec.placed H H' dx dy) fun u => 0 ≤ u ∧ u < 1) l l' →
        Spec.SameGame (W * H) (Spec.placed H H' dx dy) (Spec.play e l) (Spec.play e' l') ∧
        ∀ c c', Spec.SameCall m.trans (W' * H') (Spec.placed H H' dx dy) (fun u => 0 ≤ u ∧ u < 1) c c' →
          Spec.SameAnswer (W * H) (Spec.placed H H' dx dy) (Spec.answer (Spec.play e l) (c.call (Spec.play e l)))
            (Spec.answer (Spec.play e' l') (c'.call (Spec.play e' l'))) :=
  game_walled hm hm' hW hH heven hwalls hout hfd hf specs specs' hspecs _ fun hw sp hsp => by
    obtain ⟨T, hT, e⟩ := hsel sp hsp
    rw [e]
    exact rowWise_softmax hw hT

/-- Two states with food on the second, alone. -/
def exRoomFood : Arr2 Rat := ⟨1, 2, fun _ s => if s = 1 then 1 else 0⟩

/-- The two states are 5 and 6 of a map of three rows of four; there is food behind the walls too. -/
def exHouseFood : Arr2 Rat := ⟨1, 12, fun _ s => if s = 6 ∨ s = 2 then 1 else 0⟩

/-- Walls everywhere else. -/
def exHouseWalls : Arr1 Rat := ⟨12, fun s => if s = 5 ∨ s = 6 then 0 else 1⟩

/-- A hungry cat starting at a given place. -/
def exRoomCat (p : Nat) : List (AgentSpec Rat Nat) :=
  [⟨"cat", 1, maxSelector, .fresh, some (p : Int), .of1 ⟨2, fun f => if f = 0 then 1 else 0⟩, [0]⟩]

/-- It plans and makes a step. -/
def exRoomCalls : List (Spec.PlayOp Rat Nat) :=
  [.plan "cat" 10 (1 / 2) (1 / 100) fun _ => 0, .step "cat" fun _ => 0]

theorem exRoom : ∃ (m m' : Mdp Rat) (e e' : Env Rat Nat), Mdp.initGrid .square 1 2 false exRoomFood none = .ok m ∧
    Mdp.initGrid .square 3 4 false exHouseFood (some exHouseWalls) = .ok m' ∧
    (∀ s, s < 1 * 2 → m'.walls.get (Spec.placed 2 4 1 1 s) = m.walls.get s) ∧
    (∀ t, t < 3 * 4 → ¬ Spec.Among (1 * 2) (Spec.placed 2 4 1 1) t → m'.walls.get t = 1) ∧
    List.Forall₂ (Spec.SameSpec m.trans (Spec.placed 2 4 1 1)) (exRoomCat 0) (exRoomCat 5) ∧
    (Env.init m (exRoomCat 0)).2 = .ok e ∧ (Env.init m' (exRoomCat 5)).2 = .ok e' ∧
    ∃ a a', (Spec.play e exRoomCalls).agents = [a] ∧ (Spec.play e' exRoomCalls).agents = [a'] ∧
      a.history = [0, 1] ∧ a'.history = [5, 6] ∧ a.consumed 0 = 1 ∧ a'.consumed 0 = 1 := by
  obtain ⟨m, hm, ok, -, -, -, -, -, hwl⟩ := Mdp.initGrid_ok (kind := .square) (W := 1) (H := 2) (selfT := false) (f := exRoomFood)
    (w := none) (by decide) rfl (by simp)
  obtain ⟨m', hm', ok', -, -, -, -, -, hwl'⟩ := Mdp.initGrid_ok (kind := .square) (W := 3) (H := 4) (selfT := false)
    (f := exHouseFood) (w := some exHouseWalls) (by decide) rfl (by
      intro v hv
      cases hv
      exact ⟨rfl, by decide +kernel⟩)
  have key : (match Mdp.initGrid .square 1 2 false exRoomFood none,
        Mdp.initGrid .square 3 4 false exHouseFood (some exHouseWalls) with
      | .ok m, .ok m' => match (Env.init m (exRoomCat 0)).2, (Env.init m' (exRoomCat 5)).2 with
        | .ok e, .ok e' => match (Spec.play e exRoomCalls).agents, (Spec.play e' exRoomCalls).agents with
          | [a], [a'] => decide (a.history = [0, 1] ∧ a'.history = [5, 6] ∧ a.consumed 0 = 1 ∧ a'.consumed 0 = 1)
          | _, _ => false
        | _, _ => false
      | _, _ => false) = true := by decide +kernel
  rw [hm, hm'] at key
  simp only at key
  cases h1 : (Env.init m (exRoomCat 0)).2 with
  | error er => rw [h1] at key; cases key
  | ok e =>
    cases h2 : (Env.init m' (exRoomCat 5)).2 with
    | error er => rw [h1, h2] at key; cases key
    | ok e' =>
      rw [h1, h2] at key
      simp only at key
      have hlive : Spec.Live m.trans 0 := by
        refine ⟨0, by change 0 < m.nActions; rw [ok.nActions]; decide, 1, by change 1 < m.nStates; rw [ok.nStates]; decide, ?_⟩
        refine (ok.sas_pos (by decide) (by decide)).2 ⟨?_, ?_, by decide⟩ <;> rw [hwl] <;> decide
      refine ⟨m, m', e, e', hm, hm', ?_, ?_, ?_, h1, h2, ?_⟩
      · intro s hs
        rw [hwl, hwl']
        have : s < 2 := hs
        interval_cases s <;> decide +kernel
      · intro t ht hn
        rw [hwl']
        have : t ≠ 5 ∧ t ≠ 6 := ⟨fun h => hn ⟨0, by decide, by rw [h]; decide⟩, fun h => hn ⟨1, by decide, by rw [h]; decide⟩⟩
        simp [exHouseWalls, this.1, this.2]
      · exact .cons ⟨⟨0, by change 0 < m.nStates; rw [ok.nStates]; decide, hlive, rfl, rfl⟩, rfl⟩ .nil
      · match ha : (Spec.play e exRoomCalls).agents, hb : (Spec.play e' exRoomCalls).agents, key with
        | [a], [a'], key =>
          rw [decide_eq_true_eq] at key
          exact ⟨a, a', rfl, rfl, key⟩

-- the hypotheses of `C165_greedy`, and the game it speaks about
example : ∃ (m m' : Mdp Rat), Mdp.initGrid .square 1 2 false exRoomFood none = .ok m ∧
    Mdp.initGrid .square 3 4 false exHouseFood (some exHouseWalls) = .ok m' ∧
    ∃ e e', (Env.init m (exRoomCat 0)).2 = .ok e ∧ (Env.init m' (exRoomCat 5)).2 = .ok e' ∧
      ∀ l l', List.Forall₂ (Spec.SameCall m.trans 12 (Spec.placed 2 4 1 1) fun _ => True) l l' →
        Spec.SameGame 2 (Spec.placed 2 4 1 1) (Spec.play e l) (Spec.play e' l') := by
  obtain ⟨m, m', e, e', h1, h2, h3, h4, h5, h6, h7, -⟩ := exRoom
  refine ⟨m, m', h1, h2, e, e', h6, h7, fun l l' hl => ?_⟩
  rcases C165_greedy h1 h2 (dx := 1) (dy := 1) (by decide) (by decide) (by simp) h3 h4 rfl
    (by intro i s hi hs; change i < 1 at hi; change s < 2 at hs; interval_cases i; interval_cases s <;> decide) _ _ h5
    (by simp [exRoomCat]) with ⟨er, h, -⟩ | ⟨x, x', hx, hx', h⟩
  · rw [h6] at h
    cases h
  · rw [h6] at hx
    rw [h7] at hx'
    cases hx
    cases hx'
    exact (h l l' hl).1

-- `C165_values` and `C165_grid`
example : ∃ (m m' : Mdp Rat), Spec.Embedded m.trans m'.trans (Spec.placed 2 4 1 1) ∧ m.trans.nS = 2 ∧ m'.trans.nS = 12 ∧
    0 < m.trans.nA ∧ ∃ v q v' q', solveHard m.trans (exRoomFood.get 0) 10 (1 / 2) (1 / 100) = .ok (v, q) ∧
      solveHard m'.trans (exHouseFood.get 0) 10 (1 / 2) (1 / 100) = .ok (v', q') ∧ v' 5 = v 0 ∧ v' 6 = v 1 := by
  obtain ⟨m, m', -, -, h1, h2, h3, h4, -⟩ := exRoom
  have hem := C165_grid (.init h1) (.init h2) (dx := 1) (dy := 1) (by decide) (by decide) (by simp) h3 h4
  obtain ⟨-, -, hA, -⟩ := C27_grid _ _ _ _ m (.init h1)
  have hS : m.trans.nS = 2 := (Mdp.GridReach.init h1).ok.nStates
  refine ⟨m, m', hem, hS, (Mdp.GridReach.init h2).ok.nStates, hA, ?_⟩
  have hk : ∀ {M : Trans Rat} {r : Nat → Rat} {er : PyErr}, 0 < M.nA → solveHard M r 10 (1 / 2) (1 / 100) ≠ .error er := by
    intro M r er hA h
    unfold solveHard at h
    rw [if_neg (fun h => absurd h.2.1 (by omega))] at h
    unfold solveVI at h
    rw [if_neg (by norm_num)] at h
    have : (viLoop (hardBackup M.nA) M r (1 / 2) (1 / 100) 10 (fun _ => 0) none).2 ≠ none := by
      have hgen : ∀ k v q, (viLoop (hardBackup M.nA) M r (1 / 2) (1 / 100) (k + 1) v q).2 ≠ none := by
        intro k
        induction k with
        | zero =>
          intro v q
          simp only [viLoop]
          split_ifs <;> simp
        | succ k ih =>
          intro v q
          rw [viLoop]
          split_ifs
          · simp
          · exact ih _ _
      exact hgen 9 _ _
    rcases hv : viLoop (hardBackup M.nA) M r (1 / 2) (1 / 100) 10 (fun _ => 0) none with ⟨v, _ | q⟩
    · rw [hv] at this
      exact this rfl
    · rw [hv] at h
      cases h
  rcases C165_values m.trans m'.trans _ hem hA (exRoomFood.get 0) (exHouseFood.get 0) (by rw [hS]; decide +kernel) 10 (1 / 2)
    (1 / 100) with ⟨er, h, -⟩ | ⟨v, q, v', q', e1, e2, h, -⟩
  · exact absurd h (hk hA)
  · exact ⟨v, q, v', q', e1, e2, (h 0 (by rw [hS]; decide)).1, (h 1 (by rw [hS]; decide)).1⟩

/-- Where an agent cannot move at all the walls around the map do make a difference: alone on a map of one cell it stays;
with a wall before the cell, it is moved onto the wall. -/
theorem C165_trapped_witness : ∃ (m m' : Mdp Rat) (e e' : Env Rat Nat),
    Mdp.initGrid .square 1 1 false ⟨1, 1, fun _ _ => 0⟩ none = .ok m ∧
    Mdp.initGrid .square 1 2 false ⟨1, 2, fun _ _ => 0⟩ (some ⟨2, fun s => if s = 0 then 1 else 0⟩) = .ok m' ∧
    Spec.placed 1 2 0 1 0 = 1 ∧
    (Env.init m (exRoomCat 0)).2 = .ok e ∧ (Env.init m' (exRoomCat 1)).2 = .ok e' ∧
    ∃ a a', (Spec.play e exRoomCalls).agents = [a] ∧ (Spec.play e' exRoomCalls).agents = [a'] ∧
      a.position = 0 ∧ a'.position = 0 := by
  have key : (match Mdp.initGrid .square 1 1 false (⟨1, 1, fun _ _ => 0⟩ : Arr2 Rat) none,
        Mdp.initGrid .square 1 2 false (⟨1, 2, fun _ _ => 0⟩ : Arr2 Rat) (some ⟨2, fun s => if s = 0 then 1 else 0⟩) with
      | .ok m, .ok m' => match (Env.init m (exRoomCat 0)).2, (Env.init m' (exRoomCat 1)).2 with
        | .ok e, .ok e' => match (Spec.play e exRoomCalls).agents, (Spec.play e' exRoomCalls).agents with
          | [a], [a'] => decide (a.position = 0 ∧ a'.position = 0)
          | _, _ => false
        | _, _ => false
      | _, _ => false) = true := by decide +kernel
  match hm : Mdp.initGrid .square 1 1 false (⟨1, 1, fun _ _ => 0⟩ : Arr2 Rat) none,
    hm' : Mdp.initGrid .square 1 2 false (⟨1, 2, fun _ _ => 0⟩ : Arr2 Rat) (some ⟨2, fun s => if s = 0 then 1 else 0⟩), key with
  | .ok m, .ok m', key =>
    simp only at key
    match h1 : (Env.init m (exRoomCat 0)).2, h2 : (Env.init m' (exRoomCat 1)).2, key with
    | .ok e, .ok e', key =>
      simp only at key
      match ha : (Spec.play e exRoomCalls).agents, hb : (Spec.play e' exRoomCalls).agents, key with
      | [a], [a'], key =>
        rw [decide_eq_true_eq] at key
        exact ⟨m, m', e, e', rfl, rfl, by decide, h1, h2, a, a', ha, hb, key⟩

-- the hypotheses of `C165_softmax` on the two maps
example : ∃ (m m' : Mdp ℝ) (f f' : Arr2 ℝ) (w' : Arr1 ℝ) (specs specs' : List (AgentSpec ℝ ℝ)),
    Mdp.initGrid .square 1 2 false f none = .ok m ∧ Mdp.initGrid .square 3 4 false f' (some w') = .ok m' ∧
    (∀ s, s < 1 * 2 → m'.walls.get (Spec.placed 2 4 1 1 s) = m.walls.get s) ∧
    (∀ t, t < 3 * 4 → ¬ Spec.Among (1 * 2) (Spec.placed 2 4 1 1) t → m'.walls.get t = 1) ∧ f'.d0 = f.d0 ∧
    (∀ i s, i < f.d0 → s < 1 * 2 → f'.get i (Spec.placed 2 4 1 1 s) = f.get i s) ∧
    List.Forall₂ (Spec.SameSpec m.trans (Spec.placed 2 4 1 1)) specs specs' ∧ specs ≠ [] ∧
    ∀ sp ∈ specs, ∃ T, 0 < T ∧ sp.selector = softmaxSelector T := by
  let f : Arr2 ℝ := ⟨1, 2, fun _ s => if s = 1 then 1 else 0⟩
  let f' : Arr2 ℝ := ⟨1, 12, fun _ s => if s = 6 ∨ s = 2 then 1 else 0⟩
  let w' : Arr1 ℝ := ⟨12, fun s => if s = 5 ∨ s = 6 then 0 else 1⟩
  let cat : Nat → AgentSpec ℝ ℝ := fun p =>
    ⟨"cat", 1, softmaxSelector 1, .fresh, some (p : Int), .of1 ⟨2, fun f => if f = 0 then 1 else 0⟩, [0]⟩
  obtain ⟨m, hm, ok, -, -, -, -, -, hwl⟩ := Mdp.initGrid_ok (kind := .square) (W := 1) (H := 2) (selfT := false) (f := f)
    (w := none) (by decide) rfl (by simp)
  obtain ⟨m', hm', -, -, -, -, -, -, hwl'⟩ := Mdp.initGrid_ok (kind := .square) (W := 3) (H := 4) (selfT := false)
    (f := f') (w := some w') (by decide) rfl (by
      intro v hv
      cases hv
      refine ⟨rfl, fun i _ => ?_⟩
      show (if i = 5 ∨ i = 6 then (0 : ℝ) else 1) = 0 ∨ (if i = 5 ∨ i = 6 then (0 : ℝ) else 1) = 1
      split_ifs <;> simp)
  refine ⟨m, m', f, f', w', [cat 0], [cat 5], hm, hm', fun s hs => ?_, fun t ht hn => ?_, rfl, fun i s _ hs => ?_,
    .cons ⟨⟨0, by change 0 < m.nStates; rw [ok.nStates]; decide, ?_, rfl, rfl⟩, rfl⟩ .nil, by simp,
    fun sp hsp => ⟨1, one_pos, by rw [List.mem_singleton.1 hsp]⟩⟩
  · rw [hwl, hwl']
    have : s < 2 := hs
    interval_cases s <;> simp [w', Spec.placed]
  · rw [hwl']
    have : t ≠ 5 ∧ t ≠ 6 := ⟨fun h => hn ⟨0, by decide, by rw [h]; decide⟩, fun h => hn ⟨1, by decide, by rw [h]; decide⟩⟩
    simp [w', this.1, this.2]
  · have : s < 2 := hs
    interval_cases s <;> simp [f, f', Spec.placed]
  · refine ⟨0, by change 0 < m.nActions; rw [ok.nActions]; decide, 1, by change 1 < m.nStates; rw [ok.nStates]; decide, ?_⟩
    refine (ok.sas_pos (by decide) (by decide)).2 ⟨?_, ?_, by decide⟩ <;> rw [hwl] <;> simp

end MaMDP
