import Verif.Lemmas.Eyeline
import Verif.Props.Mdp

/-! # Lines of sight on grids (C72), eyeline counts (C73) and their differences (C85) -/

set_option linter.unusedSectionVars false

namespace MaMDP

variable {K : Type} [Field K] [LinearOrder K] [IsStrictOrderedRing K]
variable {kind : GridKind} {W H : Nat} {selfT : Bool} {m : Mdp K}

/-! ## C72: looking along a direction -/

/-- **C72.** On every grid, with any walls, from every state and in every direction, the loop ends (within as many
rounds as there are states), and the result is the total of each feature over the line of sight. -/
theorem C72_sight (h : Mdp.GridReach kind W H selfT m) {fuel s a : Nat} (hf : W * H ≤ fuel) (ha : a < kind.nMoves)
    (hs : s < W * H) :
    ∃ l v, eyeFeatures m fuel s a = some v ∧
      Spec.LineOfSight kind H (W * H) (fun t => m.walls.get t = 1) a s l ∧
      ∀ f, v f = (l.map fun t => m.features.get f t).sum := by
  obtain ⟨h1, h2⟩ := eyeFeatures_sight h.ok hf ha hs
  exact ⟨_, _, h1, h2, fun f => rfl⟩

/-- **C72 (the description is exact).** There is only one line of sight. -/
theorem C72_unique {n : Nat} {wall : Nat → Prop} {a s : Nat} {l l' : List Nat}
    (h : Spec.LineOfSight kind H n wall a s l) (h' : Spec.LineOfSight kind H n wall a s l') : l = l' := by
  have hfirst : ∀ l, Spec.LineOfSight kind H n wall a s l → s ∈ l := by
    intro l h
    match l, h with
    | [], h => exact absurd rfl h.nonempty
    | x :: l, h =>
      rw [← ahead_unique (h.straight 0 x rfl) ahead_zero]
      exact List.mem_cons_self
  have key : ∀ l l', Spec.LineOfSight kind H n wall a s l → Spec.LineOfSight kind H n wall a s l' →
      l'.length ≤ l.length := by
    intro l l' h h'
    by_contra hc
    have hlt : l.length < l'.length := by omega
    have hpos : 0 < l.length := List.length_pos_iff.2 h.nonempty
    have hg := List.getElem?_eq_getElem hlt
    have hmem : l'[l.length] ∈ l' := List.getElem_mem hlt
    rcases h.ends with hw | he
    · exact h'.free (by omega) s (hfirst l' h') hw
    · exact h'.free (by omega) _ hmem (he _ (h'.inside _ hmem) (h'.straight _ _ hg))
  have hlen : l.length = l'.length := le_antisymm (key l' l h' h) (key l l' h h')
  refine List.ext_getElem hlen fun i h1 h2 => ?_
  exact ahead_unique (h.straight i _ (List.getElem?_eq_getElem h1)) (h'.straight i _ (List.getElem?_eq_getElem h2))

/-- **C72 (staying is not a direction).** With self transitions, asking for the stay action from a cell that is not a
wall never returns. -/
theorem C72_self (h : Mdp.GridReach kind W H true m) {s : Nat} (hs : s < W * H) (hw : m.walls.get s ≠ 1) (fuel : Nat) :
    eyeFeatures m fuel s kind.nMoves = none := by
  unfold eyeFeatures
  rw [eyeStates_self h.ok rfl hs hw fuel]
  rfl

/-- A 3×4 hexagonal grid with self transitions and a wall in state 10. -/
def exEyeMdp : Py (Mdp ℚ) :=
  Mdp.initGrid .hex 3 4 true ⟨2, 12, fun f s => if s % 2 = f then 1 else 0⟩
    (some ⟨12, fun s => if s = 10 then 1 else 0⟩)

/-- From state 0 in direction 1 one sees 0, 5 and 9; from state 4 in direction 0 the column; towards the wall only the
cells before it; from a wall only the wall. -/
example : (match exEyeMdp with
    | .ok m => decide (eyeStates m 1 12 0 = some [0, 5, 9] ∧ eyeStates m 0 12 4 = some [4, 5, 6, 7] ∧
        eyeStates m 0 12 8 = some [8, 9] ∧ eyeStates m 3 12 10 = some [10] ∧ eyeStates m 6 12 0 = none)
    | .error _ => false) = true := by decide +kernel

/-! ## C73: counts along trajectories -/

/-- **C73.** On a grid, for trajectories of steps in some direction between cells that are not walls, the counts are
the totals over all steps of what is seen in the direction of the step; normalised, each feature's share of the total. -/
theorem C73_counts (h : Mdp.GridReach kind W H selfT m) {fuel : Nat} (hf : W * H ≤ fuel) (ts : List (List Nat))
    (pss : List (List (Nat × Nat)))
    (hd : List.Forall₂ (Spec.Directions (GridStep kind W H fun t => m.walls.get t = 1)) ts pss) :
    ∃ (sees : Nat → Nat → List Nat) (c : Nat → K),
      (∀ s a, s < W * H → a < kind.nMoves →
        Spec.LineOfSight kind H (W * H) (fun t => m.walls.get t = 1) a s (sees s a)) ∧
      trajectoryEyeline m fuel ts false = some (.ok c) ∧
      (∃ x, trajectoryEyeline m fuel ts true = some (.ok x) ∧ ∀ f, f < m.nFeatures → x f = Spec.share m.nFeatures c f) ∧
      ∀ f, c f = (pss.flatten.map fun p => ((sees p.1 p.2).map fun t => m.features.get f t).sum).sum := by
  refine ⟨sight m fuel, fun f => 0 + (pss.flatten.map fun p => sumFeatures m (sight m fuel p.1 p.2) f).sum,
    fun s a hs ha => (eyeFeatures_sight h.ok hf ha hs).2, ?_, ?_, fun f => ?_⟩
  · unfold trajectoryEyeline
    rw [eyeTrajectories_ok h.ok hf ts pss _ hd]
    simp
  · unfold trajectoryEyeline
    rw [eyeTrajectories_ok h.ok hf ts pss _ hd]
    exact ⟨_, rfl, fun f hf => normaliseCounts_share _ hf⟩
  · beta_reduce
    rw [zero_add]
    rfl

/-- **C73 (normalised).** On any model with non-negative features, whenever the function returns, the weights are
non-negative and sum to 1, or are all 0. -/
theorem C73_normalised (m : Mdp K) (hm : ∀ f, f < m.nFeatures → ∀ s, s < m.nStates → 0 ≤ m.features.get f s)
    (fuel : Nat) (ts : List (List Nat)) (ht : ∀ t ∈ ts, ∀ s ∈ t, s < m.nStates) (x : Nat → K)
    (h : trajectoryEyeline m fuel ts true = some (.ok x)) :
    (∀ f, f < m.nFeatures → 0 ≤ x f) ∧
    (∑ f ∈ Finset.range m.nFeatures, x f = 1 ∨ ∀ f, f < m.nFeatures → x f = 0) := by
  unfold trajectoryEyeline at h
  split at h
  · cases h
  · cases h
  · rename_i c hc
    have hn := eyeTrajectories_nonneg m fuel hm ts _ c ht (fun f _ => le_refl _) hc
    obtain ⟨h1, h2, h3⟩ := normalise_spec m.nFeatures c hn
    rw [← Except.ok.inj (Option.some.inj h), if_pos rfl]
    refine ⟨h1, ?_⟩
    by_cases hz : ∀ f, f < m.nFeatures → c f = 0
    · exact Or.inr (h3 hz)
    · push Not at hz
      exact Or.inl (h2 hz)

/-- **C73 (errors).** A pair of cells that are not neighbours raises; a trajectory that stays put on a grid with self
transitions never returns. -/
theorem C73_errors (h : Mdp.GridReach kind W H selfT m) {fuel s t : Nat} (hs : s < W * H) (ht : t < W * H)
    (l : List Nat) (ts : List (List Nat)) (norm : Bool) :
    ((∀ a, m.walls.get s = 1 ∨ m.walls.get t = 1 ∨ ¬ kind.Move H selfT s a t) →
      trajectoryEyeline m fuel ((s :: t :: l) :: ts) norm = some (.error .attributeError)) ∧
    (selfT = true → m.walls.get s ≠ 1 → trajectoryEyeline m fuel ((s :: s :: l) :: ts) norm = none) := by
  have g := h.ok
  constructor
  · intro hn
    have hA : 0 < m.nActions := by
      rw [g.nActions]
      have := Mdp.GridKind.nMoves_pos kind
      omega
    have hle : ¬ 0 < npMax m.nActions (fun a => m.sas s a t) := by
      rw [not_lt]
      refine npMax_le _ hA fun a _ => ?_
      by_contra hc
      obtain ⟨h1, h2, h3⟩ := (g.sas_pos hs ht).1 (not_le.1 hc)
      rcases hn a with h | h | h
      · exact h1 h
      · exact h2 h
      · exact h h3
    unfold trajectoryEyeline eyeTrajectories eyeCounts irlPairToAction
    rw [if_neg hle]
  · intro hself hw
    subst hself
    unfold trajectoryEyeline eyeTrajectories eyeCounts
    rw [pairToAction_self g rfl hs hw]
    simp only
    rw [C72_self h hs hw]

theorem simpleLoop_ok (count : Mdp K → List Nat → Option (Py (Nat → K))) : ∀ (ms : List (Mdp K))
    (ts : List (List Nat)) (cs : List (Nat → K)) (th : Nat → K), ms.length ≤ ts.length →
    List.Forall₂ (fun p c => count p.1 p.2 = some (.ok c)) (ms.zip ts) cs →
    simpleLoop count ms ts th = some (.ok fun f => th f + (cs.map fun c => c f).sum)
  | [], ts, cs, th, _, h => by
    have : cs = [] := by simpa using h
    subst this; simp [simpleLoop]
  | m :: ms, [], cs, th, hl, _ => by simp at hl
  | m :: ms, t :: ts, _, th, hl, h => by
    cases h with
    | cons h1 h2 =>
      rw [simpleLoop]
      simp only at h1
      rw [h1]
      simp only
      rw [simpleLoop_ok count ms ts _ _ (by simpa using hl) h2]
      simp [add_assoc]

/-- **C73 (accumulation).** `SimpleActionIRL.fit` adds up the normalised counts of each MDP and its trajectory, from
zero, or from the previous weights when `reset=False` and there are some. -/
theorem C73_accumulates (fuel : Nat) (ms : List (Mdp K)) (ts : List (List Nat)) (reset : Bool)
    (theta : Option (Nat → K)) (cs : List (Nat → K)) (h0 : ms ≠ []) (hl : ms.length ≤ ts.length)
    (hc : List.Forall₂ (fun p c => trajectoryEyeline p.1 fuel [p.2] true = some (.ok c)) (ms.zip ts) cs) :
    simpleFit fuel ms ts reset theta = some (.ok fun f =>
      (if reset then 0 else match theta with | some th => th f | none => 0) + (cs.map fun c => c f).sum) := by
  unfold simpleFit simpleBody
  cases theta with
  | none =>
    simp only
    rw [if_neg h0, simpleLoop_ok _ ms ts cs _ hl hc]
    simp
  | some th =>
    cases reset with
    | true => simp only [if_true]; rw [if_neg h0, simpleLoop_ok _ ms ts cs _ hl hc]
    | false => simp only [Bool.false_eq_true, if_false]; rw [simpleLoop_ok _ ms ts cs _ hl hc]

/-- Two steps on the hexagonal grid: sees 0, 5, 9 and then 5, 6, 7. Feature 0 counts even states, feature 1 odd ones. -/
example : (match exEyeMdp with
    | .ok m => match trajectoryEyeline m 12 [[0, 5, 6]] true, trajectoryEyeline m 12 [[0, 9]] true,
          simpleFit 12 [m, m] [[0, 5, 6], [4, 5]] true none with
      | some (.ok x), some (.error e), some (.ok y) =>
        decide (x 0 = 1/3 ∧ x 1 = 2/3 ∧ e = .attributeError ∧ y 0 = 5/6 ∧ y 1 = 7/6)
      | _, _, _ => false
    | .error _ => false) = true := by decide +kernel

/-! ## C85: chosen against other directions -/

/-- **C85 (exact).** What is compared: the directions below `n_actions - 1` only. -/
theorem C85_exact (h : Mdp.GridReach kind W H selfT m) {fuel : Nat} (hf : W * H ≤ fuel) (t : List Nat)
    (ps : List (Nat × Nat)) (hd : Spec.Directions (GridStep kind W H fun t => m.walls.get t = 1) t ps) :
    ∃ (sees : Nat → Nat → List Nat) (c u x : Nat → K),
      (∀ s a, s < W * H → a < kind.nMoves →
        Spec.LineOfSight kind H (W * H) (fun t => m.walls.get t = 1) a s (sees s a)) ∧
      trajectoryEyelineDiff m fuel t = some (.ok x) ∧
      (∀ f, f < m.nFeatures → x f = Spec.share m.nFeatures c f - Spec.share m.nFeatures u f) ∧
      (∀ f, c f = (ps.map fun p => (((List.range (m.nActions - 1)).filter fun a => a = p.2).map
        fun a => ((sees p.1 a).map fun t => m.features.get f t).sum).sum).sum) ∧
      (∀ f, u f = (ps.map fun p => (((List.range (m.nActions - 1)).filter fun a => a ≠ p.2).map
        fun a => ((sees p.1 a).map fun t => m.features.get f t).sum).sum).sum) := by
  have hx := diffCounts_ok h.ok hf t ps (fun _ => 0) (fun _ => 0) hd
  refine ⟨sight m fuel, _, _, _, fun s a hs ha => (eyeFeatures_sight h.ok hf ha hs).2, ?_,
    fun f hf => by rw [← normaliseCounts_share _ hf, ← normaliseCounts_share _ hf], fun f => rfl, fun f => rfl⟩
  unfold trajectoryEyelineDiff
  rw [hx]
  simp only [zero_add]
  rfl

theorem directions_step {step : Nat → Nat → Nat → Prop} : ∀ (t : List Nat) (ps : List (Nat × Nat)),
    Spec.Directions step t ps → ∀ p ∈ ps, ∃ u, step p.1 p.2 u
  | [], ps, h, p, hp => by
    have : ps = [] := by simpa [Spec.Directions] using h
    subst this; cases hp
  | [_], ps, h, p, hp => by
    have : ps = [] := by simpa [Spec.Directions] using h
    subst this; cases hp
  | s :: t :: l, [], h, p, hp => by cases hp
  | s :: t :: l, q :: ps, h, p, hp => by
    obtain ⟨h1, h2, h3⟩ := h
    rcases List.mem_cons.1 hp with rfl | hp
    · exact ⟨t, h1 ▸ h2⟩
    · exact directions_step (t :: l) ps h3 p hp

theorem filter_eq_range {n a : Nat} (h : a < n) : (List.range n).filter (fun b => decide (b = a)) = [a] := by
  have hd : ((List.range n).filter (fun b => decide (b = a))).Nodup := List.nodup_range.filter _
  have hmem : ∀ b, b ∈ (List.range n).filter (fun b => decide (b = a)) ↔ b = a := by
    intro b
    rw [List.mem_filter, List.mem_range, decide_eq_true_iff]
    constructor
    · exact fun h => h.2
    · rintro rfl; exact ⟨h, rfl⟩
  match e : (List.range n).filter (fun b => decide (b = a)) with
  | [] => rw [e] at hmem; exact absurd ((hmem a).2 rfl) (by simp)
  | [b] => rw [e] at hmem; rw [(hmem b).1 (by simp)]
  | b :: c :: l =>
    rw [e] at hmem hd
    have h1 := (hmem b).1 (by simp)
    have h2 := (hmem c).1 (by simp)
    subst h1; subst h2
    simp at hd

/-- **C85, what holds.** With self transitions, the weights are the normalised counts of what is seen in the chosen
directions minus those of what is seen in all the other directions. -/
theorem C85_partial (h : Mdp.GridReach kind W H true m) {fuel : Nat} (hf : W * H ≤ fuel) (t : List Nat)
    (ps : List (Nat × Nat)) (hd : Spec.Directions (GridStep kind W H fun t => m.walls.get t = 1) t ps) :
    ∃ (sees : Nat → Nat → List Nat) (c u x : Nat → K),
      (∀ s a, s < W * H → a < kind.nMoves →
        Spec.LineOfSight kind H (W * H) (fun t => m.walls.get t = 1) a s (sees s a)) ∧
      trajectoryEyelineDiff m fuel t = some (.ok x) ∧
      (∀ f, f < m.nFeatures → x f = Spec.share m.nFeatures c f - Spec.share m.nFeatures u f) ∧
      (∀ f, c f = (ps.map fun p => ((sees p.1 p.2).map fun t => m.features.get f t).sum).sum) ∧
      (∀ f, u f = (ps.map fun p => (((List.range kind.nMoves).filter fun a => a ≠ p.2).map
        fun a => ((sees p.1 a).map fun t => m.features.get f t).sum).sum).sum) := by
  obtain ⟨sees, c, u, x, h1, h2, h3, h4, h5⟩ := C85_exact h hf t ps hd
  have hn : m.nActions - 1 = kind.nMoves := by rw [h.ok.nActions]; simp
  rw [hn] at h4 h5
  refine ⟨sees, c, u, x, h1, h2, h3, fun f => ?_, h5⟩
  rw [h4]
  congr 1
  refine List.map_congr_left fun p hp => ?_
  obtain ⟨v, hv⟩ := directions_step t ps hd p hp
  rw [filter_eq_range hv.1]
  simp

/-- **C85 is false of the code.** Without self transitions (the default) the last direction is left out: for a
trajectory that always moves in it, nothing that was seen in the chosen direction counts, and with non-negative features
no feature gets a positive weight. -/
theorem C85_refuted (h : Mdp.GridReach kind W H false m) {fuel : Nat} (hf : W * H ≤ fuel) (t : List Nat)
    (ps : List (Nat × Nat)) (hd : Spec.Directions (GridStep kind W H fun t => m.walls.get t = 1) t ps)
    (hlast : ∀ p ∈ ps, p.2 + 1 = kind.nMoves)
    (hm : ∀ f, f < m.nFeatures → ∀ s, s < W * H → 0 ≤ m.features.get f s) :
    ∃ x, trajectoryEyelineDiff m fuel t = some (.ok x) ∧ ∀ f, f < m.nFeatures → x f ≤ 0 := by
  obtain ⟨sees, c, u, x, h1, h2, h3, h4, h5⟩ := C85_exact h hf t ps hd
  have hn : m.nActions - 1 = kind.nMoves - 1 := by rw [h.ok.nActions]; simp
  rw [hn] at h4 h5
  refine ⟨x, h2, fun f hfn => ?_⟩
  have hc : ∀ f, c f = 0 := by
    intro f
    rw [h4]
    refine List.sum_eq_zero fun y hy => ?_
    obtain ⟨p, hp, rfl⟩ := List.mem_map.1 hy
    have hl := hlast p hp
    have : (List.range (kind.nMoves - 1)).filter (fun a => decide (a = p.2)) = [] := by
      rw [List.filter_eq_nil_iff]
      intro b hb
      have := List.mem_range.1 hb
      simp only [decide_eq_true_iff]
      omega
    rw [this]
    rfl
  have hu : ∀ f, f < m.nFeatures → 0 ≤ u f := by
    intro f hf
    rw [h5]
    refine List.sum_nonneg fun y hy => ?_
    obtain ⟨p, hp, rfl⟩ := List.mem_map.1 hy
    obtain ⟨v, hv⟩ := directions_step t ps hd p hp
    refine List.sum_nonneg fun y hy => ?_
    obtain ⟨b, hb, rfl⟩ := List.mem_map.1 hy
    have hb := List.mem_range.1 (List.mem_filter.1 hb).1
    refine List.sum_nonneg fun y hy => ?_
    obtain ⟨w, hw, rfl⟩ := List.mem_map.1 hy
    exact hm f hf w ((h1 p.1 b hv.2.1 (by omega)).inside w hw)
  rw [h3 f hfn, ← normaliseCounts_share _ hfn, ← normaliseCounts_share _ hfn, (normalise_spec m.nFeatures c fun f _ => (hc f).ge).2.2 (fun f _ => hc f) f hfn, zero_sub, neg_nonpos]
  exact (normalise_spec m.nFeatures u hu).1 f hfn

/-- A 3×1 square grid; the only feature is in state 0. Moving from 2 to 1 (direction 3, towards the feature) gives the
feature weight 0 without self transitions and 1 with them. -/
example : (match Mdp.initGrid (K := ℚ) .square 3 1 false ⟨1, 3, fun _ s => if s = 0 then 1 else 0⟩ none,
      Mdp.initGrid (K := ℚ) .square 3 1 true ⟨1, 3, fun _ s => if s = 0 then 1 else 0⟩ none with
    | .ok m, .ok m' => match trajectoryEyelineDiff m 3 [2, 1], trajectoryEyelineDiff m' 3 [2, 1],
        simpleDiffFit 3 [m, m'] [[2, 1], [2, 1]] true none with
      | some (.ok x), some (.ok y), some (.ok z) => decide (x 0 = 0 ∧ y 0 = 1 ∧ z 0 = 1)
      | _, _, _ => false
    | _, _ => false) = true := by decide +kernel

end MaMDP
