import Verif.Lemmas.Drawing
import Verif.Props.Plotting
import Verif.Props.Mdp
import Verif.Props.Environment

/-! # Pictures: C128, C129, C130 -/

set_option linter.unusedSectionVars false

namespace MaMDP

variable {K : Type} [Field K] [LinearOrder K] [IsStrictOrderedRing K] {δ : Type}

/-! ## C128 trajectories in pictures -/

/-- After any history of plotting calls, among them (for hexagons) one that showed the grid, `plot_trajectory` draws
one arrow per move, each from the place of one state to the place of the next. Missing from the full claim: states that
some earlier `plot_state_values` left out, see `C128_refuted`. -/
theorem C128_partial {kind : GridKind} {W H : Nat} (ops : List (DrawOp K))
    (hops : ∀ m c a, DrawOp.plot m c a ∈ ops → ∃ selfT, Mdp.GridReach kind W H selfT m)
    (hsh : kind = .hex → ∃ op ∈ ops, Spec.Shows kind W H op) (t : List Nat) (ht : ∀ s ∈ t, s < W * H)
    (hh : kind = .hex → ∀ s ∈ t, ∀ op ∈ ops, ¬ Spec.Hides H s op) :
    ∃ l, plotTrajectory kind W H (drawRun kind W H ops) (t.map fun (s : Nat) => (s : Int)) = .ok l ∧
      l.length = t.length - 1 ∧ ∀ i (h : i + 1 < t.length), ∃ mk, l[i]? = some mk ∧
        Spec.Joins mk (Spec.place K kind H t[i]) (Spec.place K kind H t[i + 1]) := by
  unfold plotTrajectory
  rw [mapM_ok (g := fun (s : Int) => Spec.place K kind H s.toNat) (fun s hs => by
    obtain ⟨n, hn, rfl⟩ := List.mem_map.1 hs
    rw [stateToPosition_place ops hops hsh (ht n hn) (fun h => hh h n hn)]
    simp)]
  refine ⟨_, rfl, by rw [arrows_length]; simp, fun i h => ?_⟩
  obtain ⟨mk, h1, h2⟩ := arrows_get ((t.map fun (s : Nat) => (s : Int)).map fun s => Spec.place K kind H s.toNat) i
    (by simpa using h)
  exact ⟨mk, h1, by simpa using h2⟩

/-- Likewise `plot_sequence` writes 1, 2, 3, ... next to the states in the order they were visited. -/
theorem C128_sequence_partial {kind : GridKind} {W H : Nat} (ops : List (DrawOp K))
    (hops : ∀ m c a, DrawOp.plot m c a ∈ ops → ∃ selfT, Mdp.GridReach kind W H selfT m)
    (hsh : kind = .hex → ∃ op ∈ ops, Spec.Shows kind W H op) (t : List Nat) (ht : ∀ s ∈ t, s < W * H)
    (hh : kind = .hex → ∀ s ∈ t, ∀ op ∈ ops, ¬ Spec.Hides H s op) :
    ∃ l, plotSequence kind W H (drawRun kind W H ops) (t.map fun (s : Nat) => (s : Int)) = .ok l ∧
      l.length = t.length ∧ ∀ i (h : i < t.length), l[i]? = some (.numeral
        ((Spec.place K kind H t[i]).1 - 1 / 4, (Spec.place K kind H t[i]).2 - 1 / 4) (i + 1)) := by
  unfold plotSequence
  rw [mapM_ok (g := fun (s : Int) => Spec.place K kind H s.toNat) (fun s hs => by
    obtain ⟨n, hn, rfl⟩ := List.mem_map.1 hs
    rw [stateToPosition_place ops hops hsh (ht n hn) (fun h => hh h n hn)]
    simp)]
  obtain ⟨h1, h2⟩ := numerals_get ((t.map fun (s : Nat) => (s : Int)).map fun s => Spec.place K kind H s.toNat) 0
  refine ⟨_, rfl, by rw [h1]; simp, fun i h => ?_⟩
  rw [h2 i (by simpa using h)]
  simp

/-- A move to another state is one step in the picture: distance 1 on a square grid, and √3 on a hexagonal one, up to one
part in ten million (of the square). -/
theorem C128_steps {kind : GridKind} {W H : Nat} {selfT : Bool} {m : Mdp K} (hm : Mdp.GridReach kind W H selfT m)
    {s t a : Nat} (hs : s < W * H) (ht : t < W * H) (hne : s ≠ t) (hp : 0 < m.sas s a t) (ha : a < m.nActions) :
    match kind with
    | .square => Spec.dist2 (Spec.place K .square H s) (Spec.place K .square H t) = 1
    | .hex => Spec.dist2 (Spec.place K .hex H s) (Spec.place K .hex H t) ≤ 3 ∧
        3 * (1 - 1 / 10 ^ 7) < Spec.dist2 (Spec.place K .hex H s) (Spec.place K .hex H t) := by
  have g := hm.ok
  have hmv : kind.Move H selfT s a t := by
    by_contra h
    rw [g.sas s a t hs ht, if_neg h] at hp
    simp at hp
  cases kind with
  | square =>
    rcases hmv with ⟨d, hd, hcell⟩ | ⟨-, -, h⟩
    · have hd' : Spec.squareDir a = some d := hd
      have ha4 := squareDir_lt _ _ hd'
      unfold Spec.cell at hcell
      simp only [Prod.mk.injEq] at hcell
      obtain ⟨h1, h2⟩ := hcell
      have h1' : ((t / H : Nat) : K) = ((s / H : Nat) : K) + (d.1 : K) := by
        have := congrArg (Int.cast (R := K)) h1
        rwa [Int.cast_natCast, Int.cast_add, Int.cast_natCast] at this
      have h2' : ((t % H : Nat) : K) = ((s % H : Nat) : K) + (d.2 : K) := by
        have := congrArg (Int.cast (R := K)) h2
        rwa [Int.cast_natCast, Int.cast_add, Int.cast_natCast] at this
      simp only [Spec.place, Spec.dist2]
      rw [h1', h2']
      interval_cases a <;> simp only [Spec.squareDir, Option.some.injEq] at hd' <;> subst hd' <;> push_cast <;> ring
    · exact absurd h.symm hne
  | hex =>
    obtain ⟨c, hc⟩ := drawHexagons_all (K := K) g.pos
    have h := C80_touching hm (r := (1 : K)) one_pos hc hs ht hne (by simp) (by simp)
    have hadj : m.adjacency s t = true := (g.adj s t hs ht).2 ⟨a, ha, hmv⟩
    rw [drawHexagons_place hc hs, drawHexagons_place hc ht] at h
    simp only [List.not_mem_nil, if_false, one_pow, mul_one] at h
    exact ⟨h.1.1 hadj, h.2.1 hadj⟩

/-- A state that does not exist is reported before anything is drawn; so is asking for a trajectory on a hexagonal grid
that was never shown. -/
theorem C128_errors {kind : GridKind} {W H : Nat} (ops : List (DrawOp K))
    (hops : ∀ m c a, DrawOp.plot m c a ∈ ops → ∃ selfT, Mdp.GridReach kind W H selfT m) :
    ((kind = .hex → ∃ op ∈ ops, Spec.Shows kind W H op) → ∀ (t : List Int), (∃ s ∈ t, s < 0 ∨ (W * H : Nat) ≤ s) →
      plotTrajectory kind W H (drawRun kind W H ops) t = .error .valueError ∧
      plotSequence kind W H (drawRun kind W H ops) t = .error .valueError) ∧
    ∀ s : Nat, s < W * H → ∀ t : List Int,
      plotTrajectory .hex W H (none : Option (Nat → Nat → K × K)) (s :: t) = .error .attributeError ∧
      plotSequence .hex W H (none : Option (Nat → Nat → K × K)) (s :: t) = .error .attributeError := by
  constructor
  · intro hsh t
    have hout : ∀ s : Int, s < 0 ∨ (W * H : Nat) ≤ s →
        stateToPosition kind W H (drawRun kind W H ops) s = .error .valueError := by
      intro s hs
      have hu : unravelIndex W H s = .error .valueError := by
        unfold unravelIndex
        rw [if_neg]
        push_cast at hs
        omega
      unfold stateToPosition
      cases kind with
      | square => simp only [squareStateToPosition, hu]
      | hex => simp only [hexStateToPosition, hu]
    have hin : ∀ s : Int, ¬ (s < 0 ∨ (W * H : Nat) ≤ s) →
        ∃ p, stateToPosition kind W H (drawRun kind W H ops) s = .ok p := by
      intro s hs
      have hu : unravelIndex W H s = .ok (s.toNat / H, s.toNat % H) := by
        unfold unravelIndex
        rw [if_pos]
        push_cast at hs
        omega
      unfold stateToPosition
      cases kind with
      | square => simp only [squareStateToPosition, hu]; exact ⟨_, rfl⟩
      | hex =>
        simp only [hexStateToPosition, hu]
        cases hd : drawRun .hex W H ops with
        | none => exact absurd hd ((drawRun_facts ops hops).2 rfl (hsh rfl))
        | some c => exact ⟨_, rfl⟩
    have key : ∀ t : List Int, (∃ s ∈ t, s < 0 ∨ (W * H : Nat) ≤ s) →
        t.mapM (m := Except PyErr) (stateToPosition kind W H (drawRun kind W H ops)) = .error .valueError := by
      intro t
      induction t with
      | nil => rintro ⟨s, h, -⟩; cases h
      | cons u t ih =>
        rintro ⟨s, hs, hso⟩
        rw [List.mapM_cons]
        by_cases hu : u < 0 ∨ (W * H : Nat) ≤ u
        · rw [hout u hu]; rfl
        · obtain ⟨p, hp⟩ := hin u hu
          rcases List.mem_cons.1 hs with rfl | hs
          · exact absurd hso hu
          · rw [hp, ih ⟨s, hs, hso⟩]; rfl
    intro ht
    unfold plotTrajectory plotSequence
    rw [key t ht]
    exact ⟨rfl, rfl⟩
  · intro s hs t
    have hu : stateToPosition .hex W H (none : Option (Nat → Nat → K × K)) (s : Int) = .error .attributeError := by
      simp only [stateToPosition, hexStateToPosition, unravelIndex]
      rw [if_pos ⟨by omega, by exact_mod_cast hs⟩]
    unfold plotTrajectory plotSequence
    rw [List.mapM_cons, hu]
    exact ⟨rfl, rfl⟩

/-- A hexagonal MDP with four states. -/
def exHex : Py (Mdp Rat) := Mdp.initGrid .hex 2 2 false ⟨1, 4, fun _ s => if s = 3 then 1 else 0⟩ none

/-- The grid was shown completely, then state values were shown elsewhere without state 3. A trajectory from state 1 to
state 3 drawn into the first picture ends at the origin, where no state is. -/
theorem C128_refuted : ∃ (m : Mdp Rat) (v : Arr1 (Ext Rat)) (mk : Mark Rat), Mdp.GridReach .hex 2 2 false m ∧
    (∃ a, a < m.nActions ∧ 0 < m.sas 1 a 3) ∧
    Spec.Shows .hex 2 2 (DrawOp.plot m none none) ∧ Spec.Shows .hex 2 2 (DrawOp.values v [(1, 1)]) ∧
    plotTrajectory .hex 2 2 (drawRun .hex 2 2 [.plot m none none, .values v [(1, 1)]]) [1, 3] = .ok [mk] ∧
    Spec.Joins mk (Spec.place Rat .hex 2 1) (0, 0) ∧ Spec.place Rat .hex 2 3 ≠ (0, 0) := by
  have key : ∀ x, exHex = x → (match x with
      | .error _ => false
      | .ok m =>
        let v : Arr1 (Ext Rat) := ⟨4, fun s => .fin s⟩
        decide (∃ a : Fin 6, 0 < m.sas 1 a 3) && decide (m.nActions = 6) &&
        (match (plotMdp .hex 2 2 none m none none).2, (plotValues .hex 2 2 none v [(1, 1)]).2 with
          | .ok _, .ok _ => true
          | _, _ => false) &&
        (match plotTrajectory .hex 2 2 (drawRun .hex 2 2 [.plot m none none, .values v [(1, 1)]]) [1, 3] with
          | .ok [.arrow p d] => decide (p = Spec.place Rat .hex 2 1) && decide (p.1 + d.1 = 0) && decide (p.2 + d.2 = 0)
          | _ => false)) = true →
      ∃ (m : Mdp Rat) (v : Arr1 (Ext Rat)) (mk : Mark Rat), Mdp.GridReach .hex 2 2 false m ∧
        (∃ a, a < m.nActions ∧ 0 < m.sas 1 a 3) ∧
        Spec.Shows .hex 2 2 (DrawOp.plot m none none) ∧ Spec.Shows .hex 2 2 (DrawOp.values v [(1, 1)]) ∧
        plotTrajectory .hex 2 2 (drawRun .hex 2 2 [.plot m none none, .values v [(1, 1)]]) [1, 3] = .ok [mk] ∧
        Spec.Joins mk (Spec.place Rat .hex 2 1) (0, 0) := by
    intro x hx h
    cases x with
    | error e => cases h
    | ok m =>
      simp only [Bool.and_eq_true, decide_eq_true_eq] at h
      obtain ⟨⟨⟨⟨a, ha⟩, hn⟩, h2⟩, h3⟩ := h
      split at h2
      · next l1 l2 e1 e2 =>
        split at h3
        · next p d e3 =>
          simp only [Bool.and_eq_true, decide_eq_true_eq] at h3
          obtain ⟨⟨rfl, h4⟩, h5⟩ := h3
          exact ⟨m, _, _, .init hx, ⟨a, by rw [hn]; exact a.2, ha⟩, ⟨_, _, Prod.ext rfl e1⟩, ⟨_, _, Prod.ext rfl e2⟩, e3,
            _, rfl, h4, h5⟩
        · cases h3
      · cases h2
  obtain ⟨m, v, mk, h⟩ := key _ rfl (by decide +kernel)
  exact ⟨m, v, mk, h.1, h.2.1, h.2.2.1, h.2.2.2.1, h.2.2.2.2.1, h.2.2.2.2.2, by decide +kernel⟩

/-- A history that meets the hypotheses of `C128_partial`, with the arrows it leads to. -/
example : ∃ m : Mdp Rat, Mdp.GridReach .hex 2 2 false m ∧ Spec.Shows .hex 2 2 (DrawOp.plot m none none) ∧
    (∃ l, plotTrajectory .hex 2 2 (drawRun .hex 2 2 [.plot m none none, .trajectory [0, 1]]) [0, 1, 3] = .ok l ∧
      l.length = 2) := by
  have key : ∀ x, exHex = x → (match x with
      | .error _ => false
      | .ok m => (match (plotMdp .hex 2 2 none m none none).2 with | .ok _ => true | _ => false) &&
        (match plotTrajectory .hex 2 2 (drawRun .hex 2 2 [.plot m none none, .trajectory [0, 1]]) [0, 1, 3] with
          | .ok l => decide (l.length = 2)
          | _ => false)) = true →
      ∃ m : Mdp Rat, Mdp.GridReach .hex 2 2 false m ∧ Spec.Shows .hex 2 2 (DrawOp.plot m none none) ∧
        (∃ l, plotTrajectory .hex 2 2 (drawRun .hex 2 2 [.plot m none none, .trajectory [0, 1]]) [0, 1, 3] = .ok l ∧
          l.length = 2) := by
    intro x hx h
    cases x with
    | error e => cases h
    | ok m =>
      simp only [Bool.and_eq_true] at h
      obtain ⟨h1, h2⟩ := h
      split at h1
      · next l1 e1 =>
        split at h2
        · next l e => exact ⟨m, .init hx, ⟨_, _, Prod.ext rfl e1⟩, l, e, of_decide_eq_true h2⟩
        · cases h2
      · cases h1
  exact key _ rfl (by decide +kernel)

/-! ## C129 the picture of an environment -/

/-- What the picture of a grid consists of, feature layers first. -/
theorem C129_grid {kind : GridKind} {W H : Nat} {selfT : Bool} {m : Mdp K} (hm : Mdp.GridReach kind W H selfT m)
    (hn : 0 < m.nAgents) (coords : Option (Nat → Nat → K × K)) {colours : Option (List String)}
    {alphas : Option (List K)} {col : Nat → Paint} {al : Nat → K}
    (hc : ∀ f, f < m.features.d0 - m.nAgents → Spec.Coloured colours f (col f))
    (ha : ∀ f, f < m.features.d0 - m.nAgents → Spec.Opaque alphas f (al f)) :
    ∃ coords' features walls, plotMdp kind W H coords m colours alphas = (coords', .ok (features ++ walls)) ∧
      (kind = .hex → ∃ c, coords' = some c ∧ drawHexagons 1 W H [] = .ok c) ∧
      features.length = (m.features.d0 - m.nAgents + if kind = .hex then 1 else 0) * (W * H) ∧
      walls.length = (1 + if kind = .hex then 1 else 0) * (W * H) ∧
      (∀ mk, mk ∈ features ↔
        (∃ f s, f < m.features.d0 - m.nAgents ∧ s < W * H ∧
          mk = .cell (Spec.place K kind H s) (col f) (max 0 (min 1 (m.features.get f s)) * al f)) ∨
        (kind = .hex ∧ ∃ s, s < W * H ∧ mk = .cell (Spec.place K kind H s) .clear 0)) ∧
      (∀ mk, mk ∈ walls ↔
        (∃ s, s < W * H ∧ mk = .cell (Spec.place K kind H s) (.named "#595959")
          (if m.walls.get s = 1 then 1 else 0)) ∨
        (kind = .hex ∧ ∃ s, s < W * H ∧ mk = .cell (Spec.place K kind H s) .clear 0)) := by
  have g := hm.ok
  obtain ⟨L, hL, h1, h2, h0, hget⟩ := plottedLayers_ok hm
  rw [if_neg (by omega)] at h0
  have hback : ∀ s, s / H * H + s % H = s := fun s => Nat.div_add_mod' s H
  have wc : ∀ f, f < 1 → Spec.Coloured (some ["#595959"]) f (.named "#595959") := by
    intro f hf
    obtain rfl : f = 0 := by omega
    exact .given rfl
  have wa : ∀ f, f < 1 → Spec.Opaque (some [(1 : K)]) f 1 := by
    intro f hf
    obtain rfl : f = 0 := by omega
    exact .given rfl
  unfold plotMdp
  rw [hL, wallGrid_ok hm]
  cases kind with
  | square =>
    obtain ⟨l, e1, l1, m1⟩ := plotGrids_ok (g := L) (col := col) (al := al) (h0 ▸ hc) (h0 ▸ ha)
    obtain ⟨w, e2, l2, m2⟩ := plotGrids_ok (g := (⟨1, W, H, fun _ x y => m.walls.get (x * H + y)⟩ : Arr3 K))
      (col := fun _ => .named "#595959") (al := fun _ => 1) wc wa
    simp only [e1, e2]
    refine ⟨_, l, w, rfl, by simp, by rw [l1, h0, h1, h2]; simp, by rw [l2]; simp, fun mk => ?_, fun mk => ?_⟩
    · rw [m1, h0, h1, h2]
      simp only [hget, hback, clip01, reduceCtorEq, false_and, or_false]
    · rw [m2]
      simp only [hback, reduceCtorEq, false_and, or_false, mul_one]
      constructor
      · rintro ⟨f, s, -, hs, rfl⟩
        exact ⟨s, hs, by rw [clip01_wall (g.walls01 s hs)]⟩
      · rintro ⟨s, hs, rfl⟩
        exact ⟨0, s, by omega, hs, by rw [clip01_wall (g.walls01 s hs)]⟩
  | hex =>
    obtain ⟨l, c, e1, d1, l1, m1⟩ := plotHexGrids_ok (g := L) (col := col) (al := al) (by rw [h1, h2]; exact g.pos)
      (h0 ▸ hc) (h0 ▸ ha)
    obtain ⟨w, c', e2, d2, l2, m2⟩ := plotHexGrids_ok (g := (⟨1, W, H, fun _ x y => m.walls.get (x * H + y)⟩ : Arr3 K))
      (col := fun _ => .named "#595959") (al := fun _ => 1) g.pos wc wa
    simp only [e1, e2]
    rw [h1, h2] at d1
    refine ⟨_, l, w, rfl, fun _ => ⟨c, rfl, d1⟩, by rw [l1, h0, h1, h2]; simp, by rw [l2]; simp, fun mk => ?_, fun mk => ?_⟩
    · rw [m1, h0, h1, h2]
      simp only [hget, hback, clip01, true_and]
    · rw [m2]
      simp only [hback, true_and, mul_one]
      constructor
      · rintro (⟨f, s, -, hs, rfl⟩ | h)
        · exact .inl ⟨s, hs, by rw [clip01_wall (g.walls01 s hs)]⟩
        · exact .inr h
      · rintro (⟨s, hs, rfl⟩ | h)
        · exact .inl ⟨0, s, by omega, hs, by rw [clip01_wall (g.walls01 s hs)]⟩
        · exact .inr h

/-- `Environment.plot`, after any history of calls and whatever was plotted before: the features and walls as in
`C129_grid`, and on top of them one marker per agent, at the place of the agent's state, with the shape and colour asked
for, or a black X. Missing from the full claim: agents whose position was given as a negative number (see
`C129_refuted`). -/
theorem C129_partial {kind : GridKind} {W H : Nat} {selfT : Bool} {m m' : Mdp K} {specs : List (AgentSpec K δ)}
    {e0 : Env K δ} (hm : Mdp.GridReach kind W H selfT m) (hinit : Env.init m specs = (m', .ok e0)) (hne : specs ≠ [])
    (ops : List (EnvOp K δ)) (hpos : ∀ a ∈ (e0.run ops).agents, 0 ≤ a.position)
    (coords : Option (Nat → Nat → K × K)) {colours : Option (List String)} {alphas : Option (List K)}
    {col : Nat → Paint} {al : Nat → K} (hc : ∀ f, f < m.features.d0 - m.nAgents → Spec.Coloured colours f (col f))
    (ha : ∀ f, f < m.features.d0 - m.nAgents → Spec.Opaque alphas f (al f))
    (markers agentColours : String → Option String) :
    ∃ coords' cells, (plotMdp kind W H coords (e0.run ops).mdp colours alphas) = (coords', .ok cells) ∧
      (e0.run ops).plot kind W H coords colours alphas markers agentColours = (coords', .ok (cells ++
        (e0.run ops).agents.map fun a => .marker (Spec.place K kind H a.position.toNat)
          (match markers a.name with | some x => x | none => "X")
          (match agentColours a.name with | some x => x | none => "black"))) ∧
      (∀ f s, f < m.features.d0 - m.nAgents → s < W * H → Mark.cell (Spec.place K kind H s) (col f)
        (max 0 (min 1 ((e0.run ops).mdp.features.get f s)) * al f) ∈ cells) ∧
      ∀ s, s < W * H → Mark.cell (Spec.place K kind H s) (.named "#595959")
        (if (e0.run ops).mdp.walls.get s = 1 then 1 else 0) ∈ cells := by
  obtain ⟨hok, hl⟩ := Env.started hm hinit ops
  obtain ⟨-, -, -, -, -, -, hd, hn, -⟩ := Env.init_facts hm hinit
  have hlen : 0 < specs.length := List.length_pos_iff.2 hne
  have hnA : (e0.run ops).mdp.nAgents = specs.length := by rw [hl.nAgents, hn]
  have hown : (e0.run ops).mdp.features.d0 - (e0.run ops).mdp.nAgents = m.features.d0 - m.nAgents := by
    rw [hnA, hl.d0, hd]; omega
  obtain ⟨c', fs, ws, h1, h2, -, -, h3, h4⟩ := C129_grid hok.reach (by omega) coords (colours := colours)
    (alphas := alphas) (col := col) (al := al) (hown ▸ hc) (hown ▸ ha)
  rw [hown] at h3
  refine ⟨c', fs ++ ws, h1, ?_, fun f s hf hs => List.mem_append_left _ ((h3 _).2 (.inl ⟨f, s, hf, hs, rfl⟩)),
    fun s hs => List.mem_append_right _ ((h4 _).2 (.inl ⟨s, hs, rfl⟩))⟩
  unfold Env.plot
  rw [h1]
  simp only
  rw [mapM_ok (g := fun a : Agent K δ => Mark.marker (Spec.place K kind H a.position.toNat)
          (match markers a.name with | some x => x | none => "X")
          (match agentColours a.name with | some x => x | none => "black"))]
  intro a hmem
  obtain ⟨j, hj, -⟩ := hok.pos a hmem
  rw [hok.reach.ok.nStates] at hj
  have hp := hpos a hmem
  have hlt : a.position < (W * H : Nat) := by
    by_contra h
    unfold pyIdx at hj
    rw [if_pos hp, if_neg h] at hj
    cases hj
  have hu : unravelIndex W H a.position = .ok (a.position.toNat / H, a.position.toNat % H) := by
    unfold unravelIndex
    rw [if_pos ⟨hp, by exact_mod_cast hlt⟩]
  have hpl : stateToPosition kind W H c' a.position = .ok (Spec.place K kind H a.position.toNat) := by
    unfold stateToPosition
    cases kind with
    | square => simp only [squareStateToPosition, hu]; rfl
    | hex =>
      obtain ⟨c, rfl, hc'⟩ := h2 rfl
      simp only [hexStateToPosition, hu]
      rw [drawHexagons_place hc' (by omega)]
      simp
  unfold Env.agentMark
  rw [hpl]
  cases markers a.name <;> cases agentColours a.name <;> rfl

/-- An agent may be placed by a negative number, counted from the last state; the environment can then be used, but not
plotted: every attempt raises `ValueError`. -/
theorem C129_refuted {kind : GridKind} {W H : Nat} {selfT : Bool} {m m' : Mdp K} {specs : List (AgentSpec K δ)}
    {e0 : Env K δ} (hm : Mdp.GridReach kind W H selfT m) (hinit : Env.init m specs = (m', .ok e0)) (hne : specs ≠ [])
    (ops : List (EnvOp K δ)) (hneg : ∃ a ∈ (e0.run ops).agents, a.position < 0)
    (coords : Option (Nat → Nat → K × K)) (markers agentColours : String → Option String) :
    ((e0.run ops).plot kind W H coords none none markers agentColours).2 = .error .valueError := by
  obtain ⟨hok, hl⟩ := Env.started hm hinit ops
  obtain ⟨-, -, -, -, -, -, hd, hn, -⟩ := Env.init_facts hm hinit
  have hlen : 0 < specs.length := List.length_pos_iff.2 hne
  have hnA : (e0.run ops).mdp.nAgents = specs.length := by rw [hl.nAgents, hn]
  obtain ⟨c', fs, ws, h1, h2, -⟩ := C129_grid hok.reach (by omega) coords (colours := none)
    (alphas := none) (col := fun f => .tab10 (min f 9)) (al := fun _ => 1 / 2) (fun f _ => by
      by_cases h : f < 10
      · rw [Nat.min_eq_left (by omega)]; exact .palette h
      · rw [Nat.min_eq_right (by omega)]; exact .last (by omega)) (fun _ _ => .half)
  unfold Env.plot
  rw [h1]
  simp only
  have key : ∀ l : List (Agent K δ), (∀ a ∈ l, a ∈ (e0.run ops).agents) → (∃ a ∈ l, a.position < 0) →
      l.mapM (m := Except PyErr) (Env.agentMark kind W H c' markers agentColours) = .error .valueError := by
    intro l
    induction l with
    | nil => rintro - ⟨a, h, -⟩; cases h
    | cons b l ih =>
      rintro hall ⟨a, ha, hneg⟩
      rw [List.mapM_cons]
      by_cases hb : b.position < 0
      · have hu : unravelIndex W H b.position = .error .valueError := by
          unfold unravelIndex
          rw [if_neg (by omega)]
        have : Env.agentMark kind W H c' markers agentColours b = .error .valueError := by
          unfold Env.agentMark stateToPosition
          cases kind with
          | square => simp only [squareStateToPosition, hu]
          | hex => simp only [hexStateToPosition, hu]
        rw [this]; rfl
      · obtain ⟨j, hj, -⟩ := hok.pos b (hall b (by simp))
        rw [hok.reach.ok.nStates] at hj
        have hlt : b.position < (W * H : Nat) := by
          by_contra h
          unfold pyIdx at hj
          rw [if_pos (by omega), if_neg h] at hj
          cases hj
        have hu : unravelIndex W H b.position = .ok (b.position.toNat / H, b.position.toNat % H) := by
          unfold unravelIndex
          rw [if_pos ⟨by omega, by exact_mod_cast hlt⟩]
        have : ∃ mk, Env.agentMark kind W H c' markers agentColours b = .ok mk := by
          unfold Env.agentMark stateToPosition
          cases kind with
          | square => simp only [squareStateToPosition, hu]; exact ⟨_, rfl⟩
          | hex =>
            obtain ⟨c, rfl, -⟩ := h2 rfl
            simp only [hexStateToPosition, hu]; exact ⟨_, rfl⟩
        obtain ⟨mk, hmk⟩ := this
        rcases List.mem_cons.1 ha with rfl | ha
        · exact absurd hneg hb
        · rw [hmk, ih (fun a h => hall a (by simp [h])) ⟨a, ha, hneg⟩]; rfl
  rw [key _ (fun _ h => h) hneg]

/-- Two agents in the corridor: the picture exists, with the fox's marker chosen by the caller. -/
example : ∃ m m' e, Mdp.GridReach .square 1 3 false m ∧ Env.init m exSpecs = (m', .ok e) ∧
    (match (e.plot .square 1 3 none none none (fun n => if n = "fox" then some "o" else none) fun _ => none).2 with
    | .ok l => (match l.reverse with
      | .marker p x _ :: .marker q y _ :: _ => decide (p = (0, 2)) && decide (q = (0, 0)) && (x == "X") && (y == "o")
      | _ => false)
    | .error _ => false) = true :=
  exStart (fun e =>
    match (e.plot .square 1 3 none none none (fun n => if n = "fox" then some "o" else none) fun _ => none).2 with
    | .ok l => (match l.reverse with
      | .marker p x _ :: .marker q y _ :: _ => decide (p = (0, 2)) && decide (q = (0, 0)) && (x == "X") && (y == "o")
      | _ => false)
    | .error _ => false) (by decide +kernel)

/-- Moving the hen to state -1 is accepted; then `C129_refuted` applies. -/
example : ∃ m m' e, Mdp.GridReach .square 1 3 false m ∧ Env.init m exSpecs = (m', .ok e) ∧
    ∃ a ∈ (e.run [.setAgentPosition "hen" (-1)]).agents, a.position < 0 := by
  obtain ⟨m, m', e, h1, h2, h3⟩ := exStart
    (fun e => (e.run [.setAgentPosition "hen" (-1)]).agents.any fun a => decide (a.position < 0)) (by decide +kernel)
  obtain ⟨a, ha, hn⟩ := List.any_eq_true.1 h3
  exact ⟨m, m', e, h1, h2, a, ha, of_decide_eq_true hn⟩

/-- `Environment.plot_state_values` on a hexagonal grid shows each state that is not left out with its value for the
agent, and nothing else; on a square grid it shows it at the mirror image of its place (see `C89_refuted_values`). An
unknown name and an agent without a plan are reported. -/
theorem C129_values {kind : GridKind} {W H : Nat} (e : Env K δ) (coords : Option (Nat → Nat → K × K)) (name : String)
    (hide : List (Int × Int)) :
    (name ∉ e.agentNames → e.plotStateValues kind W H coords name hide = (coords, .error .valueError)) ∧
    ∀ a, name ∈ e.agentNames → e.agent? name = some a →
      (a.alg.fitComplete = false → e.plotStateValues kind W H coords name hide = (coords, .error .attributeError)) ∧
      ∀ v, a.alg.fitComplete = true → a.alg.values = some v → v.d0 = W * H →
        (kind = .hex → (∃ s, s < W * H ∧ (((s / H : Nat) : Int), ((s % H : Nat) : Int)) ∉ hide) →
          ∃ c l, e.plotStateValues kind W H coords name hide = (some c, .ok l) ∧ ∀ mk, mk ∈ l ↔ ∃ s, s < W * H ∧
            (((s / H : Nat) : Int), ((s % H : Nat) : Int)) ∉ hide ∧
            (mk = .value (Spec.place K .hex H s) (v.get s) ∨ mk = .cell (Spec.place K .hex H s) .clear 0)) ∧
        (kind = .square →
          ∃ l, e.plotStateValues kind W H coords name hide = (coords, .ok l) ∧ ∀ mk, mk ∈ l ↔ ∃ s, s < W * H ∧
            mk = .value ((Spec.place K .square H s).2, (Spec.place K .square H s).1) (v.get s)) := by
  refine ⟨fun h => by unfold Env.plotStateValues; rw [if_pos h], fun a hn ha => ⟨fun hf => ?_, fun v hf hv hlen =>
    ⟨?_, ?_⟩⟩⟩
  · unfold Env.plotStateValues
    rw [if_neg (not_not.2 hn), ha]
    simp only
    rw [if_pos hf]
  · rintro rfl ⟨s0, hs0, hh0⟩
    unfold Env.plotStateValues
    rw [if_neg (not_not.2 hn), ha]
    simp only
    rw [if_neg (by simp [hf]), hv]
    simp only [plotValues, Mdp.flatToGrid]
    rw [if_pos hlen]
    obtain ⟨h1, h2⟩ := div_mod_lt hs0
    have hd : ∃ c : Nat → Nat → K × K, drawHexagons 1 W H hide = .ok c := by
      unfold drawHexagons
      simp only
      rw [if_neg]
      · exact ⟨_, rfl⟩
      · intro h
        have := mem_drawn (W := W) (H := H).2 ⟨h1, h2, hh0⟩
        rw [h] at this
        cases this
    obtain ⟨c, hc⟩ := hd
    simp only [hc]
    refine ⟨c, _, rfl, fun mk => ?_⟩
    rw [List.mem_append, outline_mem]
    constructor
    · rintro (h | ⟨s, hs, hh, rfl⟩)
      · obtain ⟨⟨x, z⟩, hmem, rfl⟩ := List.mem_map.1 h
        obtain ⟨hx, hz, hh⟩ := mem_drawn.1 hmem
        obtain ⟨e1, e2⟩ := cell_of_state (s := x * H + z) hz rfl
        refine ⟨x * H + z, state_lt hx hz, by rw [e1, e2]; exact hh, .inl ?_⟩
        rw [← hexPoint_place, e1, e2]
      · exact ⟨s, hs, hh, .inr rfl⟩
    · rintro ⟨s, hs, hh, rfl | rfl⟩
      · obtain ⟨h1, h2⟩ := div_mod_lt hs
        refine .inl (List.mem_map.2 ⟨(s / H, s % H), mem_drawn.2 ⟨h1, h2, hh⟩, ?_⟩)
        simp only [hexPoint_place, Nat.div_add_mod']
      · exact .inr ⟨s, hs, hh, rfl⟩
  · rintro rfl
    unfold Env.plotStateValues
    rw [if_neg (not_not.2 hn), ha]
    simp only
    rw [if_neg (by simp [hf]), hv]
    simp only [plotValues, Mdp.flatToGrid]
    rw [if_pos hlen]
    refine ⟨_, rfl, fun mk => ?_⟩
    simp only [List.mem_flatMap, List.mem_map, List.mem_range]
    constructor
    · rintro ⟨x, hx, z, hz, rfl⟩
      obtain ⟨e1, e2⟩ := cell_of_state (s := x * H + z) hz rfl
      refine ⟨x * H + z, state_lt hx hz, ?_⟩
      unfold Spec.place
      simp only [e1, e2]
    · rintro ⟨s, hs, rfl⟩
      obtain ⟨h1, h2⟩ := div_mod_lt hs
      refine ⟨s / H, h1, s % H, h2, ?_⟩
      simp only [Spec.place, Nat.div_add_mod']

/-- The fitted fox's values can be shown, the unfitted hen's cannot. -/
example : ∃ m m' e, Mdp.GridReach .square 1 3 false m ∧ Env.init m exSpecs = (m', .ok e) ∧
    (match ((e.run exOps).plotStateValues .square 1 3 none "fox" []).2,
      ((e.run exOps).plotStateValues .square 1 3 none "hen" []).2 with
    | .ok l, .error err => decide (l.length = 3) && decide (err = .attributeError)
    | _, _ => false) = true :=
  exStart (fun e => match ((e.run exOps).plotStateValues .square 1 3 none "fox" []).2,
      ((e.run exOps).plotStateValues .square 1 3 none "hen" []).2 with
    | .ok l, .error err => decide (l.length = 3) && decide (err = .attributeError)
    | _, _ => false) (by decide +kernel)

/-! ## C130 colours -/

/-- Different features have different colours (the colours in which `C129_grid` says they are drawn), if the caller
names different ones or there are at most ten features. Missing from the full claim: more features, see
`C130_refuted`. -/
theorem C130_partial {colours : Option (List String)} {f g : Nat} {c d : Paint} (hf : Spec.Coloured colours f c)
    (hg : Spec.Coloured colours g d) (hne : f ≠ g) (hnone : colours = none → f < 10 ∧ g < 10)
    (hsome : ∀ l, colours = some l → l.Nodup) : c ≠ d := by
  cases hf with
  | palette h1 => cases hg with
    | palette h2 => intro h; cases h; exact hne rfl
    | last h2 => have := hnone rfl; omega
  | last h1 => have := hnone rfl; omega
  | given h1 => cases hg with
    | given h2 =>
      intro h
      cases h
      obtain ⟨l1, e1⟩ := List.getElem?_eq_some_iff.1 h1
      obtain ⟨l2, e2⟩ := List.getElem?_eq_some_iff.1 h2
      exact hne ((hsome _ rfl).getElem_inj_iff.1 (e1.trans e2.symm))

/-- By default all features from the tenth on are drawn in the same colour. -/
theorem C130_refuted {f g : Nat} (hf : 9 ≤ f) (hg : 9 ≤ g) {c d : Paint} (hc : Spec.Coloured none f c)
    (hd : Spec.Coloured none g d) : c = d := by
  cases hc with
  | palette h1 => cases hd with
    | palette h2 => obtain rfl : f = g := by omega
                    rfl
    | last h2 => obtain rfl : f = 9 := by omega
                 rfl
  | last h1 => cases hd with
    | palette h2 => obtain rfl : g = 9 := by omega
                    rfl
    | last h2 => rfl

/-- With fewer colours than features nothing is returned: `IndexError`. -/
theorem C130_short {kind : GridKind} {W H : Nat} {selfT : Bool} {m : Mdp K} (hm : Mdp.GridReach kind W H selfT m)
    (hn : 0 < m.nAgents) (coords : Option (Nat → Nat → K × K)) (alphas : Option (List K)) (l : List String)
    (hl : l.length < m.features.d0 - m.nAgents) :
    plotMdp kind W H coords m (some l) alphas = (coords, .error .indexError) := by
  obtain ⟨L, hL, h1, h2, h0, hget⟩ := plottedLayers_ok hm
  rw [if_neg (by omega)] at h0
  have key : ∀ (F : Nat → Py (List (Mark K))) (r : List Nat),
      (∀ f e, layerStyle (some l) alphas f = .error e → F f = .error e) →
      (∀ f x, layerStyle (some l) alphas f = .ok x → ∃ y, F f = .ok y) → (∃ f ∈ r, l.length ≤ f) →
      r.mapM (m := Except PyErr) F = .error .indexError := by
    intro F r hF1 hF2
    induction r with
    | nil => rintro ⟨f, h, -⟩; cases h
    | cons u r ih =>
      rintro ⟨f, hf, hlf⟩
      rw [List.mapM_cons]
      by_cases hu : l.length ≤ u
      · have : layerStyle (some l) alphas u = .error .indexError := by
          unfold layerStyle
          simp only
          rw [List.getElem?_eq_none hu]
        rw [hF1 _ _ this]; rfl
      · rcases List.mem_cons.1 hf with rfl | hf
        · exact absurd hlf hu
        · have : layerStyle (some l) alphas u = .error .indexError ∨ ∃ x, layerStyle (some l) alphas u = .ok x := by
            unfold layerStyle
            simp only
            rw [List.getElem?_eq_getElem (by omega)]
            simp only
            cases alphas with
            | none => exact .inr ⟨_, rfl⟩
            | some al =>
              simp only
              cases al[u]? with
              | none => exact .inl rfl
              | some a => exact .inr ⟨_, rfl⟩
          rcases this with h | ⟨x, h⟩
          · rw [hF1 _ _ h]; rfl
          · obtain ⟨y, hy⟩ := hF2 _ _ h
            rw [hy, ih ⟨f, hf, hlf⟩]; rfl
  have hex : ∃ f ∈ List.range L.d0, l.length ≤ f := ⟨l.length, by rw [List.mem_range, h0]; exact hl, le_rfl⟩
  unfold plotMdp
  rw [hL]
  cases kind with
  | square =>
    have : plotGrids L (some l) alphas = .error .indexError := by
      unfold plotGrids
      rw [key _ _ (fun f e h => by rw [h]) (fun f x h => by rw [h]; exact ⟨_, rfl⟩) hex]
    simp only [this]
  | hex =>
    have : plotHexGrids L (some l) alphas = .error .indexError := by
      unfold plotHexGrids
      rw [key _ _ (fun f e h => by rw [h]) (fun f x h => by rw [h]; exact ⟨_, rfl⟩) hex]
    simp only [this]

/-- Two colours for a grid with two features of its own. -/
example : Spec.Coloured (some ["red", "blue"]) 0 (.named "red") ∧ Spec.Coloured (some ["red", "blue"]) 1 (.named "blue") ∧
    ["red", "blue"].Nodup := ⟨.given rfl, .given rfl, by decide⟩

end MaMDP
