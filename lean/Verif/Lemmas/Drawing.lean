import Verif.Spec.Drawing
import Verif.Lemmas.Plotting
import Verif.Lemmas.EnvStart
import Verif.Lemmas.EnvIO

/-! # Lemmas about pictures -/

set_option linter.unusedSectionVars false

namespace MaMDP

variable {K : Type} [Field K] [LinearOrder K] [IsStrictOrderedRing K]

theorem hexPoint_place (H s : Nat) : hexPoint (1 : K) (s / H) (s % H) = Spec.place K .hex H s := by
  rw [hexPoint_eq]
  unfold Spec.place innerRadius
  simp

theorem cell_of_state {H s x z : Nat} (hz : z < H) (h : s = x * H + z) : s / H = x ∧ s % H = z := by
  subst h
  constructor
  · rw [Nat.mul_comm, Nat.mul_add_div (by omega), Nat.div_eq_of_lt hz]; omega
  · rw [Nat.mul_comm, Nat.mul_add_mod, Nat.mod_eq_of_lt hz]

theorem state_lt {W H x z : Nat} (hx : x < W) (hz : z < H) : x * H + z < W * H := by
  calc x * H + z < x * H + H := by omega
    _ = (x + 1) * H := by ring
    _ ≤ W * H := Nat.mul_le_mul_right _ hx

theorem hexCells_mem {g : Arr3 K} {f : Nat} {c : Paint} {a : K} {mk : Mark K} :
    mk ∈ hexCells g f c a ↔ ∃ s, s < g.d1 * g.d2 ∧
      mk = .cell (Spec.place K .hex g.d2 s) c (clip01 (g.get f (s / g.d2) (s % g.d2)) * a) := by
  unfold hexCells
  simp only [List.mem_map, Prod.exists]
  constructor
  · rintro ⟨x, z, h, rfl⟩
    obtain ⟨hx, hz, -⟩ := mem_drawn.1 h
    refine ⟨x * g.d2 + z, state_lt hx hz, ?_⟩
    obtain ⟨e1, e2⟩ := cell_of_state hz rfl
    rw [← hexPoint_place, e1, e2]
  · rintro ⟨s, hs, rfl⟩
    obtain ⟨h1, h2⟩ := div_mod_lt hs
    exact ⟨s / g.d2, s % g.d2, mem_drawn.2 ⟨h1, h2, by simp⟩, by rw [hexPoint_place]⟩

theorem outline_mem {W H : Nat} {hide : List (Int × Int)} {mk : Mark K} :
    mk ∈ ((drawnCells W H hide).map fun p => Mark.cell (hexPoint (1 : K) p.1 p.2) .clear 0) ↔
      ∃ s, s < W * H ∧ (((s / H : Nat) : Int), ((s % H : Nat) : Int)) ∉ hide ∧
        mk = .cell (Spec.place K .hex H s) .clear 0 := by
  simp only [List.mem_map, Prod.exists]
  constructor
  · rintro ⟨x, z, h, rfl⟩
    obtain ⟨hx, hz, hh⟩ := mem_drawn.1 h
    obtain ⟨e1, e2⟩ := cell_of_state (s := x * H + z) hz rfl
    refine ⟨x * H + z, state_lt hx hz, by rw [e1, e2]; exact hh, ?_⟩
    rw [← hexPoint_place, e1, e2]
  · rintro ⟨s, hs, hh, rfl⟩
    obtain ⟨h1, h2⟩ := div_mod_lt hs
    exact ⟨s / H, s % H, mem_drawn.2 ⟨h1, h2, hh⟩, by rw [hexPoint_place]⟩

theorem squareCells_mem {g : Arr3 K} {f : Nat} {c : Paint} {a : K} {mk : Mark K} :
    mk ∈ squareCells g f c a ↔ ∃ s, s < g.d1 * g.d2 ∧
      mk = .cell (Spec.place K .square g.d2 s) c (clip01 (g.get f (s / g.d2) (s % g.d2)) * a) := by
  unfold squareCells layerImage
  simp only [List.mem_flatMap, List.mem_map, List.mem_range]
  constructor
  · rintro ⟨z, hz, x, hx, rfl⟩
    obtain ⟨e1, e2⟩ := cell_of_state (s := x * g.d2 + z) hz rfl
    refine ⟨x * g.d2 + z, state_lt hx hz, ?_⟩
    unfold Spec.place
    simp only [e1, e2]
  · rintro ⟨s, hs, rfl⟩
    obtain ⟨h1, h2⟩ := div_mod_lt hs
    exact ⟨s % g.d2, h2, s / g.d2, h1, rfl⟩

theorem layerStyle_ok {colours : Option (List String)} {alphas : Option (List K)} {f : Nat} {c : Paint} {a : K}
    (hc : Spec.Coloured colours f c) (ha : Spec.Opaque alphas f a) : layerStyle colours alphas f = .ok (c, a) := by
  unfold layerStyle
  cases hc with
  | palette h => rw [Nat.min_eq_left (by omega)]; cases ha with
    | half => rfl
    | given h => simp [h]
  | last h => rw [Nat.min_eq_right (by omega)]; cases ha with
    | half => rfl
    | given h => simp [h]
  | given h => simp only [h]; cases ha with
    | half => rfl
    | given h => simp [h]

theorem layers_flat_mem {n : Nat} {P : Nat → List (Mark K)} {mk : Mark K} :
    mk ∈ ((List.range n).map P).flatten ↔ ∃ f, f < n ∧ mk ∈ P f := by
  simp [List.mem_flatten]

theorem plotGrids_ok {g : Arr3 K} {colours : Option (List String)} {alphas : Option (List K)} {col : Nat → Paint}
    {al : Nat → K} (hc : ∀ f, f < g.d0 → Spec.Coloured colours f (col f))
    (ha : ∀ f, f < g.d0 → Spec.Opaque alphas f (al f)) :
    ∃ l, plotGrids g colours alphas = .ok l ∧ l.length = g.d0 * (g.d1 * g.d2) ∧ ∀ mk, mk ∈ l ↔ ∃ f s, f < g.d0 ∧ s < g.d1 * g.d2 ∧
      mk = .cell (Spec.place K .square g.d2 s) (col f) (clip01 (g.get f (s / g.d2) (s % g.d2)) * al f) := by
  unfold plotGrids
  rw [mapM_ok (g := fun f => squareCells g f (col f) (al f)) (fun f hf => by
    have := List.mem_range.1 hf
    rw [layerStyle_ok (hc f this) (ha f this)])]
  refine ⟨_, rfl, ?_, fun mk => ?_⟩
  · rw [List.length_flatten, List.map_map]
    have : (List.length ∘ fun f => squareCells g f (col f) (al f)) = fun _ => g.d1 * g.d2 := by
      funext f
      simp [squareCells, layerImage, List.length_flatMap, Nat.mul_comm]
    rw [this]; simp
  · rw [layers_flat_mem]
    constructor
    · rintro ⟨f, hf, h⟩
      obtain ⟨s, hs, rfl⟩ := squareCells_mem.1 h
      exact ⟨f, s, hf, hs, rfl⟩
    · rintro ⟨f, s, hf, hs, rfl⟩
      exact ⟨f, hf, squareCells_mem.2 ⟨s, hs, rfl⟩⟩

theorem drawnCells_length (W H : Nat) : (drawnCells W H []).length = W * H := by
  simp [drawnCells, List.length_flatMap]

theorem drawHexagons_all {W H : Nat} (h : 0 < W * H) : ∃ c : Nat → Nat → K × K, drawHexagons 1 W H [] = .ok c := by
  unfold drawHexagons
  simp only
  rw [if_neg]
  · exact ⟨_, rfl⟩
  · intro h'
    have := drawnCells_length W H
    rw [h', List.length_nil] at this
    omega

theorem plotHexGrids_ok {g : Arr3 K} {colours : Option (List String)} {alphas : Option (List K)} {col : Nat → Paint}
    {al : Nat → K} (hpos : 0 < g.d1 * g.d2) (hc : ∀ f, f < g.d0 → Spec.Coloured colours f (col f))
    (ha : ∀ f, f < g.d0 → Spec.Opaque alphas f (al f)) :
    ∃ l c, plotHexGrids g colours alphas = .ok (l, c) ∧ drawHexagons 1 g.d1 g.d2 [] = .ok c ∧
      l.length = (g.d0 + 1) * (g.d1 * g.d2) ∧ ∀ mk, mk ∈ l ↔
      (∃ f s, f < g.d0 ∧ s < g.d1 * g.d2 ∧
        mk = .cell (Spec.place K .hex g.d2 s) (col f) (clip01 (g.get f (s / g.d2) (s % g.d2)) * al f)) ∨
      ∃ s, s < g.d1 * g.d2 ∧ mk = .cell (Spec.place K .hex g.d2 s) .clear 0 := by
  obtain ⟨c, hc'⟩ := drawHexagons_all (K := K) hpos
  unfold plotHexGrids
  rw [mapM_ok (g := fun f => hexCells g f (col f) (al f)) (fun f hf => by
    have := List.mem_range.1 hf
    rw [layerStyle_ok (hc f this) (ha f this)])]
  simp only [hc']
  refine ⟨_, _, rfl, rfl, ?_, fun mk => ?_⟩
  · rw [List.length_append, List.length_flatten, List.map_map, List.length_map, drawnCells_length]
    have : (List.length ∘ fun f => hexCells g f (col f) (al f)) = fun _ => g.d1 * g.d2 := by
      funext f
      simp [hexCells, drawnCells_length]
    rw [this]; simp; ring
  · rw [List.mem_append, layers_flat_mem, outline_mem]
    constructor
    · rintro (⟨f, hf, h⟩ | ⟨s, hs, -, h⟩)
      · obtain ⟨s, hs, rfl⟩ := hexCells_mem.1 h
        exact .inl ⟨f, s, hf, hs, rfl⟩
      · exact .inr ⟨s, hs, h⟩
    · rintro (⟨f, s, hf, hs, rfl⟩ | ⟨s, hs, h⟩)
      · exact .inl ⟨f, hf, hexCells_mem.2 ⟨s, hs, rfl⟩⟩
      · exact .inr ⟨s, hs, by simp, h⟩

theorem plottedLayers_ok {kind : GridKind} {W H : Nat} {selfT : Bool} {m : Mdp K}
    (hm : Mdp.GridReach kind W H selfT m) : ∃ g, plottedLayers m = .ok g ∧ g.d1 = W ∧ g.d2 = H ∧
      g.d0 = (if m.nAgents = 0 then 0 else m.features.d0 - m.nAgents) ∧
      ∀ f x y, g.get f x y = m.features.get f (x * H + y) := by
  unfold plottedLayers Mdp.featuresAsGrid
  rw [hm.ok.shape]
  simp only
  rw [hm.ok.featStates, if_pos (by rfl)]
  exact ⟨_, rfl, rfl, rfl, rfl, fun _ _ _ => rfl⟩

theorem wallGrid_ok {kind : GridKind} {W H : Nat} {selfT : Bool} {m : Mdp K} (hm : Mdp.GridReach kind W H selfT m) :
    wallGrid W H m = .ok ⟨1, W, H, fun _ x y => m.walls.get (x * H + y)⟩ := by
  unfold wallGrid Mdp.flatToGrid
  rw [if_pos hm.ok.wallsLen]

theorem clip01_wall {x : K} (h : x = 0 ∨ x = 1) : clip01 x = if x = 1 then 1 else 0 := by
  unfold clip01
  rcases h with rfl | rfl <;> simp

theorem plotHexGrids_coords {g : Arr3 K} {colours : Option (List String)} {alphas : Option (List K)}
    {x : List (Mark K) × (Nat → Nat → K × K)} (h : plotHexGrids g colours alphas = .ok x) :
    drawHexagons 1 g.d1 g.d2 [] = .ok x.2 := by
  unfold plotHexGrids at h
  split at h
  · cases h
  · split at h
    · cases h
    · cases h; assumption

/-- What `plot` remembers. -/
theorem plotMdp_coords {kind : GridKind} {W H : Nat} {selfT : Bool} {m : Mdp K} (hm : Mdp.GridReach kind W H selfT m)
    (coords : Option (Nat → Nat → K × K)) (colours : Option (List String)) (alphas : Option (List K)) :
    (plotMdp kind W H coords m colours alphas).1 = coords ∨
      ∃ c, (plotMdp kind W H coords m colours alphas).1 = some c ∧ drawHexagons 1 W H [] = .ok c := by
  obtain ⟨g, hg, h1, h2, -⟩ := plottedLayers_ok hm
  unfold plotMdp
  rw [hg]
  cases kind with
  | square =>
    simp only
    left
    split <;> try rfl
    split <;> try rfl
    split <;> rfl
  | hex =>
    simp only
    split
    · exact .inl rfl
    · next l c hl =>
      have := plotHexGrids_coords hl
      rw [h1, h2] at this
      right
      refine ⟨c, ?_, this⟩
      split <;> try rfl
      split <;> rfl

/-- A `plot` of hexagons that returns normally remembers. -/
theorem plotMdp_shown {W H : Nat} {m : Mdp K} {c0 : Option (Nat → Nat → K × K)} {colours : Option (List String)}
    {alphas : Option (List K)} {x : Option (Nat → Nat → K × K)} {l : List (Mark K)}
    (h : plotMdp .hex W H c0 m colours alphas = (x, .ok l)) (coords : Option (Nat → Nat → K × K)) :
    (plotMdp .hex W H coords m colours alphas).1 ≠ none := by
  unfold plotMdp at h ⊢
  simp only at h ⊢
  cases hg : plottedLayers m with
  | error e => rw [hg] at h; cases h
  | ok g =>
    simp only [hg] at h ⊢
    cases hl : plotHexGrids g colours alphas with
    | error e => rw [hl] at h; cases h
    | ok y =>
      simp only [hl] at h ⊢
      cases hw : wallGrid W H m with
      | error e => simp
      | ok w =>
        simp only
        cases hw' : plotHexGrids w (some ["#595959"]) (some [1]) with
        | error e => simp
        | ok z => simp

theorem plotValues_coords (kind : GridKind) (W H : Nat) (coords : Option (Nat → Nat → K × K)) (v : Arr1 (Ext K))
    (hide : List (Int × Int)) : (plotValues kind W H coords v hide).1 = coords ∨
      ∃ c, (plotValues kind W H coords v hide).1 = some c ∧ drawHexagons 1 W H hide = .ok c := by
  unfold plotValues
  split
  · exact .inl rfl
  · cases kind with
    | square => exact .inl rfl
    | hex =>
      simp only
      cases hd : drawHexagons (1 : K) W H hide with
      | error e => exact .inl rfl
      | ok c => exact .inr ⟨c, rfl, rfl⟩

theorem plotValues_shown {W H : Nat} {c0 : Option (Nat → Nat → K × K)} {v : Arr1 (Ext K)} {hide : List (Int × Int)}
    {x : Option (Nat → Nat → K × K)} {l : List (Mark K)} (h : plotValues .hex W H c0 v hide = (x, .ok l))
    (coords : Option (Nat → Nat → K × K)) : (plotValues .hex W H coords v hide).1 ≠ none := by
  unfold plotValues at h ⊢
  cases hg : Mdp.flatToGrid W H v with
  | error e => rw [hg] at h; cases h
  | ok A =>
    simp only [hg] at h ⊢
    cases hd : drawHexagons (1 : K) W H hide with
    | error e => rw [hd] at h; cases h
    | ok c => simp

theorem drawHexagons_place {W H : Nat} {hide : List (Int × Int)} {c : Nat → Nat → K × K}
    (h : drawHexagons 1 W H hide = .ok c) {s : Nat} (hs : s < W * H) :
    c (s / H) (s % H) = if (((s / H : Nat) : Int), ((s % H : Nat) : Int)) ∈ hide then (0, 0)
      else Spec.place K .hex H s := by
  obtain ⟨h1, h2⟩ := div_mod_lt hs
  rw [draw_eq h]
  split_ifs with h3 h4 h4
  · exact absurd h4 (mem_drawn.1 h3).2.2
  · exact hexPoint_place H s
  · rfl
  · exact absurd (mem_drawn.2 ⟨h1, h2, h4⟩) h3

/-- What is remembered after any history of plotting calls. -/
theorem drawRun_facts {kind : GridKind} {W H : Nat} (ops : List (DrawOp K))
    (hops : ∀ m c a, DrawOp.plot m c a ∈ ops → ∃ selfT, Mdp.GridReach kind W H selfT m) :
    (drawRun kind W H ops = none ∨ ∃ c, drawRun kind W H ops = some c ∧ ∀ s, s < W * H →
      (c (s / H) (s % H) = Spec.place K .hex H s ∨ (c (s / H) (s % H) = (0, 0) ∧ ∃ op ∈ ops, Spec.Hides H s op))) ∧
    (kind = .hex → (∃ op ∈ ops, Spec.Shows kind W H op) → drawRun kind W H ops ≠ none) := by
  induction ops using List.reverseRecOn with
  | nil => exact ⟨.inl rfl, fun _ ⟨_, h, _⟩ => by cases h⟩
  | append_singleton ops op ih =>
    obtain ⟨i1, i2⟩ := ih (fun m c a h => hops m c a (by simp [h]))
    have hrun : drawRun kind W H (ops ++ [op]) = drawOp kind W H (drawRun kind W H ops) op := by
      simp [drawRun]
    have keep : drawRun kind W H ops = none ∨ ∃ c, drawRun kind W H ops = some c ∧ ∀ s, s < W * H →
      (c (s / H) (s % H) = Spec.place K .hex H s ∨
        (c (s / H) (s % H) = (0, 0) ∧ ∃ op' ∈ ops ++ [op], Spec.Hides H s op')) := by
      rcases i1 with h | ⟨c, h, hc⟩
      · exact .inl h
      · refine .inr ⟨c, h, fun s hs => ?_⟩
        rcases hc s hs with h | ⟨h, o, ho, hh⟩
        · exact .inl h
        · exact .inr ⟨h, o, by simp [ho], hh⟩
    rw [hrun]
    constructor
    · cases op with
      | trajectory t => exact keep
      | sequence t => exact keep
      | plot m c a =>
        obtain ⟨selfT, hm⟩ := hops m c a (by simp)
        rcases plotMdp_coords hm (drawRun kind W H ops) c a with h | ⟨d, h, hd⟩
        · have h' : drawOp kind W H (drawRun kind W H ops) (.plot m c a) = drawRun kind W H ops := h
          rw [h']; exact keep
        · refine .inr ⟨d, h, fun s hs => .inl ?_⟩
          rw [drawHexagons_place hd hs]; simp
      | values v hide =>
        rcases plotValues_coords kind W H (drawRun kind W H ops) v hide with h | ⟨d, h, hd⟩
        · have h' : drawOp kind W H (drawRun kind W H ops) (.values v hide) = drawRun kind W H ops := h
          rw [h']; exact keep
        · refine .inr ⟨d, h, fun s hs => ?_⟩
          rw [drawHexagons_place hd hs]
          split_ifs with hh
          · exact .inr ⟨rfl, .values v hide, by simp, hh⟩
          · exact .inl rfl
    · rintro rfl ⟨o, ho, hsh⟩
      rw [List.mem_append, List.mem_singleton] at ho
      rcases ho with ho | rfl
      · have hne := i2 rfl ⟨o, ho, hsh⟩
        cases op with
        | trajectory t => exact hne
        | sequence t => exact hne
        | plot m c a =>
          obtain ⟨selfT, hm⟩ := hops m c a (by simp)
          show (plotMdp .hex W H (drawRun .hex W H ops) m c a).1 ≠ none
          rcases plotMdp_coords hm (drawRun .hex W H ops) c a with h | ⟨d, h, -⟩
          · rw [h]; exact hne
          · rw [h]; simp
        | values v hide =>
          show (plotValues .hex W H (drawRun .hex W H ops) v hide).1 ≠ none
          rcases plotValues_coords .hex W H (drawRun .hex W H ops) v hide with h | ⟨d, h, -⟩
          · rw [h]; exact hne
          · rw [h]; simp
      · cases o with
        | trajectory t => exact absurd hsh id
        | sequence t => exact absurd hsh id
        | plot m c a =>
          obtain ⟨x, l, h⟩ := hsh
          exact plotMdp_shown h _
        | values v hide =>
          obtain ⟨x, l, h⟩ := hsh
          exact plotValues_shown h _

/-- Where a state is drawn after any history. -/
theorem stateToPosition_place {kind : GridKind} {W H : Nat} (ops : List (DrawOp K))
    (hops : ∀ m c a, DrawOp.plot m c a ∈ ops → ∃ selfT, Mdp.GridReach kind W H selfT m)
    (hsh : kind = .hex → ∃ op ∈ ops, Spec.Shows kind W H op) {s : Nat} (hs : s < W * H)
    (hh : kind = .hex → ∀ op ∈ ops, ¬ Spec.Hides H s op) :
    stateToPosition kind W H (drawRun kind W H ops) s = .ok (Spec.place K kind H s) := by
  have hu : unravelIndex W H (s : Int) = .ok (s / H, s % H) := by
    unfold unravelIndex
    rw [if_pos ⟨by omega, by exact_mod_cast hs⟩]
    simp
  unfold stateToPosition
  cases kind with
  | square => simp only [squareStateToPosition, hu]; rfl
  | hex =>
    obtain ⟨h1, h2⟩ := drawRun_facts ops hops
    rcases h1 with h1 | ⟨c, h1, hc⟩
    · exact absurd h1 (h2 rfl (hsh rfl))
    · simp only [hexStateToPosition, hu, h1]
      rcases hc s hs with h | ⟨-, op, ho, hd⟩
      · rw [h]
      · exact absurd hd (hh rfl op ho)

theorem arrows_length : ∀ (l : List (K × K)), (arrows l).length = l.length - 1
  | [] => rfl
  | [_] => rfl
  | p :: q :: l => by
    rw [arrows, List.length_cons, arrows_length (q :: l)]
    simp

theorem arrows_get : ∀ (l : List (K × K)) (i : Nat) (h : i + 1 < l.length),
    ∃ mk, (arrows l)[i]? = some mk ∧ Spec.Joins mk l[i] l[i + 1]
  | [], _, h => by simp at h
  | [_], _, h => by simp at h
  | p :: q :: l, 0, _ => ⟨_, by rw [arrows]; rfl, _, rfl, by simp, by simp⟩
  | p :: q :: l, i + 1, h => by
    obtain ⟨mk, h1, h2⟩ := arrows_get (q :: l) i (by simpa using h)
    exact ⟨mk, by rw [arrows, List.getElem?_cons_succ]; exact h1, by simpa using h2⟩

theorem numerals_get : ∀ (l : List (K × K)) (k : Nat), (numerals k l).length = l.length ∧ ∀ (i : Nat) (h : i < l.length),
    (numerals k l)[i]? = some (.numeral (l[i].1 - 1 / 4, l[i].2 - 1 / 4) (k + i + 1))
  | [], _ => ⟨rfl, fun _ h => by simp at h⟩
  | p :: l, k => by
    obtain ⟨h1, h2⟩ := numerals_get l (k + 1)
    refine ⟨by rw [numerals]; simp [h1], fun i h => ?_⟩
    cases i with
    | zero => rfl
    | succ i =>
      rw [numerals, List.getElem?_cons_succ, h2 i (by simpa using h)]
      simp only [List.getElem_cons_succ]
      congr 2
      omega

end MaMDP
