import Verif.Lemmas.Plotting
import Verif.Lemmas.EnvStart

/-! # Plots: C80, C81, C89, C90 -/

set_option linter.unusedSectionVars false

namespace MaMDP

variable {K : Type} [Field K] [LinearOrder K] [IsStrictOrderedRing K]

/-! ## C80 hexagons -/

/-- Hexagons that are drawn stand in a honeycomb. Regular hexagons of radius `r` side by side have centres at distance
√3·r; because the code rounds √3/2 to eight digits the drawn distance is very slightly smaller. Two different states
are adjacent in the MDP exactly when their hexagons are at this distance (within one part in ten million), and all
others are further apart than √8·r. -/
theorem C80_touching {W H : Nat} {selfT : Bool} {m : Mdp K} (hm : Mdp.GridReach .hex W H selfT m) {r : K} (hr : 0 < r)
    {hide : List (Int × Int)} {c : Nat → Nat → K × K} (hc : drawHexagons r W H hide = .ok c) {s t : Nat}
    (hs : s < W * H) (ht : t < W * H) (hne : s ≠ t)
    (hsv : (((s / H : Nat) : Int), ((s % H : Nat) : Int)) ∉ hide)
    (htv : (((t / H : Nat) : Int), ((t % H : Nat) : Int)) ∉ hide) :
    (m.adjacency s t = true ↔ Spec.dist2 (c (s / H) (s % H)) (c (t / H) (t % H)) ≤ 3 * r ^ 2) ∧
    (m.adjacency s t = true →
      3 * r ^ 2 * (1 - 1 / 10 ^ 7) < Spec.dist2 (c (s / H) (s % H)) (c (t / H) (t % H))) ∧
    (m.adjacency s t = false → 8 * r ^ 2 < Spec.dist2 (c (s / H) (s % H)) (c (t / H) (t % H))) := by
  obtain ⟨s1, s2⟩ := div_mod_lt hs
  obtain ⟨t1, t2⟩ := div_mod_lt ht
  rw [draw_eq hc, draw_eq hc, if_pos (mem_drawn.2 ⟨s1, s2, hsv⟩), if_pos (mem_drawn.2 ⟨t1, t2, htv⟩)]
  have hadj := adjacent_iff hm hs ht hne rfl rfl
  have hd : Spec.dist2 (hexPoint r (s / H) (s % H)) (hexPoint r (t / H) (t % H)) =
      Spec.dist2 (hexPoint r (t / H) (t % H)) (hexPoint r (s / H) (s % H)) := by
    unfold Spec.dist2; ring
  rw [hd, dist2_eq]
  have hr2 : 0 < r ^ 2 := by positivity
  change m.adjacency s t = true ↔ _ at hadj
  have hcases := dist2_cases r hr ((Spec.at' .hex H t).1 - (Spec.at' .hex H s).1)
    ((Spec.at' .hex H t).2 - (Spec.at' .hex H s).2) (centre_parity _ _) (by
      rintro ⟨h1, h2⟩
      exact hne (at_inj (kind := .hex) (H := H) (Prod.ext (by omega) (by omega))))
  simp only at hcases
  rw [← hadj] at hcases
  unfold Spec.at' at hcases
  rcases hcases with ⟨h1, h2, h3⟩ | ⟨h1, h2⟩
  · exact ⟨⟨fun _ => h3, fun _ => h1⟩, fun _ => h2, fun h => by rw [h1] at h; cases h⟩
  · exact ⟨⟨fun h => absurd h h1, fun h => absurd (h2.trans_le h) (by linarith)⟩, fun h => absurd h h1, fun _ => h2⟩

/-- A two by three grid with radius 1 can be drawn; states 0 and 4 touch, 0 and 5 do not. -/
example : (match drawHexagons (1 : Rat) 2 3 [] with
    | .ok c => decide (Spec.dist2 (c 0 0) (c 1 1) ≤ 3) && decide (8 < Spec.dist2 (c 0 0) (c 1 2))
    | .error _ => false) = true := by decide +kernel

/-! ## C81 normalising -/

/-- Numbers end up between 0 and 1 in the same order, the smallest at 0 and the largest at 1; NaN stays NaN. -/
theorem C81_normalise (n : Nat) (x : Nat → Option K) (i j : Nat) (u v : K) (hi : i < n) (hj : j < n)
    (hu : x i = some u) (hv : x j = some v) (huv : u ≠ v) :
    ∃ y, normalise n x = .ok y ∧
      (∀ k, k < n → x k = none → y k = none) ∧
      (∀ k a, k < n → x k = some a → ∃ b, y k = some b ∧ 0 ≤ b ∧ b ≤ 1 ∧
        ((∀ k' a', k' < n → x k' = some a' → a ≤ a') → b = 0) ∧
        ((∀ k' a', k' < n → x k' = some a' → a' ≤ a) → b = 1)) ∧
      (∀ k k' a a' b b', k < n → k' < n → x k = some a → x k' = some a' → y k = some b → y k' = some b' →
        (a < a' ↔ b < b')) := by
  obtain ⟨lo, top, ⟨kl, hkl, hlo⟩, ⟨kt, hkt, htop⟩, hb, heq⟩ := normalise_eq hi hu
  have hpos : 0 < top - lo := by
    have h1 := hb i u hi hu
    have h2 := hb j v hj hv
    rcases lt_or_gt_of_ne huv with h | h <;> linarith
  refine ⟨_, heq, ?_, ?_, ?_⟩
  · intro k _ hx; simp only [hx, Option.bind_none]
  · intro k a hk hx
    obtain ⟨h1, h2⟩ := hb k a hk hx
    refine ⟨(a - lo) / (top - lo), by simp only [hx, Option.bind_some, if_neg hpos.ne'], ?_, ?_, ?_, ?_⟩
    · exact div_nonneg (by linarith) hpos.le
    · rw [div_le_one hpos]; linarith
    · intro h
      have : a = lo := le_antisymm (h kl lo hkl hlo) h1
      rw [this]; simp
    · intro h
      have : a = top := le_antisymm h2 (h kt top hkt htop)
      rw [this]; exact div_self hpos.ne'
  · intro k k' a a' b b' _ _ hx hx' hy hy'
    simp only [hx, Option.bind_some, if_neg hpos.ne', Option.some.injEq] at hy
    simp only [hx', Option.bind_some, if_neg hpos.ne', Option.some.injEq] at hy'
    rw [← hy, ← hy', div_lt_div_iff_of_pos_right hpos]
    constructor <;> intro h <;> linarith

/-- When all numbers are equal the result is NaN everywhere; an empty array raises `ValueError`. -/
theorem C81_constant (n : Nat) (x : Nat → Option K) :
    (0 < n → (∀ i j u v, i < n → j < n → x i = some u → x j = some v → u = v) →
      ∃ y, normalise n x = .ok y ∧ ∀ k, k < n → y k = none) ∧
    normalise 0 x = .error .valueError := by
  refine ⟨fun hn h => ?_, rfl⟩
  by_cases hx : ∃ i u, i < n ∧ x i = some u
  · obtain ⟨i, u, hi, hu⟩ := hx
    obtain ⟨lo, top, ⟨kl, hkl, hlo⟩, ⟨kt, hkt, htop⟩, hb, heq⟩ := normalise_eq hi hu
    refine ⟨_, heq, fun k hk => ?_⟩
    rw [h kl kt lo top hkl hkt hlo htop]
    cases x k <;> simp
  · have hd : defined n x = [] := List.eq_nil_iff_forall_not_mem.2 fun v hv => by
      obtain ⟨i, h1, h2⟩ := mem_defined.1 hv
      exact hx ⟨i, v, h1, h2⟩
    refine ⟨fun _ => none, ?_, fun _ _ => rfl⟩
    unfold normalise
    rw [if_neg (by omega), hd]
    rfl

/-- 3, NaN, 7, 5 become 0, NaN, 1, 1/2. -/
example : (match normalise 4 (fun i => if i = 0 then some (3 : Rat) else if i = 1 then none else if i = 2 then some 7
      else some 5) with
    | .ok y => (y 0 == some 0) && (y 1 == none) && (y 2 == some 1) && (y 3 == some (1 / 2))
    | .error _ => false) = true := by decide +kernel

/-! ## C89 markers -/

/-- On a hexagonal grid the marker of a state is at the centre of its hexagon (√3/2 taken to eight digits). -/
theorem C89_hex {r : K} {W H : Nat} {hide : List (Int × Int)} {c : Nat → Nat → K × K}
    (hc : drawHexagons r W H hide = .ok c) {s : Nat} (hs : s < W * H)
    (hv : (((s / H : Nat) : Int), ((s % H : Nat) : Int)) ∉ hide) :
    hexStateToPosition W H (some c) s = .ok (Spec.honeycomb r (86602540 / 100000000 * r) (s / H) (s % H)) := by
  obtain ⟨s1, s2⟩ := div_mod_lt hs
  unfold hexStateToPosition unravelIndex
  rw [if_pos ⟨by omega, by exact_mod_cast hs⟩]
  simp only [Int.toNat_natCast]
  rw [draw_eq hc, if_pos (mem_drawn.2 ⟨s1, s2, hv⟩), hexPoint_eq]
  rfl

/-- On a square grid the layers of `plot` show each feature of a state at the state's marker. Missing from the full
claim: values on square grids (`C89_refuted_values`) and hidden hexagons (`C89_refuted_hidden`). -/
theorem C89_partial {W H : Nat} {selfT : Bool} {m : Mdp K} (hm : Mdp.GridReach .square W H selfT m) {f s : Nat}
    (hs : s < W * H) :
    ∃ g x y, plottedLayers m = .ok g ∧ squareStateToPosition W H s = .ok (x, y) ∧
      imshowAt (layerImage g f) x y = some (m.features.get f s) := by
  obtain ⟨s1, s2⟩ := div_mod_lt hs
  have g := hm.ok
  unfold plottedLayers Mdp.featuresAsGrid squareStateToPosition unravelIndex
  rw [g.shape]
  simp only
  rw [g.featStates, if_pos (by rfl), if_pos ⟨by omega, by exact_mod_cast hs⟩]
  simp only [Int.toNat_natCast]
  refine ⟨_, _, _, rfl, rfl, ?_⟩
  unfold imshowAt layerImage
  simp only
  rw [if_pos ⟨s2, s1⟩, Nat.div_add_mod']

/-- On a square grid `plot_state_values` shows the value of a state at the mirror image of the state's marker, so at
the marker of state `(x, y)` there is the value of state `(y, x)`; where that is no state there is nothing. -/
theorem C89_refuted_values {W H : Nat} {v : Arr1 K} (hv : v.d0 = W * H) {s : Nat} (hs : s < W * H) :
    ∃ img x y, valuesImage W H v = .ok img ∧ squareStateToPosition W H s = .ok (x, y) ∧
      imshowAt img y x = some (v.get s) ∧
      imshowAt img x y = if y < W ∧ x < H then some (v.get (y * H + x)) else none := by
  obtain ⟨s1, s2⟩ := div_mod_lt hs
  unfold valuesImage Mdp.flatToGrid squareStateToPosition unravelIndex
  rw [if_pos hv, if_pos ⟨by omega, by exact_mod_cast hs⟩]
  simp only [Int.toNat_natCast]
  refine ⟨_, _, _, rfl, rfl, ?_, rfl⟩
  unfold imshowAt
  simp only
  rw [if_pos ⟨s1, s2⟩, Nat.div_add_mod']

/-- In a two by three grid state 2 has its marker at (0, 2), where no value is drawn at all. -/
example : (match valuesImage 2 3 (⟨6, fun s => (s : Rat)⟩ : Arr1 Rat), squareStateToPosition 2 3 2 with
    | .ok img, .ok (x, y) => decide (imshowAt img x y = none) && decide (imshowAt img y x = some 2)
    | _, _ => false) = true := by decide +kernel

/-- The marker of a hidden hexagon is at the origin, which is the centre of no cell. -/
theorem C89_refuted_hidden {r : K} (hr : 0 < r) {W H : Nat} {hide : List (Int × Int)} {c : Nat → Nat → K × K}
    (hc : drawHexagons r W H hide = .ok c) {s : Nat} (hs : s < W * H)
    (hv : (((s / H : Nat) : Int), ((s % H : Nat) : Int)) ∈ hide) :
    hexStateToPosition W H (some c) s = .ok (0, 0) ∧ ∀ x z, Spec.honeycomb r (86602540 / 100000000 * r) x z ≠ (0, 0) := by
  constructor
  · unfold hexStateToPosition unravelIndex
    rw [if_pos ⟨by omega, by exact_mod_cast hs⟩]
    simp only [Int.toNat_natCast]
    rw [draw_eq hc, if_neg (fun h => (mem_drawn.1 h).2.2 hv)]
  · intro x z h
    unfold Spec.honeycomb at h
    simp only [Prod.mk.injEq, mul_eq_zero] at h
    obtain ⟨h1, h2⟩ := h
    have hx : x = 0 := by
      rcases h1 with (h1 | h1) | h1
      · norm_num at h1
      · exact absurd h1 hr.ne'
      · exact_mod_cast h1
    subst hx
    rcases h2 with (h2 | h2) | h2
    · norm_num at h2
    · exact absurd h2 hr.ne'
    · have : (0 : K) ≤ 2 * (z : K) := by positivity
      simp only [Nat.zero_mod, if_true] at h2
      linarith

/-- Hiding one of six hexagons: the drawing succeeds and the hidden state's marker is at the origin. -/
example : (match drawHexagons (1 : Rat) 2 3 [(1, 1)] with
    | .ok c => decide (c 1 1 = (0, 0)) && decide (c 1 2 ≠ (0, 0))
    | .error _ => false) = true := by decide +kernel

/-! ## C90 plotted features -/

/-- With agents in the environment, `plot` draws exactly the MDP's own features. -/
theorem C90_partial {δ : Type} {kind : GridKind} {W H : Nat} {selfT : Bool} {m m' : Mdp K}
    {specs : List (AgentSpec K δ)} {e0 : Env K δ} (hm : Mdp.GridReach kind W H selfT m)
    (hinit : Env.init m specs = (m', .ok e0)) (hne : specs ≠ []) (ops : List (EnvOp K δ)) :
    ∃ g, plottedLayers (e0.run ops).mdp = .ok g ∧ g.d0 = m.features.d0 - m.nAgents ∧ g.d1 = W ∧ g.d2 = H ∧
      ∀ f x y, g.get f x y = (e0.run ops).mdp.features.get f (x * H + y) := by
  obtain ⟨hok, hl⟩ := Env.started hm hinit ops
  obtain ⟨-, -, -, -, -, -, hd, hn, -⟩ := Env.init_facts hm hinit
  have hpos : 0 < specs.length := List.length_pos_iff.2 hne
  unfold plottedLayers Mdp.featuresAsGrid
  rw [hok.reach.ok.shape]
  simp only
  rw [hok.reach.ok.featStates, if_pos (by rfl)]
  refine ⟨_, rfl, ?_, rfl, rfl, fun _ _ _ => rfl⟩
  simp only
  rw [hl.nAgents, hn, if_neg (by omega)]
  unfold Mdp.nFeatures
  rw [hl.d0, hd]
  omega

/-- Without agents it draws no feature at all. -/
theorem C90_refuted {kind : GridKind} {W H : Nat} {selfT : Bool} {m : Mdp K} (hm : Mdp.GridReach kind W H selfT m)
    (hn : m.nAgents = 0) : ∃ g, plottedLayers m = .ok g ∧ g.d0 = 0 := by
  unfold plottedLayers Mdp.featuresAsGrid
  rw [hm.ok.shape]
  simp only
  rw [hm.ok.featStates, if_pos (by rfl)]
  exact ⟨_, rfl, by simp [hn]⟩

/-- A grid with one feature and no agents: nothing is drawn. -/
example : (match Mdp.initGrid .square 1 3 false (⟨1, 3, fun _ s => if s = 2 then 1 else 0⟩ : Arr2 Rat) none with
    | .ok m => (match plottedLayers m with
      | .ok g => decide (m.features.d0 = 1) && decide (g.d0 = 0)
      | .error _ => false)
    | .error _ => false) = true := by decide +kernel

end MaMDP
