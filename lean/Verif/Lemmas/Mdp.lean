import Verif.Spec.Mdp
import Verif.Model.Mdp
import Verif.Lemmas.Grid
import Mathlib.Algebra.Order.Ring.Rat

/-! Lemmas about the MDP model. -/

set_option linter.unusedSectionVars false

namespace MaMDP

variable {K : Type} [Field K] [LinearOrder K] [IsStrictOrderedRing K]

theorem any3_eq_true {x : Arr3 K} {p : K → Prop} [DecidablePred p] :
    any3 x p = true ↔ ∃ i, i < x.d0 ∧ ∃ j, j < x.d1 ∧ ∃ k, k < x.d2 ∧ p (x.get i j k) := by
  simp [any3]

theorem any3_eq_false {x : Arr3 K} {p : K → Prop} [DecidablePred p] :
    any3 x p = false ↔ ∀ i, i < x.d0 → ∀ j, j < x.d1 → ∀ k, k < x.d2 → ¬ p (x.get i j k) := by
  rw [← Bool.not_eq_true, any3_eq_true]; push Not; rfl

namespace Mdp

/-- A transition array the setter accepts. -/
structure ValidSas (x : Arr3 K) : Prop where
  sq : x.d0 = x.d2
  pos0 : 0 < x.d0
  pos1 : 0 < x.d1
  range : ∀ i, i < x.d0 → ∀ j, j < x.d1 → ∀ k, k < x.d2 → 0 ≤ x.get i j k ∧ x.get i j k ≤ 1

theorem validTransitions_iff (x : Arr3 K) : Spec.ValidTransitions x ↔ ValidSas x := by
  constructor
  · rintro ⟨h1, h2, h3, h4⟩
    exact ⟨h1, h2, h3, fun i hi j hj k hk => h4 i j k hi hj (h1 ▸ hk)⟩
  · rintro ⟨h1, h2, h3, h4⟩
    exact ⟨h1, h2, h3, fun i j k hi hj hk => h4 i hi j hj k (h1 ▸ hk)⟩

theorem setSas_valid (m : Mdp K) {x : Arr3 K} (h : ValidSas x) :
    m.setSas x = ({ m with
          deterministic := !(any3 x fun v => 0 < v ∧ v < 1)
          adjacency := fun s t => decide (0 < npSum x.d1 fun a => x.get s a t)
          nStates := x.d0
          nActions := x.d1
          sas := x.get }, .ok ()) := by
  have h1 : any3 x (fun v => v < 0) = false :=
    any3_eq_false.2 fun i hi j hj k hk => not_lt.2 (h.range i hi j hj k hk).1
  have h2 : any3 x (fun v => 1 < v) = false :=
    any3_eq_false.2 fun i hi j hj k hk => not_lt.2 (h.range i hi j hj k hk).2
  have h3 : ¬ (x.d0 = 0 ∨ x.d1 = 0) := by have := h.pos0; have := h.pos1; omega
  simp [setSas, h.sq, h1, h2]
  simp [h.sq] at h3
  simp [h3]

theorem validSas_of_ok (m : Mdp K) {x : Arr3 K} (h : (m.setSas x).2 = .ok ()) : ValidSas x := by
  unfold setSas at h
  split_ifs at h with h1 h2 h3
  push Not at h1 h2
  rw [Bool.not_eq_true, Bool.or_eq_false_iff] at h3
  refine ⟨h1, Nat.pos_of_ne_zero h2.1, Nat.pos_of_ne_zero h2.2, fun i hi j hj k hk => ⟨?_, ?_⟩⟩
  · exact not_lt.1 (any3_eq_false.1 h3.1 i hi j hj k hk)
  · exact not_lt.1 (any3_eq_false.1 h3.2 i hi j hj k hk)

theorem setSas_fail (m : Mdp K) {x : Arr3 K} (h : (m.setSas x).2 ≠ .ok ()) :
    (m.setSas x).1 = m := by
  unfold setSas at h ⊢
  split_ifs at h ⊢ <;> simp_all

/-- Everything known about a grid MDP in any reachable state. -/
structure GridOk (kind : GridKind) (W H : Nat) (selfT : Bool) (m : Mdp K) : Prop where
  pos : 0 < W * H
  shape : m.shape = some (W, H)
  nStates : m.nStates = W * H
  nActions : m.nActions = kind.nMoves + (if selfT then 1 else 0)
  orig : ∃ f, m.originalSas = ⟨W * H, kind.nMoves + (if selfT then 1 else 0), W * H, f⟩ ∧
    ∀ s a t, s < W * H → t < W * H → f s a t = if kind.Move H selfT s a t then (1 : K) else 0
  wallsLen : m.walls.d0 = W * H
  walls01 : ∀ i, i < W * H → m.walls.get i = 0 ∨ m.walls.get i = 1
  sas : ∀ s a t, s < W * H → t < W * H → m.sas s a t =
    if m.walls.get s = 1 ∨ m.walls.get t = 1 then 0
    else if kind.Move H selfT s a t then (1 : K) else 0
  det : m.deterministic = true
  adj : ∀ s t, s < W * H → t < W * H → (m.adjacency s t = true ↔
    ∃ a, a < m.nActions ∧ kind.Move H selfT s a t)
  featStates : m.features.d1 = W * H
  origFeatStates : m.originalFeatures.d1 = W * H
  origFeat : m.originalFeatures.d0 = m.features.d0

theorem GridKind.nMoves_pos (kind : GridKind) : 0 < kind.nMoves := by cases kind <;> decide

theorem validSas_grid {kind : GridKind} {W H : Nat} {selfT : Bool} {f : Nat → Nat → Nat → K}
    (pos : 0 < W * H)
    (hf : ∀ s a t, s < W * H → t < W * H → f s a t = if kind.Move H selfT s a t then (1 : K) else 0) :
    ValidSas (⟨W * H, kind.nMoves + (if selfT then 1 else 0), W * H, f⟩ : Arr3 K) := by
  refine ⟨rfl, pos, ?_, ?_⟩
  · have := GridKind.nMoves_pos kind; simp only; omega
  · intro i hi j hj k hk
    simp only
    rw [hf i j k hi hk]
    split_ifs <;> simp

theorem det_grid {kind : GridKind} {W H : Nat} {selfT : Bool} {f : Nat → Nat → Nat → K}
    (hf : ∀ s a t, s < W * H → t < W * H → f s a t = if kind.Move H selfT s a t then (1 : K) else 0) :
    any3 (⟨W * H, kind.nMoves + (if selfT then 1 else 0), W * H, f⟩ : Arr3 K)
      (fun v => 0 < v ∧ v < 1) = false := by
  rw [any3_eq_false]
  intro i hi j _ k hk
  simp only
  rw [hf i j k hi hk]
  split_ifs <;> simp

theorem sum_pos_iff_exists (n : Nat) (g : Nat → K) (h : ∀ i, i < n → 0 ≤ g i) :
    0 < npSum n g ↔ ∃ a, a < n ∧ 0 < g a := by
  unfold npSum
  rw [Finset.sum_pos_iff_of_nonneg (fun i hi => h i (by simpa using hi))]
  simp

/-- A successful wall assignment, on a grid. -/
theorem setWalls_grid {kind : GridKind} {W H : Nat} {selfT : Bool} {m : Mdp K}
    (pos : 0 < W * H) (hshape : m.shape = some (W, H))
    (horig : ∃ f, m.originalSas = ⟨W * H, kind.nMoves + (if selfT then 1 else 0), W * H, f⟩ ∧
      ∀ s a t, s < W * H → t < W * H → f s a t = if kind.Move H selfT s a t then (1 : K) else 0)
    (hf1 : m.features.d1 = W * H) (hf2 : m.originalFeatures.d1 = W * H)
    (hf3 : m.originalFeatures.d0 = m.features.d0)
    (w : Arr1 K) (hlen : w.d0 = W * H) (h01 : ∀ i, i < W * H → w.get i = 0 ∨ w.get i = 1) :
    ∃ m', m.setWalls w = (m', .ok ()) ∧ GridOk kind W H selfT m' ∧ m'.walls = w ∧
      m'.features = m.features ∧ m'.originalFeatures = m.originalFeatures ∧
      m'.nAgents = m.nAgents ∧ m'.nNonAgent = m.nNonAgent ∧ m'.featureNames = m.featureNames := by
  obtain ⟨f, ho, hf⟩ := horig
  have hv := validSas_grid pos hf
  have hs := m.setSas_valid (x := m.originalSas) (by rw [ho]; exact hv)
  have hno : ¬ ∃ i, i < w.d0 ∧ ¬ (w.get i = 0 ∨ w.get i = 1) := by
    rintro ⟨i, hi, h⟩; exact h (h01 i (hlen ▸ hi))
  unfold setWalls
  simp only [hshape]
  rw [if_neg (by simpa using hlen), if_neg hno, hs]
  refine ⟨_, rfl, ?_, rfl, rfl, rfl, rfl, rfl, rfl⟩
  refine ⟨pos, hshape, by simp [ho], by simp [ho], ⟨f, ho, hf⟩, hlen, h01, ?_, ?_, ?_, hf1, hf2, hf3⟩
  · intro s a t hs ht
    simp only [maskWalls, ho]
    rw [hf s a t hs ht]
  · simp only [ho]; rw [det_grid hf]; rfl
  · intro s t hs ht
    simp only [ho, decide_eq_true_eq]
    rw [sum_pos_iff_exists _ _ (fun a _ => by rw [hf s a t hs ht]; split_ifs <;> simp)]
    constructor
    · rintro ⟨a, ha, h⟩
      rw [hf s a t hs ht] at h
      split_ifs at h with h'
      · exact ⟨a, ha, h'⟩
      · simp at h
    · rintro ⟨a, ha, h⟩
      refine ⟨a, ha, ?_⟩
      rw [hf s a t hs ht, if_pos h]; simp

/-- A rejected wall assignment changes nothing. -/
theorem setWalls_reject {m : Mdp K} {W H : Nat} (hshape : m.shape = some (W, H)) (w : Arr1 K)
    (h : w.d0 ≠ W * H ∨ ∃ i, i < w.d0 ∧ ¬ (w.get i = 0 ∨ w.get i = 1)) :
    (m.setWalls w).1 = m ∧
    (m.setWalls w).2 = .error (if w.d0 ≠ W * H then .attributeError else .valueError) := by
  unfold setWalls
  simp only [hshape]
  by_cases h1 : w.d0 ≠ W * H
  · simp only [if_pos h1]; simp
  · have h2 : ∃ i, i < w.d0 ∧ ¬ (w.get i = 0 ∨ w.get i = 1) := by
      rcases h with h | h
      · exact absurd h h1
      · exact h
    rw [if_neg h1, if_pos h2, if_neg h1]; exact ⟨rfl, rfl⟩

/-- The constructor of a grid MDP. -/
theorem initGrid_ok {kind : GridKind} {W H : Nat} {selfT : Bool} {f : Arr2 K}
    {w : Option (Arr1 K)} (pos : 0 < W * H) (hf : f.d1 = W * H)
    (hw : ∀ v, w = some v → v.d0 = W * H ∧ ∀ i, i < W * H → v.get i = 0 ∨ v.get i = 1) :
    ∃ m, initGrid kind W H selfT f w = .ok m ∧ GridOk kind W H selfT m ∧
      m.features = f ∧ m.originalFeatures = f ∧ m.nAgents = 0 ∧ m.nNonAgent = f.d0 ∧
      m.featureNames = defaultNames f.d0 ∧
      (m.walls = match w with | some v => v | none => ⟨W * H, fun _ => 0⟩) := by
  obtain ⟨g, hg, hg'⟩ := getSas_ok (K := K) kind W H selfT
  have hv := validSas_grid (K := K) pos hg'
  unfold initGrid
  rw [hg]
  simp only [init]
  rw [setSas_valid _ hv]
  simp only [setFeatures]
  rw [if_neg (by simpa using hf)]
  simp only
  obtain ⟨m', h1, h2, h3, h4, h5, h6, h7, h8⟩ := setWalls_grid (kind := kind) (selfT := selfT)
    (m := { (blank (some (W, H)) selfT ⟨W * H, kind.nMoves + (if selfT then 1 else 0), W * H, g⟩ : Mdp K)
      with
        deterministic := !(any3 (⟨W * H, kind.nMoves + (if selfT then 1 else 0), W * H, g⟩ : Arr3 K)
          fun v => 0 < v ∧ v < 1)
        adjacency := fun s t =>
          decide (0 < npSum (kind.nMoves + (if selfT then 1 else 0)) fun a => g s a t)
        nStates := W * H
        nActions := kind.nMoves + (if selfT then 1 else 0)
        sas := g
        features := f
        originalFeatures := f
        featureNames := defaultNames f.d0
        nNonAgent := f.d0
        nAgents := 0 }) pos rfl ⟨g, rfl, hg'⟩ hf hf rfl
    (match w with | some v => v | none => ⟨W * H, fun _ => 0⟩)
    (by cases w with
        | none => rfl
        | some v => exact (hw v rfl).1)
    (by cases w with
        | none => intro i _; exact Or.inl rfl
        | some v => exact (hw v rfl).2)
  refine ⟨m', ?_, h2, h4, h5, h6, h7, h8, h3⟩
  cases w <;> exact (by simp only at h1 ⊢; rw [h1])

theorem initGrid_inv {kind : GridKind} {W H : Nat} {selfT : Bool} {f : Arr2 K}
    {w : Option (Arr1 K)} {m : Mdp K} (h : initGrid kind W H selfT f w = .ok m) :
    0 < W * H ∧ f.d1 = W * H ∧
    (∀ v, w = some v → v.d0 = W * H ∧ ∀ i, i < W * H → v.get i = 0 ∨ v.get i = 1) := by
  obtain ⟨g, hg, hg'⟩ := getSas_ok (K := K) kind W H selfT
  unfold initGrid at h
  rw [hg] at h
  simp only [init] at h
  have pos : 0 < W * H := by
    rcases Nat.eq_zero_or_pos (W * H) with h0 | h0
    · simp [setSas, h0] at h
    · exact h0
  have hv := validSas_grid (K := K) pos hg'
  rw [setSas_valid _ hv] at h
  simp only [setFeatures] at h
  by_cases hf : f.d1 = W * H
  · refine ⟨pos, hf, ?_⟩
    intro v hv'
    subst hv'
    rw [if_neg (by simpa using hf)] at h
    by_contra hc
    have hc' : v.d0 ≠ W * H ∨ ∃ i, i < v.d0 ∧ ¬ (v.get i = 0 ∨ v.get i = 1) := by
      by_contra hcc
      push Not at hcc
      apply hc
      exact ⟨hcc.1, fun i hi => hcc.2 i (hcc.1 ▸ hi)⟩
    have := setWalls_reject (W := W) (H := H)
      (m := { (blank (some (W, H)) selfT ⟨W * H, kind.nMoves + (if selfT then 1 else 0), W * H, g⟩ : Mdp K)
      with
        deterministic := !(any3 (⟨W * H, kind.nMoves + (if selfT then 1 else 0), W * H, g⟩ : Arr3 K)
          fun v => 0 < v ∧ v < 1)
        adjacency := fun s t =>
          decide (0 < npSum (kind.nMoves + (if selfT then 1 else 0)) fun a => g s a t)
        nStates := W * H
        nActions := kind.nMoves + (if selfT then 1 else 0)
        sas := g
        features := f
        originalFeatures := f
        featureNames := defaultNames f.d0
        nNonAgent := f.d0
        nAgents := 0 }) rfl v hc'
    revert h
    simp only
    split
    · simp
    · rename_i heq
      rw [heq] at this
      simp at this
  · rw [if_pos (by simpa using hf)] at h
    simp at h

theorem wallCells_spec {W H : Nat} (xs ys : List Int) (w : Arr1 K) :
    ((∀ x ∈ xs, ∀ y ∈ ys, 0 ≤ x ∧ x < W ∧ 0 ≤ y ∧ y < H) →
      ∃ g, wallCells W H xs ys w = .ok ⟨w.d0, g⟩ ∧
        (∀ s : Nat, (∃ x ∈ xs, ∃ y ∈ ys, (s : Int) = x * H + y) → g s = 1) ∧
        (∀ s : Nat, (¬ ∃ x ∈ xs, ∃ y ∈ ys, (s : Int) = x * H + y) → g s = w.get s)) ∧
    ((∃ x ∈ xs, ∃ y ∈ ys, ¬ (0 ≤ x ∧ x < W ∧ 0 ≤ y ∧ y < H)) →
      wallCells W H xs ys w = .error .valueError) := by
  have inner : ∀ (x : Int) (ys : List Int) (w : Arr1 K),
      ((∀ y ∈ ys, 0 ≤ x ∧ x < W ∧ 0 ≤ y ∧ y < H) →
        ∃ g, ys.foldlM (fun (w : Arr1 K) y => do
            let s ← ravelMultiIndex W H x y
            pure { w with get := upd1 w.get s 1 }) w = (.ok ⟨w.d0, g⟩ : Py (Arr1 K)) ∧
          (∀ s, (∃ y ∈ ys, ((s : Nat) : Int) = x * H + y) → g s = 1) ∧
          (∀ s, (¬ ∃ y ∈ ys, ((s : Nat) : Int) = x * H + y) → g s = w.get s)) ∧
      ((∃ y ∈ ys, ¬ (0 ≤ x ∧ x < W ∧ 0 ≤ y ∧ y < H)) →
        ys.foldlM (fun (w : Arr1 K) y => do
            let s ← ravelMultiIndex W H x y
            pure { w with get := upd1 w.get s 1 }) w = (.error .valueError : Py (Arr1 K))) := by
    intro x ys
    induction ys with
    | nil => intro w; simp [pure, Except.pure]; exact ⟨w.get, rfl, fun _ => rfl⟩
    | cons y ys ih =>
      intro w
      rw [List.foldlM_cons]
      by_cases hy : 0 ≤ x ∧ x < W ∧ 0 ≤ y ∧ y < H
      · have hr : ravelMultiIndex W H x y = .ok (x.toNat * H + y.toNat) := by
          unfold ravelMultiIndex; rw [if_pos hy]
        rw [hr]
        have hcast : ((x.toNat * H + y.toNat : Nat) : Int) = x * H + y := by
          push_cast; rw [Int.toNat_of_nonneg hy.1, Int.toNat_of_nonneg hy.2.2.1]
        change ((_ → ∃ g, List.foldlM _ { w with get := upd1 w.get (x.toNat * H + y.toNat) 1 } ys =
          _ ∧ _ ∧ _) ∧ (_ → List.foldlM _ { w with get := upd1 w.get (x.toNat * H + y.toNat) 1 } ys = _))
        have ih' := ih { w with get := upd1 w.get (x.toNat * H + y.toNat) 1 }
        constructor
        · intro h
          obtain ⟨g, h1, h2, h3⟩ := ih'.1 fun y' hy' => h y' (List.mem_cons_of_mem _ hy')
          refine ⟨g, h1, ?_, ?_⟩
          · rintro s ⟨y', hy', hs⟩
            by_cases hin : ∃ y ∈ ys, ((s : Nat) : Int) = x * H + y
            · exact h2 s hin
            · rw [h3 s hin]
              rcases List.mem_cons.1 hy' with rfl | h'
              · have : s = x.toNat * H + y'.toNat := by
                  have := hs.trans hcast.symm; exact_mod_cast this
                simp [upd1, this]
              · exact absurd ⟨y', h', hs⟩ hin
          · intro s hs
            rw [h3 s (fun ⟨y', h', h''⟩ => hs ⟨y', List.mem_cons_of_mem _ h', h''⟩)]
            have : s ≠ x.toNat * H + y.toNat := by
              rintro rfl; exact hs ⟨y, List.mem_cons_self, hcast⟩
            simp [upd1, this]
        · rintro ⟨y', hy', h⟩
          rcases List.mem_cons.1 hy' with rfl | h'
          · exact absurd hy h
          · exact ih'.2 ⟨y', h', h⟩
      · have hr : ravelMultiIndex W H x y = .error .valueError := by
          unfold ravelMultiIndex; rw [if_neg hy]
        rw [hr]
        exact ⟨fun h => absurd (h y List.mem_cons_self) hy, fun _ => rfl⟩
  unfold wallCells
  induction xs generalizing w with
  | nil => simp [pure, Except.pure]; exact ⟨w.get, rfl, fun _ => rfl⟩
  | cons x xs ih =>
    rw [List.foldlM_cons]
    by_cases hx : ∀ y ∈ ys, 0 ≤ x ∧ x < W ∧ 0 ≤ y ∧ y < H
    · obtain ⟨g, h1, h2, h3⟩ := (inner x ys w).1 hx
      rw [h1]
      have ih' := ih ⟨w.d0, g⟩
      constructor
      · intro h
        obtain ⟨g', h4, h5, h6⟩ := ih'.1 fun x' hx' => h x' (List.mem_cons_of_mem _ hx')
        refine ⟨g', h4, ?_, ?_⟩
        · rintro s ⟨x', hx', y, hy, hs⟩
          by_cases hin : ∃ x ∈ xs, ∃ y ∈ ys, (s : Int) = x * H + y
          · exact h5 s hin
          · rw [h6 s hin]
            rcases List.mem_cons.1 hx' with rfl | h'
            · exact h2 s ⟨y, hy, hs⟩
            · exact absurd ⟨x', h', y, hy, hs⟩ hin
        · intro s hs
          rw [h6 s (fun ⟨x', h', r⟩ => hs ⟨x', List.mem_cons_of_mem _ h', r⟩)]
          exact h3 s fun r => hs ⟨x, List.mem_cons_self, r⟩
      · rintro ⟨x', hx', y, hy, h⟩
        rcases List.mem_cons.1 hx' with rfl | h'
        · exact absurd (hx y hy) h
        · exact ih'.2 ⟨x', h', y, hy, h⟩
    · have he : ∃ y ∈ ys, ¬ (0 ≤ x ∧ x < W ∧ 0 ≤ y ∧ y < H) := by
        by_contra hc
        apply hx
        intro y hy
        by_contra h
        exact hc ⟨y, hy, h⟩
      rw [(inner x ys w).2 he]
      refine ⟨fun h => absurd (h x List.mem_cons_self) hx, fun _ => rfl⟩

/-- Consuming only rewrites features. -/
theorem consumeLoop_frame (state : Int) (fs : List Int) (m : Mdp K) (c : Nat → Nat) :
    ∃ g, (consumeLoop state fs m c).1 = { m with features := { m.features with get := g } } := by
  induction fs generalizing m c with
  | nil => exact ⟨m.features.get, rfl⟩
  | cons f fs ih =>
    unfold consumeLoop
    split
    · split_ifs
      · obtain ⟨g, hg⟩ := ih _ _
        exact ⟨g, by rw [hg]⟩
      · exact ih _ _
    · exact ⟨m.features.get, rfl⟩

theorem GridOk.congr {kind : GridKind} {W H : Nat} {selfT : Bool} {m m' : Mdp K}
    (h : GridOk kind W H selfT m) (h1 : m'.shape = m.shape) (h2 : m'.nStates = m.nStates)
    (h3 : m'.nActions = m.nActions) (h4 : m'.originalSas = m.originalSas) (h5 : m'.walls = m.walls)
    (h6 : m'.sas = m.sas) (h7 : m'.deterministic = m.deterministic)
    (h8 : m'.adjacency = m.adjacency) (h9 : m'.features.d1 = W * H)
    (h10 : m'.originalFeatures.d1 = W * H) (h11 : m'.originalFeatures.d0 = m'.features.d0) :
    GridOk kind W H selfT m' := by
  refine ⟨h.pos, by rw [h1]; exact h.shape, by rw [h2]; exact h.nStates, by rw [h3]; exact h.nActions,
    by rw [h4]; exact h.orig, by rw [h5]; exact h.wallsLen, by rw [h5]; exact h.walls01,
    by rw [h5, h6]; exact h.sas, by rw [h7]; exact h.det, by rw [h3, h8]; exact h.adj, h9, h10, h11⟩

theorem setFeatures_grid {kind : GridKind} {W H : Nat} {selfT : Bool} {m : Mdp K}
    (h : GridOk kind W H selfT m) (f : Arr2 K) : GridOk kind W H selfT (m.setFeatures f).1 := by
  unfold setFeatures
  split_ifs with hf
  · exact h
  · have hf : f.d1 = W * H := by rw [← h.nStates]; simpa using hf
    exact h.congr rfl rfl rfl rfl rfl rfl rfl rfl hf hf rfl

theorem setWalls_gridOk {kind : GridKind} {W H : Nat} {selfT : Bool} {m : Mdp K}
    (h : GridOk kind W H selfT m) (w : Arr1 K) : GridOk kind W H selfT (m.setWalls w).1 := by
  by_cases hw : w.d0 ≠ W * H ∨ ∃ i, i < w.d0 ∧ ¬ (w.get i = 0 ∨ w.get i = 1)
  · rw [(setWalls_reject h.shape w hw).1]; exact h
  · push Not at hw
    obtain ⟨m', h1, h2, _⟩ := setWalls_grid h.pos h.shape h.orig h.featStates h.origFeatStates
      h.origFeat w hw.1 (fun i hi => hw.2 i (hw.1 ▸ hi))
    rw [h1]; exact h2

theorem GridOk.apply {kind : GridKind} {W H : Nat} {selfT : Bool} {m : Mdp K}
    (h : GridOk kind W H selfT m) (op : MdpOp K) (hop : ∀ x, op ≠ .setSas x) :
    GridOk kind W H selfT (m.apply op) := by
  cases op with
  | setSas x => exact absurd rfl (hop x)
  | setWalls w => exact setWalls_gridOk h w
  | addWallXY x y =>
    simp only [Mdp.apply, addWallXY, h.shape]
    split
    · exact h
    · exact setWalls_gridOk h _
  | resetWalls =>
    simp only [Mdp.apply, resetWalls]
    obtain ⟨m', h1, h2, _⟩ := setWalls_grid
      (m := { m with walls := { m.walls with get := fun i => m.walls.get i * 0 } })
      h.pos h.shape h.orig h.featStates h.origFeatStates h.origFeat
      { m.walls with get := fun i => m.walls.get i * 0 } h.wallsLen (fun i _ => by simp)
    rw [h1]; exact h2
  | setFeatures f => exact setFeatures_grid h f
  | addAgentFeature p =>
    simp only [Mdp.apply, addAgentFeature]
    have h' : GridOk kind W H selfT { m with nAgents := m.nAgents + 1 } :=
      h.congr rfl rfl rfl rfl rfl rfl rfl rfl h.featStates h.origFeatStates h.origFeat
    split
    · exact h'
    · split_ifs
      · exact h'
      · exact setFeatures_grid h' _
  | updateAgentFeature i p =>
    simp only [Mdp.apply, updateAgentFeature]
    split
    · exact h
    · split
      · exact h.congr rfl rfl rfl rfl rfl rfl rfl rfl h.featStates h.origFeatStates h.origFeat
      · exact h.congr rfl rfl rfl rfl rfl rfl rfl rfl h.featStates h.origFeatStates h.origFeat
  | removeAgentFeatures =>
    simp only [Mdp.apply, removeAgentFeatures]
    generalize (if m.nAgents = 0 then 0 else m.features.d0 - m.nAgents) = k
    have h' := setFeatures_grid h { m.features with d0 := k }
    split
    · rename_i heq; rw [heq] at h'; exact h'
    · rename_i m' heq
      rw [heq] at h'
      exact h'.congr rfl rfl rfl rfl rfl rfl rfl rfl h'.featStates h'.origFeatStates h'.origFeat
  | consumeFeatures fs s =>
    simp only [Mdp.apply, consumeFeatures]
    obtain ⟨g, hg⟩ := consumeLoop_frame s fs m fun _ => 0
    rw [hg]
    exact h.congr rfl rfl rfl rfl rfl rfl rfl rfl h.featStates h.origFeatStates h.origFeat
  | reset => exact setFeatures_grid h _

theorem GridOk.sas_ne_zero {kind : GridKind} {W H : Nat} {selfT : Bool} {m : Mdp K}
    (g : GridOk kind W H selfT m) {s a t : Nat} (hs : s < W * H) (ht : t < W * H) :
    m.sas s a t ≠ 0 ↔ m.walls.get s ≠ 1 ∧ m.walls.get t ≠ 1 ∧ kind.Move H selfT s a t := by
  rw [g.sas s a t hs ht]
  split_ifs with h1 h2
  · simp; tauto
  · simp; tauto
  · simp; tauto

theorem GridOk.sas_pos {kind : GridKind} {W H : Nat} {selfT : Bool} {m : Mdp K}
    (g : GridOk kind W H selfT m) {s a t : Nat} (hs : s < W * H) (ht : t < W * H) :
    0 < m.sas s a t ↔ m.walls.get s ≠ 1 ∧ m.walls.get t ≠ 1 ∧ kind.Move H selfT s a t := by
  rw [← g.sas_ne_zero hs ht, g.sas s a t hs ht]
  split_ifs <;> simp

theorem GridOk.sas_eq_one {kind : GridKind} {W H : Nat} {selfT : Bool} {m : Mdp K}
    (g : GridOk kind W H selfT m) {s a t : Nat} (hs : s < W * H) (ht : t < W * H) :
    m.sas s a t = 1 ↔ m.walls.get s ≠ 1 ∧ m.walls.get t ≠ 1 ∧ kind.Move H selfT s a t := by
  rw [← g.sas_ne_zero hs ht, g.sas s a t hs ht]
  split_ifs <;> simp

theorem GridReach.ok {kind : GridKind} {W H : Nat} {selfT : Bool} {m : Mdp K}
    (h : GridReach kind W H selfT m) : GridOk kind W H selfT m := by
  induction h with
  | init h =>
    obtain ⟨h1, h2, h3⟩ := initGrid_inv h
    obtain ⟨m', h4, h5, _⟩ := initGrid_ok h1 h2 h3
    rw [h4] at h
    cases h
    exact h5
  | step op _ hop ih => exact ih.apply op hop

end Mdp

end MaMDP
