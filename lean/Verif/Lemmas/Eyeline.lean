import Verif.Lemmas.IRL
import Verif.Lemmas.Mdp
import Verif.Spec.Eyeline

/-! # Lemmas about lines of sight -/

set_option linter.unusedSectionVars false

namespace MaMDP

variable {K : Type} [Field K] [LinearOrder K] [IsStrictOrderedRing K]

theorem at_inj {kind : GridKind} {H s t : Nat} (h : Spec.at' kind H s = Spec.at' kind H t) : s = t := by
  cases kind
  · simp only [Spec.at', Spec.centre, Prod.mk.injEq] at h
    exact state_eq_of_coords (by exact_mod_cast h.1) (by exact_mod_cast h.2)
  · simp only [Spec.at', Spec.centre, Prod.mk.injEq] at h
    have h1 : s / H = t / H := by exact_mod_cast h.1
    refine state_eq_of_coords h1 ?_
    rw [h1] at h
    omega

theorem move_iff {kind : GridKind} {H : Nat} {selfT : Bool} {s a t : Nat} (ha : a < kind.nMoves) :
    kind.Move H selfT s a t ↔ Spec.Ahead kind H a s 1 t := by
  unfold GridKind.Move Spec.Ahead Spec.at'
  cases kind
  · have ha : a < 4 := ha
    have hne : a ≠ GridKind.nMoves .square := by simp only [GridKind.nMoves]; omega
    simp only [hne, false_and, and_false, or_false]
    interval_cases a <;> simp [GridKind.dir, Spec.squareDir, Spec.cell, Spec.centre, Spec.heading]
  · have ha : a < 6 := ha
    have hne : a ≠ GridKind.nMoves .hex := by simp only [GridKind.nMoves]; omega
    simp only [hne, false_and, and_false, or_false]
    unfold Spec.cell
    generalize s / H = x
    generalize s % H = y
    generalize t / H = x'
    generalize t % H = y'
    have hx : (x : Int) % 2 = 0 ↔ x % 2 = 0 := by omega
    interval_cases a <;>
      simp only [GridKind.dir, Spec.hexDir, Spec.centre, Spec.heading, hx, Prod.mk.injEq] <;>
      by_cases h1 : x % 2 = 0 <;> by_cases h2 : x' % 2 = 0 <;>
      simp only [h1, h2, if_true, if_false, Option.some.injEq, exists_eq_left'] <;> omega

/-- Distance to the edge of the grid in direction `a`. -/
def roomLeft (kind : GridKind) (W H a s : Nat) : Nat :=
  match kind, a with
  | .square, 0 => H - 1 - s % H
  | .square, 1 => W - 1 - s / H
  | .square, 2 => s % H
  | .square, _ => s / H
  | .hex, 0 => H - 1 - s % H
  | .hex, 1 => W - 1 - s / H
  | .hex, 2 => W - 1 - s / H
  | .hex, 3 => s % H
  | .hex, _ => s / H

theorem div_mod_lt {W H s : Nat} (hs : s < W * H) : s / H < W ∧ s % H < H := by
  have hH := pos_of_lt_mul hs
  exact ⟨(Nat.div_lt_iff_lt_mul hH).2 hs, Nat.mod_lt _ hH⟩

theorem roomLeft_lt {kind : GridKind} {W H a s : Nat} (hs : s < W * H) : roomLeft kind W H a s < W * H := by
  obtain ⟨h1, h2⟩ := div_mod_lt hs
  have hW : W ≤ W * H := Nat.le_mul_of_pos_right _ (Nat.zero_lt_of_lt h2)
  have hH : H ≤ W * H := Nat.le_mul_of_pos_left _ (Nat.zero_lt_of_lt h1)
  clear hs
  unfold roomLeft
  generalize s / H = x at *
  generalize s % H = y at *
  generalize W * H = n at *
  split <;> omega

theorem roomLeft_step {kind : GridKind} {W H a s t : Nat} (ha : a < kind.nMoves) (hs : s < W * H) (ht : t < W * H)
    (h : Spec.Ahead kind H a s 1 t) : roomLeft kind W H a t < roomLeft kind W H a s := by
  obtain ⟨h1, h2⟩ := div_mod_lt hs
  obtain ⟨h3, h4⟩ := div_mod_lt ht
  unfold Spec.Ahead Spec.at' at h
  unfold roomLeft
  generalize s / H = x at *
  generalize s % H = y at *
  generalize t / H = x' at *
  generalize t % H = y' at *
  cases kind
  · have ha : a < 4 := ha
    interval_cases a <;> simp [Spec.centre, Spec.heading] at h ⊢ <;> omega
  · have ha : a < 6 := ha
    interval_cases a <;>
      simp only [Spec.centre, Spec.heading, Prod.mk.injEq] at h ⊢ <;>
      by_cases h1 : x % 2 = 0 <;> by_cases h2 : x' % 2 = 0 <;>
      simp only [h1, h2, if_true, if_false] at h <;> omega

theorem ahead_zero {kind : GridKind} {H a s : Nat} : Spec.Ahead kind H a s 0 s := by
  unfold Spec.Ahead; simp

theorem ahead_succ {kind : GridKind} {H a s t u i : Nat} (h : Spec.Ahead kind H a s 1 t) :
    Spec.Ahead kind H a s (i + 1) u ↔ Spec.Ahead kind H a t i u := by
  unfold Spec.Ahead at *
  rw [h]
  push_cast
  constructor <;> intro h' <;> rw [h'] <;> ext <;> simp <;> ring

theorem ahead_unique {kind : GridKind} {H a s i t u : Nat} (h1 : Spec.Ahead kind H a s i t)
    (h2 : Spec.Ahead kind H a s i u) : t = u := at_inj (h1.trans h2.symm)

section Grid

variable {kind : GridKind} {W H : Nat} {selfT : Bool} {m : Mdp K} (g : Mdp.GridOk kind W H selfT m)
include g

/-- The loop goes on exactly when the next cell exists and neither cell is a wall. -/
theorem eye_go {a s t : Nat} (ha : a < kind.nMoves) (hs : s < W * H) (ht : t < W * H)
    (h1 : m.walls.get s ≠ 1) (h2 : m.walls.get t ≠ 1) (h : Spec.Ahead kind H a s 1 t) :
    0 < npMax m.nStates (fun t => m.sas s a t) ∧ npArgmax m.nStates (fun t => m.sas s a t) = t := by
  have hp : 0 < m.sas s a t := (g.sas_pos hs ht).2 ⟨h1, h2, (move_iff ha).2 h⟩
  have hz : ∀ u, u < W * H → u ≠ t → m.sas s a u = 0 := by
    intro u hu hne
    by_contra hc
    have := ((g.sas_ne_zero hs hu).1 hc).2.2
    exact hne (ahead_unique ((move_iff ha).1 this) h)
  rw [g.nStates]
  constructor
  · exact lt_of_lt_of_le hp (le_npMax (fun t => m.sas s a t) ht)
  · refine npArgmax_eq _ ht (fun u hu => ?_) fun u hu => ?_
    · by_cases hut : u = t
      · rw [hut]
      · rw [hz u hu hut]; exact hp.le
    · rw [hz u (by omega) (by omega)]; exact hp

theorem eye_stop {a s : Nat} (ha : a < kind.nMoves) (hs : s < W * H)
    (h : m.walls.get s = 1 ∨ ∀ t, t < W * H → Spec.Ahead kind H a s 1 t → m.walls.get t = 1) :
    ¬ 0 < npMax m.nStates (fun t => m.sas s a t) := by
  rw [g.nStates, not_lt]
  refine npMax_le _ g.pos fun t ht => ?_
  by_contra hc
  obtain ⟨h1, h2, h3⟩ := (g.sas_pos hs ht).1 (not_le.1 hc)
  rcases h with h | h
  · exact h1 h
  · exact h2 (h t ht ((move_iff ha).1 h3))

theorem eyeStates_sight {a : Nat} (ha : a < kind.nMoves) : ∀ (fuel s : Nat), s < W * H →
    roomLeft kind W H a s < fuel →
    ∃ l, eyeStates m a fuel s = some l ∧ Spec.LineOfSight kind H (W * H) (fun t => m.walls.get t = 1) a s l
  | 0, s, hs, h => by omega
  | k + 1, s, hs, h => by
    by_cases hgo : m.walls.get s ≠ 1 ∧ ∃ t, t < W * H ∧ m.walls.get t ≠ 1 ∧ Spec.Ahead kind H a s 1 t
    · obtain ⟨h1, t, ht, h2, h3⟩ := hgo
      obtain ⟨e1, e2⟩ := eye_go g ha hs ht h1 h2 h3
      have hr := roomLeft_step ha hs ht h3
      obtain ⟨l, hl, los⟩ := eyeStates_sight ha k t ht (by omega)
      refine ⟨s :: l, ?_, ?_⟩
      · rw [eyeStates, if_pos e1, e2, hl]
        rfl
      · have hfree : ∀ u ∈ l, m.walls.get u ≠ 1 := by
          by_cases hlen : 1 < l.length
          · exact los.free hlen
          · intro u hu
            match l, los, hu with
            | [v], los, hu =>
              have := los.straight 0 v rfl
              rw [List.mem_singleton.1 hu, ahead_unique this ahead_zero]
              exact h2
            | _ :: _ :: _, _, _ => simp at hlen
        refine ⟨by simp, fun u hu => ?_, fun i u hi => ?_, fun _ u hu => ?_, Or.inr fun u hu hc => ?_⟩
        · rcases List.mem_cons.1 hu with rfl | hu
          · exact hs
          · exact los.inside u hu
        · cases i with
          | zero =>
            have : s = u := by simpa using hi
            rw [← this]; exact ahead_zero
          | succ i => exact (ahead_succ h3).2 (los.straight i u (by simpa using hi))
        · rcases List.mem_cons.1 hu with rfl | hu
          · exact h1
          · exact hfree u hu
        · rcases los.ends with hw | he
          · exact absurd hw h2
          · exact he u hu ((ahead_succ h3).1 (by simpa using hc))
    · have hstop : m.walls.get s = 1 ∨ ∀ t, t < W * H → Spec.Ahead kind H a s 1 t → m.walls.get t = 1 := by
        by_cases h1 : m.walls.get s = 1
        · exact Or.inl h1
        · refine Or.inr fun t ht h3 => ?_
          by_contra h2
          exact hgo ⟨h1, t, ht, h2, h3⟩
      refine ⟨[s], by rw [eyeStates, if_neg (eye_stop g ha hs hstop)], ⟨by simp, by simpa using hs, ?_, by simp, ?_⟩⟩
      · intro i u hi
        cases i with
        | zero =>
          have : s = u := by simpa using hi
          rw [← this]; exact ahead_zero
        | succ i => simp at hi
      · simpa using hstop

/-- The self action, on a cell that is not a wall, never ends. -/
theorem eyeStates_self (hself : selfT = true) {s : Nat} (hs : s < W * H) (h1 : m.walls.get s ≠ 1) :
    ∀ fuel, eyeStates m kind.nMoves fuel s = none
  | 0 => rfl
  | k + 1 => by
    have hp : 0 < m.sas s kind.nMoves s := (g.sas_pos hs hs).2 ⟨h1, h1, Or.inr ⟨hself, rfl, rfl⟩⟩
    have hz : ∀ u, u < W * H → u ≠ s → m.sas s kind.nMoves u = 0 := by
      intro u hu hne
      by_contra hc
      rcases ((g.sas_ne_zero hs hu).1 hc).2.2 with ⟨d, hd, _⟩ | ⟨_, _, h⟩
      · exact absurd (GridKind.dir_lt hd) (lt_irrefl _)
      · exact hne h
    have e1 : 0 < npMax m.nStates (fun t => m.sas s kind.nMoves t) := by
      rw [g.nStates]; exact lt_of_lt_of_le hp (le_npMax (fun t => m.sas s kind.nMoves t) hs)
    have e2 : npArgmax m.nStates (fun t => m.sas s kind.nMoves t) = s := by
      rw [g.nStates]
      refine npArgmax_eq _ hs (fun u hu => ?_) fun u hu => ?_
      · by_cases hut : u = s
        · rw [hut]
        · rw [hz u hu hut]; exact hp.le
      · rw [hz u (by omega) (by omega)]; exact hp
    rw [eyeStates, if_pos e1, e2, eyeStates_self hself hs h1 k]
    rfl

/-- The action found for a pair of states. -/
theorem pairToAction_ok {s a t : Nat} (ha : a < kind.nMoves) (hs : s < W * H) (ht : t < W * H)
    (h1 : m.walls.get s ≠ 1) (h2 : m.walls.get t ≠ 1) (h : Spec.Ahead kind H a s 1 t) :
    irlPairToAction m s t = .ok a := by
  have hA : a < m.nActions := by rw [g.nActions]; omega
  have hp : 0 < m.sas s a t := (g.sas_pos hs ht).2 ⟨h1, h2, (move_iff ha).2 h⟩
  have hmove := (move_iff (selfT := selfT) ha).2 h
  have hz : ∀ b, b < m.nActions → b ≠ a → m.sas s b t = 0 := by
    intro b _ hne
    by_contra hc
    have hb := ((g.sas_ne_zero hs ht).1 hc).2.2
    rcases hmove with ⟨d, hd, e⟩ | ⟨_, h, _⟩
    · rcases hb with ⟨d', hd', e'⟩ | ⟨_, _, hst⟩
      · rw [e] at e'
        have : d = d' := by
          have h1 := congrArg Prod.fst e'
          have h2 := congrArg Prod.snd e'
          simp only at h1 h2
          ext <;> omega
        subst this
        exact hne (GridKind.dir_inj hd' hd)
      · subst hst
        have := roomLeft_step ha hs hs h
        omega
    · omega
  unfold irlPairToAction
  rw [if_pos (lt_of_lt_of_le hp (le_npMax (fun a => m.sas s a t) hA))]
  congr 1
  refine npArgmax_eq _ hA (fun u hu => ?_) fun u hu => ?_
  · by_cases hut : u = a
    · rw [hut]
    · rw [hz u hu hut]; exact hp.le
  · rw [hz u (by omega) (by omega)]; exact hp

theorem pairToAction_self (hself : selfT = true) {s : Nat} (hs : s < W * H) (h1 : m.walls.get s ≠ 1) :
    irlPairToAction m s s = .ok kind.nMoves := by
  have hA : kind.nMoves < m.nActions := by rw [g.nActions, hself]; simp
  have hp : 0 < m.sas s kind.nMoves s := (g.sas_pos hs hs).2 ⟨h1, h1, Or.inr ⟨hself, rfl, rfl⟩⟩
  have hz : ∀ b, b < m.nActions → b ≠ kind.nMoves → m.sas s b s = 0 := by
    intro b hb hne
    by_contra hc
    have hb' : b < kind.nMoves := by
      rw [g.nActions, hself] at hb
      simp at hb
      omega
    have := roomLeft_step hb' hs hs ((move_iff hb').1 ((g.sas_ne_zero hs hs).1 hc).2.2)
    omega
  unfold irlPairToAction
  rw [if_pos (lt_of_lt_of_le hp (le_npMax (fun a => m.sas s a s) hA))]
  congr 1
  refine npArgmax_eq _ hA (fun u hu => ?_) fun u hu => ?_
  · by_cases hut : u = kind.nMoves
    · rw [hut]
    · rw [hz u hu hut]; exact hp.le
  · rw [hz u (by omega) (by omega)]; exact hp

/-- Both cells exist, neither is a wall, and the second is next to the first in direction `a`. -/
def GridStep (kind : GridKind) (W H : Nat) (wall : Nat → Prop) (s a t : Nat) : Prop :=
  a < kind.nMoves ∧ s < W * H ∧ t < W * H ∧ ¬ wall s ∧ ¬ wall t ∧ Spec.Ahead kind H a s 1 t

/-- The states the loop collects. -/
def sight (m : Mdp K) (fuel s a : Nat) : List Nat := (eyeStates m a fuel s).getD []

omit g in
theorem sumFeatures_eq (m : Mdp K) (l : List Nat) (f : Nat) :
    sumFeatures m l f = (l.map fun t => m.features.get f t).sum := rfl

theorem eyeFeatures_sight {fuel s a : Nat} (hf : W * H ≤ fuel) (ha : a < kind.nMoves) (hs : s < W * H) :
    eyeFeatures m fuel s a = some (sumFeatures m (sight m fuel s a)) ∧
    Spec.LineOfSight kind H (W * H) (fun t => m.walls.get t = 1) a s (sight m fuel s a) := by
  obtain ⟨l, hl, los⟩ := eyeStates_sight g ha fuel s hs (lt_of_lt_of_le (roomLeft_lt hs) hf)
  have : sight m fuel s a = l := by unfold sight; rw [hl]; rfl
  rw [this]
  exact ⟨by unfold eyeFeatures; rw [hl]; rfl, los⟩

theorem eyeCounts_ok {fuel : Nat} (hf : W * H ≤ fuel) : ∀ (t : List Nat) (ps : List (Nat × Nat)) (c : Nat → K),
    Spec.Directions (GridStep kind W H fun t => m.walls.get t = 1) t ps →
    eyeCounts m fuel t c = some (.ok fun f => c f + (ps.map fun p => sumFeatures m (sight m fuel p.1 p.2) f).sum)
  | [], ps, c, h => by
    have : ps = [] := by simpa [Spec.Directions] using h
    subst this; simp [eyeCounts]
  | [_], ps, c, h => by
    have : ps = [] := by simpa [Spec.Directions] using h
    subst this; simp [eyeCounts]
  | s :: t :: l, [], c, h => absurd h (by simp [Spec.Directions])
  | s :: t :: l, (s', a) :: ps, c, h => by
    obtain ⟨rfl, ⟨h1, h2, h3, h4, h5, h6⟩, h7⟩ := h
    simp only at h1 h2 h4 h6 h7
    rw [eyeCounts, pairToAction_ok g h1 h2 h3 h4 h5 h6]
    simp only
    rw [(eyeFeatures_sight g hf h1 h2).1]
    simp only
    rw [eyeCounts_ok hf (t :: l) ps _ h7]
    simp only [List.map_cons, List.sum_cons, add_assoc]

theorem eyeTrajectories_ok {fuel : Nat} (hf : W * H ≤ fuel) : ∀ (ts : List (List Nat)) (pss : List (List (Nat × Nat)))
    (c : Nat → K), List.Forall₂ (Spec.Directions (GridStep kind W H fun t => m.walls.get t = 1)) ts pss →
    eyeTrajectories m fuel ts c =
      some (.ok fun f => c f + (pss.flatten.map fun p => sumFeatures m (sight m fuel p.1 p.2) f).sum)
  | [], _, c, h => by cases h; simp [eyeTrajectories]
  | t :: ts, _, c, h => by
    cases h with
    | cons h1 h2 =>
      rw [eyeTrajectories, eyeCounts_ok g hf t _ c h1]
      simp only
      rw [eyeTrajectories_ok hf ts _ _ h2]
      simp [add_assoc]

theorem diffActions_ok {fuel s chosen : Nat} (hf : W * H ≤ fuel) (hs : s < W * H) : ∀ (l : List Nat)
    (c u : Nat → K), (∀ a ∈ l, a < kind.nMoves) →
    diffActions m fuel s chosen l (c, u) = some
      (fun f => c f + ((l.filter fun a => a = chosen).map fun a => sumFeatures m (sight m fuel s a) f).sum,
       fun f => u f + ((l.filter fun a => a ≠ chosen).map fun a => sumFeatures m (sight m fuel s a) f).sum)
  | [], c, u, _ => by simp [diffActions]
  | a :: l, c, u, h => by
    rw [diffActions, (eyeFeatures_sight g hf (h a List.mem_cons_self) hs).1]
    simp only
    by_cases ha : a = chosen
    · rw [if_pos ha, diffActions_ok hf hs l _ _ fun b hb => h b (List.mem_cons_of_mem _ hb)]
      subst ha
      simp [add_assoc]
    · rw [if_neg ha, diffActions_ok hf hs l _ _ fun b hb => h b (List.mem_cons_of_mem _ hb)]
      simp [ha, add_assoc]

theorem diffCounts_ok {fuel : Nat} (hf : W * H ≤ fuel) : ∀ (t : List Nat) (ps : List (Nat × Nat)) (c u : Nat → K),
    Spec.Directions (GridStep kind W H fun t => m.walls.get t = 1) t ps →
    diffCounts m fuel t (c, u) = some (.ok
      (fun f => c f + (ps.map fun p => (((List.range (m.nActions - 1)).filter fun a => a = p.2).map
        fun a => sumFeatures m (sight m fuel p.1 a) f).sum).sum,
       fun f => u f + (ps.map fun p => (((List.range (m.nActions - 1)).filter fun a => a ≠ p.2).map
        fun a => sumFeatures m (sight m fuel p.1 a) f).sum).sum))
  | [], ps, c, u, h => by
    have : ps = [] := by simpa [Spec.Directions] using h
    subst this; simp [diffCounts]
  | [_], ps, c, u, h => by
    have : ps = [] := by simpa [Spec.Directions] using h
    subst this; simp [diffCounts]
  | s :: t :: l, [], c, u, h => absurd h (by simp [Spec.Directions])
  | s :: t :: l, (s', a) :: ps, c, u, h => by
    obtain ⟨rfl, ⟨h1, h2, h3, h4, h5, h6⟩, h7⟩ := h
    simp only at h1 h2 h4 h6 h7
    have hr : ∀ a ∈ List.range (m.nActions - 1), a < kind.nMoves := by
      intro b hb
      have := List.mem_range.1 hb
      rw [g.nActions] at this
      split_ifs at this <;> omega
    rw [diffCounts, pairToAction_ok g h1 h2 h3 h4 h5 h6]
    simp only
    rw [diffActions_ok g hf h2 _ c u hr]
    simp only
    rw [diffCounts_ok hf (t :: l) ps _ _ h7]
    simp only [List.map_cons, List.sum_cons, add_assoc]

end Grid

/-! ## Normalisation -/

theorem normalise_spec (nF : Nat) (c : Nat → K) (h : ∀ f, f < nF → 0 ≤ c f) :
    (∀ f, f < nF → 0 ≤ normaliseCounts nF c f) ∧
    ((∃ f, f < nF ∧ c f ≠ 0) → ∑ f ∈ Finset.range nF, normaliseCounts nF c f = 1) ∧
    ((∀ f, f < nF → c f = 0) → ∀ f, f < nF → normaliseCounts nF c f = 0) := by
  have hs : 0 ≤ npSum nF c := Finset.sum_nonneg fun f hf => h f (Finset.mem_range.1 hf)
  refine ⟨fun f hf => ?_, fun ⟨f, hf, hne⟩ => ?_, fun hz f hf => ?_⟩
  · unfold normaliseCounts
    split_ifs with hz
    · exact h f hf
    · exact div_nonneg (h f hf) hs
  · have hn : ¬ ∀ f, f < nF → c f = 0 := fun hz => hne (hz f hf)
    unfold normaliseCounts
    rw [if_neg hn, ← Finset.sum_div]
    have : npSum nF c ≠ 0 := by
      unfold npSum
      refine (Finset.sum_pos' (fun f hf => h f (Finset.mem_range.1 hf)) ⟨f, Finset.mem_range.2 hf, ?_⟩).ne'
      exact lt_of_le_of_ne (h f hf) (Ne.symm hne)
    exact div_self this
  · unfold normaliseCounts
    rw [if_pos hz]
    exact hz f hf

theorem eyeStates_range (m : Mdp K) (a : Nat) : ∀ (fuel s : Nat), s < m.nStates → ∀ l,
    eyeStates m a fuel s = some l → ∀ t ∈ l, t < m.nStates
  | 0, s, hs, l, h => by simp [eyeStates] at h
  | k + 1, s, hs, l, h => by
    rw [eyeStates] at h
    split_ifs at h
    · obtain ⟨l', h', rfl⟩ := Option.map_eq_some_iff.1 h
      intro t ht
      rcases List.mem_cons.1 ht with rfl | ht
      · exact hs
      · exact eyeStates_range m a k _ (npArgmax_lt _ (by omega)) l' h' t ht
    · rw [← Option.some.inj h]; simpa using hs

theorem eyeCounts_nonneg (m : Mdp K) (fuel : Nat)
    (hm : ∀ f, f < m.nFeatures → ∀ s, s < m.nStates → 0 ≤ m.features.get f s) :
    ∀ (t : List Nat) (c c' : Nat → K), (∀ s ∈ t, s < m.nStates) → (∀ f, f < m.nFeatures → 0 ≤ c f) →
    eyeCounts m fuel t c = some (.ok c') → ∀ f, f < m.nFeatures → 0 ≤ c' f
  | [], c, c', _, hc, h => by rw [← Except.ok.inj (Option.some.inj h)]; exact hc
  | [_], c, c', _, hc, h => by rw [← Except.ok.inj (Option.some.inj h)]; exact hc
  | s :: t :: l, c, c', ht, hc, h => by
    rw [eyeCounts] at h
    split at h
    · cases h
    · split at h
      · cases h
      · rename_i a _ _ v hv
        obtain ⟨l', h', rfl⟩ := Option.map_eq_some_iff.1 hv
        refine eyeCounts_nonneg m fuel hm (t :: l) _ c' (fun u hu => ht u (List.mem_cons_of_mem _ hu)) ?_ h
        intro f hf
        refine add_nonneg (hc f hf) (List.sum_nonneg fun y hy => ?_)
        obtain ⟨u, hu, rfl⟩ := List.mem_map.1 hy
        exact hm f hf u (eyeStates_range m a fuel s (ht s List.mem_cons_self) l' h' u hu)

theorem eyeTrajectories_nonneg (m : Mdp K) (fuel : Nat)
    (hm : ∀ f, f < m.nFeatures → ∀ s, s < m.nStates → 0 ≤ m.features.get f s) :
    ∀ (ts : List (List Nat)) (c c' : Nat → K), (∀ t ∈ ts, ∀ s ∈ t, s < m.nStates) →
    (∀ f, f < m.nFeatures → 0 ≤ c f) →
    eyeTrajectories m fuel ts c = some (.ok c') → ∀ f, f < m.nFeatures → 0 ≤ c' f
  | [], c, c', _, hc, h => by rw [← Except.ok.inj (Option.some.inj h)]; exact hc
  | t :: ts, c, c', ht, hc, h => by
    rw [eyeTrajectories] at h
    split at h
    · cases h
    · cases h
    · rename_i c1 h1
      exact eyeTrajectories_nonneg m fuel hm ts c1 c' (fun t ht' => ht t (List.mem_cons_of_mem _ ht'))
        (eyeCounts_nonneg m fuel hm t c c1 (ht t List.mem_cons_self) hc h1) h

theorem normaliseCounts_share {nF : Nat} (c : Nat → K) {f : Nat} (hf : f < nF) :
    normaliseCounts nF c f = Spec.share nF c f := by
  unfold normaliseCounts Spec.share
  change _ = if npSum nF c = 0 then 0 else c f / npSum nF c
  split_ifs with h1 h2 h2
  · exact h1 f hf
  · rw [h1 f hf, zero_div]
  · rw [h2]; exact div_zero _
  · rfl

end MaMDP
