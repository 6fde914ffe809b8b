import Verif.Lemmas.RandomWalk
import Verif.Props.Algorithm
import Mathlib.Analysis.SpecificLimits.Basic
import Mathlib.Algebra.Order.Archimedean.Real.Basic

/-! # C106: what the successor representation counts -/

set_option linter.unusedSectionVars false

namespace MaMDP

open Filter Topology

/-- **C106**, partial: in a deterministic MDP the successor representation counts the discounted visits of a
walker who chooses with equal probabilities among **all** actions, available or not, and is gone after choosing
one that leads nowhere. After `N` moves the difference is at most `γ ^ N / (1 - γ)`. What is missing is that
the walker chooses among the available actions. -/
theorem C106_partial {K : Type} [Field K] [LinearOrder K] [IsStrictOrderedRing K] (M : Trans K)
    (hM : Spec.SubStochastic M) (hdet : Spec.Deterministic M) (γ : K) (g0 : 0 ≤ γ) (g1 : γ < 1) :
    ∃ sr, getSaSr M γ = .ok sr ∧ ∀ (N s a t b : Nat) (hs : s < M.nS) (ha : a < M.nA) (ht : t < M.nS) (hb : b < M.nA),
      |sr ⟨s * M.nA + a, pair_lt hs ha⟩ ⟨t * M.nA + b, pair_lt ht hb⟩ -
        Spec.walkVisits M (fun _ _ => 1 / M.nA) γ N s a t b| ≤ γ ^ N / (1 - γ) := by
  obtain ⟨sr, h1, -, h2, h3, h4⟩ := C35_sr_exists M γ g0 g1 _ (C35_matrix M)
  refine ⟨sr, h1, fun N s a t b hs ha ht hb => ?_⟩
  have key : ∀ N s a, s < M.nS → a < M.nA →
      |srAt M sr s a t b - Spec.walkVisits M (fun _ _ => 1 / M.nA) γ N s a t b| ≤ γ ^ N / (1 - γ) := by
    intro N
    induction N with
    | zero =>
      intro s a _ _
      obtain ⟨h5, h6⟩ := srAt_mem (M := M) h3 h4 g1 s a t b
      simp only [Spec.walkVisits, Finset.range_zero, Finset.sum_empty, sub_zero, pow_zero]
      rw [abs_of_nonneg h5]; exact h6
    | succ N ih =>
      intro s a hs ha
      have hnA : (0 : K) < M.nA := by exact_mod_cast (by omega : 0 < M.nA)
      rw [srAt_eq hM hdet h2 hs ha ht hb, walkVisits_succ, add_sub_add_left_eq_sub, ← mul_sub, abs_mul,
        abs_of_nonneg g0, pow_succ, mul_comm (γ ^ N) γ, mul_div_assoc]
      refine mul_le_mul_of_nonneg_left ?_ g0
      rw [sum_successor hM hdet hs ha, sum_successor hM hdet hs ha]
      cases hf : firstSuccessor M s a with
      | none =>
        simp only [sub_self, abs_zero]
        exact div_nonneg (pow_nonneg g0 N) (by linarith)
      | some u =>
        simp only
        rw [← Finset.sum_sub_distrib]
        refine (Finset.abs_sum_le_sum_abs _ _).trans ?_
        have h5 : ∀ a' ∈ Finset.range M.nA, |1 / (M.nA : K) * srAt M sr u a' t b -
            1 / (M.nA : K) * Spec.walkVisits M (fun _ _ => 1 / M.nA) γ N u a' t b| ≤
              1 / (M.nA : K) * (γ ^ N / (1 - γ)) := by
          intro a' ha'
          rw [← mul_sub, abs_mul, abs_of_nonneg (one_div_nonneg.2 hnA.le)]
          exact mul_le_mul_of_nonneg_left (ih u a' (firstSuccessor_lt hf) (Finset.mem_range.1 ha'))
            (one_div_nonneg.2 hnA.le)
        refine (Finset.sum_le_sum h5).trans (le_of_eq ?_)
        rw [Finset.sum_const, Finset.card_range, nsmul_eq_mul, ← mul_assoc, mul_one_div, div_self hnA.ne', one_mul]
  have := key N s a hs ha
  unfold srAt at this
  rwa [dif_pos ⟨pair_lt hs ha, pair_lt ht hb⟩] at this

/-- Every grid has an action that lowers the number of the state. -/
theorem grid_descends {kind : GridKind} {W H : Nat} {selfT : Bool} {m : Mdp ℝ}
    (hm : Mdp.GridReach kind W H selfT m) : ∃ a, a < m.nActions ∧ ∀ s t, s < m.nStates → t < m.nStates →
      m.sas s a t ≠ 0 → t < s := by
  have g := hm.ok
  have hcell : ∀ s t, s < W * H → t < W * H → Spec.cell H t = ((Spec.cell H s).1 + 0, (Spec.cell H s).2 + -1) →
      t < s := by
    intro s t hs _ h
    unfold Spec.cell at h
    simp only [Prod.mk.injEq] at h
    obtain ⟨h1, h2⟩ := h
    have h1 : t / H = s / H := by omega
    have h2 : t % H < s % H := by omega
    have e1 := Nat.div_add_mod s H
    have e2 := Nat.div_add_mod t H
    rw [h1] at e2
    omega
  cases kind with
  | square =>
    refine ⟨2, by rw [g.nActions]; cases selfT <;> decide, fun s t hs ht h => ?_⟩
    rw [g.nStates] at hs ht
    obtain ⟨-, -, hmv⟩ := (g.sas_ne_zero hs ht).1 h
    rcases hmv with ⟨d, e1, e2⟩ | ⟨-, e1, -⟩
    · have e1 : Spec.squareDir 2 = some d := e1
      cases e1
      exact hcell s t hs ht e2
    · cases e1
  | hex =>
    refine ⟨3, by rw [g.nActions]; cases selfT <;> decide, fun s t hs ht h => ?_⟩
    rw [g.nStates] at hs ht
    obtain ⟨-, -, hmv⟩ := (g.sas_ne_zero hs ht).1 h
    rcases hmv with ⟨d, e1, e2⟩ | ⟨-, e1, -⟩
    · have e1 : Spec.hexDir (Spec.cell H s).1 3 = some d := e1
      cases e1
      exact hcell s t hs ht e2
    · cases e1

/-- The row totals, if some action always lowers the number of the state. -/
theorem sr_total_lt {M : Trans ℝ} (hM : Spec.SubStochastic M) (hdet : Spec.Deterministic M) {γ : ℝ}
    (g0 : 0 < γ) (g1 : γ < 1) {sr : Matrix (Fin (M.nS * M.nA)) (Fin (M.nS * M.nA)) ℝ}
    (h2 : (1 - γ • saMatrix M) * sr = 1) (h4 : ∀ i, ∑ j, sr i j ≤ 1 / (1 - γ)) {a0 : Nat} (ha0 : a0 < M.nA)
    (hdec : ∀ s t, s < M.nS → t < M.nS → M.p s a0 t ≠ 0 → t < s) {s a : Nat} (hs : s < M.nS) (ha : a < M.nA) :
    ∑ j, sr ⟨s * M.nA + a, pair_lt hs ha⟩ j < 1 / (1 - γ) := by
  have hA : 0 < M.nA := by omega
  have hnA : (0 : ℝ) < M.nA := by exact_mod_cast hA
  have h1g : 0 < 1 - γ := by linarith
  set R : Nat → Nat → ℝ := fun s a => ∑ t ∈ Finset.range M.nS, ∑ b ∈ Finset.range M.nA, srAt M sr s a t b with hR
  have hRle : ∀ s a, s < M.nS → a < M.nA → R s a ≤ 1 / (1 - γ) := by
    intro s a hs ha
    simp only [hR]
    rw [srAt_total hs ha]; exact h4 _
  have hReq : ∀ s a, s < M.nS → a < M.nA → R s a = 1 + γ * ∑ u ∈ Finset.range M.nS, M.p s a u *
      ∑ a' ∈ Finset.range M.nA, 1 / (M.nA : ℝ) * R u a' := by
    intro s a hs ha
    have e : R s a = ∑ t ∈ Finset.range M.nS, ∑ b ∈ Finset.range M.nA, ((if s = t ∧ a = b then 1 else 0) +
        γ * ∑ u ∈ Finset.range M.nS, M.p s a u *
          ∑ a' ∈ Finset.range M.nA, 1 / (M.nA : ℝ) * srAt M sr u a' t b) :=
      Finset.sum_congr rfl fun t ht => Finset.sum_congr rfl fun b hb =>
        srAt_eq hM hdet h2 hs ha (Finset.mem_range.1 ht) (Finset.mem_range.1 hb)
    rw [e]
    simp only [Finset.sum_add_distrib]
    congr 1
    · rw [Finset.sum_eq_single_of_mem s (Finset.mem_range.2 hs) fun t _ ht =>
        Finset.sum_eq_zero fun b _ => if_neg fun h => ht h.1.symm,
        Finset.sum_eq_single_of_mem a (Finset.mem_range.2 ha) fun b _ hb => if_neg fun h => hb h.2.symm,
        if_pos ⟨rfl, rfl⟩]
    · simp only [sum_successor hM hdet hs ha]
      cases firstSuccessor M s a with
      | none => simp
      | some u =>
        simp only [hR, Finset.mul_sum]
        symm
        rw [Finset.sum_comm]
        refine Finset.sum_congr rfl fun t _ => ?_
        rw [Finset.sum_comm]
  have hfull : ∀ s a, s < M.nS → a < M.nA → R s a = 1 / (1 - γ) →
      ∃ u, u < M.nS ∧ M.p s a u ≠ 0 ∧ ∀ a', a' < M.nA → R u a' = 1 / (1 - γ) := by
    intro s a hs ha he
    rw [hReq s a hs ha, sum_successor hM hdet hs ha] at he
    cases hf : firstSuccessor M s a with
    | none =>
      rw [hf] at he
      simp only [mul_zero, add_zero] at he
      rw [eq_div_iff h1g.ne'] at he
      linarith
    | some u =>
      rw [hf] at he
      simp only at he
      obtain ⟨hu, hp, -⟩ := firstSuccessor_some.1 hf
      refine ⟨u, hu, hp, fun a' ha' => ?_⟩
      have hsum : ∑ a' ∈ Finset.range M.nA, (1 / (1 - γ) - R u a') = 0 := by
        rw [Finset.sum_sub_distrib, Finset.sum_const, Finset.card_range, nsmul_eq_mul]
        rw [← Finset.mul_sum] at he
        have h5 : γ * (1 / (M.nA : ℝ) * ∑ a' ∈ Finset.range M.nA, R u a') = γ * (1 / (1 - γ)) := by
          have : γ * (1 / (1 - γ)) = 1 / (1 - γ) - 1 := by field_simp; ring
          linarith
        have h6 := mul_left_cancel₀ g0.ne' h5
        rw [← h6, ← mul_assoc, mul_one_div, div_self hnA.ne', one_mul, sub_self]
      have h7 := (Finset.sum_eq_zero_iff_of_nonneg fun a' ha' =>
        sub_nonneg.2 (hRle u a' hu (Finset.mem_range.1 ha'))).1 hsum a' (Finset.mem_range.2 ha')
      linarith
  have hnot : ∀ n u, u < n → u < M.nS → ¬ ∀ a', a' < M.nA → R u a' = 1 / (1 - γ) := by
    intro n
    induction n with
    | zero => intro u h; omega
    | succ n ih =>
      intro u hun hu hall
      obtain ⟨v, hv, hp, hv2⟩ := hfull u a0 hu ha0 (hall a0 ha0)
      exact ih v (by have := hdec u v hu hv hp; omega) hv hv2
  rw [← srAt_total hs ha]
  refine lt_of_le_of_ne (hRle _ _ hs ha) fun he => ?_
  obtain ⟨u, hu, -, hall⟩ := hfull _ _ hs ha he
  exact hnot (u + 1) u (by omega) hu hall

/-- **C106**, on every grid, after any sequence of calls: the total number of discounted visits is less than the
`1 / (1 - γ)` of a walker who never stops. -/
theorem C106_total {kind : GridKind} {W H : Nat} {selfT : Bool} {m : Mdp ℝ} (hm : Mdp.GridReach kind W H selfT m)
    (γ : ℝ) (g0 : 0 < γ) (g1 : γ < 1) : ∃ sr, getSaSr m.trans γ = .ok sr ∧
      ∀ (s a : Nat) (hs : s < m.trans.nS) (ha : a < m.trans.nA),
        ∑ j, sr ⟨s * m.trans.nA + a, pair_lt hs ha⟩ j < 1 / (1 - γ) := by
  obtain ⟨hM, hdet, -, -⟩ := C27_grid kind W H selfT m hm
  obtain ⟨sr, h1, -, h2, -, h4⟩ := C35_sr_exists m.trans γ g0.le g1 _ (C35_matrix m.trans)
  obtain ⟨a0, ha0, hdec⟩ := grid_descends hm
  exact ⟨sr, h1, fun s a hs ha => sr_total_lt hM hdet g0 g1 h2 h4 (a0 := a0) ha0 hdec hs ha⟩

/-- A walker who chooses among the available actions is never gone, if moving never leads to a dead end. -/
theorem among_total {M : Trans ℝ} (hM : Spec.SubStochastic M) (hdet : Spec.Deterministic M)
    (hlive : ∀ s a t, s < M.nS → a < M.nA → t < M.nS → M.p s a t ≠ 0 → ∃ b, b < M.nA ∧ Spec.Available M t b)
    (n : Nat) : ∀ s a, s < M.nS → a < M.nA → Spec.Available M s a →
      ∑ t ∈ Finset.range M.nS, ∑ b ∈ Finset.range M.nA, Spec.walkProb M (Spec.amongAvailable M) n s a t b = 1 := by
  classical
  induction n with
  | zero =>
    intro s a hs ha _
    simp only [Spec.walkProb]
    rw [Finset.sum_eq_single_of_mem s (Finset.mem_range.2 hs) fun t _ ht =>
      Finset.sum_eq_zero fun b _ => if_neg fun h => ht h.1.symm,
      Finset.sum_eq_single_of_mem a (Finset.mem_range.2 ha) fun b _ hb => if_neg fun h => hb h.2.symm,
      if_pos ⟨rfl, rfl⟩]
  | succ n ih =>
    intro s a hs ha hav
    simp only [Spec.walkProb, sum_successor hM hdet hs ha]
    cases hf : firstSuccessor M s a with
    | none =>
      obtain ⟨t, ht, hp⟩ := hav
      exact absurd (firstSuccessor_none.1 hf t ht) hp
    | some u =>
      obtain ⟨hu, hp, -⟩ := firstSuccessor_some.1 hf
      simp only
      have e1 : ∑ t ∈ Finset.range M.nS, ∑ b ∈ Finset.range M.nA, ∑ a' ∈ Finset.range M.nA,
          Spec.amongAvailable M u a' * Spec.walkProb M (Spec.amongAvailable M) n u a' t b =
          ∑ a' ∈ Finset.range M.nA, Spec.amongAvailable M u a' * ∑ t ∈ Finset.range M.nS, ∑ b ∈ Finset.range M.nA,
            Spec.walkProb M (Spec.amongAvailable M) n u a' t b := by
        simp only [Finset.mul_sum]
        symm
        rw [Finset.sum_comm]
        refine Finset.sum_congr rfl fun t _ => ?_
        rw [Finset.sum_comm]
      rw [e1]
      have e2 : ∀ a' ∈ Finset.range M.nA, Spec.amongAvailable M u a' * ∑ t ∈ Finset.range M.nS,
          ∑ b ∈ Finset.range M.nA, Spec.walkProb M (Spec.amongAvailable M) n u a' t b =
          if Spec.Available M u a' then
            1 / (((Finset.range M.nA).filter fun b => Spec.Available M u b).card : ℝ) else 0 := by
        intro a' ha'
        by_cases hc : Spec.Available M u a'
        · rw [ih u a' hu (Finset.mem_range.1 ha') hc, mul_one]; rfl
        · have h0 : Spec.amongAvailable M u a' = 0 := if_neg hc
          rw [h0, if_neg hc, zero_mul]
      rw [Finset.sum_congr rfl e2, ← Finset.sum_filter, Finset.sum_const, nsmul_eq_mul]
      obtain ⟨b, hb, hbv⟩ := hlive s a u hs ha hu hp
      have hcard : 0 < ((Finset.range M.nA).filter fun b => Spec.Available M u b).card :=
        Finset.card_pos.2 ⟨b, Finset.mem_filter.2 ⟨Finset.mem_range.2 hb, hbv⟩⟩
      rw [mul_one_div, div_self (by exact_mod_cast hcard.ne')]

/-- Moves on a grid never lead to a dead end: one can go back (or stay). -/
theorem grid_live {kind : GridKind} {W H : Nat} {selfT : Bool} {m : Mdp ℝ} (hm : Mdp.GridReach kind W H selfT m) :
    ∀ s a t, s < m.trans.nS → a < m.trans.nA → t < m.trans.nS → m.trans.p s a t ≠ 0 →
      ∃ b, b < m.trans.nA ∧ Spec.Available m.trans t b := by
  intro s a t hs ha ht hp
  have g := hm.ok
  have hA : m.trans.nA = kind.nMoves + if selfT then 1 else 0 := by
    show m.nActions = _
    rw [g.nActions]
  by_cases hlt : a < kind.nMoves
  · cases kind with
    | square =>
      have := C05_square_reversible W H selfT m hm s a t hs ht hlt hp
      exact ⟨(a + 2) % 4, by rw [hA]; exact lt_of_lt_of_le (Nat.mod_lt _ (by decide)) (Nat.le_add_right _ _), s, hs,
        by show m.sas t _ s ≠ 0; rw [this]; exact one_ne_zero⟩
    | hex =>
      have := C05_hex_reversible W H selfT m hm s a t hs ht hlt hp
      exact ⟨(a + 3) % 6, by rw [hA]; exact lt_of_lt_of_le (Nat.mod_lt _ (by decide)) (Nat.le_add_right _ _), s, hs,
        by show m.sas t _ s ≠ 0; rw [this]; exact one_ne_zero⟩
  · have hs' : s < W * H := lt_of_lt_of_eq hs g.nStates
    have ht' : t < W * H := lt_of_lt_of_eq ht g.nStates
    obtain ⟨-, -, hmv⟩ := (g.sas_ne_zero hs' ht').1 hp
    rcases hmv with ⟨d, e1, -⟩ | ⟨-, -, e1⟩
    · exfalso
      cases kind with
      | square =>
        have e1 : Spec.squareDir a = some d := e1
        have : ¬ a < 4 := hlt
        unfold Spec.squareDir at e1
        split at e1 <;> first | omega | cases e1
      | hex =>
        have e1 : Spec.hexDir (Spec.cell H s).1 a = some d := e1
        have : ¬ a < 6 := hlt
        unfold Spec.hexDir at e1
        split at e1 <;> first | omega | cases e1
    · exact ⟨a, ha, t, ht, by rw [e1] at hp ⊢; exact hp⟩

/-- **C106** is false of the code, on every grid and for every available first action: some entry is not the
discounted number of visits of a walker who chooses among the available actions. -/
theorem C106_refuted {kind : GridKind} {W H : Nat} {selfT : Bool} {m : Mdp ℝ} (hm : Mdp.GridReach kind W H selfT m)
    (γ : ℝ) (g0 : 0 < γ) (g1 : γ < 1) (s a : Nat) (hs : s < m.trans.nS) (ha : a < m.trans.nA)
    (hav : Spec.Available m.trans s a) : ∃ sr, getSaSr m.trans γ = .ok sr ∧
      ∃ (t b : Nat) (ht : t < m.trans.nS) (hb : b < m.trans.nA),
        ¬ Tendsto (fun N => Spec.walkVisits m.trans (Spec.amongAvailable m.trans) γ N s a t b) atTop
          (𝓝 (sr ⟨s * m.trans.nA + a, pair_lt hs ha⟩ ⟨t * m.trans.nA + b, pair_lt ht hb⟩)) := by
  obtain ⟨hM, hdet, -, -⟩ := C27_grid kind W H selfT m hm
  obtain ⟨sr, h1, htot⟩ := C106_total hm γ g0 g1
  refine ⟨sr, h1, ?_⟩
  by_contra hc
  push Not at hc
  have hlt := htot s a hs ha
  rw [← srAt_total hs ha] at hlt
  have hlim : Tendsto (fun N => ∑ t ∈ Finset.range m.trans.nS, ∑ b ∈ Finset.range m.trans.nA,
      Spec.walkVisits m.trans (Spec.amongAvailable m.trans) γ N s a t b) atTop
      (𝓝 (∑ t ∈ Finset.range m.trans.nS, ∑ b ∈ Finset.range m.trans.nA, srAt m.trans sr s a t b)) := by
    refine tendsto_finsetSum _ fun t ht => tendsto_finsetSum _ fun b hb => ?_
    have := hc t b (Finset.mem_range.1 ht) (Finset.mem_range.1 hb)
    unfold srAt
    rw [dif_pos ⟨pair_lt hs ha, pair_lt (Finset.mem_range.1 ht) (Finset.mem_range.1 hb)⟩]
    exact this
  have hgeo : (fun N => ∑ t ∈ Finset.range m.trans.nS, ∑ b ∈ Finset.range m.trans.nA,
      Spec.walkVisits m.trans (Spec.amongAvailable m.trans) γ N s a t b) =
      fun N => ∑ n ∈ Finset.range N, γ ^ n := by
    funext N
    unfold Spec.walkVisits
    have : ∀ n ∈ Finset.range N, γ ^ n = ∑ t ∈ Finset.range m.trans.nS, ∑ b ∈ Finset.range m.trans.nA,
        γ ^ n * Spec.walkProb m.trans (Spec.amongAvailable m.trans) n s a t b := by
      intro n _
      simp only [← Finset.mul_sum]
      rw [among_total hM hdet (grid_live hm) n s a hs ha hav, mul_one]
    rw [Finset.sum_congr rfl this]
    symm
    rw [Finset.sum_comm]
    refine Finset.sum_congr rfl fun t _ => ?_
    rw [Finset.sum_comm]
  rw [hgeo] at hlim
  have h2 := (hasSum_geometric_of_lt_one g0.le g1).tendsto_sum_nat
  have h3 := tendsto_nhds_unique hlim h2
  rw [h3, one_div] at hlt
  exact lt_irrefl _ hlt

/-- The hypotheses are met: state 0 of a 2 by 2 grid can move up. -/
example : ∃ m : Mdp ℝ, Mdp.GridReach .square 2 2 false m ∧ 0 < m.trans.nS ∧ 0 < m.trans.nA ∧
    Spec.Available m.trans 0 0 := by
  obtain ⟨m, h1, h2, h3, h4⟩ := C02_square_transitions (K := ℝ) 2 2 false ⟨1, 4, fun _ _ => 0⟩ (by decide) rfl
  have e1 : m.trans.nS = 4 := h2
  have e2 : m.trans.nA = 4 := h3
  refine ⟨m, .init h1, by rw [e1]; decide, by rw [e2]; decide, 1, by rw [e1]; decide, ?_⟩
  show m.sas 0 0 1 ≠ 0
  rw [(h4 0 0 1 (by decide) (by rw [h3]; decide) (by decide)).1 (.inl ⟨(0, 1), rfl, rfl⟩)]
  exact one_ne_zero

end MaMDP
