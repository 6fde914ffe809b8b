import Verif.Spec.Circles
import Verif.Lemmas.EnvWalk
import Mathlib.Logic.Function.Iterate
import Mathlib.Combinatorics.Pigeonhole

/-! # Walks that are settled in advance (C168) -/

set_option linter.unusedSectionVars false

namespace MaMDP

variable {K : Type} [Field K] [LinearOrder K] [IsStrictOrderedRing K]

/-- An action leads to one state only. -/
theorem det_one {M : Trans K} (hM : Spec.SubStochastic M) {s a t u : Nat} (hs : s < M.nS) (ha : a < M.nA)
    (ht : t < M.nS) (hu : u < M.nS) (h : M.p s a t = 1) (h' : M.p s a u = 1) : t = u := by
  by_contra hne
  have hle := hM.2 s a hs ha
  have : M.p s a t + M.p s a u ≤ ∑ t ∈ Finset.range M.nS, M.p s a t := by
    rw [← Finset.sum_pair hne]
    apply Finset.sum_le_sum_of_subset_of_nonneg
    · intro x hx
      rcases Finset.mem_insert.1 hx with rfl | hx
      · exact Finset.mem_range.2 ht
      · rw [Finset.mem_singleton.1 hx]; exact Finset.mem_range.2 hu
    · intro x hx _
      exact hM.1 s a x hs ha (Finset.mem_range.1 hx)
  rw [h, h'] at this
  linarith

/-- `t` is where a best action leads from `s`. -/
def BestNext (M : Trans K) (q : Nat → Nat → Ext K) (s t : Nat) : Prop :=
  t < M.nS ∧ ∃ x, x < M.nA ∧ M.p s x t = 1 ∧ ∀ b, b < M.nA → Spec.NoBetter (q s b) (q s x)

open Classical in
/-- Where the best action leads. -/
noncomputable def bestNext (M : Trans K) (q : Nat → Nat → Ext K) (s : Nat) : Nat :=
  if h : ∃ t, BestNext M q s t then h.choose else s

theorem bestNext_eq {M : Trans K} (hM : Spec.SubStochastic M) {q : Nat → Nat → Ext K} {s t : Nat} (hs : s < M.nS)
    (hq : Spec.NoTie M.nA q s) (ht : BestNext M q s t) : t = bestNext M q s := by
  have h : ∃ t, BestNext M q s t := ⟨t, ht⟩
  unfold bestNext
  rw [dif_pos h]
  obtain ⟨h1, x, hx, h2, h3⟩ := ht
  obtain ⟨g1, y, hy, g2, g3⟩ := h.choose_spec
  obtain ⟨z, -, hz⟩ := hq
  have := (hz x hx h3).trans (hz y hy g3).symm
  subst this
  exact det_one hM hs hx h1 g1 h2 g2

namespace Env

variable {kind : GridKind} {W H : Nat} {selfT : Bool} {e : Env K Nat}

/-- The state an agent stands on exists. -/
theorem Follows.lt {M : Trans K} {n : String} {q : Arr2 (Ext K)} {j : Nat} {hist : List Int}
    (h : Follows kind W H selfT M n q j hist e) : j < M.nS := by
  obtain ⟨a, -, -, -, -, -, hj, -⟩ := h.agent
  exact pyIdx_lt hj

/-- Without ties, an agent walks along `bestNext`. -/
theorem Follows.settled {M : Trans K} (hM : Spec.SubStochastic M) {n : String} {q : Arr2 (Ext K)}
    (hq : ∀ s, s < M.nS → Spec.Live M s → Spec.NoTie M.nA q.get s) (draws : Nat → Nat → Nat) :
    ∀ (k i : Nat) (e : Env K Nat) (j : Nat) (hist : List Int), Follows kind W H selfT M n q j hist e →
      Follows kind W H selfT M n q ((bestNext M q.get)^[k] j)
        (hist ++ (List.range k).map fun i => (((bestNext M q.get)^[i + 1] j : Nat) : Int))
        (e.run ((List.range k).map fun m => .step n (draws (i + m)))) := by
  intro k
  induction k with
  | zero => intro i e j hist h; simpa [Env.run] using h
  | succ k ih =>
    intro i e j hist h
    obtain ⟨x, t, h1, h2, h3, h4, h5⟩ := h.step (draws i)
    have ht := bestNext_eq hM h.lt (hq j h.lt h.live) ⟨h2, x, h1, h3, h4⟩
    have := ih (i + 1) _ t _ h5
    rw [ht] at this
    rw [List.range_succ_eq_map, List.map_cons, List.map_cons, List.map_map, List.map_map]
    rw [List.append_assoc, List.singleton_append] at this
    have e1 : ((fun m => EnvOp.step (K := K) n (draws (i + m))) ∘ Nat.succ) = fun m => .step n (draws (i + 1 + m)) := by
      funext m
      change EnvOp.step n (draws (i + (m + 1))) = _
      rw [Nat.add_assoc, Nat.add_comm 1 m]
    rw [e1]
    exact this

end Env

/-- Repeating a map on finitely many states ends in a circle. -/
theorem iterate_circles (f : Nat → Nat) (s N : Nat) (h : ∀ k, f^[k] s < N) :
    ∃ μ p, 0 < p ∧ μ + p ≤ N ∧ ∀ i, μ ≤ i → f^[i + p] s = f^[i] s := by
  obtain ⟨a, ha, b, hb, hne, hab⟩ := Finset.exists_ne_map_eq_of_card_lt_of_maps_to
    (s := Finset.range (N + 1)) (t := Finset.range N) (f := fun k => f^[k] s) (by simp)
    (fun k _ => Finset.mem_coe.2 (Finset.mem_range.2 (h k)))
  have key : ∀ a b, a < b → b ≤ N → f^[a] s = f^[b] s →
      ∃ μ p, 0 < p ∧ μ + p ≤ N ∧ ∀ i, μ ≤ i → f^[i + p] s = f^[i] s := by
    intro a b hlt hb hab
    refine ⟨a, b - a, by omega, by omega, fun i hi => ?_⟩
    obtain ⟨c, rfl⟩ := Nat.exists_eq_add_of_le hi
    have e : a + c + (b - a) = c + b := by omega
    rw [e, Nat.add_comm a c, Function.iterate_add_apply, Function.iterate_add_apply, hab]
  rcases lt_or_gt_of_ne hne with hlt | hlt
  · exact key a b hlt (by have := Finset.mem_range.1 hb; omega) hab
  · exact key b a hlt (by have := Finset.mem_range.1 ha; omega) hab.symm

end MaMDP
