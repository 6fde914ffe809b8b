import Verif.Spec.RandomWalk
import Verif.Lemmas.SuccessorRepresentation
import Verif.Props.SuccessorRepresentation

/-! # Lemmas about walking at random -/

set_option linter.unusedSectionVars false

namespace MaMDP

variable {K : Type} [Field K] [LinearOrder K] [IsStrictOrderedRing K]

theorem pair_lt {n m s a : Nat} (hs : s < n) (ha : a < m) : s * m + a < n * m := by
  calc s * m + a < s * m + m := by omega
    _ = (s + 1) * m := by ring
    _ ≤ n * m := Nat.mul_le_mul_right m hs

theorem pair_div {m s a : Nat} (ha : a < m) : (s * m + a) / m = s := by
  rw [Nat.mul_comm, Nat.mul_add_div (by omega), Nat.div_eq_of_lt ha, Nat.add_zero]

theorem pair_mod {m s a : Nat} (ha : a < m) : (s * m + a) % m = a := by
  rw [Nat.mul_comm, Nat.mul_add_mod, Nat.mod_eq_of_lt ha]

/-- In a deterministic MDP an expectation over successors is the value at the successor. -/
theorem sum_successor {M : Trans K} (hM : Spec.SubStochastic M) (hdet : Spec.Deterministic M) {s a : Nat}
    (hs : s < M.nS) (ha : a < M.nA) (f : Nat → K) :
    ∑ u ∈ Finset.range M.nS, M.p s a u * f u =
      match firstSuccessor M s a with | some u => f u | none => 0 := by
  cases h : firstSuccessor M s a with
  | none =>
    rw [firstSuccessor_none] at h
    exact Finset.sum_eq_zero fun u hu => by rw [h u (Finset.mem_range.1 hu), zero_mul]
  | some u =>
    obtain ⟨h1, h2, -⟩ := firstSuccessor_some.1 h
    have hone : M.p s a u = 1 := (hdet s a u hs ha h1).resolve_left h2
    have hother : ∀ v, v < M.nS → v ≠ u → M.p s a v = 0 := by
      intro v hv hvu
      by_contra hc
      have hv1 := (hdet s a v hs ha hv).resolve_left hc
      have := hM.le_one s a hs ha
      have h3 : ∑ t ∈ ({u, v} : Finset Nat), M.p s a t ≤ ∑ t ∈ Finset.range M.nS, M.p s a t := by
        refine Finset.sum_le_sum_of_subset_of_nonneg ?_ fun t ht _ => hM.nonneg s a t hs ha (Finset.mem_range.1 ht)
        intro t ht
        rcases Finset.mem_insert.1 ht with rfl | ht
        · exact Finset.mem_range.2 h1
        · rw [Finset.mem_singleton.1 ht]; exact Finset.mem_range.2 hv
      rw [Finset.sum_pair (Ne.symm hvu), hone, hv1] at h3
      linarith
    rw [Finset.sum_eq_single_of_mem u (Finset.mem_range.2 h1) fun v hv hvu => by
      rw [hother v (Finset.mem_range.1 hv) hvu, zero_mul], hone, one_mul]

/-- One more move. -/
theorem walkVisits_succ (M : Trans K) (pol : Nat → Nat → K) (γ : K) (N s a t b : Nat) :
    Spec.walkVisits M pol γ (N + 1) s a t b = (if s = t ∧ a = b then 1 else 0) +
      γ * ∑ u ∈ Finset.range M.nS, M.p s a u *
        ∑ a' ∈ Finset.range M.nA, pol u a' * Spec.walkVisits M pol γ N u a' t b := by
  unfold Spec.walkVisits
  rw [Finset.sum_range_succ', pow_zero, one_mul, add_comm]
  congr 1
  simp only [Spec.walkProb, Finset.mul_sum]
  rw [Finset.sum_comm]
  refine Finset.sum_congr rfl fun u _ => ?_
  rw [Finset.sum_comm]
  refine Finset.sum_congr rfl fun a' _ => Finset.sum_congr rfl fun n _ => ?_
  rw [pow_succ]; ring

/-- An entry of the successor representation, by state and action. -/
noncomputable def srAt (M : Trans K) (sr : Matrix (Fin (M.nS * M.nA)) (Fin (M.nS * M.nA)) K) (s a t b : Nat) : K :=
  if h : s * M.nA + a < M.nS * M.nA ∧ t * M.nA + b < M.nS * M.nA then
    sr ⟨s * M.nA + a, h.1⟩ ⟨t * M.nA + b, h.2⟩ else 0

/-- The defining equation of the inverse, by states and actions. -/
theorem srAt_eq {M : Trans K} (hM : Spec.SubStochastic M) (hdet : Spec.Deterministic M) {γ : K}
    {sr : Matrix (Fin (M.nS * M.nA)) (Fin (M.nS * M.nA)) K} (hsr : (1 - γ • saMatrix M) * sr = 1)
    {s a t b : Nat} (hs : s < M.nS) (ha : a < M.nA) (ht : t < M.nS) (hb : b < M.nA) :
    srAt M sr s a t b = (if s = t ∧ a = b then 1 else 0) +
      γ * ∑ u ∈ Finset.range M.nS, M.p s a u *
        ∑ a' ∈ Finset.range M.nA, 1 / (M.nA : K) * srAt M sr u a' t b := by
  have hi := pair_lt hs ha
  have hj := pair_lt ht hb
  have h1 : sr = 1 + γ • (saMatrix M * sr) := by
    rw [Matrix.sub_mul, Matrix.one_mul, Matrix.smul_mul] at hsr
    exact (sub_eq_iff_eq_add.1 hsr)
  have h2 := congrFun (congrFun h1 ⟨s * M.nA + a, hi⟩) ⟨t * M.nA + b, hj⟩
  rw [Matrix.add_apply, Matrix.smul_apply, smul_eq_mul] at h2
  have h3 : srAt M sr s a t b = sr ⟨s * M.nA + a, hi⟩ ⟨t * M.nA + b, hj⟩ := by
    unfold srAt; rw [dif_pos ⟨hi, hj⟩]
  rw [h3, h2]
  congr 1
  · rw [Matrix.one_apply]
    have : ((⟨s * M.nA + a, hi⟩ : Fin (M.nS * M.nA)) = ⟨t * M.nA + b, hj⟩) ↔ s = t ∧ a = b := by
      rw [Fin.mk.injEq]
      constructor
      · intro h
        have e1 := congrArg (· / M.nA) h
        have e2 := congrArg (· % M.nA) h
        simp only [pair_div ha, pair_div hb, pair_mod ha, pair_mod hb] at e1 e2
        exact ⟨e1, e2⟩
      · rintro ⟨rfl, rfl⟩; rfl
    by_cases hc : s = t ∧ a = b
    · rw [if_pos (this.2 hc), if_pos hc]
    · rw [if_neg (fun h => hc (this.1 h)), if_neg hc]
  · congr 1
    have h4 := saMatrix_mulVec M (fun i => if h : i < M.nS * M.nA then sr ⟨i, h⟩ ⟨t * M.nA + b, hj⟩ else 0)
      ⟨s * M.nA + a, hi⟩
    have h5 : (saMatrix M * sr) ⟨s * M.nA + a, hi⟩ ⟨t * M.nA + b, hj⟩ =
        (saMatrix M).mulVec (fun j => (fun i => if h : i < M.nS * M.nA then sr ⟨i, h⟩ ⟨t * M.nA + b, hj⟩ else 0)
          (j : Nat)) ⟨s * M.nA + a, hi⟩ := by
      rw [Matrix.mul_apply]
      unfold Matrix.mulVec dotProduct
      refine Finset.sum_congr rfl fun k _ => ?_
      simp only [k.2, dif_pos, Fin.eta]
    rw [h5, h4, sum_successor hM hdet hs ha]
    simp only [pair_div ha, pair_mod ha]
    cases hf : firstSuccessor M s a with
    | none => rfl
    | some u =>
      simp only
      rw [Finset.sum_div]
      refine Finset.sum_congr rfl fun a' ha' => ?_
      have hu := pair_lt (firstSuccessor_lt hf) (Finset.mem_range.1 ha')
      unfold srAt
      rw [dif_pos hu, dif_pos ⟨hu, hj⟩]
      ring

theorem srAt_mem {M : Trans K} {γ : K} {sr : Matrix (Fin (M.nS * M.nA)) (Fin (M.nS * M.nA)) K}
    (h0 : ∀ i j, 0 ≤ sr i j) (h1 : ∀ i, ∑ j, sr i j ≤ 1 / (1 - γ)) (hγ : γ < 1) (s a t b : Nat) :
    0 ≤ srAt M sr s a t b ∧ srAt M sr s a t b ≤ 1 / (1 - γ) := by
  unfold srAt
  split_ifs with h
  · exact ⟨h0 _ _, (Finset.single_le_sum (f := fun j => sr ⟨s * M.nA + a, h.1⟩ j) (fun j _ => h0 _ j)
      (Finset.mem_univ _)).trans (h1 _)⟩
  · exact ⟨le_rfl, one_div_nonneg.2 (by linarith)⟩

/-- The total over all pairs is the row sum. -/
theorem srAt_total {M : Trans K} {sr : Matrix (Fin (M.nS * M.nA)) (Fin (M.nS * M.nA)) K} {s a : Nat}
    (hs : s < M.nS) (ha : a < M.nA) :
    ∑ t ∈ Finset.range M.nS, ∑ b ∈ Finset.range M.nA, srAt M sr s a t b = ∑ j, sr ⟨s * M.nA + a, pair_lt hs ha⟩ j := by
  have hi := pair_lt hs ha
  have e : ∀ t ∈ Finset.range M.nS, ∑ b ∈ Finset.range M.nA, srAt M sr s a t b =
      ∑ j : Fin (M.nS * M.nA), if t = (j : Nat) / M.nA then srAt M sr s a t (j % M.nA) else 0 :=
    fun t ht => (sum_pairs t (Finset.mem_range.1 ht) fun b => srAt M sr s a t b).symm
  rw [Finset.sum_congr rfl e, Finset.sum_comm]
  refine Finset.sum_congr rfl fun j _ => ?_
  have hd : (j : Nat) / M.nA < M.nS := Nat.div_lt_of_lt_mul (lt_of_lt_of_eq j.2 (Nat.mul_comm _ _))
  rw [Finset.sum_eq_single_of_mem _ (Finset.mem_range.2 hd) fun t _ ht => if_neg ht, if_pos rfl]
  have hj : (j : Nat) / M.nA * M.nA + (j : Nat) % M.nA = j := by rw [Nat.mul_comm]; exact Nat.div_add_mod _ _
  unfold srAt
  rw [dif_pos ⟨hi, by rw [hj]; exact j.2⟩]
  congr 1
  exact Fin.ext hj

end MaMDP
