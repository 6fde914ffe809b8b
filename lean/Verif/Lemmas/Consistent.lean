/- Lemmas for C160: hypothesis testing with the same evidence at every move. -/
import Verif.Lemmas.HtBounds
import Mathlib.Analysis.SpecialFunctions.Pow.Real
import Mathlib.Analysis.SpecialFunctions.Pow.Continuity
import Mathlib.Analysis.SpecificLimits.Normed

set_option linter.unusedSectionVars false

namespace MaMDP

open Filter Topology

variable {K : Type} [Field K] [LinearOrder K] [IsStrictOrderedRing K]

/-- The same evidence `N + N'` times is the same evidence `N` times and then `N'` times. -/
theorem htEstimate_split (set : HtSettings K) (x : K) : ∀ (N N' n : Nat) (w : K),
    Spec.htEstimate set n w (List.replicate (N + N') x) =
      Spec.htEstimate set (n + N) (Spec.htEstimate set n w (List.replicate N x)) (List.replicate N' x)
  | 0, N', n, w => by simp [Spec.htEstimate]
  | N + 1, N', n, w => by
    rw [Nat.add_right_comm, List.replicate_succ, List.replicate_succ, Spec.htEstimate, Spec.htEstimate,
      htEstimate_split set x N N' (n + 1), Nat.add_right_comm n 1 N]
    rfl

/-- Without decay the distance to the evidence shrinks by the factor `1 - lr` at each move. -/
theorem htEstimate_steady (set : HtSettings K) (hd : set.decay = 0) (x : K) : ∀ (N n : Nat) (w : K),
    Spec.htEstimate set n w (List.replicate N x) - x = (1 - set.lr) ^ N * (w - x)
  | 0, n, w => by simp [Spec.htEstimate]
  | N + 1, n, w => by
    rw [List.replicate_succ, Spec.htEstimate, htEstimate_steady set hd x N (n + 1)]
    unfold Spec.htRate
    rw [if_pos hd]
    ring

/-- With decay `d` the rate at the `n`-th move is between `lr / asymmetry / n ^ d` and `lr * asymmetry / n ^ d`. -/
theorem htRate_range (set : HtSettings K) (hl : 0 < set.lr) (ha : 1 ≤ set.asymmetry) (hd : set.decay ≠ 0) (n : Nat)
    (hn : 1 ≤ n) (x w : K) : set.lr / set.asymmetry / (n : K) ^ set.decay ≤ Spec.htRate set n x w ∧
      Spec.htRate set n x w ≤ set.lr * set.asymmetry / (n : K) ^ set.decay := by
  have ha0 : 0 < set.asymmetry := lt_of_lt_of_le one_pos ha
  have hp0 : (0 : K) < (n : K) ^ set.decay := pow_pos (by exact_mod_cast hn) _
  have h : set.lr / set.asymmetry ≤ set.lr * set.asymmetry := by
    rw [div_le_iff₀ ha0]
    have : set.lr * 1 ≤ set.lr * set.asymmetry := mul_le_mul_of_nonneg_left ha hl.le
    have : set.lr * set.asymmetry * 1 ≤ set.lr * set.asymmetry * set.asymmetry :=
      mul_le_mul_of_nonneg_left ha (mul_nonneg hl.le ha0.le)
    linarith
  unfold Spec.htRate
  rw [if_neg hd]
  split_ifs
  · exact ⟨div_le_div_of_nonneg_right h hp0.le, le_refl _⟩
  · exact ⟨le_refl _, div_le_div_of_nonneg_right h hp0.le⟩

/-- One step towards the evidence with a decay of 1, from move `n` on where rates are at most 1. -/
theorem step_shrinks (ρ r : ℝ) (hρ : 0 ≤ ρ) (n : Nat) (hn : 1 ≤ n) (h0 : ρ / n ≤ r) (h1 : r ≤ 1) :
    |1 - r| ≤ ((n : ℝ) / (n + 1 : ℕ)) ^ ρ := by
  have hn0 : (0 : ℝ) < n := by exact_mod_cast hn
  have hn1 : (0 : ℝ) < ((n + 1 : ℕ) : ℝ) := by exact_mod_cast Nat.succ_pos n
  rw [abs_of_nonneg (by linarith), Real.rpow_def_of_pos (div_pos hn0 hn1)]
  have h2 : Real.log (((n + 1 : ℕ) : ℝ) / n) ≤ 1 / n := by
    have := Real.log_le_sub_one_of_pos (div_pos hn1 hn0)
    have e : ((n + 1 : ℕ) : ℝ) / n - 1 = 1 / n := by push_cast; field_simp; ring
    rwa [e] at this
  have h3 : Real.log ((n : ℝ) / (n + 1 : ℕ)) = - Real.log (((n + 1 : ℕ) : ℝ) / n) := by
    rw [← Real.log_inv, inv_div]
  rw [h3]
  have h4 : -(ρ / n) ≤ -Real.log (((n + 1 : ℕ) : ℝ) / n) * ρ := by
    have := mul_le_mul_of_nonneg_right h2 hρ
    have e : 1 / (n : ℝ) * ρ = ρ / n := by ring
    rw [e] at this
    linarith
  calc 1 - r ≤ 1 - ρ / n := by linarith
    _ ≤ Real.exp (-(ρ / n)) := by have := Real.add_one_le_exp (-(ρ / n)); linarith
    _ ≤ _ := Real.exp_le_exp.2 h4

/-- With a decay of 1, from a move `n` on where rates are at most 1, the distance to the evidence shrinks like a power. -/
theorem htEstimate_power (set : HtSettings ℝ) (hl : 0 < set.lr) (ha : 1 ≤ set.asymmetry) (hd : set.decay = 1) (x : ℝ) :
    ∀ (N n : Nat) (w : ℝ), 1 ≤ n → set.lr * set.asymmetry ≤ n →
    |Spec.htEstimate set n w (List.replicate N x) - x| ≤ ((n : ℝ) / (n + N : ℕ)) ^ (set.lr / set.asymmetry) * |w - x|
  | 0, n, w, hn, _ => by
    have : (n : ℝ) ≠ 0 := by exact_mod_cast (by omega : n ≠ 0)
    simp [Spec.htEstimate, div_self this]
  | N + 1, n, w, hn, hb => by
    rw [List.replicate_succ, Spec.htEstimate]
    have hn0 : (0 : ℝ) < n := by exact_mod_cast hn
    have hn1 : (0 : ℝ) < ((n + 1 : ℕ) : ℝ) := by exact_mod_cast Nat.succ_pos n
    have ih := htEstimate_power set hl ha hd x N (n + 1) (w + Spec.htRate set n x w * (x - w)) (by omega)
      (by push_cast; linarith)
    obtain ⟨r0, r1⟩ := htRate_range set hl ha (by omega) n hn x w
    rw [hd, pow_one] at r0 r1
    have r1' : Spec.htRate set n x w ≤ 1 := r1.trans ((div_le_one hn0).2 hb)
    have hs := step_shrinks (set.lr / set.asymmetry) (Spec.htRate set n x w)
      (div_nonneg hl.le (by linarith)) n hn r0 r1'
    have e : w + Spec.htRate set n x w * (x - w) - x = (1 - Spec.htRate set n x w) * (w - x) := by ring
    rw [e, abs_mul] at ih
    refine ih.trans ?_
    have hN : (0 : ℝ) < ((n + 1 + N : ℕ) : ℝ) := by exact_mod_cast (by omega : 0 < n + 1 + N)
    have e2 : ((n : ℝ) / (n + (N + 1) : ℕ)) ^ (set.lr / set.asymmetry) =
        (((n + 1 : ℕ) : ℝ) / (n + 1 + N : ℕ)) ^ (set.lr / set.asymmetry) *
          ((n : ℝ) / (n + 1 : ℕ)) ^ (set.lr / set.asymmetry) := by
      rw [← Real.mul_rpow (div_nonneg hn1.le hN.le) (div_nonneg hn0.le hn1.le)]
      congr 1
      rw [show n + (N + 1) = n + 1 + N by omega]
      field_simp
    rw [e2, mul_assoc]
    exact mul_le_mul_of_nonneg_left (mul_le_mul_of_nonneg_right hs (abs_nonneg _))
      (Real.rpow_nonneg (div_nonneg hn1.le hN.le) _)

/-- With a decay of 1 estimates tend to the evidence. -/
theorem htEstimate_tends (set : HtSettings ℝ) (hl : 0 < set.lr) (ha : 1 ≤ set.asymmetry) (hd : set.decay = 1) (x w : ℝ) :
    Tendsto (fun N => Spec.htEstimate set 1 w (List.replicate N x)) atTop (𝓝 x) := by
  obtain ⟨k, hk⟩ := exists_nat_ge (set.lr * set.asymmetry)
  rw [← tendsto_add_atTop_iff_nat k]
  set w' := Spec.htEstimate set 1 w (List.replicate k x) with hw'
  have hρ : 0 < set.lr / set.asymmetry := div_pos hl (by linarith)
  rw [tendsto_iff_norm_sub_tendsto_zero]
  have hb : ∀ N : Nat, ‖Spec.htEstimate set 1 w (List.replicate (N + k) x) - x‖ ≤
      (((1 + k : ℕ) : ℝ) / (1 + k + N : ℕ)) ^ (set.lr / set.asymmetry) * |w' - x| := by
    intro N
    rw [Nat.add_comm N k, htEstimate_split, Real.norm_eq_abs]
    refine htEstimate_power set hl ha hd x N (1 + k) w' (by omega) (hk.trans ?_)
    exact_mod_cast (by omega : k ≤ 1 + k)
  refine squeeze_zero (fun _ => norm_nonneg _) hb ?_
  rw [show (0 : ℝ) = (0 : ℝ) ^ (set.lr / set.asymmetry) * |w' - x| by rw [Real.zero_rpow hρ.ne', zero_mul]]
  refine Tendsto.mul_const _ (Tendsto.rpow_const ?_ (Or.inr hρ.le))
  refine Tendsto.div_atTop tendsto_const_nhds ?_
  refine tendsto_natCast_atTop_atTop.comp ?_
  exact tendsto_atTop_mono (fun N => Nat.le_add_left N (1 + k)) tendsto_id

/-- With a decay of 2 or more part of the distance to the evidence is never covered. -/
theorem htEstimate_short (set : HtSettings ℝ) (hl : 0 < set.lr) (ha : 1 ≤ set.asymmetry) (hd : 2 ≤ set.decay)
    (hg : set.lr * set.asymmetry ≤ 1) (x : ℝ) : ∀ (N n : Nat) (w : ℝ), 2 ≤ n →
    ((n : ℝ) - 1) / n * |w - x| ≤ |Spec.htEstimate set n w (List.replicate N x) - x|
  | 0, n, w, hn => by
    have hn0 : (0 : ℝ) < n := by exact_mod_cast (by omega : 0 < n)
    rw [List.replicate_zero, Spec.htEstimate]
    have : ((n : ℝ) - 1) / n ≤ 1 := by rw [div_le_one hn0]; linarith
    calc ((n : ℝ) - 1) / n * |w - x| ≤ 1 * |w - x| := mul_le_mul_of_nonneg_right this (abs_nonneg _)
      _ = _ := one_mul _
  | N + 1, n, w, hn => by
    rw [List.replicate_succ, Spec.htEstimate]
    have hn2 : (2 : ℝ) ≤ n := by exact_mod_cast hn
    have hn0 : (0 : ℝ) < n := by linarith
    have ih := htEstimate_short set hl ha hd hg x N (n + 1) (w + Spec.htRate set n x w * (x - w)) (by omega)
    obtain ⟨r0, r1⟩ := htRate_range set hl ha (by omega) n (by omega) x w
    have hpow : (n : ℝ) ^ 2 ≤ (n : ℝ) ^ set.decay := pow_le_pow_right₀ (by linarith) hd
    have r2 : Spec.htRate set n x w ≤ 1 / (n : ℝ) ^ 2 := by
      refine r1.trans ?_
      calc set.lr * set.asymmetry / (n : ℝ) ^ set.decay ≤ 1 / (n : ℝ) ^ set.decay :=
            div_le_div_of_nonneg_right hg (pow_nonneg hn0.le _)
        _ ≤ 1 / (n : ℝ) ^ 2 := one_div_le_one_div_of_le (pow_pos hn0 2) hpow
    have e : w + Spec.htRate set n x w * (x - w) - x = (1 - Spec.htRate set n x w) * (w - x) := by ring
    rw [e, abs_mul] at ih
    refine le_trans ?_ ih
    rw [← mul_assoc]
    refine mul_le_mul_of_nonneg_right ?_ (abs_nonneg _)
    have h1 : 1 - 1 / (n : ℝ) ^ 2 ≤ |1 - Spec.htRate set n x w| := le_trans (by linarith) (le_abs_self _)
    have e2 : ((n : ℝ) - 1) / n = (((n + 1 : ℕ) : ℝ) - 1) / (n + 1 : ℕ) * (1 - 1 / (n : ℝ) ^ 2) := by
      push_cast
      field_simp
      ring
    rw [e2]
    refine mul_le_mul_of_nonneg_left h1 (div_nonneg ?_ (Nat.cast_nonneg _))
    push_cast; linarith

theorem htEstimate_misses (set : HtSettings ℝ) (hl : 0 < set.lr) (ha : 1 ≤ set.asymmetry) (hd : 2 ≤ set.decay)
    (hg : set.lr * set.asymmetry ≤ 1) (x w : ℝ) (N : Nat) :
    (1 - set.lr * set.asymmetry) / 2 * |w - x| ≤ |Spec.htEstimate set 1 w (List.replicate N x) - x| := by
  have hla : 0 < set.lr * set.asymmetry := mul_pos hl (by linarith)
  cases N with
  | zero =>
    rw [List.replicate_zero, Spec.htEstimate]
    have : (1 - set.lr * set.asymmetry) / 2 ≤ 1 := by linarith
    calc _ ≤ 1 * |w - x| := mul_le_mul_of_nonneg_right this (abs_nonneg _)
      _ = _ := one_mul _
  | succ N =>
    rw [List.replicate_succ, Spec.htEstimate]
    have h := htEstimate_short set hl ha hd hg x N 2 (w + Spec.htRate set 1 x w * (x - w)) (le_refl _)
    obtain ⟨-, r1⟩ := htRate_range set hl ha (by omega) 1 (le_refl _) x w
    rw [Nat.cast_one, one_pow, div_one] at r1
    have e : w + Spec.htRate set 1 x w * (x - w) - x = (1 - Spec.htRate set 1 x w) * (w - x) := by ring
    rw [e, abs_mul] at h
    refine le_trans ?_ h
    have h1 : 1 - set.lr * set.asymmetry ≤ |1 - Spec.htRate set 1 x w| := le_trans (by linarith) (le_abs_self _)
    have := mul_le_mul_of_nonneg_right h1 (abs_nonneg (w - x))
    norm_num
    linarith

end MaMDP
