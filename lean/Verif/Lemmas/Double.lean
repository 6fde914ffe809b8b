import Verif.Spec.RoundedChoice
import Mathlib.Tactic.Linarith
import Mathlib.Tactic.Positivity
import Mathlib.Tactic.FieldSimp
import Mathlib.Tactic.Ring
import Mathlib.Algebra.Ring.Int.Parity

/-! # Lemmas about rounding to 53 binary digits -/

namespace MaMDP.Spec

theorem nearestEven_cases (x : ℝ) :
    (nearestEven x = ⌊x⌋ ∧ x - ⌊x⌋ ≤ 1 / 2) ∨ (nearestEven x = ⌊x⌋ + 1 ∧ 1 / 2 ≤ x - ⌊x⌋) := by
  unfold nearestEven
  split_ifs with h1 h2 h3
  · exact .inl ⟨rfl, h1.le⟩
  · exact .inr ⟨rfl, h2.le⟩
  · exact .inl ⟨rfl, not_lt.1 h2⟩
  · exact .inr ⟨rfl, not_lt.1 h1⟩

theorem nearestEven_int (k : ℤ) : nearestEven (k : ℝ) = k := by
  unfold nearestEven
  rw [if_pos (by rw [Int.floor_intCast]; norm_num), Int.floor_intCast]

theorem nearestEven_close (x : ℝ) : |(nearestEven x : ℝ) - x| ≤ 1 / 2 := by
  have h1 := Int.floor_le x
  have h2 := Int.lt_floor_add_one x
  rcases nearestEven_cases x with ⟨h, h'⟩ | ⟨h, h'⟩ <;> rw [h, abs_le] <;> push_cast <;>
    constructor <;> linarith

theorem nearestEven_mono {x y : ℝ} (h : x ≤ y) : nearestEven x ≤ nearestEven y := by
  have hf : ⌊x⌋ ≤ ⌊y⌋ := Int.floor_le_floor h
  rcases hf.lt_or_eq with hlt | heq
  · rcases nearestEven_cases x with ⟨hx, -⟩ | ⟨hx, -⟩ <;> rcases nearestEven_cases y with ⟨hy, -⟩ | ⟨hy, -⟩ <;> omega
  · unfold nearestEven
    rw [heq]
    split_ifs <;> first | omega | (exfalso; linarith)

theorem nearestEven_neg (x : ℝ) : nearestEven (-x) = -nearestEven x := by
  by_cases hx : ∃ k : ℤ, x = k
  · obtain ⟨k, rfl⟩ := hx
    rw [nearestEven_int, ← Int.cast_neg, nearestEven_int]
  · have h0 : (⌊x⌋ : ℝ) < x := lt_of_le_of_ne (Int.floor_le x) fun h => hx ⟨_, h.symm⟩
    have h1 := Int.lt_floor_add_one x
    have hfl : ⌊-x⌋ = -⌊x⌋ - 1 := by
      rw [Int.floor_eq_iff]; push_cast; constructor <;> linarith
    unfold nearestEven
    rw [hfl]
    push_cast
    by_cases ha : x - ⌊x⌋ < 1 / 2
    · rw [if_pos ha, if_neg (by linarith), if_pos (by linarith)]; ring
    · by_cases hb : 1 / 2 < x - ⌊x⌋
      · rw [if_neg ha, if_pos hb, if_pos (by linarith)]; ring
      · rw [if_neg ha, if_neg hb, if_neg (by linarith), if_neg (by linarith)]
        by_cases he : Even ⌊x⌋
        · rw [if_pos he, if_neg]
          · ring
          · intro hc
            obtain ⟨a, ha⟩ := he
            obtain ⟨b, hb⟩ := hc
            omega
        · rw [if_neg he, if_pos]
          · ring
          · obtain ⟨a, ha⟩ := Int.not_even_iff_odd.1 he
            exact ⟨-a - 1, by omega⟩

theorem log_eq {x : ℝ} {e : ℤ} (h1 : (2 : ℝ) ^ e ≤ x) (h2 : x < 2 ^ (e + 1)) : Int.log 2 x = e := by
  have hx : 0 < x := lt_of_lt_of_le (zpow_pos (by norm_num) e) h1
  have a : e ≤ Int.log 2 x := (Int.zpow_le_iff_le_log (b := 2) (by norm_num) hx).1 (by exact_mod_cast h1)
  have b : Int.log 2 x < e + 1 := (Int.lt_zpow_iff_log_lt (b := 2) (by norm_num) hx).1 (by exact_mod_cast h2)
  omega

theorem log_spec {x : ℝ} (hx : 0 < x) : (2 : ℝ) ^ Int.log 2 x ≤ x ∧ x < 2 ^ (Int.log 2 x + 1) :=
  ⟨by exact_mod_cast Int.zpow_log_le_self (b := 2) (by norm_num) hx,
    by exact_mod_cast Int.lt_zpow_succ_log_self (b := 2) (by norm_num) x⟩

theorem two_zpow (a b : ℤ) : (2 : ℝ) ^ a * 2 ^ b = 2 ^ (a + b) := (zpow_add₀ (by norm_num) a b).symm

theorem binExp_spec {x : ℝ} (hx : 0 < x) : x < 2 ^ (binExp x + 1) ∧ -1022 ≤ binExp x ∧
    ((2 : ℝ) ^ binExp x ≤ x ∨ binExp x = -1022) := by
  obtain ⟨h1, h2⟩ := log_spec hx
  unfold binExp
  rw [abs_of_pos hx]
  refine ⟨h2.trans_le (zpow_le_zpow_right₀ (by norm_num) (by omega)), le_max_right _ _, ?_⟩
  rcases le_total (Int.log 2 x) (-1022) with h | h
  · exact .inr (max_eq_right h)
  · rw [max_eq_left h]; exact .inl h1

theorem binExp_eq {x : ℝ} {e : ℤ} (he : -1022 ≤ e) (hx : 0 < x) (h1 : (2 : ℝ) ^ e ≤ x ∨ e = -1022) (h2 : x < 2 ^ (e + 1)) :
    binExp x = e := by
  unfold binExp
  rw [abs_of_pos hx]
  rcases h1 with h1 | h1
  · rw [log_eq h1 h2]; exact max_eq_left he
  · subst h1
    have : Int.log 2 x < -1022 + 1 := (Int.lt_zpow_iff_log_lt (b := 2) (by norm_num) hx).1 (by exact_mod_cast h2)
    exact max_eq_right (by omega)

theorem binExp_neg (x : ℝ) : binExp (-x) = binExp x := by unfold binExp; rw [abs_neg]

theorem binExp_mono {x y : ℝ} (hx : 0 < x) (h : x ≤ y) : binExp x ≤ binExp y := by
  unfold binExp
  rw [abs_of_pos hx, abs_of_pos (hx.trans_le h)]
  exact max_le_max (Int.log_mono_right hx h) le_rfl

/-- Rounding within a binade. -/
theorem double_eq {x : ℝ} {e : ℤ} (he : -1022 ≤ e) (h1 : (2 : ℝ) ^ e ≤ x) (h2 : x < 2 ^ (e + 1)) :
    double x = nearestEven (x * 2 ^ (52 - e)) * 2 ^ (e - 52) := by
  have hx : 0 < x := lt_of_lt_of_le (zpow_pos (by norm_num) e) h1
  unfold double
  rw [binExp_eq he hx (.inl h1) h2]

theorem double_neg (x : ℝ) : double (-x) = -double x := by
  unfold double
  rw [binExp_neg, neg_mul, nearestEven_neg]
  push_cast
  ring

theorem double_zero : double 0 = 0 := by
  unfold double
  rw [zero_mul]
  have := nearestEven_int 0
  rw [Int.cast_zero] at this
  rw [this]
  simp

/-- Multiples of the spacing stay as they are. -/
theorem double_grid {k e : ℤ} (he : -1022 ≤ e) (h0 : 0 ≤ k) (h1 : 2 ^ 52 ≤ k ∨ e = -1022) (h2 : k < 2 ^ 53) :
    double (k * 2 ^ (e - 52)) = k * 2 ^ (e - 52) := by
  rcases h0.lt_or_eq with h0 | h0
  · have hp : (0 : ℝ) < 2 ^ (e - 52) := zpow_pos (by norm_num) _
    have hk : (0 : ℝ) < k := by exact_mod_cast h0
    have g1 : (2 : ℝ) ^ e ≤ k * 2 ^ (e - 52) ∨ e = -1022 := by
      refine h1.imp_left fun h1 => ?_
      have : (2 : ℝ) ^ e = 2 ^ (52 : ℤ) * 2 ^ (e - 52) := by rw [two_zpow]; congr 1; ring
      rw [this]
      refine mul_le_mul_of_nonneg_right ?_ hp.le
      exact_mod_cast h1
    have g2 : (k : ℝ) * 2 ^ (e - 52) < 2 ^ (e + 1) := by
      have : (2 : ℝ) ^ (e + 1) = 2 ^ (53 : ℤ) * 2 ^ (e - 52) := by rw [two_zpow]; congr 1; ring
      rw [this]
      refine mul_lt_mul_of_pos_right ?_ hp
      exact_mod_cast h2
    unfold double
    rw [binExp_eq he (mul_pos hk hp) g1 g2, mul_assoc, two_zpow, show e - 52 + (52 - e) = 0 by ring, zpow_zero, mul_one,
      nearestEven_int]
  · rw [← h0, Int.cast_zero, zero_mul, double_zero]

theorem double_fix {k e : ℤ} (he : -1022 ≤ e) (h1 : 2 ^ 52 ≤ k) (h2 : k < 2 ^ 53) :
    double (k * 2 ^ (e - 52)) = k * 2 ^ (e - 52) := double_grid he (by omega) (.inl h1) h2

theorem double_two_zpow {e : ℤ} (he : -1022 ≤ e) : double (2 ^ e) = 2 ^ e := by
  have h := double_fix (k := 2 ^ 52) he le_rfl (by norm_num)
  have e1 : (((2 : ℤ) ^ 52 : ℤ) : ℝ) * 2 ^ (e - 52) = 2 ^ e := by
    have : (((2 : ℤ) ^ 52 : ℤ) : ℝ) = 2 ^ (52 : ℤ) := by norm_cast
    rw [this, two_zpow]; congr 1; ring
  rwa [e1] at h

/-- The digits of a rounded number. -/
theorem double_digits {x : ℝ} (hx : 0 < x) : ∃ k : ℤ, double x = k * 2 ^ (binExp x - 52) ∧ 0 ≤ k ∧
    (2 ^ 52 ≤ k ∨ binExp x = -1022) ∧ k ≤ 2 ^ 53 := by
  obtain ⟨h2, -, h1⟩ := binExp_spec hx
  set e := binExp x with he
  have hp : (0 : ℝ) < 2 ^ (52 - e) := zpow_pos (by norm_num) _
  refine ⟨nearestEven (x * 2 ^ (52 - e)), by unfold double; rw [← he], ?_, h1.imp_left fun h1 => ?_, ?_⟩
  · have : ((0 : ℤ) : ℝ) ≤ x * 2 ^ (52 - e) := by rw [Int.cast_zero]; positivity
    have := nearestEven_mono this
    rwa [nearestEven_int] at this
  · have : ((2 ^ 52 : ℤ) : ℝ) ≤ x * 2 ^ (52 - e) := by
      calc ((2 ^ 52 : ℤ) : ℝ) = 2 ^ e * 2 ^ (52 - e) := by rw [two_zpow, show e + (52 - e) = 52 by ring]; norm_cast
        _ ≤ _ := mul_le_mul_of_nonneg_right h1 hp.le
    have := nearestEven_mono this
    rwa [nearestEven_int] at this
  · have : x * 2 ^ (52 - e) ≤ ((2 ^ 53 : ℤ) : ℝ) := by
      calc x * 2 ^ (52 - e) ≤ 2 ^ (e + 1) * 2 ^ (52 - e) := mul_le_mul_of_nonneg_right h2.le hp.le
        _ = ((2 ^ 53 : ℤ) : ℝ) := by rw [two_zpow, show e + 1 + (52 - e) = 53 by ring]; norm_cast
    have := nearestEven_mono this
    rwa [nearestEven_int] at this

theorem double_bounds {x : ℝ} (hx : 0 < x) : ((2 : ℝ) ^ binExp x ≤ double x ∨ binExp x = -1022) ∧
    double x ≤ 2 ^ (binExp x + 1) := by
  obtain ⟨k, hk, -, h1, h2⟩ := double_digits hx
  set e := binExp x with he
  have hp : (0 : ℝ) < 2 ^ (e - 52) := zpow_pos (by norm_num) _
  rw [hk]
  refine ⟨h1.imp_left fun h1 => ?_, ?_⟩
  · have : (2 : ℝ) ^ e = 2 ^ (52 : ℤ) * 2 ^ (e - 52) := by rw [two_zpow]; congr 1; ring
    rw [this]
    refine mul_le_mul_of_nonneg_right ?_ hp.le
    exact_mod_cast h1
  · have : (2 : ℝ) ^ (e + 1) = 2 ^ (53 : ℤ) * 2 ^ (e - 52) := by rw [two_zpow]; congr 1; ring
    rw [this]
    refine mul_le_mul_of_nonneg_right ?_ hp.le
    exact_mod_cast h2

theorem double_nonneg {x : ℝ} (hx : 0 < x) : 0 ≤ double x := by
  obtain ⟨k, hk, h0, -⟩ := double_digits hx
  rw [hk]
  have : (0 : ℝ) ≤ k := by exact_mod_cast h0
  positivity

theorem double_mono_pos {x y : ℝ} (hx : 0 < x) (h : x ≤ y) : double x ≤ double y := by
  have hy : 0 < y := lt_of_lt_of_le hx h
  have hle := binExp_mono hx h
  rcases hle.lt_or_eq with hlt | heq
  · have h1 := (binExp_spec hx).2.1
    rcases (double_bounds hy).1 with hb | hb
    · refine (double_bounds hx).2.trans (le_trans ?_ hb)
      exact zpow_le_zpow_right₀ (by norm_num) (by omega)
    · omega
  · unfold double
    rw [heq]
    refine mul_le_mul_of_nonneg_right ?_ (zpow_pos (by norm_num) _).le
    exact_mod_cast nearestEven_mono (mul_le_mul_of_nonneg_right h (zpow_pos (by norm_num) _).le)

theorem double_mono : Monotone double := by
  intro x y h
  rcases lt_trichotomy x 0 with hx | hx | hx
  · rcases lt_trichotomy y 0 with hy | hy | hy
    · have := double_mono_pos (neg_pos.2 hy) (neg_le_neg h)
      rw [double_neg, double_neg] at this
      linarith
    · subst hy
      have := double_nonneg (neg_pos.2 hx)
      rw [double_neg] at this
      rw [double_zero]
      linarith
    · have h1 := double_nonneg (neg_pos.2 hx)
      have h2 := double_nonneg hy
      rw [double_neg] at h1
      linarith
  · subst hx
    rcases h.lt_or_eq with hy | hy
    · rw [double_zero]; exact double_nonneg hy
    · rw [← hy]
  · exact double_mono_pos hx h

theorem double_idem_pos {x : ℝ} (hx : 0 < x) : double (double x) = double x := by
  obtain ⟨k, hk, h0, h1, h2⟩ := double_digits hx
  have he := (binExp_spec hx).2.1
  rcases h2.lt_or_eq with h | h
  · rw [hk]; exact double_grid he h0 h1 h
  · have : double x = 2 ^ (binExp x + 1) := by
      rw [hk, h]
      have : (((2 : ℤ) ^ 53 : ℤ) : ℝ) = 2 ^ (53 : ℤ) := by norm_cast
      rw [this, two_zpow]; congr 1; ring
    rw [this, double_two_zpow (by omega)]

theorem double_close_pos {x : ℝ} (hx : 0 < x) :
    |double x - x| ≤ 2 ^ (-53 : ℤ) * x ∨ |double x - x| ≤ 2 ^ (-1075 : ℤ) := by
  obtain ⟨-, -, h1⟩ := binExp_spec hx
  unfold double
  set e := binExp x with he
  have hp : (0 : ℝ) < 2 ^ (e - 52) := zpow_pos (by norm_num) _
  have e1 : x = x * 2 ^ (52 - e) * 2 ^ (e - 52) := by
    rw [mul_assoc, two_zpow, show 52 - e + (e - 52) = 0 by ring, zpow_zero, mul_one]
  have e2 : (nearestEven (x * 2 ^ (52 - e)) : ℝ) * 2 ^ (e - 52) - x =
      (nearestEven (x * 2 ^ (52 - e)) - x * 2 ^ (52 - e)) * 2 ^ (e - 52) := by
    rw [sub_mul, ← e1]
  have key : |(nearestEven (x * 2 ^ (52 - e)) : ℝ) * 2 ^ (e - 52) - x| ≤ 2 ^ (-53 : ℤ) * 2 ^ e := by
    rw [e2, abs_mul, abs_of_pos hp]
    calc |(nearestEven (x * 2 ^ (52 - e)) : ℝ) - x * 2 ^ (52 - e)| * 2 ^ (e - 52) ≤ 1 / 2 * 2 ^ (e - 52) :=
          mul_le_mul_of_nonneg_right (nearestEven_close _) hp.le
      _ = 2 ^ (-53 : ℤ) * 2 ^ e := by
          have : (1 / 2 : ℝ) = 2 ^ (-1 : ℤ) := by norm_num
          rw [this, two_zpow, two_zpow]; congr 1; ring
  rcases h1 with h1 | h1
  · exact .inl (key.trans (mul_le_mul_of_nonneg_left h1 (by positivity)))
  · refine .inr (key.trans_eq ?_)
    rw [h1, two_zpow]; norm_num

theorem double_close (x : ℝ) : |double x - x| ≤ 2 ^ (-53 : ℤ) * |x| + 2 ^ (-1075 : ℤ) := by
  have h1 : ∀ y : ℝ, 0 < y → |double y - y| ≤ 2 ^ (-53 : ℤ) * y + 2 ^ (-1075 : ℤ) := fun y hy => by
    have a : (0 : ℝ) ≤ 2 ^ (-53 : ℤ) * y := mul_nonneg (zpow_pos (by norm_num) _).le hy.le
    have b : (0 : ℝ) ≤ 2 ^ (-1075 : ℤ) := (zpow_pos (by norm_num) _).le
    rcases double_close_pos hy with h | h <;> linarith
  rcases lt_trichotomy x 0 with hx | hx | hx
  · have := h1 _ (neg_pos.2 hx)
    rw [double_neg] at this
    rw [abs_of_neg hx]
    rwa [show -double x - -x = -(double x - x) by ring, abs_neg] at this
  · rw [hx, double_zero, sub_zero, abs_zero, mul_zero, zero_add]
    exact (zpow_pos (by norm_num) _).le
  · rw [abs_of_pos hx]; exact h1 x hx

/-- Rounding to 53 digits rounds well. -/
theorem double_rounds : RoundsWell double (2 ^ (-53 : ℤ)) (2 ^ (-1075 : ℤ)) where
  mono := double_mono
  zero := double_zero
  one := by have := double_two_zpow (e := 0) (by norm_num); rwa [zpow_zero] at this
  idem x := by
    rcases lt_trichotomy x 0 with hx | hx | hx
    · have := double_idem_pos (neg_pos.2 hx)
      rw [double_neg, double_neg] at this
      linarith
    · rw [hx, double_zero, double_zero]
    · exact double_idem_pos hx
  close := double_close

end MaMDP.Spec
