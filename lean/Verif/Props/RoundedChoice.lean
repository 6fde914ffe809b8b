import Verif.Lemmas.RoundedChoice
import Verif.Lemmas.Double
import Verif.Props.Temperature
import Mathlib.MeasureTheory.Measure.Lebesgue.Basic

/-! # C149: choices by softmax in inexact arithmetic -/

set_option linter.unusedSectionVars false

namespace MaMDP

open MeasureTheory

/-- **C149**: choices by softmax, every operation being rounded. The policy exists; where a state has a finite estimate the
action chosen has one, the draw lies in its slot up to the margin, and the probabilities reported are near the exact ones. Where
a state has estimates, all of them `-inf`, all actions are about equally likely. -/
theorem C149_selector (fl : FloatOps) (ε η τ : ℝ) (h : Spec.CarefulOps fl ε η τ) (hε : 0 ≤ ε) (hτ : 0 ≤ τ) (T : ℝ) (hT : 0 < T)
    (q : Arr2 (Ext ℝ)) (hne : ∃ s, s < q.d0 ∧ ¬ Spec.NoEstimate q s)
    (hp : ∀ s a, s < q.d0 → a < q.d1 → q.get s a ≠ .pinf)
    (hsmall : 100 * (q.d1 * (ε + η)) ≤ 1) (htol : 10 * (q.d1 * (ε + η)) + 3 * τ ≤ fl.tol)
    (u : Nat → ℝ) (hu : ∀ s, s < q.d0 → 0 ≤ u s ∧ u s < 1) (E : ℝ) (hE : E = 50 * (q.d1 * (ε + η)) + 4 * q.d1 * (η / T)) :
    ∃ P pi, (fl.selector T).piP q = .ok P ∧ (fl.selector T).pi q u = .ok pi ∧ pi.d0 = q.d0 ∧
      ∀ s, s < q.d0 → (Spec.NoEstimate q s → pi.get s = -1) ∧
        (¬ Spec.NoEstimate q s → ∃ i, pi.get s = (i : Nat) ∧ i < q.d1) ∧
        ((∃ a x, a < q.d1 ∧ q.get s a = .fin x) →
          (∃ i, pi.get s = (i : Nat) ∧ i < q.d1 ∧ (∃ x, q.get s i = .fin x) ∧
            Spec.NearSlot (Spec.moveChance T q s) E i (u s)) ∧
          ∃ p : Nat → ℝ, ∀ a, a < q.d1 → P.get s a = .fin (p a) ∧ 0 ≤ p a ∧ |p a - Spec.moveChance T q s a| ≤ 2 * E) ∧
        (¬ Spec.NoEstimate q s → (∀ a x, a < q.d1 → q.get s a ≠ .fin x) →
          (∃ i, pi.get s = (i : Nat) ∧ i < q.d1 ∧ Spec.NearSlot (fun _ => 1 / q.d1) E i (u s)) ∧
          ∃ p : Nat → ℝ, ∀ a, a < q.d1 → P.get s a = .fin (p a) ∧ 0 ≤ p a ∧ |p a - 1 / q.d1| ≤ 2 * E) := by
  have hd : 0 < q.d1 := by
    obtain ⟨s, -, hn⟩ := hne
    by_contra hc
    exact hn fun a ha => by omega
  have hη := FloatOps.rounds_nonneg h.rounds
  set κ : ℝ := q.d1 * (ε + η) with hκ
  have hκ1 : κ ≤ 1 / 100 := by linarith
  have hη' : 0 ≤ 4 * (q.d1 : ℝ) * (η / T) := by positivity
  have hκ0 : 0 ≤ κ := by rw [hκ]; positivity
  have hpre : ∀ s j, (∑ a ∈ Finset.range j, Spec.moveChance T q s a) =
      (∑ a ∈ Finset.range j, Spec.weight T (q.get s a)) / ∑ a ∈ Finset.range q.d1, Spec.weight T (q.get s a) :=
    fun s j => (Finset.sum_div _ _ _).symm
  have hall : ∀ s, s < q.d0 → ∃ i, fl.softmaxChoice q.d1 (fl.softmax q.d1 (fun a => (q.get s a).clean) T) (u s) = .ok i ∧
      i < q.d1 ∧ ((∃ a x, a < q.d1 ∧ q.get s a = .fin x) → (∃ x, q.get s i = .fin x) ∧
        Spec.NearSlot (Spec.moveChance T q s) E i (u s)) ∧ ((∀ a x, a < q.d1 → q.get s a ≠ .fin x) →
        Spec.NearSlot (fun _ => 1 / q.d1) E i (u s) ∧ 0 ≤ fl.rnd (1 / q.d1) ∧ |fl.rnd (1 / q.d1) - 1 / q.d1| ≤ κ ∧
        fl.softmax q.d1 (fun a => (q.get s a).clean) T = fun _ => .fin (fl.rnd (1 / q.d1))) := by
    intro s hs
    by_cases hf : ∃ a x, a < q.d1 ∧ q.get s a = .fin x
    · obtain ⟨a, x, ha, hx⟩ := hf
      obtain ⟨i, i1, i2, i3, i4, i5⟩ := FloatOps.choose_row h hε hτ le_rfl hκ1 htol (q.get s) hT (fun a ha => hp s a hs ha)
        ⟨a, ha, x, hx⟩ (hu s hs).1 (hu s hs).2
      refine ⟨i, i1, i2, fun _ => ⟨i3, ?_⟩, fun hc => absurd hx (hc a x ha)⟩
      unfold Spec.NearSlot
      rw [← Finset.sum_range_succ, hpre, hpre, hE]
      exact ⟨i4, i5⟩
    · obtain ⟨⟨i, i1, i2, i3, i4⟩, i5, i6, i7⟩ := FloatOps.choose_none h hε hτ le_rfl hκ1 htol hd (q.get s) T (fun a ha => by
        cases hx : q.get s a with
        | fin x => exact absurd ⟨a, x, ha, hx⟩ hf
        | pinf => exact absurd hx (hp s a hs ha)
        | nan => rfl
        | ninf => rfl) (hu s hs).1 (hu s hs).2
      refine ⟨i, i1, i2, fun h => absurd h hf, fun _ => ⟨?_, i6, i7, i5⟩⟩
      unfold Spec.NearSlot
      rw [← Finset.sum_range_succ (fun _ => 1 / (q.d1 : ℝ))]
      simp only [Finset.sum_const, Finset.card_range, nsmul_eq_mul, mul_one_div]
      constructor <;> linarith
  obtain ⟨g, hg⟩ := forStates_ok (f := fun s =>
    fl.softmaxChoice q.d1 (fl.softmax q.d1 (fun a => (q.get s a).clean) T) (u s)) 0 q.d0 (fun s hs => by
      obtain ⟨i, hi, -⟩ := hall s hs
      exact ⟨_, hi⟩)
  have hg' := forStates_spec hg
  have e : (fl.selector T).piP q = .ok ⟨q.d0, q.d1, fun s a =>
      if nanState q s then .nan else fl.softmax q.d1 (fun a => (q.get s a).clean) T a⟩ := by
    unfold Selector.piP; rw [checkQValues_ok.2 hne]; rfl
  refine ⟨_, ⟨q.d0, fun s => if nanState q s then -1 else (g s : Int)⟩, e, ?_, rfl, ?_⟩
  · unfold Selector.pi
    rw [checkQValues_ok.2 hne]
    simp only [FloatOps.selector, hg]
  · intro s hs
    obtain ⟨i, i1, i2, i3, i4⟩ := hall s hs
    have hgi : g s = i := by
      have := hg' s hs
      rw [i1] at this
      exact (Except.ok.inj this).symm
    have hhas : ¬ Spec.NoEstimate q s → nanState q s = false := by
      intro hn
      refine nanState_eq_false.2 ⟨?_, fun hc => ?_⟩
      · by_contra hc
        push Not at hc
        exact hn hc
      · obtain ⟨⟨a, ha, hx⟩, -⟩ := hc
        exact hp s a hs ha hx
    refine ⟨fun hn => by simp only [nanState_noEstimate hn, if_true], fun hn => ⟨i, ?_, i2⟩, fun hf => ?_,
      fun hn hc => ⟨⟨i, by simp only [hhas hn, Bool.false_eq_true, if_false, hgi], i2, (i4 hc).1⟩,
        fun _ => fl.rnd (1 / q.d1), fun b _ => ⟨?_, (i4 hc).2.1, ?_⟩⟩⟩
    · simp only [hhas hn, Bool.false_eq_true, if_false, hgi]
    · have hn : ¬ Spec.NoEstimate q s := by
        intro hn
        obtain ⟨a, x, ha, hx⟩ := hf
        rw [hn a ha] at hx
        cases hx
      refine ⟨⟨i, by simp only [hhas hn, Bool.false_eq_true, if_false, hgi], i2, i3 hf⟩, ?_⟩
      obtain ⟨a, x, ha, hx⟩ := hf
      obtain ⟨f, f1, f2, f3, f4, f5⟩ := FloatOps.softmax_row h hε (le_refl κ) hκ1 (q.get s) hT (fun a ha => hp s a hs ha)
        ⟨a, ha, x, hx⟩
      refine ⟨f, fun b hb => ⟨?_, f2 b hb, ?_⟩⟩
      · simp only [hhas hn, Bool.false_eq_true, if_false, f1]
      · have k1 := abs_le.1 (f5 b hb.le)
        have k2 := abs_le.1 (f5 (b + 1) hb)
        rw [← hpre, Finset.sum_range_succ, Finset.sum_range_succ] at k2
        rw [← hpre] at k1
        rw [abs_le]
        constructor <;> linarith [k1.1, k1.2, k2.1, k2.2]
    · simp only [hhas hn, Bool.false_eq_true, if_false, (i4 hc).2.2.2]
    · exact (i4 hc).2.2.1.trans (by linarith)

/-- **C149**: the draws for which rounding changes the action chosen are those near a border between two slots. -/
theorem C149_same (fl : FloatOps) (ε η τ : ℝ) (h : Spec.CarefulOps fl ε η τ) (hε : 0 ≤ ε) (hτ : 0 ≤ τ) (T : ℝ) (hT : 0 < T)
    (q : Arr2 (Ext ℝ)) (hp : ∀ s a, s < q.d0 → a < q.d1 → q.get s a ≠ .pinf)
    (hsmall : 100 * (q.d1 * (ε + η)) ≤ 1) (htol : 10 * (q.d1 * (ε + η)) + 3 * τ ≤ fl.tol)
    (u : Nat → ℝ) (hu : ∀ s, s < q.d0 → 0 ≤ u s ∧ u s < 1) (E : ℝ) (hE : E = 50 * (q.d1 * (ε + η)) + 4 * q.d1 * (η / T))
    (s : Nat) (hs : s < q.d0) (hf : ∃ a x, a < q.d1 ∧ q.get s a = .fin x)
    (hfar : ∀ j, 0 < j → j < q.d1 → E < |u s - ∑ a ∈ Finset.range j, Spec.moveChance T q s a|) :
    ∃ pi pi', (fl.selector T).pi q u = .ok pi ∧ (softmaxSelector T).pi q u = .ok pi' ∧ pi.get s = pi'.get s := by
  have hne : ∃ s, s < q.d0 ∧ ¬ Spec.NoEstimate q s := ⟨s, hs, fun hn => by
    obtain ⟨a, x, ha, hx⟩ := hf
    rw [hn a ha] at hx
    cases hx⟩
  obtain ⟨P, pi, -, k2, -, k4⟩ := C149_selector fl ε η τ h hε hτ T hT q hne hp hsmall htol u hu E hE
  obtain ⟨⟨i, i1, i2, -, i3, i4⟩, -⟩ := (k4 s hs).2.2.1 hf
  obtain ⟨P', pi', l1, l2, -, l4⟩ := C26_softmax_pi T q hne hp u hu
  have hhas : Spec.HasEstimate q s := by
    obtain ⟨a, x, ha, hx⟩ := hf
    exact ⟨⟨a, ha, by rw [hx]; simp⟩, fun hc => by obtain ⟨⟨b, hb, hc⟩, -⟩ := hc; exact hp s b hs hb hc⟩
  obtain ⟨p, p1, i', m1, m2, -, m3⟩ := (l4 s hs).2 hhas
  have hsel : mkSoftmax T = .ok (softmaxSelector T) := by
    unfold mkSoftmax
    simp [hT.not_ge]
  obtain ⟨hW, hx⟩ := C105_exact T hT q (softmaxSelector T) hsel P' l1 s hs (fun a ha => hp s a hs ha) hf
  have hpe : ∀ a, a < q.d1 → p a = Spec.moveChance T q s a := fun a ha => by
    have := (p1 a ha).symm.trans (hx a ha)
    exact Ext.fin.inj this
  have hsum : ∀ j, j ≤ q.d1 → ∑ a ∈ Finset.range j, p a = ∑ a ∈ Finset.range j, Spec.moveChance T q s a := fun j hj =>
    Finset.sum_congr rfl fun a ha => hpe a (by have := Finset.mem_range.1 ha; omega)
  have hone : ∑ a ∈ Finset.range q.d1, Spec.moveChance T q s a = 1 := by
    unfold Spec.moveChance
    rw [← Finset.sum_div]
    exact div_self hW.ne'
  have hη := FloatOps.rounds_nonneg h.rounds
  have hE0 : 0 ≤ E := by rw [hE]; positivity
  refine ⟨pi, pi', k2, l2, ?_⟩
  have hslot : Spec.InSlot p i (u s) := by
    unfold Spec.InSlot
    rw [← Finset.sum_range_succ, hsum i i2.le, hsum (i + 1) i2]
    rw [← Finset.sum_range_succ] at i4
    constructor
    · rcases Nat.eq_zero_or_pos i with h0 | h0
      · rw [h0, Finset.range_zero, Finset.sum_empty]; exact (hu s hs).1
      · have := hfar i h0 i2
        rcases lt_abs.1 this with h | h <;> linarith
    · rcases Nat.lt_or_ge (i + 1) q.d1 with h0 | h0
      · have := hfar (i + 1) (by omega) h0
        rcases lt_abs.1 this with h | h <;> linarith
      · rw [show i + 1 = q.d1 by omega, hone]; exact (hu s hs).2
  rw [i1, m1, (m3 i i2).2 hslot]

/-- **C149**: the chance that rounding changes the action chosen in a state is at most twice the margin for each border. -/
theorem C149_rarely (fl : FloatOps) (ε η τ : ℝ) (h : Spec.CarefulOps fl ε η τ) (hε : 0 ≤ ε) (hτ : 0 ≤ τ) (T : ℝ) (hT : 0 < T)
    (q : Arr2 (Ext ℝ)) (hp : ∀ s a, s < q.d0 → a < q.d1 → q.get s a ≠ .pinf)
    (hsmall : 100 * (q.d1 * (ε + η)) ≤ 1) (htol : 10 * (q.d1 * (ε + η)) + 3 * τ ≤ fl.tol)
    (E : ℝ) (hE : E = 50 * (q.d1 * (ε + η)) + 4 * q.d1 * (η / T))
    (s : Nat) (hs : s < q.d0) (hf : ∃ a x, a < q.d1 ∧ q.get s a = .fin x) :
    volume {x : ℝ | ∃ u : Nat → ℝ, (∀ t, t < q.d0 → 0 ≤ u t ∧ u t < 1) ∧ u s = x ∧
        ¬ ∃ pi pi', (fl.selector T).pi q u = .ok pi ∧ (softmaxSelector T).pi q u = .ok pi' ∧ pi.get s = pi'.get s} ≤
      ENNReal.ofReal ((q.d1 - 1) * (2 * E)) := by
  have hd : 0 < q.d1 := by obtain ⟨a, x, ha, -⟩ := hf; omega
  refine (measure_mono (t := ⋃ j ∈ Finset.Ico 1 q.d1, Set.Icc ((∑ a ∈ Finset.range j, Spec.moveChance T q s a) - E)
    ((∑ a ∈ Finset.range j, Spec.moveChance T q s a) + E)) ?_).trans ?_
  · rintro x ⟨u, hu, rfl, hx⟩
    by_contra hc
    refine hx (C149_same fl ε η τ h hε hτ T hT q hp hsmall htol u hu E hE s hs hf fun j hj hj' => ?_)
    by_contra hle
    refine hc ?_
    rw [Set.mem_iUnion₂]
    refine ⟨j, Finset.mem_Ico.2 ⟨hj, hj'⟩, ?_⟩
    have := abs_le.1 (not_lt.1 hle)
    exact ⟨by linarith [this.1], by linarith [this.2]⟩
  · refine (measure_biUnion_finset_le _ _).trans ?_
    simp only [Real.volume_Icc]
    have : ∀ b : ℝ, b + E - (b - E) = 2 * E := fun b => by ring
    simp only [this]
    rw [Finset.sum_const, Nat.card_Ico, nsmul_eq_mul, ← Nat.cast_pred hd,
      ENNReal.ofReal_mul (p := ((q.d1 - 1 : ℕ) : ℝ)) (by positivity), ENNReal.ofReal_natCast]

theorem tiny_le : (2 : ℝ) ^ (-1075 : ℤ) ≤ 2 ^ (-53 : ℤ) := zpow_le_zpow_right₀ (by norm_num) (by norm_num)

theorem tiny_inv : ((2 : ℝ) ^ 1075)⁻¹ ≤ 1 / 9007199254740992 := by
  have := tiny_le
  rw [zpow_neg, show (1075 : ℤ) = ((1075 : ℕ) : ℤ) by norm_num, zpow_natCast] at this
  exact this.trans_eq (by norm_num)

/-- Double precision is careful enough. -/
theorem careful_double : Spec.CarefulOps Spec.doubleOps (2 ^ (-53 : ℤ)) (2 ^ (-1075 : ℤ)) (2 ^ (-53 : ℤ)) where
  rounds := Spec.double_rounds
  expo_zero := by
    show Spec.double (Real.exp 0) = 1
    rw [Real.exp_zero]; exact Spec.double_rounds.one
  expo_nonneg y _ := by
    show 0 ≤ Spec.double (Real.exp y)
    exact Spec.double_nonneg (Real.exp_pos y)
  expo_le y hy := by
    show Spec.double (Real.exp y) ≤ 1
    rw [← Spec.double_rounds.one]
    exact Spec.double_mono (Real.exp_le_one_iff.2 hy)
  expo_close y hy := by
    show |Spec.double (Real.exp y) - Real.exp y| ≤ _
    rcases Spec.double_close_pos (Real.exp_pos y) with h | h
    · refine h.trans ?_
      have := Real.exp_le_one_iff.2 hy
      have h2 : (0 : ℝ) ≤ 2 ^ (-53 : ℤ) := by positivity
      nlinarith
    · exact h.trans tiny_le
  total_close n p hp := by
    have h0 : 0 ≤ ∑ a ∈ Finset.range n, p a := Finset.sum_nonneg fun a ha => hp a (Finset.mem_range.1 ha)
    have := Spec.double_rounds.close (∑ a ∈ Finset.range n, p a)
    rwa [abs_of_nonneg h0] at this

/-- **C149** in double precision, for up to a thousand actions and temperatures from `2 ^ (-900)`, about `10 ^ (-271)`: rounding
changes the action chosen in a state with chance at most one in ten million. -/
theorem C149_double (T : ℝ) (hT : 2 ^ (-900 : ℤ) ≤ T) (q : Arr2 (Ext ℝ)) (hn : q.d1 ≤ 1000)
    (hp : ∀ s a, s < q.d0 → a < q.d1 → q.get s a ≠ .pinf)
    (s : Nat) (hs : s < q.d0) (hf : ∃ a x, a < q.d1 ∧ q.get s a = .fin x) :
    volume {x : ℝ | ∃ u : Nat → ℝ, (∀ t, t < q.d0 → 0 ≤ u t ∧ u t < 1) ∧ u s = x ∧
        ¬ ∃ pi pi', (Spec.doubleOps.selector T).pi q u = .ok pi ∧ (softmaxSelector T).pi q u = .ok pi' ∧
          pi.get s = pi'.get s} ≤ ENNReal.ofReal (1 / 10 ^ 7) := by
  have hT0 : 0 < T := lt_of_lt_of_le (zpow_pos (by norm_num) _) hT
  have hn' : (q.d1 : ℝ) ≤ 1000 := by exact_mod_cast hn
  have hd : (1 : ℝ) ≤ q.d1 := by
    obtain ⟨a, x, ha, -⟩ := hf
    have : 1 ≤ q.d1 := by omega
    exact_mod_cast this
  have e53 : (2 : ℝ) ^ (-53 : ℤ) = 1 / 9007199254740992 := by norm_num
  have hη := tiny_le
  have hη0 : (0 : ℝ) < 2 ^ (-1075 : ℤ) := zpow_pos (by norm_num) _
  have hηT : (2 : ℝ) ^ (-1075 : ℤ) / T ≤ 1 / 9007199254740992 := by
    rw [div_le_iff₀ hT0, ← e53]
    calc (2 : ℝ) ^ (-1075 : ℤ) ≤ 2 ^ (-953 : ℤ) := zpow_le_zpow_right₀ (by norm_num) (by norm_num)
      _ = 2 ^ (-53 : ℤ) * 2 ^ (-900 : ℤ) := by rw [← zpow_add₀ (by norm_num)]; norm_num
      _ ≤ _ := mul_le_mul_of_nonneg_left hT (by positivity)
  have hηT0 : 0 ≤ (2 : ℝ) ^ (-1075 : ℤ) / T := by positivity
  rw [e53] at hη
  refine (C149_rarely Spec.doubleOps _ _ _ careful_double (by positivity) (by positivity) T hT0 q hp ?_ ?_ _ rfl s hs hf).trans
    (ENNReal.ofReal_le_ofReal ?_)
  · rw [e53]
    generalize (2 : ℝ) ^ (-1075 : ℤ) = η at *
    nlinarith
  · show _ ≤ (2 : ℝ) ^ (-26 : ℤ)
    rw [e53, show (2 : ℝ) ^ (-26 : ℤ) = 1 / 67108864 by norm_num]
    generalize (2 : ℝ) ^ (-1075 : ℤ) = η at *
    nlinarith
  · rw [e53]
    generalize (2 : ℝ) ^ (-1075 : ℤ) / T = z at *
    generalize (2 : ℝ) ^ (-1075 : ℤ) = η at *
    have k1 : (q.d1 : ℝ) * (1 / 9007199254740992 + η) ≤ 1000 * (2 / 9007199254740992) :=
      mul_le_mul hn' (by linarith) (by positivity) (by norm_num)
    have k2 : (q.d1 : ℝ) * z ≤ 1000 * (1 / 9007199254740992) := mul_le_mul hn' hηT hηT0 (by norm_num)
    calc ((q.d1 : ℝ) - 1) * (2 * (50 * (q.d1 * (1 / 9007199254740992 + η)) + 4 * q.d1 * z))
        ≤ 1000 * (2 * (50 * (1000 * (2 / 9007199254740992)) + 4 * (1000 * (1 / 9007199254740992)))) :=
          mul_le_mul (by linarith) (by linarith) (by positivity) (by norm_num)
      _ ≤ 1 / 10 ^ 7 := by norm_num

/-- **C149**, the part that holds of `rand_choice_nb`: in inexact arithmetic it gives an entry with positive weight, and the
draw lies in its slot up to the margin, unless the draw is so near 1 that the index runs past the end. -/
theorem C149_rand_choice_partial (fl : FloatOps) (ε η : ℝ) (h : Spec.RoundsWell fl.rnd ε η) (hε : 0 ≤ ε) (n : Nat) (hn : 0 < n)
    (hsmall : 100 * (n * (ε + η)) ≤ 1) (p : Nat → ℝ) (hp : ∀ a, a < n → 0 ≤ p a) (hs : 1 / 2 ≤ ∑ a ∈ Finset.range n, p a)
    (u : ℝ) (hu : 0 ≤ u) :
    (∃ i, fl.randChoiceNb n p u = .ok i ∧ i < n ∧ 0 < p i ∧
      Spec.NearSlot (fun a => p a / ∑ b ∈ Finset.range n, p b) (10 * (n * (ε + η))) i u) ∨
    (fl.randChoiceNb n p u = .error .indexError ∧ 1 - 10 * (n * (ε + η)) ≤ u) := by
  rcases FloatOps.randChoiceNb_ok (fl := fl) h hε (le_refl (n * (ε + η))) (by linarith) hn hp hs hu with
    ⟨i, i1, i2, i3, i4, i5⟩ | h'
  · refine .inl ⟨i, i1, i2, i3, ?_⟩
    unfold Spec.NearSlot
    rw [← Finset.sum_range_succ, ← Finset.sum_div, ← Finset.sum_div]
    exact ⟨i4, i5⟩
  · exact .inr h'

/-- **C149 is false of `rand_choice_nb`**: in double precision, with the weights 3, 2 and 1 and the largest draw there is, the
index runs past the end of the array. -/
theorem C149_refuted : ∃ (n : Nat) (p : Nat → ℝ) (u : ℝ), 0 < n ∧ (∀ a, a < n → 0 < p a) ∧ 0 ≤ u ∧ u < 1 ∧
    Spec.double u = u ∧ (∀ a, a < n → Spec.double (p a) = p a) ∧ Spec.doubleOps.randChoiceNb n p u = .error .indexError := by
  have r3 : Spec.double 3 = 3 := by
    have := Spec.double_fix (k := 3 * 2 ^ 51) (e := 1) (by norm_num) (by norm_num) (by norm_num)
    rw [show (((3 * 2 ^ 51 : ℤ) : ℝ) * 2 ^ ((1 : ℤ) - 52)) = 3 by norm_num] at this
    exact this
  have r5 : Spec.double 5 = 5 := by
    have := Spec.double_fix (k := 5 * 2 ^ 50) (e := 2) (by norm_num) (by norm_num) (by norm_num)
    rw [show (((5 * 2 ^ 50 : ℤ) : ℝ) * 2 ^ ((2 : ℤ) - 52)) = 5 by norm_num] at this
    exact this
  have r6 : Spec.double 6 = 6 := by
    have := Spec.double_fix (k := 3 * 2 ^ 51) (e := 2) (by norm_num) (by norm_num) (by norm_num)
    rw [show (((3 * 2 ^ 51 : ℤ) : ℝ) * 2 ^ ((2 : ℤ) - 52)) = 6 by norm_num] at this
    exact this
  have r1 : Spec.double 1 = 1 := Spec.double_rounds.one
  have r2 : Spec.double 2 = 2 := by simpa using Spec.double_two_zpow (e := 1) (by norm_num)
  have rh : Spec.double (1 / 2) = 1 / 2 := by
    have := Spec.double_two_zpow (e := -1) (by norm_num)
    rwa [show (2 : ℝ) ^ (-1 : ℤ) = 1 / 2 by norm_num] at this
  have ev : ∀ (x : ℝ) (e k : ℤ) (r : ℝ), -1022 ≤ e → (2 : ℝ) ^ e ≤ x → x < 2 ^ (e + 1) → Spec.nearestEven (x * 2 ^ (52 - e)) = k →
      (k : ℝ) * 2 ^ (e - 52) = r → Spec.double x = r := by
    intro x e k r he h1 h2 h3 h4
    rw [Spec.double_eq he h1 h2, h3, h4]
  have rt : Spec.double (1 / 3) = 6004799503160661 / 2 ^ 54 := by
    refine ev _ (-2) 6004799503160661 _ (by norm_num) (by norm_num) (by norm_num) ?_ (by norm_num)
    have hf : ⌊(1 / 3 : ℝ) * 2 ^ (52 - (-2 : ℤ))⌋ = 6004799503160661 := by
      rw [Int.floor_eq_iff]; norm_num
    unfold Spec.nearestEven
    rw [hf, if_pos (by norm_num)]
  have rs : Spec.double (1 / 6) = 6004799503160661 / 2 ^ 55 := by
    refine ev _ (-3) 6004799503160661 _ (by norm_num) (by norm_num) (by norm_num) ?_ (by norm_num)
    have hf : ⌊(1 / 6 : ℝ) * 2 ^ (52 - (-3 : ℤ))⌋ = 6004799503160661 := by
      rw [Int.floor_eq_iff]; norm_num
    unfold Spec.nearestEven
    rw [hf, if_pos (by norm_num)]
  have c2 : Spec.double (1 / 2 + 6004799503160661 / 2 ^ 54) = 7505999378950826 / 2 ^ 53 := by
    refine ev _ (-1) 7505999378950826 _ (by norm_num) (by norm_num) (by norm_num) ?_ (by norm_num)
    have hf : ⌊(1 / 2 + 6004799503160661 / 2 ^ 54 : ℝ) * 2 ^ (52 - (-1 : ℤ))⌋ = 7505999378950826 := by
      rw [Int.floor_eq_iff]; norm_num
    unfold Spec.nearestEven
    rw [hf, if_neg (by norm_num), if_neg (by norm_num), if_pos (by decide)]
  have c3 : Spec.double (7505999378950826 / 2 ^ 53 + 6004799503160661 / 2 ^ 55) = 1 - 1 / 2 ^ 53 := by
    refine ev _ (-1) 9007199254740991 _ (by norm_num) (by norm_num) (by norm_num) ?_ (by norm_num)
    have hf : ⌊(7505999378950826 / 2 ^ 53 + 6004799503160661 / 2 ^ 55 : ℝ) * 2 ^ (52 - (-1 : ℤ))⌋ = 9007199254740991 := by
      rw [Int.floor_eq_iff]; norm_num
    unfold Spec.nearestEven
    rw [hf, if_pos (by norm_num)]
  have cu : Spec.double (1 - 1 / 2 ^ 53) = 1 - 1 / 2 ^ 53 := by rw [← c3, Spec.double_rounds.idem]
  let p : Nat → ℝ := fun a => 3 - a
  have hsum : Spec.doubleOps.sum 3 p = 6 := by
    show Spec.double (Spec.double (Spec.double (0 + (3 - ((0 : ℕ) : ℝ))) + (3 - ((1 : ℕ) : ℝ))) + (3 - ((2 : ℕ) : ℝ))) = 6
    norm_num [r3, r5, r6]
  have h0 : Spec.double (p 0 / 6) = 1 / 2 := by rw [show p 0 / 6 = 1 / 2 by norm_num [p]]; exact rh
  have h1 : Spec.double (p 1 / 6) = 6004799503160661 / 2 ^ 54 := by rw [show p 1 / 6 = 1 / 3 by norm_num [p]]; exact rt
  have h2 : Spec.double (p 2 / 6) = 6004799503160661 / 2 ^ 55 := by rw [show p 2 / 6 = 1 / 6 by norm_num [p]]; exact rs
  have s1 : Spec.doubleOps.sum 1 (fun a => Spec.doubleOps.rnd (p a / 6)) = 1 / 2 := by
    show Spec.double (0 + Spec.double (p 0 / 6)) = _
    rw [h0, zero_add, rh]
  have s2 : Spec.doubleOps.sum 2 (fun a => Spec.doubleOps.rnd (p a / 6)) = 7505999378950826 / 2 ^ 53 := by
    rw [FloatOps.sum_succ, s1]
    show Spec.double (1 / 2 + Spec.double (p 1 / 6)) = _
    rw [h1, c2]
  have s3 : Spec.doubleOps.sum 3 (fun a => Spec.doubleOps.rnd (p a / 6)) = 1 - 1 / 2 ^ 53 := by
    rw [FloatOps.sum_succ, s2]
    show Spec.double (_ + Spec.double (p 2 / 6)) = _
    rw [h2, c3]
  have hp : ∀ a, a < 3 → p a = 3 ∨ p a = 2 ∨ p a = 1 := by
    intro a ha
    interval_cases a <;> norm_num [p]
  refine ⟨3, p, 1 - 1 / 2 ^ 53, by norm_num, ?_, by norm_num, by norm_num, cu, ?_, ?_⟩
  · intro a ha
    rcases hp a ha with h | h | h <;> rw [h] <;> norm_num
  · intro a ha
    rcases hp a ha with h | h | h <;> rw [h] <;> assumption
  · unfold FloatOps.randChoiceNb
    rw [hsum]
    have : ¬ searchRight 3 (fun i => Spec.doubleOps.sum (i + 1) fun a => Spec.doubleOps.rnd (p a / 6)) (1 - 1 / 2 ^ 53) < 3 := by
      intro hlt
      obtain ⟨hc, -⟩ := (searchRight_eq_iff hlt).1 rfl
      generalize searchRight 3 (fun i => Spec.doubleOps.sum (i + 1) fun a => Spec.doubleOps.rnd (p a / 6)) (1 - 1 / 2 ^ 53) = i at *
      interval_cases i
      · rw [s1] at hc; norm_num at hc
      · rw [s2] at hc; norm_num at hc
      · rw [s3] at hc; exact lt_irrefl _ hc
    exact if_neg this

/-- Two states; in the first the estimates 0 and 1, in the second one estimate. -/
example : ∃ P pi, (Spec.doubleOps.selector 1).piP ⟨2, 2, fun s a => if a ≤ s then .fin a else .nan⟩ = .ok P ∧
    (Spec.doubleOps.selector 1).pi ⟨2, 2, fun s a => if a ≤ s then .fin a else .nan⟩ (fun _ => 1 / 2) = .ok pi ∧
    pi.get 0 = (0 : Nat) := by
  obtain ⟨P, pi, h1, h2, -, h3⟩ := C149_selector Spec.doubleOps _ _ _ careful_double (by positivity) (by positivity) 1 one_pos
    ⟨2, 2, fun s a => if a ≤ s then .fin a else .nan⟩ ⟨0, by decide, fun h => by have := h 0 (by decide); simp at this⟩
    (fun s a _ _ => by show (if a ≤ s then _ else _) ≠ _; split <;> simp)
    (by norm_num; linarith [tiny_inv]) (by show _ ≤ (2 : ℝ) ^ (-26 : ℤ); norm_num; linarith [tiny_inv]) (fun _ => 1 / 2) (fun _ _ => by norm_num) _ rfl
  obtain ⟨⟨i, i1, i2, ⟨x, hx⟩, -⟩, -⟩ := (h3 0 (by decide)).2.2.1 ⟨0, 0, by decide, by simp⟩
  refine ⟨P, pi, h1, h2, ?_⟩
  have : i = 0 := by
    by_contra h0
    have : ¬ i ≤ 0 := by omega
    simp [this] at hx
  rw [i1, this]

/-- Weights 1 and 1, draw 1/4: the first entry or the second, the second being excluded by the margin. -/
example : Spec.doubleOps.randChoiceNb 2 (fun _ => 1) (1 / 4) = .ok 0 := by
  rcases C149_rand_choice_partial Spec.doubleOps _ _ Spec.double_rounds (by positivity) 2 (by decide)
    (by norm_num; linarith [tiny_inv]) (fun _ => 1)
    (fun _ _ => by norm_num) (by norm_num) (1 / 4) (by norm_num) with ⟨i, h1, h2, -, h3, -⟩ | ⟨-, h⟩
  · interval_cases i
    · exact h1
    · norm_num [Finset.sum_range_succ] at h3
      linarith [tiny_inv]
  · norm_num at h
    linarith [tiny_inv]

/-- Estimates 0 and 1 at temperature 1: rounding hardly ever changes the action. -/
example : volume {x : ℝ | ∃ u : Nat → ℝ, (∀ t, t < 1 → 0 ≤ u t ∧ u t < 1) ∧ u 0 = x ∧
    ¬ ∃ pi pi', (Spec.doubleOps.selector 1).pi ⟨1, 2, fun _ a => .fin a⟩ u = .ok pi ∧
      (softmaxSelector 1).pi ⟨1, 2, fun _ a => .fin (a : ℝ)⟩ u = .ok pi' ∧ pi.get 0 = pi'.get 0} ≤ ENNReal.ofReal (1 / 10 ^ 7) :=
  C149_double 1 (zpow_le_one_of_nonpos₀ (by norm_num) (by norm_num)) ⟨1, 2, fun _ a => .fin a⟩ (by decide) (fun _ _ _ _ => by simp) 0 (by decide) ⟨0, 0, by decide, by simp⟩

/-- Two equal estimates and the draw 1/4, away from the border at 1/2. -/
example : ∃ pi pi', (Spec.doubleOps.selector 1).pi ⟨1, 2, fun _ _ => .fin 0⟩ (fun _ => 1 / 4) = .ok pi ∧
    (softmaxSelector 1).pi ⟨1, 2, fun _ _ => .fin (0 : ℝ)⟩ (fun _ => 1 / 4) = .ok pi' ∧ pi.get 0 = pi'.get 0 := by
  refine C149_same Spec.doubleOps _ _ _ careful_double (by positivity) (by positivity) 1 one_pos ⟨1, 2, fun _ _ => .fin 0⟩
    (fun _ _ _ _ => by simp) (by norm_num; linarith [tiny_inv]) (by show _ ≤ (2 : ℝ) ^ (-26 : ℤ); norm_num; linarith [tiny_inv])
    (fun _ => 1 / 4)
    (fun _ _ => by norm_num) _ rfl 0 (by decide) ⟨0, 0, by decide, rfl⟩ fun j h1 h2 => ?_
  have : j = 1 := by replace h2 : j < 2 := h2; omega
  subst this
  norm_num [Spec.moveChance, Spec.weight, Finset.sum_range_succ]
  linarith [tiny_inv]

end MaMDP
