import Verif.Model.Overflow
import Verif.Spec.Values
import Verif.Lemmas.DynamicProgramming
import Verif.Lemmas.ActionSelection

/-! # Lemmas on exponentials that can overflow -/

set_option linter.unusedSectionVars false

namespace MaMDP

variable {big : ℝ} {M : Trans ℝ} {r : Nat → ℝ} {γ tol : ℝ}

theorem capped_ok {x : ℝ} (h : x ≤ big) : capped big x = .fin x := if_pos h

theorem capBackup_ok {nA : Nat} {x : Nat → ℝ} (h : (∑ a ∈ Finset.range nA, Real.exp (x a)) ≤ big) :
    capBackup big nA x = .fin (softBackup nA x) := by
  have : capped big (npSum nA fun a => Real.exp (x a)) = .fin (npSum nA fun a => Real.exp (x a)) := if_pos h
  unfold capBackup
  rw [this]
  rfl

theorem capBackup_over {nA : Nat} {x : Nat → ℝ} (h : big < ∑ a ∈ Finset.range nA, Real.exp (x a)) :
    capBackup big nA x = .pinf := by
  have : capped big (npSum nA fun a => Real.exp (x a)) = .pinf := if_neg (not_le.2 h)
  unfold capBackup
  rw [this]

/-! ## Rewards that are small enough -/

theorem actionValue_bound (hM : Spec.SubStochastic M) {R vmax : ℝ} {v : Nat → ℝ} (hγ : 0 ≤ γ)
    (hr : ∀ t, t < M.nS → r t ≤ R) (hv : ∀ t, t < M.nS → v t ≤ vmax) (h0 : 0 ≤ R + γ * vmax) {s a : Nat}
    (hs : s < M.nS) (ha : a < M.nA) : actionValue M r γ v s a ≤ R + γ * vmax := by
  show (∑ t ∈ Finset.range M.nS, M.p s a t * (r t + γ * v t)) ≤ _
  calc (∑ t ∈ Finset.range M.nS, M.p s a t * (r t + γ * v t))
      ≤ ∑ t ∈ Finset.range M.nS, M.p s a t * (R + γ * vmax) := by
        refine Finset.sum_le_sum fun t ht => ?_
        have ht' := Finset.mem_range.1 ht
        refine mul_le_mul_of_nonneg_left ?_ (hM.nonneg s a t hs ha ht')
        have := mul_le_mul_of_nonneg_left (hv t ht') hγ
        have := hr t ht'
        linarith
    _ = (∑ t ∈ Finset.range M.nS, M.p s a t) * (R + γ * vmax) := by rw [Finset.sum_mul]
    _ ≤ 1 * (R + γ * vmax) := mul_le_mul_of_nonneg_right (hM.le_one s a hs ha) h0
    _ = _ := one_mul _

theorem sum_exp_le {nA : Nat} {x : Nat → ℝ} {m : ℝ} (h : ∀ a, a < nA → x a ≤ m) :
    (∑ a ∈ Finset.range nA, Real.exp (x a)) ≤ nA * Real.exp m := by
  calc (∑ a ∈ Finset.range nA, Real.exp (x a)) ≤ ∑ _a ∈ Finset.range nA, Real.exp m :=
        Finset.sum_le_sum fun a ha => Real.exp_le_exp.2 (h a (Finset.mem_range.1 ha))
    _ = nA * Real.exp m := by rw [Finset.sum_const, Finset.card_range, nsmul_eq_mul]

theorem softBackup_le {nA : Nat} {x : Nat → ℝ} {m : ℝ} (h0 : 0 ≤ m) (h : ∀ a, a < nA → x a ≤ m) :
    softBackup nA x ≤ m + Real.log (nA + 1) := by
  have hs := sum_exp_le h
  have hc : (0 : ℝ) < 1 / 10 ^ 200 := by positivity
  have hc1 : (1 : ℝ) / 10 ^ 200 ≤ 1 := by
    rw [div_le_one (by positivity)]
    exact one_le_pow₀ (by norm_num)
  have h1 : 1 ≤ Real.exp m := Real.one_le_exp h0
  have hp : (0 : ℝ) ≤ ∑ a ∈ Finset.range nA, Real.exp (x a) := Finset.sum_nonneg fun _ _ => (Real.exp_pos _).le
  have hA : (0 : ℝ) < (nA : ℝ) + 1 := by positivity
  show Real.log ((∑ a ∈ Finset.range nA, Real.exp (x a)) + 1 / 10 ^ 200) ≤ _
  rw [Real.log_le_iff_le_exp (by linarith), Real.exp_add, Real.exp_log hA]
  nlinarith

/-- The two computations side by side. -/
def Same (vmax : ℝ) (c : CapState) (st : SweepState ℝ) : Prop :=
  (∀ t, c.values t = .fin (st.values t)) ∧ c.delta = .fin st.delta ∧ c.q = st.q ∧ ∀ t, st.values t ≤ vmax

structure Small (big : ℝ) (M : Trans ℝ) (r : Nat → ℝ) (γ R vmax : ℝ) : Prop where
  sub : Spec.SubStochastic M
  γ0 : 0 ≤ γ
  rew : ∀ t, t < M.nS → r t ≤ R
  R0 : 0 ≤ R
  v0 : 0 ≤ vmax
  fix : R + γ * vmax + Real.log (M.nA + 1) ≤ vmax
  fits : M.nA * Real.exp (R + γ * vmax) ≤ big

theorem Small.m0 {R vmax : ℝ} (h : Small big M r γ R vmax) : 0 ≤ R + γ * vmax := by
  have := mul_nonneg h.γ0 h.v0
  have := h.R0
  linarith

theorem Same.step {R vmax : ℝ} (h : Small big M r γ R vmax) {c : CapState} {st : SweepState ℝ} (hs : Same vmax c st)
    {s : Nat} (hlt : s < M.nS) :
    ∃ c', capStep big M r γ c s = .ok c' ∧ Same vmax c' (sweepStep (softBackup M.nA) M r γ st s) := by
  obtain ⟨h1, h2, h3, h4⟩ := hs
  have hv : (fun t => (c.values t).num) = st.values := by
    funext t
    rw [h1 t]
    rfl
  have hany : ((List.range M.nS).any fun t => (c.values t).isInf) = false := by
    rw [List.any_eq_false]
    intro t _
    rw [h1 t]
    simp [Ext.isInf]
  have hav : ∀ a, a < M.nA → actionValue M r γ st.values s a ≤ R + γ * vmax := fun a ha =>
    actionValue_bound h.sub h.γ0 h.rew (fun t _ => h4 t) h.m0 hlt ha
  have hb : capBackup big M.nA (actionValue M r γ st.values s) = .fin (softBackup M.nA (actionValue M r γ st.values s)) :=
    capBackup_ok (le_trans (sum_exp_le hav) h.fits)
  unfold capStep
  rw [hany, if_neg (by simp), hv]
  dsimp only
  rw [hb]
  refine ⟨_, rfl, fun t => ?_, ?_, ?_, fun t => ?_⟩
  · simp only [sweepStep, upd1]
    split
    · rfl
    · exact h1 t
  · simp only [sweepStep, capDelta, h2, h1 s, Ext.num]
  · simp only [sweepStep, h3]
  · simp only [sweepStep, upd1]
    split
    · have := softBackup_le h.m0 hav
      have := h.fix
      linarith
    · exact h4 t

theorem Same.sweep {R vmax : ℝ} (h : Small big M r γ R vmax) {v : Nat → ℝ} (hv : ∀ t, v t ≤ vmax) :
    ∃ c, capSweep big M r γ (fun t => .fin (v t)) = .ok c ∧ Same vmax c (sweep (softBackup M.nA) M r γ v) := by
  unfold capSweep MaMDP.sweep
  have key : ∀ (l : List Nat) (c : CapState) (st : SweepState ℝ), (∀ s ∈ l, s < M.nS) → Same vmax c st →
      ∃ c', l.foldlM (m := Except PyErr) (capStep big M r γ) c = .ok c' ∧
        Same vmax c' (l.foldl (sweepStep (softBackup M.nA) M r γ) st) := by
    intro l
    induction l with
    | nil => intro c st _ hs; exact ⟨c, rfl, hs⟩
    | cons s l ih =>
      intro c st hl hs
      obtain ⟨c1, h1, h2⟩ := hs.step h (hl s List.mem_cons_self)
      obtain ⟨c2, h3, h4⟩ := ih c1 _ (fun x hx => hl x (List.mem_cons_of_mem _ hx)) h2
      refine ⟨c2, ?_, h4⟩
      rw [List.foldlM_cons, h1]
      exact h3
  exact key _ _ _ (fun s hs => List.mem_range.1 hs) ⟨fun _ => rfl, rfl, rfl, hv⟩

theorem Same.loop {R vmax : ℝ} (h : Small big M r γ R vmax) : ∀ (k : Nat) (v : Nat → ℝ) (q : Option (Nat → Nat → ℝ)),
    (∀ t, v t ≤ vmax) →
    ∃ w p, viLoop (softBackup M.nA) M r γ tol k v q = (w, p) ∧ (∀ t, w t ≤ vmax) ∧
      capLoop big M r γ tol k (fun t => .fin (v t)) q = .ok (fun t => .fin (w t), p) := by
  intro k
  induction k with
  | zero => intro v q hv; exact ⟨v, q, rfl, hv, rfl⟩
  | succ k ih =>
    intro v q hv
    obtain ⟨c, h1, h2, h3, h4, h5⟩ := Same.sweep h hv
    have hc : c.values = fun t => .fin ((MaMDP.sweep (softBackup M.nA) M r γ v).values t) := funext h2
    have hbel : c.delta.below tol = decide ((MaMDP.sweep (softBackup M.nA) M r γ v).delta < tol) := by rw [h3]; rfl
    unfold viLoop capLoop
    rw [h1]
    dsimp only
    rw [hbel, hc, h4]
    by_cases hd : (MaMDP.sweep (softBackup M.nA) M r γ v).delta < tol
    · rw [if_pos hd, if_pos (decide_eq_true hd)]
      exact ⟨_, _, rfl, h5, rfl⟩
    · rw [if_neg hd, if_neg (by simpa using hd)]
      exact ih _ _ h5

/-! ## Rewards that are too large -/

/-- A state of the computation in which no value is negative, or one of them is `inf`. -/
def NonNeg (nS : Nat) (v : Nat → Ext ℝ) : Prop := ∀ t, t < nS → v t = .pinf ∨ ∃ x, 0 ≤ x ∧ v t = .fin x

theorem any_inf {nS : Nat} {v : Nat → Ext ℝ} : ((List.range nS).any fun t => (v t).isInf) = true ↔
    ∃ t, t < nS ∧ (v t).isInf = true := by
  rw [List.any_eq_true]
  constructor
  · rintro ⟨t, h1, h2⟩; exact ⟨t, List.mem_range.1 h1, h2⟩
  · rintro ⟨t, h1, h2⟩; exact ⟨t, List.mem_range.2 h1, h2⟩

theorem capStep_inf {c : CapState} {t : Nat} (ht : t < M.nS) (h : c.values t = .pinf) (s : Nat) :
    capStep big M r γ c s = .error .valueError := by
  unfold capStep
  rw [if_pos (any_inf.2 ⟨t, ht, by rw [h]; rfl⟩)]

theorem capStep_cases (hM : Spec.SubStochastic M) (hγ : 0 ≤ γ) (hr : ∀ t, t < M.nS → 0 ≤ r t) {c : CapState}
    (hc : NonNeg M.nS c.values) {s : Nat} (hs : s < M.nS) (hA : 0 < M.nA) :
    capStep big M r γ c s = .error .valueError ∨
    ∃ c', capStep big M r γ c s = .ok c' ∧ NonNeg M.nS c'.values ∧
      ((∃ t, t < M.nS ∧ c'.values t = .pinf) → c'.delta = .pinf) ∧
      ∀ a t, a < M.nA → t < M.nS → big < Real.exp (M.p s a t * r t) → c'.values s = .pinf := by
  by_cases hi : ((List.range M.nS).any fun t => (c.values t).isInf) = true
  · left
    unfold capStep
    rw [if_pos hi]
  · right
    have hfin : ∀ t, t < M.nS → ∃ x, 0 ≤ x ∧ c.values t = .fin x := by
      intro t ht
      rcases hc t ht with h | h
      · exact absurd (any_inf.2 ⟨t, ht, by rw [h]; rfl⟩) hi
      · exact h
    have hnum : ∀ t, t < M.nS → 0 ≤ (c.values t).num := by
      intro t ht
      obtain ⟨x, h1, h2⟩ := hfin t ht
      rw [h2]
      exact h1
    set av := actionValue M r γ (fun t => (c.values t).num) s with hav
    have hterm : ∀ a, a < M.nA → ∀ t, t < M.nS → 0 ≤ M.p s a t * (r t + γ * (c.values t).num) := fun a ha t ht =>
      mul_nonneg (hM.nonneg s a t hs ha ht) (add_nonneg (hr t ht) (mul_nonneg hγ (hnum t ht)))
    have hav0 : ∀ a, a < M.nA → 0 ≤ av a := fun a ha =>
      Finset.sum_nonneg fun t ht => hterm a ha t (Finset.mem_range.1 ht)
    have hsum1 : 1 ≤ ∑ a ∈ Finset.range M.nA, Real.exp (av a) := by
      refine le_trans (Real.one_le_exp (hav0 0 hA)) ?_
      exact Finset.single_le_sum (f := fun a => Real.exp (av a)) (fun _ _ => (Real.exp_pos _).le) (Finset.mem_range.2 hA)
    have hnew : capBackup big M.nA av = .pinf ∨ ∃ x, 0 ≤ x ∧ capBackup big M.nA av = .fin x := by
      rcases le_or_gt (∑ a ∈ Finset.range M.nA, Real.exp (av a)) big with h | h
      · right
        refine ⟨_, ?_, capBackup_ok h⟩
        refine Real.log_nonneg ?_
        have : (0 : ℝ) < 1 / 10 ^ 200 := by positivity
        show 1 ≤ (∑ a ∈ Finset.range M.nA, Real.exp (av a)) + 1 / 10 ^ 200
        linarith
      · exact .inl (capBackup_over h)
    refine ⟨_, by unfold capStep; rw [if_neg hi], fun t ht => ?_, fun h => ?_, fun a t ha ht hlog => ?_⟩
    · simp only [upd1]
      split
      · exact hnew
      · exact .inr (hfin t ht)
    · obtain ⟨t, ht, h⟩ := h
      simp only [upd1] at h
      split at h
      · simp only
        rw [h]
        unfold capDelta
        split
        · rename_i h'; cases h'
        · rfl
      · obtain ⟨x, -, h'⟩ := hfin t ht
        rw [h'] at h
        cases h
    · simp only [upd1, if_true]
      refine capBackup_over ?_
      have h1 : M.p s a t * r t ≤ av a := by
        refine le_trans ?_ (Finset.single_le_sum (f := fun t => M.p s a t * (r t + γ * (c.values t).num))
          (fun t ht => hterm a ha t (Finset.mem_range.1 ht)) (Finset.mem_range.2 ht))
        rw [mul_add]
        have := mul_nonneg (hM.nonneg s a t hs ha ht) (mul_nonneg hγ (hnum t ht))
        linarith
      have h2 : big < Real.exp (av a) := lt_of_lt_of_le hlog (Real.exp_le_exp.2 h1)
      exact lt_of_lt_of_le h2 (Finset.single_le_sum (f := fun a => Real.exp (av a)) (fun _ _ => (Real.exp_pos _).le)
        (Finset.mem_range.2 ha))

theorem capFold_over (hM : Spec.SubStochastic M) (hγ : 0 ≤ γ) (hr : ∀ t, t < M.nS → 0 ≤ r t) (hA : 0 < M.nA)
    {a t : Nat} (ha : a < M.nA) (ht : t < M.nS) {s : Nat} (hlog : big < Real.exp (M.p s a t * r t)) :
    ∀ (l : List Nat) (c : CapState), (∀ x ∈ l, x < M.nS) → NonNeg M.nS c.values →
      ((∃ t, t < M.nS ∧ c.values t = .pinf) → c.delta = .pinf) →
      l.foldlM (m := Except PyErr) (capStep big M r γ) c = .error .valueError ∨
      ∃ c', l.foldlM (m := Except PyErr) (capStep big M r γ) c = .ok c' ∧ NonNeg M.nS c'.values ∧
        ((∃ t, t < M.nS ∧ c'.values t = .pinf) → c'.delta = .pinf) ∧
        (s ∈ l → ∃ t, t < M.nS ∧ c'.values t = .pinf) := by
  intro l
  induction l with
  | nil => intro c _ hc hd; exact .inr ⟨c, rfl, hc, hd, fun h => absurd h (by simp)⟩
  | cons x l ih =>
    intro c hl hc hd
    have hx := hl x List.mem_cons_self
    have hl' : ∀ y ∈ l, y < M.nS := fun y hy => hl y (List.mem_cons_of_mem _ hy)
    rw [List.foldlM_cons]
    rcases capStep_cases (big := big) hM hγ hr hc hx hA with h | ⟨c1, h1, h2, h3, h4⟩
    · left; rw [h]; rfl
    · rw [h1]
      show l.foldlM (m := Except PyErr) (capStep big M r γ) c1 = _ ∨ ∃ c', l.foldlM (m := Except PyErr) _ c1 = _ ∧ _
      by_cases hxs : x = s
      · subst hxs
        have hinf := h4 a t ha ht hlog
        cases l with
        | nil => exact .inr ⟨c1, rfl, h2, h3, fun _ => ⟨x, hx, hinf⟩⟩
        | cons y l =>
          left
          rw [List.foldlM_cons, capStep_inf hx hinf]
          rfl
      · rcases ih c1 hl' h2 h3 with h | ⟨c2, g1, g2, g3, g4⟩
        · exact .inl h
        · refine .inr ⟨c2, g1, g2, g3, fun hs => g4 ?_⟩
          rcases List.mem_cons.1 hs with h | h
          · exact absurd h.symm hxs
          · exact h

theorem capLoop_over (hM : Spec.SubStochastic M) (hγ : 0 ≤ γ) (hr : ∀ t, t < M.nS → 0 ≤ r t) (hA : 0 < M.nA)
    {s a t : Nat} (hs : s < M.nS) (ha : a < M.nA) (ht : t < M.nS) (hlog : big < Real.exp (M.p s a t * r t)) (k : Nat)
    (q : Option (Nat → Nat → ℝ)) :
    capLoop big M r γ tol (k + 2) (fun _ => .fin 0) q = .error .valueError := by
  unfold capLoop
  rcases capFold_over (big := big) hM hγ hr hA ha ht hlog (List.range M.nS) ⟨fun _ => .fin 0, .fin 0, fun _ _ => 0⟩
    (fun x hx => List.mem_range.1 hx) (fun t _ => .inr ⟨0, le_refl 0, rfl⟩)
    (fun ⟨t, _, h⟩ => by cases h) with h | ⟨c, h1, h2, h3, h4⟩
  · have : capSweep big M r γ (fun _ => .fin 0) = .error .valueError := h
    rw [this]
  · have hsw : capSweep big M r γ (fun _ => .fin 0) = .ok c := h1
    rw [hsw]
    obtain ⟨u, hu, hinf⟩ := h4 (List.mem_range.2 hs)
    have hd := h3 ⟨u, hu, hinf⟩
    dsimp only
    rw [hd, if_neg (by simp [Ext.below])]
    unfold capLoop
    have : capSweep big M r γ c.values = .error .valueError := by
      unfold capSweep
      obtain ⟨n, hn⟩ : ∃ n, M.nS = n + 1 := ⟨M.nS - 1, by omega⟩
      rw [hn, List.range_succ_eq_map, List.foldlM_cons, capStep_inf (c := ⟨c.values, .fin 0, fun _ _ => 0⟩) hu hinf]
      rfl
    rw [this]

end MaMDP
