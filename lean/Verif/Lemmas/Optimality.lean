import Verif.Spec.Optimality
import Verif.Props.DynamicProgramming

/-! Lemmas about greedy walks. -/

set_option linter.unusedSectionVars false

namespace MaMDP

variable {K : Type} [Field K] [LinearOrder K] [IsStrictOrderedRing K]

theorem discounted_visits (r : Nat → K) (γ : K) (l : List (Nat × Nat)) :
    Spec.discounted r γ l = Spec.visitReward r γ (l.map (·.2)) := by
  induction l with
  | nil => rfl
  | cons x l ih => obtain ⟨a, t⟩ := x; simp only [Spec.discounted, List.map_cons, Spec.visitReward, ih]

/-- `q` is within `E` of the Bellman solution on possible actions and `-inf` elsewhere. -/
structure Close (M : Trans K) (r : Nat → K) (γ : K) (V : Nat → K) (q : Nat → Nat → Ext K) (E : K) : Prop where
  near : ∀ s a, s < M.nS → a < M.nA → Spec.Possible M s a → ∃ x, q s a = .fin x ∧ |x - Spec.Q M r γ V s a| < E
  mask : ∀ s a, s < M.nS → a < M.nA → ¬ Spec.Possible M s a → q s a = .ninf

theorem possible_of_one {M : Trans K} {s a t : Nat} (ht : t < M.nS) (h : M.p s a t = 1) : Spec.Possible M s a :=
  ⟨t, ht, by rw [h]; exact one_pos⟩

/-- A best action is nearly as good as any other possible action. -/
theorem Close.greedy {M : Trans K} {r V : Nat → K} {γ E : K} {q : Nat → Nat → Ext K} (h : Close M r γ V q E)
    {s a b : Nat} (hs : s < M.nS) (ha : a < M.nA) (hb : b < M.nA) (hpa : Spec.Possible M s a)
    (hpb : Spec.Possible M s b) (hbest : ∀ b, b < M.nA → Spec.NoBetter (q s b) (q s a)) :
    Spec.Q M r γ V s b - 2 * E < Spec.Q M r γ V s a := by
  obtain ⟨x, hx, hx'⟩ := h.near s a hs ha hpa
  obtain ⟨y, hy, hy'⟩ := h.near s b hs hb hpb
  have := hbest b hb
  rw [hx, hy] at this
  have hle : y ≤ x := this
  have h1 := abs_lt.1 hx'
  have h2 := abs_lt.1 hy'
  linarith [h1.1, h1.2, h2.1, h2.2]

/-- Some possible action attains the value of a state with a possible action. -/
theorem bellman_attained {M : Trans K} (hM : Spec.SubStochastic M) {r V : Nat → K} {γ : K} (h0 : 0 < γ)
    (h1 : γ < 1) (hr : ∀ t, t < M.nS → 0 ≤ r t) (hV : Spec.Bellman M r γ V) {s : Nat} (hs : s < M.nS)
    {a : Nat} (ha : a < M.nA) (hp : Spec.Possible M s a) :
    ∃ b, b < M.nA ∧ Spec.Possible M s b ∧ Spec.Q M r γ V s b = V s := by
  obtain ⟨hle, b, hb, eb⟩ := hV s hs
  by_cases hpb : Spec.Possible M s b
  · exact ⟨b, hb, hpb, eb⟩
  · have e0 : Spec.Q M r γ V s b = 0 := actionValue_impossible hM r γ V hs hb hpb
    refine ⟨a, ha, hp, le_antisymm (hle a ha) ?_⟩
    rw [← eb, e0]
    have hpos := bellman_nonneg hM h0 h1 hr hV
    exact Finset.sum_nonneg fun t ht => mul_nonneg (hM.nonneg s a t hs ha (Finset.mem_range.1 ht))
      (add_nonneg (hr t (Finset.mem_range.1 ht)) (mul_nonneg h0.le (hpos t (Finset.mem_range.1 ht))))

theorem bellman_le {M : Trans K} (hM : Spec.SubStochastic M) {r V : Nat → K} {γ R : K} (h0 : 0 < γ)
    (h1 : γ < 1) (hR : 0 ≤ R) (hr : ∀ t, t < M.nS → r t ≤ R) (hV : Spec.Bellman M r γ V) :
    ∀ s, s < M.nS → V s ≤ R / (1 - γ) := by
  intro s hs
  obtain ⟨k, hk, ek⟩ := exists_npMax V (Nat.lt_of_le_of_lt (Nat.zero_le s) hs)
  have hmax : ∀ t, t < M.nS → V t ≤ V k := fun t ht => by rw [← ek]; exact le_npMax V ht
  have h1g : 0 < 1 - γ := by linarith
  rw [le_div_iff₀ h1g]
  obtain ⟨-, a, ha, ea⟩ := hV k hk
  by_contra hc
  push Not at hc
  have hk' : R < V k * (1 - γ) := lt_of_lt_of_le hc (mul_le_mul_of_nonneg_right (hmax s hs) h1g.le)
  have hVk : 0 < V k := by
    by_contra hn
    push Not at hn
    nlinarith
  have : Spec.Q M r γ V k a ≤ R + γ * V k := by
    unfold Spec.Q
    calc ∑ t ∈ Finset.range M.nS, M.p k a t * (r t + γ * V t)
        ≤ ∑ t ∈ Finset.range M.nS, M.p k a t * (R + γ * V k) := by
          refine Finset.sum_le_sum fun t ht => ?_
          have ht' := Finset.mem_range.1 ht
          exact mul_le_mul_of_nonneg_left (add_le_add (hr t ht') (mul_le_mul_of_nonneg_left (hmax t ht') h0.le))
            (hM.nonneg k a t hk ha ht')
      _ = (∑ t ∈ Finset.range M.nS, M.p k a t) * (R + γ * V k) := by rw [Finset.sum_mul]
      _ ≤ 1 * (R + γ * V k) := mul_le_mul_of_nonneg_right (hM.le_one k a hk ha)
          (add_nonneg hR (mul_nonneg h0.le hVk.le))
      _ = R + γ * V k := one_mul _
  nlinarith

/-- A greedy walk collects the value of its first state up to the discounted tail and the planner's error, if the
values are attained by possible actions. -/
theorem greedy_return_of {M : Trans K} (hM : Spec.SubStochastic M) (hdet : Spec.Deterministic M) {r V : Nat → K}
    {γ c E : K} (h0 : 0 < γ) (h1 : γ < 1)
    (hatt : ∀ s a, s < M.nS → a < M.nA → Spec.Possible M s a →
      ∃ b, b < M.nA ∧ Spec.Possible M s b ∧ Spec.Q M r γ V s b = V s)
    (hc : ∀ t, t < M.nS → V t ≤ c) {q : Nat → Nat → Ext K} (hq : Close M r γ V q E) (hE : 0 ≤ E) :
    ∀ (l : List (Nat × Nat)) (s : Nat), s < M.nS → Spec.Plays M s l → Spec.Greedy M.nA q s l →
      V s ≤ Spec.discounted r γ l + γ ^ l.length * c + 2 * E / (1 - γ) := by
  have h1g : 0 < 1 - γ := by linarith
  intro l
  induction l with
  | nil =>
    intro s hs _ _
    simp only [Spec.discounted, List.length_nil, pow_zero, one_mul, zero_add]
    have : 0 ≤ 2 * E / (1 - γ) := div_nonneg (by linarith) h1g.le
    linarith [hc s hs]
  | cons x l ih =>
    obtain ⟨a, t⟩ := x
    rintro s hs ⟨ha, ht, hp, hl⟩ ⟨hg, hgl⟩
    have hpa := possible_of_one ht hp
    obtain ⟨b, hb, hpb, eb⟩ := hatt s a hs ha hpa
    have h2 := hq.greedy hs ha hb hpa hpb hg
    rw [eb] at h2
    have e : Spec.Q M r γ V s a = r t + γ * V t := actionValue_det hM hdet r γ V hs ha ht hp
    rw [e] at h2
    have h3 := mul_le_mul_of_nonneg_left (ih t ht hl hgl) h0.le
    simp only [Spec.discounted, List.length_cons, pow_succ]
    have h4 : 2 * E + γ * (2 * E / (1 - γ)) = 2 * E / (1 - γ) := by field_simp; ring
    nlinarith

/-- A greedy walk collects the value of its first state up to the discounted tail and the planner's error. -/
theorem greedy_return {M : Trans K} (hM : Spec.SubStochastic M) (hdet : Spec.Deterministic M) {r V : Nat → K}
    {γ c E : K} (h0 : 0 < γ) (h1 : γ < 1) (hr : ∀ t, t < M.nS → 0 ≤ r t) (hV : Spec.Bellman M r γ V)
    (hc : ∀ t, t < M.nS → V t ≤ c) {q : Nat → Nat → Ext K} (hq : Close M r γ V q E) (hE : 0 ≤ E) :
    ∀ (l : List (Nat × Nat)) (s : Nat), s < M.nS → Spec.Plays M s l → Spec.Greedy M.nA q s l →
      V s ≤ Spec.discounted r γ l + γ ^ l.length * c + 2 * E / (1 - γ) :=
  greedy_return_of hM hdet h0 h1 (fun _ _ hs ha hp => bellman_attained hM h0 h1 hr hV hs ha hp) hc hq hE

/-! ### Walks to a single rewarded state -/

theorem reaches_zero {M : Trans K} {s g : Nat} : Spec.Reaches M s g 0 ↔ s = g := by
  constructor
  · rintro ⟨l, -, hl, hg⟩
    rw [List.length_eq_zero_iff] at hl
    subst hl
    simpa using hg
  · rintro rfl
    exact ⟨[], trivial, rfl, rfl⟩

theorem getLast?_cons_cons' {α : Type} (x y : α) (l : List α) : (x :: y :: l).getLast? = (y :: l).getLast? := by
  simp [List.getLast?_cons_cons]

theorem reaches_succ {M : Trans K} {s g n : Nat} :
    Spec.Reaches M s g (n + 1) ↔ ∃ a t, a < M.nA ∧ t < M.nS ∧ M.p s a t = 1 ∧ Spec.Reaches M t g n := by
  constructor
  · rintro ⟨l, hl, hn, hg⟩
    cases l with
    | nil => simp at hn
    | cons x l =>
      obtain ⟨a, t⟩ := x
      obtain ⟨h1, h2, h3, h4⟩ := hl
      exact ⟨a, t, h1, h2, h3, l, h4, by simpa using hn, by
        simpa only [List.map_cons, List.getLast?_cons_cons] using hg⟩
  · rintro ⟨a, t, h1, h2, h3, l, h4, h5, h6⟩
    exact ⟨(a, t) :: l, ⟨h1, h2, h3, h4⟩, by simpa using h5, by
      simpa only [List.map_cons, List.getLast?_cons_cons] using h6⟩

/-- What a state is worth at least, when the goal can be reached in `n + 1` actions. -/
theorem goal_value_ge {M : Trans K} (hM : Spec.SubStochastic M) (hdet : Spec.Deterministic M) {r V : Nat → K}
    {γ : K} (h0 : 0 < γ) (hr : ∀ t, t < M.nS → 0 ≤ r t) (hV : Spec.Bellman M r γ V) {g : Nat} :
    ∀ (n s : Nat), s < M.nS → Spec.Reaches M s g (n + 1) → γ ^ n * (r g + γ * V g) ≤ V s := by
  intro n
  induction n with
  | zero =>
    intro s hs h
    obtain ⟨a, t, ha, ht, hp, h2⟩ := reaches_succ.1 h
    rw [reaches_zero] at h2
    subst h2
    have e : Spec.Q M r γ V s a = r t + γ * V t := actionValue_det hM hdet r γ V hs ha ht hp
    have := (hV s hs).1 a ha
    rw [e] at this
    rw [pow_zero, one_mul]; exact this
  | succ n ih =>
    intro s hs h
    obtain ⟨a, t, ha, ht, hp, h2⟩ := reaches_succ.1 h
    have e : Spec.Q M r γ V s a = r t + γ * V t := actionValue_det hM hdet r γ V hs ha ht hp
    have h3 := (hV s hs).1 a ha
    rw [e] at h3
    have h4 := mul_le_mul_of_nonneg_left (ih t ht h2) h0.le
    have h5 := hr t ht
    rw [pow_succ]
    nlinarith

/-- What any walk collects when the goal takes at least `n + 1` actions and nothing else is rewarded. -/
theorem goal_return_le {M : Trans K} (hM : Spec.SubStochastic M) (hdet : Spec.Deterministic M) {r V : Nat → K}
    {γ : K} (h0 : 0 < γ) (h1 : γ < 1) (hr : ∀ t, t < M.nS → 0 ≤ r t) (hV : Spec.Bellman M r γ V) {g : Nat}
    (hg : g < M.nS) (honly : ∀ t, t < M.nS → t ≠ g → r t = 0) :
    ∀ (l : List (Nat × Nat)) (n s : Nat), s < M.nS → (∀ k, k < n + 1 → ¬ Spec.Reaches M s g k) →
      Spec.Plays M s l → Spec.discounted r γ l ≤ γ ^ n * (r g + γ * V g) := by
  have hVg := bellman_nonneg hM h0 h1 hr hV g hg
  have hW : 0 ≤ r g + γ * V g := add_nonneg (hr g hg) (mul_nonneg h0.le hVg)
  intro l
  induction l with
  | nil => intro n s _ _ _; exact mul_nonneg (pow_nonneg h0.le _) hW
  | cons x l ih =>
    obtain ⟨a, t⟩ := x
    rintro n s hs hd ⟨ha, ht, hp, hl⟩
    simp only [Spec.discounted]
    by_cases htg : t = g
    · subst htg
      have hn : n = 0 := by
        by_contra hn
        exact hd 1 (by omega) (reaches_succ.2 ⟨a, t, ha, ht, hp, reaches_zero.2 rfl⟩)
      subst hn
      rw [pow_zero, one_mul]
      have := (C32_optimal M hM hdet r hr γ h0 h1 V hV t ht).1 l hl
      have := mul_le_mul_of_nonneg_left this h0.le
      linarith
    · rw [honly t ht htg, zero_add]
      cases n with
      | zero =>
        have := ih 0 t ht (fun k hk hc => by
          have : k = 0 := by omega
          subst this
          exact htg (reaches_zero.1 hc)) hl
        rw [pow_zero, one_mul] at this ⊢
        nlinarith
      | succ n =>
        have := ih n t ht (fun k hk hc => hd (k + 1) (by omega) (reaches_succ.2 ⟨a, t, ha, ht, hp, hc⟩)) hl
        rw [pow_succ]
        have := mul_le_mul_of_nonneg_left this h0.le
        linarith [mul_comm γ (γ ^ n * (r g + γ * V g)), mul_assoc (γ ^ n) γ (r g + γ * V g),
          mul_assoc (γ ^ n) (r g + γ * V g) γ, mul_comm γ (r g + γ * V g)]

theorem goal_value_le {M : Trans ℝ} (hM : Spec.SubStochastic M) (hdet : Spec.Deterministic M) {r V : Nat → ℝ}
    {γ : ℝ} (h0 : 0 < γ) (h1 : γ < 1) (hr : ∀ t, t < M.nS → 0 ≤ r t) (hV : Spec.Bellman M r γ V) {g : Nat}
    (hg : g < M.nS) (honly : ∀ t, t < M.nS → t ≠ g → r t = 0) (n s : Nat) (hs : s < M.nS)
    (hd : ∀ k, k < n + 1 → ¬ Spec.Reaches M s g k) : V s ≤ γ ^ n * (r g + γ * V g) := by
  refine le_of_forall_pos_le_add fun ε hε => ?_
  obtain ⟨c, hc0, hc⟩ := exists_bound M.nS V
  have ht : Filter.Tendsto (fun n : ℕ => γ ^ n * c) Filter.atTop (nhds 0) := by
    have := (tendsto_pow_atTop_nhds_zero_of_lt_one h0.le h1).mul_const c
    rwa [zero_mul] at this
  obtain ⟨m, hm⟩ := (ht.eventually (gt_mem_nhds hε)).exists
  obtain ⟨l, -, hl, hl2⟩ := (C32_optimal M hM hdet r hr γ h0 h1 V hV s hs).2 c
    (fun t ht => (le_abs_self _).trans (hc t ht)) m
  have := goal_return_le hM hdet h0 h1 hr hV hg honly l n s hs hd hl
  linarith

/-- One step of a greedy walk gets closer to the goal. -/
theorem greedy_closer {M : Trans ℝ} (hM : Spec.SubStochastic M) (hdet : Spec.Deterministic M) {r V : Nat → ℝ}
    {γ E : ℝ} (h0 : 0 < γ) (h1 : γ < 1) (hr : ∀ t, t < M.nS → 0 ≤ r t) (hV : Spec.Bellman M r γ V) {g : Nat}
    (hg : g < M.nS) (honly : ∀ t, t < M.nS → t ≠ g → r t = 0) {q : Nat → Nat → Ext ℝ} (hq : Close M r γ V q E)
    {d s a t : Nat} (hE : 2 * E ≤ γ ^ d * (1 - γ) * r g) (hs : s < M.nS) (hd : Spec.Distance M s g (d + 1))
    (ha : a < M.nA) (ht : t < M.nS) (hp : M.p s a t = 1)
    (hbest : ∀ b, b < M.nA → Spec.NoBetter (q s b) (q s a)) : Spec.Distance M t g d := by
  have hVg := bellman_nonneg hM h0 h1 hr hV g hg
  have hlow : ∀ n, n < d → ¬ Spec.Reaches M t g n := fun n hn hc =>
    hd.2 (n + 1) (by omega) (reaches_succ.2 ⟨a, t, ha, ht, hp, hc⟩)
  by_cases hre : Spec.Reaches M t g d
  · exact ⟨hre, hlow⟩
  · exfalso
    have hlow' : ∀ n, n < d + 1 → ¬ Spec.Reaches M t g n := fun n hn => by
      rcases Nat.lt_succ_iff_lt_or_eq.1 hn with h | rfl
      · exact hlow n h
      · exact hre
    have htg : t ≠ g := fun h => hlow' 0 (by omega) (reaches_zero.2 h)
    have hVt := goal_value_le hM hdet h0 h1 hr hV hg honly d t ht hlow'
    obtain ⟨b, u, hb, hu, hpu, hru⟩ := reaches_succ.1 hd.1
    have h2 := hq.greedy hs ha hb (possible_of_one ht hp) (possible_of_one hu hpu) hbest
    have ea : Spec.Q M r γ V s a = r t + γ * V t := actionValue_det hM hdet r γ V hs ha ht hp
    have eb : Spec.Q M r γ V s b = r u + γ * V u := actionValue_det hM hdet r γ V hs hb hu hpu
    rw [ea, eb, honly t ht htg] at h2
    have hW : r g ≤ r g + γ * V g := by nlinarith
    have hu' : γ ^ d * (r g + γ * V g) ≤ r u + γ * V u := by
      cases d with
      | zero => rw [reaches_zero.1 hru, pow_zero, one_mul]
      | succ d =>
        have := mul_le_mul_of_nonneg_left (goal_value_ge hM hdet h0 hr hV d u hu hru) h0.le
        have h5 := hr u hu
        rw [pow_succ]
        nlinarith
    have hpow : 0 ≤ γ ^ d * (1 - γ) := mul_nonneg (pow_nonneg h0.le _) (by linarith)
    have h6 := mul_le_mul_of_nonneg_left hW hpow
    have h7 := mul_le_mul_of_nonneg_left hVt h0.le
    nlinarith

end MaMDP
