import Verif.Props.Exploring

/-! # Lemmas on what an agent that plans alone collects, and on a search that is trapped -/

set_option linter.unusedSectionVars false

namespace MaMDP

section
variable {K : Type} [Field K] [LinearOrder K] [IsStrictOrderedRing K]
variable {o : MctsOpts K} {M : Trans K} {A : SimAgents K} {nF : Nat} {V : Nat → K} {N : Nat → Nat}

/-- Features that differ at most in the agent's own row. -/
def OffRow (row : Nat) (F G : Nat → Nat → K) : Prop := ∀ f s, f ≠ row → G f s = F f s

theorem stateReward_offRow {row : Nat} {w : Nat → K} (hw : w row = 0) {F G : Nat → Nat → K} (h : OffRow row F G) (t : Nat) :
    stateReward nF w G t = stateReward nF w F t := by
  unfold stateReward npDot
  refine Finset.sum_congr rfl fun f _ => ?_
  by_cases hf : f = row
  · rw [hf, hw, zero_mul, zero_mul]
  · dsimp only
    rw [h f t hf]

theorem simMove_plain (hint : o.interactive = false) {row : Nat} (hrow : A.featIdx[0]? = some row)
    (hw : A.rewards 0 row = 0) (hc : ∀ f, A.consumesFeatures 0 f = false) {F : Nat → Nat → K} {d : Draw K}
    {st st' : Sim K} {c : Bool} (h : simMove o M A nF V N 0 d st = .ok (st', c)) (hF : OffRow row F st.features) :
    ∃ t, st'.visited = st.visited ++ [t] ∧ OffRow row F st'.features ∧
      st'.acc = st.acc + stateReward nF (A.rewards 0) F t := by
  unfold simMove at h
  rw [hrow] at h
  split at h
  · rename_i row' here h1 h2
    cases h1
    split at h
    · cases h
    · have hr : checkResult o A st = (0, st.active, false) := by
        unfold checkResult
        rw [hint]
        rfl
      rw [hr] at h
      dsimp only at h
      rw [if_neg (by simp), if_pos rfl] at h
      split at h
      · cases h
      · rename_i st'' hm
        cases h
        unfold primaryMove at hm
        split at hm
        · cases hm
        · rename_i t x hn
          have hoff : OffRow row F fun f s => if f = row then (if s = here then 1 else 0) else st.features f s := by
            intro f s hf
            dsimp only
            rw [if_neg hf]
            exact hF f s hf
          have hacc := stateReward_offRow (nF := nF) hw hoff t
          refine ⟨t, ?_⟩
          dsimp only at hm
          split at hm
          · obtain ⟨-, g2, g3, -, -, -, -, g8⟩ := consumeAt_same hm
            refine ⟨g3, ?_, ?_⟩
            · rw [g8]
              intro f s hf
              dsimp only
              rw [if_neg (by rw [hc f]; simp)]
              exact hoff f s hf
            · rw [g2]
              dsimp only
              rw [hacc, add_zero]
          · cases hm
            refine ⟨rfl, hoff, ?_⟩
            dsimp only
            rw [hacc, add_zero]
  · cases h

theorem follow_plain (hint : o.interactive = false) {row : Nat} (hrow : A.featIdx[0]? = some row)
    (hw : A.rewards 0 row = 0) (hc : ∀ f, A.consumesFeatures 0 f = false) (hnn : ∀ s x t, s < M.nS → x < M.nA → t < M.nS → 0 ≤ M.p s x t)
    {F : Nat → Nat → K} {draws : Nat → Draw K} : ∀ (r i : Nat) (st st' : Sim K) (c : Bool) (s : Nat),
      Spec.follow (fun i a st => simMove o M A nF V N a (draws i) st) i (List.replicate r 0) st = .ok (st', c) →
      OffRow row F st.features → pyIdx M.nS (st.nodes 0) = some s →
      ∃ l, st'.visited = st.visited ++ l ∧ l.length = r ∧ Spec.Walk M s l ∧
        st'.acc = st.acc + (l.map (stateReward nF (A.rewards 0) F)).sum := by
  intro r
  induction r with
  | zero =>
    intro i st st' c s h _ _
    cases h
    exact ⟨[], by simp, rfl, trivial, by simp⟩
  | succ r ih =>
    intro i st st' c s h hF hs
    rw [List.replicate_succ] at h
    unfold Spec.follow at h
    split at h
    · cases h
    · rename_i hm
      obtain ⟨_, _, _, hc, -⟩ := simMove_primary hint hm
      cases hc
    · rename_i st1 hm
      obtain ⟨here, t, x, -, g1, -, g3, -, g5, g6, -⟩ := simMove_primary hint hm
      rw [hs] at g1
      cases g1
      obtain ⟨t', k1, k2, k3⟩ := simMove_plain hint hrow hw hc hm hF
      have htt : t' = t := by
        rw [g5] at k1
        have := List.append_cancel_left k1
        cases this
        rfl
      subst htt
      obtain ⟨l, q1, q2, q3, q4⟩ := ih _ _ _ _ t' h k2 (by rw [g6, pyIdx_nat, if_pos (mem_nextStates.1 g3).1])
      obtain ⟨m1, x, m2, m3⟩ := mem_nextStates.1 g3
      refine ⟨t' :: l, by rw [q1, k1]; simp, by simp [q2], ⟨⟨m1, x, m2, lt_of_le_of_ne (hnn _ _ _ (pyIdx_lt hs) m2 m1) (Ne.symm m3)⟩, q3⟩, ?_⟩
      rw [q4, k3, List.map_cons, List.sum_cons, add_assoc]

/-- What an iteration visits and collects. -/
theorem iteration_plain (hint : o.interactive = false) {row : Nat} (hrow : A.featIdx[0]? = some row)
    (hw : A.rewards 0 row = 0) (hc : ∀ f, A.consumesFeatures 0 f = false) (hnn : ∀ s x t, s < M.nS → x < M.nA → t < M.nS → 0 ≤ M.p s x t)
    {k : Nat} (hk : 0 < k) {own : List Nat} {others : List (List Nat)}
    {L : Nat} (hL : L = k + own.sum + (others.map List.sum).sum) {fuel : Nat} (hf : L + 1 ≤ fuel)
    {F : Nat → Nat → K} {nodes : Nat → Int} {s : Nat} (hs : pyIdx M.nS (nodes 0) = some s) {cache : QCache K}
    {draws : Nat → Draw K} {st : Sim K}
    (h : (mctsIteration o M A nF F nodes V N ((k :: own) :: others) cache draws fuel).2.2 = some (.ok st)) :
    st.visited.length = L ∧ Spec.Walk M s st.visited ∧
      st.acc = (st.visited.map (stateReward nF (A.rewards 0) F)).sum := by
  obtain ⟨h1, -⟩ := C91_moves (M := M) (A := A) (nF := nF) (V := V) (N := N) (draws := draws) hint hk (own := own)
    (others := others) fuel (by omega) F nodes cache
  rw [h1, ← hL] at h
  have h' := Option.some.inj h
  cases hfo : Spec.follow (fun i a st => simMove o M A nF V N a (draws i) st) 0 (List.replicate L 0)
      (Sim.start nodes F cache) with
  | error e => rw [hfo] at h'; cases h'
  | ok p =>
    obtain ⟨st', c⟩ := p
    rw [hfo] at h'
    cases h'
    obtain ⟨l, q1, q2, q3, q4⟩ := follow_plain hint hrow hw hc hnn (F := F) _ _ _ _ _ s hfo (fun _ _ _ => rfl) hs
    have hv : st.visited = l := by rw [q1]; rfl
    rw [hv]
    refine ⟨q2, q3, ?_⟩
    rw [q4]
    exact zero_add _

/-- One more iteration of a search. -/
theorem run_step {plan : List (List Nat)} {draws : Nat → Nat → Draw K} {fuel : Nat} {F : Nat → Nat → K}
    {cache : QCache K} {S : Nat → Search K}
    (hS : ∀ n, (runMcts o M A nF n F (some plan) cache draws fuel).2.2 = some (.ok (S n))) (n : Nat) :
    ∃ st cache', (mctsIteration o M A nF F A.nodes (S n).V (S n).N plan cache' (draws n) fuel).2.2 = some (.ok st) ∧
      (∀ t, (S (n + 1)).V t = (S n).V t + (st.visited.count t : K) * st.acc) ∧
      ∀ t, (S (n + 1)).N t = (S n).N t + st.visited.count t := by
  obtain ⟨s1, st, g1, g2, g3, g4⟩ := runLoop_succ n 0 _ _ (hS (n + 1))
  have : s1 = S n := by
    have := hS n
    unfold runMcts at this
    dsimp only at this
    rw [g1] at this
    exact Except.ok.inj (Option.some.inj this)
  subst this
  rw [Nat.zero_add] at g2
  refine ⟨st, _, g2, fun t => ?_, fun t => ?_⟩
  · rw [g3]; exact (backprop_eq _ _ _ _ t).1
  · rw [g4]; exact (backprop_eq _ _ _ _ t).2

theorem run_zero {plan : List (List Nat)} {draws : Nat → Nat → Draw K} {fuel : Nat} {F : Nat → Nat → K}
    {cache : QCache K} {S : Nat → Search K}
    (hS : ∀ n, (runMcts o M A nF n F (some plan) cache draws fuel).2.2 = some (.ok (S n))) (t : Nat) :
    (S 0).V t = 0 ∧ (S 0).N t = 0 := by
  have h0' : Search.fresh cache = S 0 := Except.ok.inj (Option.some.inj (hS 0))
  rw [← h0']
  exact ⟨rfl, rfl⟩

/-- What a search holds of a state, when all walks through it are bounded. -/
theorem run_bounds {plan : List (List Nat)} {draws : Nat → Nat → Draw K} {fuel : Nat} {F : Nat → Nat → K}
    {cache : QCache K} {S : Nat → Search K}
    (hS : ∀ n, (runMcts o M A nF n F (some plan) cache draws fuel).2.2 = some (.ok (S n))) {t : Nat} {lo hi : K}
    (h : ∀ V N cache' draws' st,
      (mctsIteration o M A nF F A.nodes V N plan cache' draws' fuel).2.2 = some (.ok st) → t ∈ st.visited →
      lo ≤ st.acc ∧ st.acc ≤ hi) (n : Nat) :
    lo * (S n).N t ≤ (S n).V t ∧ (S n).V t ≤ hi * (S n).N t := by
  induction n with
  | zero => rw [(run_zero hS t).1, (run_zero hS t).2]; simp
  | succ n ih =>
    obtain ⟨st, cache', h1, h2, h3⟩ := run_step hS n
    rw [h2, h3]
    push_cast
    by_cases ht : t ∈ st.visited
    · obtain ⟨b1, b2⟩ := h _ _ _ _ _ h1 ht
      have hc : (0 : K) ≤ (st.visited.count t : K) := Nat.cast_nonneg _
      have := mul_le_mul_of_nonneg_left b1 hc
      have := mul_le_mul_of_nonneg_left b2 hc
      constructor <;> nlinarith [ih.1, ih.2]
    · rw [List.count_eq_zero_of_not_mem ht]
      simpa using ih

end

/-! ## A trap -/

/-- What a search holds when `a` of its walks were (1, 0), none (1, 2), `c` were (3, 2) and `d` were (3, 4). -/
structure Trapped (ρ : ℝ) (V : Nat → ℝ) (N : Nat → Nat) (a c d : Nat) : Prop where
  n0 : N 0 = a
  n1 : N 1 = a
  n2 : N 2 = c
  n3 : N 3 = c + d
  n4 : N 4 = d
  v0 : V 0 = 3 * ρ * a
  v1 : V 1 = 3 * ρ * a
  v2 : V 2 = 0
  v3 : V 3 = 5 * ρ * d
  v4 : V 4 = 5 * ρ * d
  ha : 1 ≤ a
  hac : a ≤ c
  hd : 1 ≤ d
  far : c = 1 ∨ 4 * (1 + c) ≤ d

theorem log_half {x : ℝ} (hx : 0 < x) : Real.log x ≤ x / 2 := by
  have h1 := Real.log_le_sub_one_of_pos (show 0 < x / 2 by positivity)
  rw [Real.log_div hx.ne' (by norm_num)] at h1
  have h2 := Real.log_le_sub_one_of_pos (show (0 : ℝ) < 2 by norm_num)
  linarith

variable {ρ C : ℝ} {V : Nat → ℝ} {N : Nat → Nat} {a c d : Nat}

/-- The value of going to 1 is below the one of going to 3. -/
theorem Trapped.less (h : Trapped ρ V N a c d) (hρ : 0 < ρ) : V 1 / (1 + N 1) < V 3 / (1 + N 3) := by
  rw [h.v1, h.v3, h.n1, h.n3]
  have ha : (1 : ℝ) ≤ a := by exact_mod_cast h.ha
  have hac : (a : ℝ) ≤ c := by exact_mod_cast h.hac
  have hd : (1 : ℝ) ≤ d := by exact_mod_cast h.hd
  push_cast
  rw [div_lt_div_iff₀ (by positivity) (by positivity)]
  rcases h.far with hc | hfar
  · have hc' : (c : ℝ) = 1 := by exact_mod_cast hc
    have ha' : (a : ℝ) = 1 := le_antisymm (by rw [← hc']; exact hac) ha
    rw [hc', ha']
    nlinarith
  · have hfar' : 4 * (1 + (c : ℝ)) ≤ d := by exact_mod_cast hfar
    have : 3 * (a : ℝ) * (1 + (c + d)) < 5 * d * (1 + a) := by nlinarith
    nlinarith

/-- At the start: going to 1 only if that was done less often than (3, 2). -/
theorem Trapped.root (h : Trapped ρ V N a c d) (hC : 0 ≤ C) (hCρ : C ≤ ρ) (hρ : 0 < ρ)
    (hu : Spec.upper V N C 2 3 ≤ Spec.upper V N C 2 1) : a + 1 ≤ c := by
  by_contra hne
  have hca : c = a := by have := h.hac; omega
  have hbetter := h.less hρ
  subst hca
  unfold Spec.upper at hu
  have hb3 : 0 ≤ C * Real.sqrt (2 * Real.log (N 2) / (1 + N 3)) := mul_nonneg hC (Real.sqrt_nonneg _)
  have ha : (1 : ℝ) ≤ c := by exact_mod_cast h.ha
  have hd : (1 : ℝ) ≤ d := by exact_mod_cast h.hd
  rcases h.far with hc | hfar
  · rw [h.n2, hc, Nat.cast_one, Real.log_one] at hu
    simp only [mul_zero, zero_div, Real.sqrt_zero, add_zero] at hu
    linarith
  · have hfar' : 4 * (1 + (c : ℝ)) ≤ d := by exact_mod_cast hfar
    have h3 : 4 * ρ ≤ V 3 / (1 + N 3) := by
      rw [h.v3, h.n3]
      push_cast
      rw [le_div_iff₀ (by positivity)]
      nlinarith
    have h1 : V 1 / (1 + N 1) < 3 * ρ := by
      rw [h.v1, h.n1, div_lt_iff₀ (by positivity)]
      nlinarith
    have hs : Real.sqrt (2 * Real.log (N 2) / (1 + N 1)) ≤ 1 := by
      refine Real.sqrt_le_one.2 ?_
      rw [h.n2, h.n1, div_le_one (by positivity)]
      have := log_half (show (0 : ℝ) < c by linarith)
      linarith
    have := mul_le_mul_of_nonneg_left hs hC
    linarith

/-- From 1 the search goes to 0. -/
theorem Trapped.left (h : Trapped ρ V N a c d) (hC : 0 ≤ C) (hρ : 0 < ρ) :
    ¬ Spec.upper V N C 1 0 ≤ Spec.upper V N C 1 2 := by
  intro hu
  unfold Spec.upper at hu
  rw [h.v0, h.v2, h.n0, h.n1, h.n2, zero_div, zero_add] at hu
  have ha : (1 : ℝ) ≤ a := by exact_mod_cast h.ha
  have hac : (a : ℝ) ≤ c := by exact_mod_cast h.hac
  have hs : Real.sqrt (2 * Real.log a / (1 + c)) ≤ Real.sqrt (2 * Real.log a / (1 + a)) := by
    apply Real.sqrt_le_sqrt
    apply div_le_div_of_nonneg_left (by have := Real.log_nonneg ha; positivity) (by positivity)
    linarith
  have h1 := mul_le_mul_of_nonneg_left hs hC
  have h2 : 0 < 3 * ρ * a / (1 + a) := by positivity
  linarith

/-- From 3 the search goes back to 2 only after many walks to 4. -/
theorem Trapped.right (h : Trapped ρ V N a c d) (hC : 0 ≤ C) (hCρ : C ≤ ρ) (hρ : 0 < ρ)
    (hu : Spec.upper V N C 3 4 ≤ Spec.upper V N C 3 2) : 4 * (1 + (c + 1)) ≤ d := by
  unfold Spec.upper at hu
  rw [h.v4, h.v2, h.n3, h.n4, h.n2, zero_div, zero_add] at hu
  have ha : (1 : ℝ) ≤ a := by exact_mod_cast h.ha
  have hac : (a : ℝ) ≤ c := by exact_mod_cast h.hac
  have hc1 : (1 : ℝ) ≤ c := le_trans ha hac
  have hd : (1 : ℝ) ≤ d := by exact_mod_cast h.hd
  have hb : 0 ≤ C * Real.sqrt (2 * Real.log ((c + d : Nat) : ℝ) / (1 + d)) := mul_nonneg hC (Real.sqrt_nonneg _)
  have h1 : 5 / 2 * ρ ≤ 5 * ρ * d / (1 + d) := by
    rw [le_div_iff₀ (by positivity)]
    nlinarith
  set q : ℝ := Real.sqrt (2 * Real.log ((c + d : Nat) : ℝ) / (1 + c)) with hq
  have hq0 : 0 ≤ q := Real.sqrt_nonneg _
  have h2 : 5 / 2 ≤ q := by
    have : 5 / 2 * ρ ≤ ρ * q := by
      have := mul_le_mul_of_nonneg_right hCρ hq0
      linarith
    nlinarith
  have hlog0 : 0 ≤ Real.log ((c + d : Nat) : ℝ) := Real.log_nonneg (by push_cast; linarith)
  have h3 : q ^ 2 = 2 * Real.log ((c + d : Nat) : ℝ) / (1 + c) := by
    rw [hq, Real.sq_sqrt (by positivity)]
  have h4 : (25 / 4 : ℝ) ≤ 2 * Real.log ((c + d : Nat) : ℝ) / (1 + c) := by rw [← h3]; nlinarith
  rw [le_div_iff₀ (by positivity)] at h4
  have h5 : 3 * (1 + (c : ℝ)) ≤ Real.log ((c + d : Nat) : ℝ) := by nlinarith
  have h6 : Real.exp (3 * (1 + (c : ℝ))) ≤ ((c + d : Nat) : ℝ) := by
    rw [← Real.le_log_iff_exp_le (by push_cast; linarith)]
    exact h5
  have h7 := Real.quadratic_le_exp_of_nonneg (show (0 : ℝ) ≤ 3 * (1 + (c : ℝ)) by positivity)
  push_cast at h6
  have h8 : 4 * (1 + ((c : ℝ) + 1)) ≤ d := by nlinarith
  exact_mod_cast h8

/-- One more walk keeps the search in the trap. -/
theorem Trapped.next (h : Trapped ρ V N a c d) (hC : 0 ≤ C) (hCρ : C ≤ ρ) (hρ : 0 < ρ) {t u : Nat} {x y : Bool} {p q : Nat}
    {S : Nat → List Nat} (h2 : S 2 = [3, 1]) (h1 : S 1 = [2, 0]) (h3 : S 3 = [4, 2])
    (ht : nextNode ucbBonus true V N (S 2) C 2 p = .ok (t, x)) (hu : nextNode ucbBonus x V N (S t) C t q = .ok (u, y))
    {r : Nat → ℝ} (hr : ∀ s, s < 5 → r s = ρ * [-3, 6, 0, 0, 5].getD s 0) {V' : Nat → ℝ} {N' : Nat → Nat}
    (hV : ∀ s, V' s = V s + ([t, u].count s : ℝ) * (r t + r u)) (hN : ∀ s, N' s = N s + [t, u].count s) :
    ∃ a c d, Trapped ρ V' N' a c d := by
  have ha := h.ha
  have hac := h.hac
  have hd := h.hd
  have e0 := h.n0
  have e1 := h.n1
  have e2 := h.n2
  have e3 := h.n3
  have e4 := h.n4
  rw [h2] at ht
  obtain ⟨t', m1, m2, m3⟩ := C57_partial V N [3, 1] C 2 p (by simp)
    (by simp only [List.mem_cons, List.not_mem_nil, or_false]; rintro s (rfl | rfl) <;> omega) (by omega)
  rw [ht] at m2
  simp only [Except.ok.injEq, Prod.mk.injEq] at m2
  obtain ⟨rfl, rfl⟩ := m2
  simp only [List.mem_cons, List.not_mem_nil, or_false] at m1
  have r0 := hr 0 (by decide)
  have r1 := hr 1 (by decide)
  have r2 := hr 2 (by decide)
  have r3 := hr 3 (by decide)
  have r4 := hr 4 (by decide)
  simp only [List.getD_cons_zero, List.getD_cons_succ] at r0 r1 r2 r3 r4
  rcases m1 with rfl | rfl
  · rw [h3] at hu
    obtain ⟨u', k1, k2, k3⟩ := C57_partial V N [4, 2] C 3 q (by simp)
      (by simp only [List.mem_cons, List.not_mem_nil, or_false]; rintro s (rfl | rfl) <;> omega) (by omega)
    rw [hu] at k2
    simp only [Except.ok.injEq, Prod.mk.injEq] at k2
    obtain ⟨rfl, rfl⟩ := k2
    simp only [List.mem_cons, List.not_mem_nil, or_false] at k1
    rcases k1 with rfl | rfl
    · refine ⟨a, c, d + 1, ?_⟩
      constructor
      · rw [hN]; simp [e0]
      · rw [hN]; simp [e1]
      · rw [hN]; simp [e2]
      · rw [hN]; simp [e3]; omega
      · rw [hN]; simp [e4]
      · rw [hV]; simp [h.v0]
      · rw [hV]; simp [h.v1]
      · rw [hV]; simp [h.v2]
      · rw [hV, r3, r4, h.v3]; simp; ring
      · rw [hV, r3, r4, h.v4]; simp; ring
      · exact ha
      · exact hac
      · omega
      · have := h.far; omega
    · have hgo := h.right hC hCρ hρ (k3 4 (by simp))
      refine ⟨a, c + 1, d, ?_⟩
      constructor
      · rw [hN]; simp [e0]
      · rw [hN]; simp [e1]
      · rw [hN]; simp [e2]
      · rw [hN]; simp [e3]; omega
      · rw [hN]; simp [e4]
      · rw [hV]; simp [h.v0]
      · rw [hV]; simp [h.v1]
      · rw [hV, r3, r2, h.v2]; simp
      · rw [hV, r3, r2, h.v3]; simp
      · rw [hV]; simp [h.v4]
      · exact ha
      · omega
      · omega
      · exact .inr hgo
  · have hgo := h.root hC hCρ hρ (m3 3 (by simp))
    rw [h1] at hu
    obtain ⟨u', k1, k2, k3⟩ := C57_partial V N [2, 0] C 1 q (by simp)
      (by simp only [List.mem_cons, List.not_mem_nil, or_false]; rintro s (rfl | rfl) <;> omega) (by omega)
    rw [hu] at k2
    simp only [Except.ok.injEq, Prod.mk.injEq] at k2
    obtain ⟨rfl, rfl⟩ := k2
    simp only [List.mem_cons, List.not_mem_nil, or_false] at k1
    rcases k1 with rfl | rfl
    · exact absurd (k3 0 (by simp)) (h.left hC hρ)
    · refine ⟨a + 1, c, d, ?_⟩
      constructor
      · rw [hN]; simp [e0]
      · rw [hN]; simp [e1]
      · rw [hN]; simp [e2]
      · rw [hN]; simp [e3]
      · rw [hN]; simp [e4]
      · rw [hV, r1, r0, h.v0]; simp; ring
      · rw [hV, r1, r0, h.v1]; simp; ring
      · rw [hV]; simp [h.v2]
      · rw [hV]; simp [h.v3]
      · rw [hV]; simp [h.v4]
      · omega
      · exact hgo
      · exact hd
      · exact h.far

/-- A search on the corridor of five states, from its middle, that went right and right first, and left and left then:
it never gets out of the trap. -/
theorem trapped_run {o : MctsOpts ℝ} {M : Trans ℝ} {A : SimAgents ℝ} {nF : Nat} {F : Nat → Nat → ℝ}
    (hint : o.interactive = false) (hb : o.bonus = ucbBonus) (hC : 0 ≤ o.C) (hCρ : o.C ≤ ρ) (hρ : 0 < ρ)
    {row : Nat} (hrow : A.featIdx[0]? = some row) (hw : A.rewards 0 row = 0) (hc : ∀ f, A.consumesFeatures 0 f = false)
    (hnn : ∀ s x t, s < M.nS → x < M.nA → t < M.nS → 0 ≤ M.p s x t) {k : Nat} (hk : 0 < k) {own : List Nat}
    {others : List (List Nat)} (hL : 2 = k + own.sum + (others.map List.sum).sum) {fuel : Nat} (hf : 3 ≤ fuel)
    (hs : pyIdx M.nS (A.nodes 0) = some 2) (h2 : nextStates M 2 = [3, 1]) (h1 : nextStates M 1 = [2, 0])
    (h3 : nextStates M 3 = [4, 2])
    (hr : ∀ s, s < 5 → stateReward nF (A.rewards 0) F s = ρ * [-3, 6, 0, 0, 5].getD s 0)
    {cache : QCache ℝ} {draws : Nat → Nat → Draw ℝ} (hd0 : (draws 0 0).pick % 2 = 0) (hd1 : (draws 0 1).pick % 2 = 0)
    (hd2 : (draws 1 1).pick % 2 = 1) {S : Nat → Search ℝ}
    (hS : ∀ n, (runMcts o M A nF n F (some ((k :: own) :: others)) cache draws fuel).2.2 = some (.ok (S n))) :
    ∀ n, 3 ≤ n → ∃ a c d, Trapped ρ (S n).V (S n).N a c d := by
  have hstep : ∀ n, ∃ t u x y,
      nextNode ucbBonus true (S n).V (S n).N (nextStates M 2) o.C 2 (draws n 0).pick = .ok (t, x) ∧
      nextNode ucbBonus x (S n).V (S n).N (nextStates M t) o.C t (draws n 1).pick = .ok (u, y) ∧
      (∀ s, (S (n + 1)).V s = (S n).V s + ([t, u].count s : ℝ) *
        (stateReward nF (A.rewards 0) F t + stateReward nF (A.rewards 0) F u)) ∧
      ∀ s, (S (n + 1)).N s = (S n).N s + [t, u].count s := by
    intro n
    obtain ⟨st, cache', g1, g2, g3⟩ := run_step hS n
    obtain ⟨t, u, x, y, l, q1, -, -, q2, q3, -⟩ := iteration_two hint hk hL le_rfl hf hs g1
    obtain ⟨p1, -, p2⟩ := iteration_plain hint hrow hw hc hnn hk hL hf hs g1
    rw [q1] at p1
    simp only [List.length_cons] at p1
    obtain rfl : l = [] := List.eq_nil_of_length_eq_zero (by omega)
    rw [hb] at q2 q3
    rw [q1] at p2 g2 g3
    simp only [List.map_cons, List.map_nil, List.sum_cons, List.sum_nil, add_zero] at p2
    rw [p2] at g2
    exact ⟨t, u, x, y, q2, q3, g2, g3⟩
  have r0 := hr 0 (by decide)
  have r1 := hr 1 (by decide)
  have r2 := hr 2 (by decide)
  have r3 := hr 3 (by decide)
  have r4 := hr 4 (by decide)
  simp only [List.getD_cons_zero, List.getD_cons_succ] at r0 r1 r2 r3 r4
  have hV0 := fun t => (run_zero hS t).1
  have hN0 := fun t => (run_zero hS t).2
  -- the first iteration goes to 3 and 4
  obtain ⟨t, u, x, y, g1, g2, g3, g4⟩ := hstep 0
  have e : t = 3 ∧ x = false := by
    simp [nextNode, h2, hN0, rngChoice, hd0] at g1
    exact ⟨g1.1.symm, g1.2⟩
  obtain ⟨rfl, rfl⟩ := e
  obtain rfl : u = 4 := by
    simp [nextNode, h3, rngChoice, hd1] at g2
    exact g2.1.symm
  have hN1 : ∀ s, (S 1).N s = [3, 4].count s := fun s => by rw [g4, hN0, zero_add]
  have hV1 : ∀ s, (S 1).V s = ([3, 4].count s : ℝ) * (5 * ρ) := fun s => by
    rw [g3, hV0, r3, r4, zero_add]; ring
  -- the second one to 1 and 0
  obtain ⟨t, u, x, y, g1, g2, g3, g4⟩ := hstep 1
  have e : t = 1 ∧ x = false := by
    simp [nextNode, h2, hN1, rngChoice, Nat.mod_one] at g1
    exact ⟨g1.1.symm, g1.2⟩
  obtain ⟨rfl, rfl⟩ := e
  obtain rfl : u = 0 := by
    simp [nextNode, h1, rngChoice, hd2] at g2
    exact g2.1.symm
  have hN2 : ∀ s, (S 2).N s = [3, 4].count s + [1, 0].count s := fun s => by rw [g4, hN1]
  have hV2 : ∀ s, (S 2).V s = ([3, 4].count s : ℝ) * (5 * ρ) + ([1, 0].count s : ℝ) * (3 * ρ) := fun s => by
    rw [g3, hV1, r1, r0]; ring
  -- the third one to 3, since the visits of 2 are not counted, and 2
  obtain ⟨t, u, x, y, g1, g2, g3, g4⟩ := hstep 2
  have e : t = 3 ∧ x = true := by
    rw [h2, nextNode_ucb _ _ _ _ _ _ _ (by
      simp only [List.mem_cons, List.not_mem_nil, or_false]
      rintro s (rfl | rfl) <;> (rw [hN2]; simp))] at g1
    simp [ucb, ucbBonus, hN2, argmaxNan, List.range_succ] at g1
    exact ⟨g1.1.symm, g1.2⟩
  obtain ⟨rfl, rfl⟩ := e
  obtain rfl : u = 2 := by
    simp [nextNode, h3, hN2, rngChoice, Nat.mod_one] at g2
    exact g2.1.symm
  intro n hn
  induction n, hn using Nat.le_induction with
  | base =>
    refine ⟨1, 1, 1, ?_⟩
    constructor
    · rw [g4, hN2]; simp
    · rw [g4, hN2]; simp
    · rw [g4, hN2]; simp
    · rw [g4, hN2]; simp
    · rw [g4, hN2]; simp
    · rw [g3, hV2]; simp
    · rw [g3, hV2]; simp
    · rw [g3, hV2, r3, r2]; simp
    · rw [g3, hV2, r3, r2]; simp
    · rw [g3, hV2]; simp
    · exact le_rfl
    · exact le_rfl
    · exact le_rfl
    · exact .inl rfl
  | succ n _ ih =>
    obtain ⟨a, c, d, h⟩ := ih
    obtain ⟨t, u, x, y, g1, g2, g3, g4⟩ := hstep n
    exact h.next hC hCρ hρ h2 h1 h3 g1 g2 hr g3 g4

end MaMDP
