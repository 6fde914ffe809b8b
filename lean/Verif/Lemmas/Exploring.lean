import Mathlib.Analysis.SpecialFunctions.Log.Basic
import Mathlib.Analysis.SpecialFunctions.Pow.Real
import Verif.Props.MCTSLoop

/-! # Lemmas on a tree search that goes on and on -/

set_option linter.unusedSectionVars false

namespace MaMDP

/-! ## Counters -/

/-- A counter that is increased again and again grows beyond every bound. -/
theorem grows {c : Nat → Nat} (hmono : Monotone c) (h : ∀ n, ∃ k, n ≤ k ∧ c k < c (k + 1)) (B : Nat) :
    ∃ n, ∀ k, n ≤ k → B ≤ c k := by
  induction B with
  | zero => exact ⟨0, fun _ _ => Nat.zero_le _⟩
  | succ B ih =>
    obtain ⟨n, hn⟩ := ih
    obtain ⟨k, h1, h2⟩ := h n
    refine ⟨k + 1, fun j hj => ?_⟩
    have h3 := hn k h1
    have h4 := hmono hj
    omega

/-- Of finitely many, one is chosen again and again. -/
theorem chosen_often {T : Nat → Prop} {c : Nat → Nat} : ∀ (S : List Nat), (∀ k, T k → c k ∈ S) →
    (∀ n, ∃ k, n ≤ k ∧ T k) → ∃ i ∈ S, ∀ n, ∃ k, n ≤ k ∧ T k ∧ c k = i := by
  intro S
  induction S generalizing T with
  | nil =>
    intro h hT
    obtain ⟨k, -, hk⟩ := hT 0
    exact absurd (h k hk) (by simp)
  | cons i S ih =>
    intro h hT
    by_cases hi : ∀ n, ∃ k, n ≤ k ∧ T k ∧ c k = i
    · exact ⟨i, by simp, hi⟩
    · push Not at hi
      obtain ⟨n0, hn0⟩ := hi
      obtain ⟨j, hj, hj'⟩ := ih (T := fun k => n0 ≤ k ∧ T k)
        (fun k hk => by
          have h1 := h k hk.2
          rcases List.mem_cons.1 h1 with h2 | h2
          · exact absurd h2 (hn0 k hk.1 hk.2)
          · exact h2)
        (fun n => by
          obtain ⟨k, h1, h2⟩ := hT (max n n0)
          exact ⟨k, le_trans (le_max_left _ _) h1, le_trans (le_max_right _ _) h1, h2⟩)
      refine ⟨j, by simp [hj], fun n => ?_⟩
      obtain ⟨k, h1, h2, h3⟩ := hj' n
      exact ⟨k, h1, h2.2, h3⟩

/-- A bound that holds for each of finitely many from some time on holds for all of them from some time on. -/
theorem all_from {P : Nat → Nat → Prop} : ∀ (S : List Nat), (∀ t ∈ S, ∃ n, ∀ k, n ≤ k → P t k) →
    ∃ n, ∀ k, n ≤ k → ∀ t ∈ S, P t k := by
  intro S
  induction S with
  | nil => intro _; exact ⟨0, fun _ _ t ht => absurd ht (by simp)⟩
  | cons i S ih =>
    intro h
    obtain ⟨n1, h1⟩ := h i (by simp)
    obtain ⟨n2, h2⟩ := ih fun t ht => h t (by simp [ht])
    refine ⟨max n1 n2, fun k hk t ht => ?_⟩
    rcases List.mem_cons.1 ht with rfl | ht
    · exact h1 k (le_trans (le_max_left _ _) hk)
    · exact h2 k (le_trans (le_max_right _ _) hk) t ht

/-- What a search does at a node: at the times `T` it goes on from there to one of `S`, never tried ones first, and
otherwise one with the largest upper confidence bound. -/
structure Chooses (V : Nat → Nat → ℝ) (N : Nat → Nat → Nat) (C : ℝ) (node : Nat) (S : List Nat) (T : Nat → Prop)
    (c : Nat → Nat) : Prop where
  often : ∀ n, ∃ k, n ≤ k ∧ T k
  mem : ∀ k, T k → c k ∈ S
  counts : ∀ k, T k → N k (c k) < N (k + 1) (c k)
  fresh : ∀ k, T k → (∃ t ∈ S, N k t = 0) → N k (c k) = 0
  best : ∀ k, T k → (∀ t ∈ S, N k t ≠ 0) → N k node ≠ 0 →
    ∀ t ∈ S, Spec.upper (V k) (N k) C node t ≤ Spec.upper (V k) (N k) C node (c k)

variable {V : Nat → Nat → ℝ} {N : Nat → Nat → Nat} {C : ℝ} {node : Nat} {S : List Nat} {T : Nat → Prop} {c : Nat → Nat}

theorem Chooses.some (h : Chooses V N C node S T c) (hmono : ∀ t, Monotone fun k => N k t) :
    ∃ i ∈ S, (∀ n, ∃ k, n ≤ k ∧ T k ∧ c k = i) ∧ ∀ B, ∃ n, ∀ k, n ≤ k → B ≤ N k i := by
  obtain ⟨i, hi, h1⟩ := chosen_often S h.mem h.often
  refine ⟨i, hi, h1, grows (hmono i) fun n => ?_⟩
  obtain ⟨k, h2, h3, h4⟩ := h1 n
  refine ⟨k, h2, ?_⟩
  have := h.counts k h3
  rw [h4] at this
  exact this

/-- From some time on everything has been tried. -/
theorem Chooses.tried (h : Chooses V N C node S T c) (hmono : ∀ t, Monotone fun k => N k t) :
    ∃ n, ∀ k, n ≤ k → ∀ t ∈ S, N k t ≠ 0 := by
  refine all_from (P := fun t k => N k t ≠ 0) S fun t ht => ?_
  by_contra hc
  push Not at hc
  have h0 : ∀ k, N k t = 0 := by
    intro k
    obtain ⟨j, h1, h2⟩ := hc k
    have : N k t ≤ N j t := hmono t h1
    omega
  obtain ⟨i, -, h1, h2⟩ := h.some hmono
  obtain ⟨n, hn⟩ := h2 1
  obtain ⟨k, h3, h4, h5⟩ := h1 n
  have h6 := h.fresh k h4 ⟨t, ht, h0 k⟩
  rw [h5] at h6
  have := hn k h3
  omega

/-- If the node is visited more and more often, then so is each of its successors. -/
theorem Chooses.all (h : Chooses V N C node S T c) (hmono : ∀ t, Monotone fun k => N k t) (hC : 0 < C) {R : ℝ}
    (hR : 0 ≤ R) (hV : ∀ k t, |V k t| ≤ R * N k t) (hnode : ∀ B, ∃ n, ∀ k, n ≤ k → B ≤ N k node) {t : Nat} (ht : t ∈ S)
    (B : Nat) : ∃ n, ∀ k, n ≤ k → B ≤ N k t := by
  by_contra hc
  push Not at hc
  have hB : ∀ k, N k t ≤ B := by
    intro k
    obtain ⟨j, h1, h2⟩ := hc k
    have : N k t ≤ N j t := hmono t h1
    omega
  obtain ⟨i, hi, h1, h2⟩ := h.some hmono
  obtain ⟨n1, hn1⟩ := h2 (4 * (1 + B))
  obtain ⟨n2, hn2⟩ := h.tried hmono
  obtain ⟨X, hX⟩ := exists_nat_gt (Real.exp ((1 + B) * (4 * R / C) ^ 2 / 2))
  obtain ⟨n3, hn3⟩ := hnode (X + 1)
  obtain ⟨k, h3, h4, h5⟩ := h1 (max n1 (max n2 n3))
  have k1 := hn1 k (le_trans (le_max_left _ _) h3)
  have k2 := hn2 k (le_trans (le_trans (le_max_left _ _) (le_max_right _ _)) h3)
  have k3 := hn3 k (le_trans (le_trans (le_max_right _ _) (le_max_right _ _)) h3)
  have hu := h.best k h4 k2 (by omega) t ht
  rw [h5] at hu
  have hBt := hB k
  unfold Spec.upper at hu
  -- the logarithm is large
  set L : ℝ := Real.log (N k node) with hL
  have hLbig : (1 + B) * (4 * R / C) ^ 2 / 2 < L := by
    rw [hL, Real.lt_log_iff_exp_lt]
    · refine lt_of_lt_of_le hX ?_
      exact_mod_cast (by omega : X ≤ N k node)
    · exact_mod_cast (by omega : 0 < N k node)
  have hB0 : (0 : ℝ) < 1 + B := by positivity
  have hL0 : 0 ≤ L := le_trans (by positivity) hLbig.le
  -- the averages are bounded
  have hbound : ∀ u, |V k u / (1 + N k u)| ≤ R := by
    intro u
    have hp : (0 : ℝ) < 1 + N k u := by positivity
    rw [abs_div, abs_of_pos hp, div_le_iff₀ hp]
    have := hV k u
    nlinarith
  have b1 := (abs_le.1 (hbound t)).1
  have b2 := (abs_le.1 (hbound i)).2
  -- the bonuses
  set q : ℝ := Real.sqrt (2 * L / (1 + B)) with hq
  have hq1 : q ≤ Real.sqrt (2 * L / (1 + (N k t : ℝ))) := by
    apply Real.sqrt_le_sqrt
    apply div_le_div_of_nonneg_left (by positivity) (by positivity)
    have : (N k t : ℝ) ≤ B := by exact_mod_cast hBt
    linarith
  have hq2 : Real.sqrt (2 * L / (1 + (N k i : ℝ))) ≤ q / 2 := by
    rw [hq, show Real.sqrt (2 * L / (1 + B)) / 2 = Real.sqrt (2 * L / (1 + B) / 4) by
      rw [Real.sqrt_div' _ (by norm_num : (0 : ℝ) ≤ 4), show (4 : ℝ) = 2 ^ 2 by norm_num, Real.sqrt_sq (by norm_num)]]
    apply Real.sqrt_le_sqrt
    rw [div_div]
    apply div_le_div_of_nonneg_left (by positivity) (by positivity)
    have : ((4 * (1 + B) : Nat) : ℝ) ≤ N k i := by exact_mod_cast k1
    push_cast at this
    linarith
  have hq3 : 4 * R / C < q := by
    rw [hq]
    apply Real.lt_sqrt_of_sq_lt
    rw [lt_div_iff₀ hB0]
    linarith
  have hq4 : 4 * R < C * q := by
    rw [div_lt_iff₀ hC] at hq3
    linarith
  have m1 := mul_le_mul_of_nonneg_left hq1 hC.le
  have m2 := mul_le_mul_of_nonneg_left hq2 hC.le
  linarith

/-! ## One iteration -/

section
variable {K : Type} [Field K] [LinearOrder K] [IsStrictOrderedRing K]
variable {o : MctsOpts K} {M : Trans K} {A : SimAgents K} {nF : Nat} {V : Nat → K} {N : Nat → Nat}

/-- Features that were only marked, removed or left as they were. -/
def Near (F G : Nat → Nat → K) : Prop := ∀ f s, |G f s| ≤ 1 + |F f s|

/-- The most that a move can bring, in absolute value. -/
def reach (M : Trans K) (A : SimAgents K) (nF : Nat) (F : Nat → Nat → K) : K :=
  ∑ t ∈ Finset.range M.nS, ∑ f ∈ Finset.range nF, |A.rewards 0 f| * (1 + |F f t|)

theorem reach_nonneg (F : Nat → Nat → K) : 0 ≤ reach M A nF F :=
  Finset.sum_nonneg fun _ _ => Finset.sum_nonneg fun _ _ => by positivity

theorem stateReward_le {F G : Nat → Nat → K} (h : Near F G) {t : Nat} (ht : t < M.nS) :
    |stateReward nF (A.rewards 0) G t| ≤ reach M A nF F := by
  have h1 : |stateReward nF (A.rewards 0) G t| ≤ ∑ f ∈ Finset.range nF, |A.rewards 0 f| * (1 + |F f t|) := by
    show |∑ f ∈ Finset.range nF, A.rewards 0 f * G f t| ≤ _
    refine le_trans (Finset.abs_sum_le_sum_abs _ _) (Finset.sum_le_sum fun f _ => ?_)
    rw [abs_mul]
    exact mul_le_mul_of_nonneg_left (h f t) (abs_nonneg _)
  refine le_trans h1 ?_
  exact Finset.single_le_sum (f := fun t => ∑ f ∈ Finset.range nF, |A.rewards 0 f| * (1 + |F f t|))
    (fun _ _ => Finset.sum_nonneg fun _ _ => by positivity) (Finset.mem_range.2 ht)

theorem simMove_primary (hint : o.interactive = false) {d : Draw K} {st st' : Sim K} {c : Bool}
    (h : simMove o M A nF V N 0 d st = .ok (st', c)) :
    ∃ here t x, c = false ∧ pyIdx M.nS (st.nodes 0) = some here ∧
      nextNode o.bonus st.expand V N (nextStates M here) o.C here d.pick = .ok (t, x) ∧ t ∈ nextStates M here ∧
      st'.expand = x ∧ st'.visited = st.visited ++ [t] ∧ st'.nodes 0 = (t : Int) ∧
      ∀ F : Nat → Nat → K, Near F st.features →
        Near F st'.features ∧ |st'.acc| ≤ |st.acc| + reach M A nF F := by
  unfold simMove at h
  split at h
  · rename_i row here h1 h2
    split at h
    · cases h
    · have hr : checkResult o A st = (0, st.active, false) := by
        unfold checkResult
        rw [hint]
        rfl
      rw [hr] at h
      dsimp only at h
      rw [if_neg (by simp), if_pos rfl] at h
      split at h
      · cases h
      · rename_i st'' hm
        cases h
        unfold primaryMove at hm
        split at hm
        · cases hm
        · rename_i t x hn
          have hmem := nextNode_mem hn
          refine ⟨here, t, x, rfl, h2, hn, hmem, ?_⟩
          have hnear : ∀ F : Nat → Nat → K, Near F st.features →
              Near F fun f s => if f = row then (if s = here then 1 else 0) else st.features f s := by
            intro F hF f s
            dsimp only
            split
            · split
              · rw [abs_one]; have := abs_nonneg (F f s); linarith
              · rw [abs_zero]; positivity
            · exact hF f s
          have hacc : ∀ F : Nat → Nat → K, Near F st.features →
              |st.acc + 0 + stateReward nF (A.rewards 0)
                (fun f s => if f = row then (if s = here then 1 else 0) else st.features f s) t| ≤
                |st.acc| + reach M A nF F := by
            intro F hF
            rw [add_zero]
            refine le_trans (abs_add_le _ _) ?_
            have := stateReward_le (M := M) (A := A) (nF := nF) (hnear F hF) (mem_nextStates.1 hmem).1
            linarith
          dsimp only at hm
          split at hm
          · obtain ⟨g1, g2, g3, g4, -, -, -, g8⟩ := consumeAt_same hm
            refine ⟨g1, g3, by rw [g4]; simp [upd1], fun F hF => ⟨?_, by rw [g2]; exact hacc F hF⟩⟩
            rw [g8]
            intro f s
            dsimp only
            split
            · rw [abs_zero]; positivity
            · exact hnear F hF f s
          · cases hm
            exact ⟨rfl, rfl, by simp [upd1], fun F hF => ⟨hnear F hF, hacc F hF⟩⟩
  · cases h

theorem follow_primary (hint : o.interactive = false) {draws : Nat → Draw K} (F : Nat → Nat → K) :
    ∀ (r i : Nat) (st st' : Sim K) (c : Bool),
      Spec.follow (fun i a st => simMove o M A nF V N a (draws i) st) i (List.replicate r 0) st = .ok (st', c) →
      Near F st.features → (∃ l, st'.visited = st.visited ++ l) ∧ |st'.acc| ≤ |st.acc| + r * reach M A nF F := by
  intro r
  induction r with
  | zero =>
    intro i st st' c h _
    cases h
    exact ⟨⟨[], by simp⟩, by simp⟩
  | succ r ih =>
    intro i st st' c h hF
    rw [List.replicate_succ] at h
    unfold Spec.follow at h
    split at h
    · cases h
    · rename_i hm
      obtain ⟨_, _, _, hc, -⟩ := simMove_primary hint hm
      cases hc
    · rename_i st1 hm
      obtain ⟨_, t, _, -, -, -, -, -, h1, -, h2⟩ := simMove_primary hint hm
      obtain ⟨h3, h4⟩ := h2 F hF
      obtain ⟨⟨l, h5⟩, h6⟩ := ih _ _ _ _ h h3
      refine ⟨⟨t :: l, by rw [h5, h1]; simp⟩, ?_⟩
      push_cast
      linarith

/-- The first two moves of an iteration, and a bound of what it brings. -/
theorem iteration_two (hint : o.interactive = false) {k : Nat} (hk : 0 < k) {own : List Nat} {others : List (List Nat)}
    {L : Nat} (hL : L = k + own.sum + (others.map List.sum).sum) (h2 : 2 ≤ L) {fuel : Nat} (hf : L + 1 ≤ fuel)
    {F : Nat → Nat → K} {nodes : Nat → Int} {s : Nat} (hs : pyIdx M.nS (nodes 0) = some s) {cache : QCache K}
    {draws : Nat → Draw K} {st : Sim K}
    (h : (mctsIteration o M A nF F nodes V N ((k :: own) :: others) cache draws fuel).2.2 = some (.ok st)) :
    ∃ t u x y l, st.visited = t :: u :: l ∧ t ∈ nextStates M s ∧ u ∈ nextStates M t ∧
      nextNode o.bonus true V N (nextStates M s) o.C s (draws 0).pick = .ok (t, x) ∧
      nextNode o.bonus x V N (nextStates M t) o.C t (draws 1).pick = .ok (u, y) ∧
      |st.acc| ≤ L * reach M A nF F := by
  obtain ⟨h1, -⟩ := C91_moves (M := M) (A := A) (nF := nF) (V := V) (N := N) (draws := draws) hint hk (own := own)
    (others := others) fuel (by omega) F nodes cache
  rw [h1, ← hL] at h
  obtain ⟨r, rfl⟩ : ∃ r, L = r + 2 := ⟨L - 2, by omega⟩
  have h' := Option.some.inj h
  have hN : Near F F := fun f s => by linarith
  cases hfo : Spec.follow (fun i a st => simMove o M A nF V N a (draws i) st) 0 (List.replicate (r + 2) 0)
      (Sim.start nodes F cache) with
  | error e => rw [hfo] at h'; cases h'
  | ok p =>
    obtain ⟨st', c⟩ := p
    rw [hfo] at h'
    cases h'
    obtain ⟨-, hacc⟩ := follow_primary hint F _ _ _ _ _ hfo hN
    have hacc0 : (Sim.start nodes F cache).acc = 0 := rfl
    rw [hacc0, abs_zero, zero_add] at hacc
    rw [List.replicate_succ] at hfo
    unfold Spec.follow at hfo
    split at hfo
    · cases hfo
    · rename_i hm
      obtain ⟨_, _, _, hc, -⟩ := simMove_primary hint hm
      cases hc
    · rename_i st1 hm
      obtain ⟨here, t, x, -, g1, g2, g3, g4, g5, g6, g7⟩ := simMove_primary hint hm
      have g1' : pyIdx M.nS (nodes 0) = some here := g1
      rw [hs] at g1'
      cases g1'
      rw [List.replicate_succ] at hfo
      unfold Spec.follow at hfo
      split at hfo
      · cases hfo
      · rename_i hm
        obtain ⟨_, _, _, hc, -⟩ := simMove_primary hint hm
        cases hc
      · rename_i st2 hm2
        obtain ⟨here', u, y, -, k1, k2, k3, k4, k5, k6, k7⟩ := simMove_primary hint hm2
        rw [g6, pyIdx_nat, if_pos (mem_nextStates.1 g3).1] at k1
        cases k1
        obtain ⟨⟨l, hl⟩, -⟩ := follow_primary hint F _ _ _ _ _ hfo (k7 F (g7 F hN).1).1
        refine ⟨t, u, x, y, l, ?_, g3, k3, g2, ?_, hacc⟩
        · rw [hl, k5, g5]; rfl
        · rw [g4] at k2; exact k2

/-! ## A whole search -/

theorem runLoop_succ {plan : List (List Nat)} {draws : Nat → Nat → Draw K} {fuel : Nat} {F : Nat → Nat → K}
    {nodes : Nat → Int} : ∀ (k i : Nat) (s s' : Search K),
    (runLoop o M A nF plan draws fuel (k + 1) i F nodes s).2.2 = some (.ok s') →
    ∃ s1 st, (runLoop o M A nF plan draws fuel k i F nodes s).2.2 = some (.ok s1) ∧
      (mctsIteration o M A nF F nodes s1.V s1.N plan s1.cache (draws (i + k)) fuel).2.2 = some (.ok st) ∧
      s'.V = (backprop st.acc st.visited (s1.V, s1.N)).1 ∧ s'.N = (backprop st.acc st.visited (s1.V, s1.N)).2 := by
  intro k
  induction k with
  | zero =>
    intro i s s' h
    unfold runLoop at h
    have hit : mctsIteration o M A nF F nodes s.V s.N plan s.cache (draws i) fuel =
      (F, nodes, (mctsIteration o M A nF F nodes s.V s.N plan s.cache (draws i) fuel).2.2) := rfl
    rw [hit] at h
    cases hr : (mctsIteration o M A nF F nodes s.V s.N plan s.cache (draws i) fuel).2.2 with
    | none => rw [hr] at h; cases h
    | some p =>
      rw [hr] at h
      cases p with
      | error e => cases h
      | ok st =>
        cases h
        exact ⟨s, st, rfl, hr, rfl, rfl⟩
  | succ k ih =>
    intro i s s' h
    unfold runLoop at h
    have hit : mctsIteration o M A nF F nodes s.V s.N plan s.cache (draws i) fuel =
      (F, nodes, (mctsIteration o M A nF F nodes s.V s.N plan s.cache (draws i) fuel).2.2) := rfl
    rw [hit] at h
    cases hr : (mctsIteration o M A nF F nodes s.V s.N plan s.cache (draws i) fuel).2.2 with
    | none => rw [hr] at h; cases h
    | some p =>
      rw [hr] at h
      cases p with
      | error e => cases h
      | ok st =>
        obtain ⟨s1, st1, g1, g2, g3, g4⟩ := ih _ _ _ h
        refine ⟨s1, st1, ?_, by rw [show i + (k + 1) = i + 1 + k by omega]; exact g2, g3, g4⟩
        rw [runLoop, hit, hr]
        exact g1

end

end MaMDP
