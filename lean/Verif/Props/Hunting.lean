import Verif.Lemmas.Hunting
import Verif.Lemmas.MCTSFit
import Verif.Props.MCTSLoop
import Verif.Props.Optimality
import Verif.Lemmas.Monotone

/-! # Monte Carlo tree search, opponents that hunt: C123 -/

set_option linter.unusedSectionVars false

namespace MaMDP

variable {K : Type} [Field K] [LinearOrder K] [IsStrictOrderedRing K]
variable {o : MctsOpts K} {M : Trans K} {A : SimAgents K} {nF : Nat} {V : Nat → K} {N : Nat → Nat}
  {draws : Nat → Draw K}

/-- The recorded states of an agent. -/
def pathOf (st : Sim K) (b : Nat) : List Nat := if b = 0 then st.visited else st.others b

/-- Where an opponent that plans goes: if the only reward it sees is at `g`, one step closer to `g`. -/
theorem opponentNext_closer {o : MctsOpts ℝ} {M : Trans ℝ} {nF : Nat} (hM : Spec.SubStochastic M)
    (hdet : Spec.Deterministic M) (hpol : o.policy = .solve) (halg : o.algorithm = .valueIteration)
    (hsel : o.selection = .max ∨ o.temperature = 0) (h0 : 0 < o.viDiscount) (h1 : o.viDiscount < 1)
    (htol : 0 < o.viTol) {w : Nat → ℝ} {features : Nat → Nat → ℝ} {r : Nat → ℝ} (hr : r = stateReward nF w features)
    {g : Nat} (hg : g < M.nS) (hrg : 0 < r g) (honly : ∀ t, t < M.nS → t ≠ g → r t = 0)
    (hstop : ∃ i, i < o.viMaxIter ∧ ∀ s, s < M.nS →
      |Spec.sweeps M r o.viDiscount (i + 1) s - Spec.sweeps M r o.viDiscount i s| < o.viTol)
    {s : Nat} (hs : s < M.nS) {n : Nat} (hd : Spec.Distance M s g (n + 1))
    (hsmall : 2 * o.viTol ≤ o.viDiscount ^ (n + 1) * (1 - o.viDiscount) ^ 2 * r g) {d : Draw ℝ} {t : Nat}
    {q : Option (QTable ℝ)} (h : opponentNext o M nF w features s none d = .ok (t, q)) : Spec.Distance M t g n := by
  obtain ⟨b, u, hb, hu, hpu, -⟩ := reaches_succ.1 hd.1
  have hA : 0 < M.nA := by omega
  have hlive : Spec.Live M s := ⟨b, hb, possible_of_one hu hpu⟩
  obtain ⟨W, hW, -⟩ := C27_converges M hM hA r o.viDiscount h0 h1
  have hr0 : ∀ t, t < M.nS → 0 ≤ r t := fun t ht => by
    by_cases h : t = g
    · rw [h]; exact hrg.le
    · rw [honly t ht h]
  have h1g : 0 < 1 - o.viDiscount := by linarith
  unfold opponentNext at h
  rw [hpol] at h
  dsimp only at h
  unfold opponentQ at h
  rw [halg, ← hr] at h
  dsimp only at h
  cases hsol : solveHard M r o.viMaxIter o.viDiscount o.viTol with
  | error e => rw [hsol] at h; cases h
  | ok vq =>
    obtain ⟨v, Q⟩ := vq
    rw [hsol] at h
    dsimp only at h
    unfold opponentAction at h
    rw [if_pos hsel, if_neg (by omega)] at h
    unfold randomMax at h
    obtain ⟨a, ha, he⟩ := rngChoice_ok (maxActions_ne_nil (fun a => (Q s a).clean) hA) d.pick
    rw [he] at h
    dsimp only at h
    obtain ⟨ha1, ha2⟩ := mem_maxActions.1 ha
    have hbest : ∀ b, b < M.nA → Spec.NoBetter (Q s b) (Q s a) := fun b hb => (noBetter_iff _ _).2 (ha2 b hb)
    obtain ⟨x, hx, hpx⟩ := C103_possible M hM hdet r o.viDiscount o.viTol o.viMaxIter v Q hsol s hs hlive a ha1 hbest
    obtain ⟨hlt, hpos⟩ := npArgmax_pos ⟨x, hx, (by rw [hpx]; exact one_pos : (0 : ℝ) < M.p s a x)⟩
    have hp1 : M.p s a (npArgmax M.nS (M.p s a)) = 1 := (hdet s a _ hs ha1 hlt).resolve_left (ne_of_gt hpos)
    split at h
    · cases h
      have hq := plan_close hM hA h0 h1 htol hW hstop hsol
      refine greedy_closer hM hdet h0 h1 hr0 hW hg honly hq ?_ hs hd ha1 hlt hp1 hbest
      have hpow : 0 ≤ o.viDiscount ^ n := pow_nonneg h0.le _
      rw [show 2 * (o.viTol * o.viDiscount / (1 - o.viDiscount)) =
        (2 * o.viTol) * o.viDiscount / (1 - o.viDiscount) by ring, div_le_iff₀ h1g]
      have h2 : 2 * o.viTol * o.viDiscount ≤ o.viDiscount ^ (n + 1) * (1 - o.viDiscount) ^ 2 * r g * o.viDiscount :=
        mul_le_mul_of_nonneg_right hsmall h0.le
      have h3 : o.viDiscount ^ (n + 1) * (1 - o.viDiscount) ^ 2 * r g * o.viDiscount =
          (o.viDiscount ^ n * (1 - o.viDiscount) * r g * (1 - o.viDiscount)) * (o.viDiscount * o.viDiscount) := by
        rw [pow_succ]; ring
      have h4 : o.viDiscount * o.viDiscount ≤ 1 := by nlinarith
      have h5 : 0 ≤ o.viDiscount ^ n * (1 - o.viDiscount) * r g * (1 - o.viDiscount) :=
        mul_nonneg (mul_nonneg (mul_nonneg hpow h1g.le) hrg.le) h1g.le
      rw [h3] at h2
      nlinarith
    · cases h

/-- What is true of hunting: when the hunter (an opponent rewarded only for the feature `prey`) moves, and that feature
marks state `g` alone, it ends one step closer to `g`. Missing from the full claim: that `g` is where the prey is. It
is where the prey was before its latest move (`C123_stale`), and that makes the claim false (`C123_refuted`). -/
theorem C123_partial {o : MctsOpts ℝ} {M : Trans ℝ} {A : SimAgents ℝ} {nF : Nat} {V : Nat → ℝ} {N : Nat → Nat}
    (hM : Spec.SubStochastic M) (hdet : Spec.Deterministic M) (hpol : o.policy = .solve)
    (halg : o.algorithm = .valueIteration) (hsel : o.selection = .max ∨ o.temperature = 0)
    (hnc : o.caching = false) (h0 : 0 < o.viDiscount) (h1 : o.viDiscount < 1) (htol : 0 < o.viTol)
    (hunter : Nat) (hh : hunter ≠ 0) (prey : Nat) (hprey : prey < nF) (hother : A.featIdx[hunter]? ≠ some prey)
    (hw : 0 < A.rewards hunter prey) (hw' : ∀ f, f < nF → f ≠ prey → A.rewards hunter f = 0)
    (d : Draw ℝ) (st st' : Sim ℝ) (h : simMove o M A nF V N hunter d st = .ok (st', false))
    (hact : st'.active hunter = true) (g : Nat) (hg : g < M.nS)
    (hmark : ∀ t, t < M.nS → st.features prey t = if t = g then 1 else 0)
    (r : Nat → ℝ) (hr : r = fun t => if t = g then A.rewards hunter prey else 0)
    (hstop : ∃ i, i < o.viMaxIter ∧ ∀ s, s < M.nS →
      |Spec.sweeps M r o.viDiscount (i + 1) s - Spec.sweeps M r o.viDiscount i s| < o.viTol)
    (s : Nat) (hs : pyIdx M.nS (st.nodes hunter) = some s) (n : Nat) (hd : Spec.Distance M s g (n + 1))
    (hsmall : 2 * o.viTol ≤ o.viDiscount ^ (n + 1) * (1 - o.viDiscount) ^ 2 * A.rewards hunter prey) :
    ∃ t : Nat, st'.nodes hunter = (t : Int) ∧ Spec.Distance M t g n := by
  obtain ⟨row, here, t, q, e1, e2, e3, e4⟩ := simMove_opponent h hh hact hnc
  rw [hs] at e2
  cases e2
  have hne : prey ≠ row := fun hc => hother (by rw [e1, hc])
  have hrew : ∀ t, t < M.nS → stateReward nF (A.rewards hunter)
      (fun f s' => if f = row then (if s' = s then 1 else 0) else st.features f s') t = r t := by
    intro t ht
    unfold stateReward npDot
    rw [Finset.sum_eq_single_of_mem prey (Finset.mem_range.2 hprey) fun f hf hfp => by
      rw [hw' f (Finset.mem_range.1 hf) hfp, zero_mul], hr]
    dsimp only
    rw [if_neg hne, hmark t ht]
    split_ifs
    · rw [mul_one]
    · rw [mul_zero]
  have hA : 0 < M.nA := by
    obtain ⟨b, u, hb, -⟩ := reaches_succ.1 hd.1
    omega
  have hr0 : ∀ t, t < M.nS → 0 ≤ r t := fun t _ => by
    rw [hr]; dsimp only; split_ifs
    · exact hw.le
    · exact le_rfl
  have hsw : ∀ i t, t < M.nS → Spec.sweeps M (stateReward nF (A.rewards hunter)
      (fun f s' => if f = row then (if s' = s then 1 else 0) else st.features f s')) o.viDiscount i t =
      Spec.sweeps M r o.viDiscount i t := fun i t ht => le_antisymm
    (sweeps_le hM hM hA (fewer_refl M) h0.le le_rfl (fun t ht => by rw [hrew t ht]; exact ⟨hr0 t ht, le_rfl⟩) i t ht).2
    (sweeps_le hM hM hA (fewer_refl M) h0.le le_rfl (fun t ht => by rw [hrew t ht]; exact ⟨hr0 t ht, le_rfl⟩) i t ht).2
  have hrg : r g = A.rewards hunter prey := by rw [hr]; dsimp only; rw [if_pos rfl]
  refine ⟨t, e3, opponentNext_closer hM hdet hpol halg hsel h0 h1 htol rfl hg ?_ ?_ ?_ (pyIdx_lt hs) hd ?_ e4⟩
  · rw [hrew g hg, hrg]; exact hw
  · intro t ht htg
    rw [hrew t ht, hr]
    dsimp only
    rw [if_neg htg]
  · obtain ⟨i, hi, hi'⟩ := hstop
    exact ⟨i, hi, fun t ht => by rw [hsw _ t ht, hsw _ t ht]; exact hi' t ht⟩
  · rw [hrew g hg, hrg]; exact hsmall

/-- What the feature row of an agent shows during an iteration: nothing but the state in which the agent was before its
latest move. (Some of that may have been consumed.) Rows are those of agents not found eaten; different agents have
different rows, which at the start show nothing but the agent's state. -/
theorem C123_stale (hM : ∀ s x t, s < M.nS → x < M.nA → t < M.nS → 0 ≤ M.p s x t)
    (hrows : A.featIdx.Nodup) (features : Nat → Nat → K) (nodes : Nat → Int) (cache : QCache K)
    (hfeat : ∀ b row s, A.featIdx[b]? = some row → pyIdx M.nS (nodes b) = some s →
      ∀ t, features row t ≠ 0 → t = s)
    (l : List Nat) (st : Sim K)
    (h : Spec.follow (fun i a st => simMove o M A nF V N a (draws i) st) 0 l (Sim.start nodes features cache) =
      .ok (st, false))
    (b : Nat) (hb : b ≠ 0 → o.returnOthers = true) (row s : Nat) (hrow : A.featIdx[b]? = some row)
    (hs : pyIdx M.nS (nodes b) = some s) (hact : st.active b = true) (t : Nat) (ht : st.features row t ≠ 0) :
    t = Spec.beforeLatest s (pathOf st b) := by
  have := follow_invariant_free (move := fun i a st => simMove o M A nF V N a (draws i) st)
    (fun st : Sim K => (((∀ s, pyIdx M.nS (nodes 0) = some s → Spec.Walk M s st.visited ∧
          pyIdx M.nS (st.nodes 0) = some (st.visited.getLastD s)) ∧
        (o.returnOthers = true → ∀ b, b ≠ 0 → ∀ s, pyIdx M.nS (nodes b) = some s → Spec.Walk M s (st.others b) ∧
          pyIdx M.nS (st.nodes b) = some ((st.others b).getLastD s)))) ∧
      (st.active b = true → ∀ t, st.features row t ≠ 0 → t = Spec.beforeLatest s (pathOf st b)))
    (by
      rintro i a st st' ⟨hw, hJ⟩ hm
      refine ⟨walks_invariant hM nodes a (draws i) st st' false hw hm, fun hact t ht => ?_⟩
      obtain ⟨row', here, h1, -, h2, -, hac, -, hp, hq⟩ := simMove_cases hm
      have hactb : st.active b = true := checkResult_active (by rw [← hac]; exact hact)
      have hF := (simMove_features hm h1 h2 row t).resolve_right ht
      by_cases hab : a = b
      · subst hab
        rw [hrow] at h1
        cases h1
        rw [if_pos rfl] at hF
        have hth : t = here := by
          by_contra hc
          rw [if_neg hc] at hF
          exact ht hF
        by_cases ha : a = 0
        · obtain ⟨t', -, hv, -⟩ := hp rfl ha
          subst ha
          have h3 := (hw.1 s hs).2
          rw [h2] at h3
          unfold pathOf
          rw [if_pos rfl, hv, beforeLatest_concat, hth]
          exact Option.some.inj h3
        · obtain ⟨-, -, h4⟩ := hq rfl ha
          rcases h4 with ⟨h5, -⟩ | ⟨t', -, -, -, h5⟩
          · rw [hact] at h5; cases h5
          · rw [if_pos (hb ha)] at h5
            have h3 := (hw.2 (hb ha) a ha s hs).2
            rw [h2] at h3
            unfold pathOf
            rw [if_neg ha, h5]
            unfold upd1
            rw [if_pos rfl, beforeLatest_concat, hth]
            exact Option.some.inj h3
      · have hne : row ≠ row' := by
          intro hc
          subst hc
          obtain ⟨ha1, ha2⟩ := List.getElem?_eq_some_iff.1 h1
          obtain ⟨hb1, hb2⟩ := List.getElem?_eq_some_iff.1 hrow
          exact hab ((List.Nodup.getElem_inj_iff hrows).1 (ha2.trans hb2.symm))
        rw [if_neg hne] at hF
        rw [hJ hactb t (by rw [← hF]; exact ht)]
        congr 1
        unfold pathOf
        by_cases ha : a = 0
        · obtain ⟨t', -, -, ho, -⟩ := hp rfl ha
          rw [if_neg (fun h => hab (ha.trans h.symm)), if_neg (fun h => hab (ha.trans h.symm)), ho]
        · obtain ⟨hv, -, h4⟩ := hq rfl ha
          rw [hv]
          split
          · rfl
          · rcases h4 with ⟨-, h5, -⟩ | ⟨t', -, -, -, h5⟩
            · rw [h5]
            · rw [h5]
              split
              · unfold upd1
                rw [if_neg (fun h => hab h.symm)]
              · rfl)
    l 0 (Sim.start nodes features cache) st ⟨⟨fun s hs => ⟨trivial, hs⟩, fun _ b _ s hs => ⟨trivial, hs⟩⟩, fun _ t ht => by
      have := hfeat b row s hrow hs t ht
      rw [this]
      unfold pathOf
      split <;> rfl⟩ h
  exact this.2 hact t ht

/-- So the claim is false in general: an agent whose latest move led to another state is not seen there by anybody. -/
theorem C123_unseen_refuted (hM : ∀ s x t, s < M.nS → x < M.nA → t < M.nS → 0 ≤ M.p s x t)
    (hrows : A.featIdx.Nodup) (features : Nat → Nat → K) (nodes : Nat → Int) (cache : QCache K)
    (hfeat : ∀ b row s, A.featIdx[b]? = some row → pyIdx M.nS (nodes b) = some s →
      ∀ t, features row t ≠ 0 → t = s)
    (l : List Nat) (st : Sim K)
    (h : Spec.follow (fun i a st => simMove o M A nF V N a (draws i) st) 0 l (Sim.start nodes features cache) =
      .ok (st, false))
    (b : Nat) (hb : b ≠ 0 → o.returnOthers = true) (row s : Nat) (hrow : A.featIdx[b]? = some row)
    (hs : pyIdx M.nS (nodes b) = some s) (hact : st.active b = true) (t : Nat)
    (hlast : (pathOf st b).getLast? = some t) (hmoved : t ≠ Spec.beforeLatest s (pathOf st b)) :
    pyIdx M.nS (st.nodes b) = some t ∧ st.features row t = 0 := by
  constructor
  · have := follow_invariant_free (move := fun i a st => simMove o M A nF V N a (draws i) st) _
      (fun i a st st' hP hm => walks_invariant hM nodes a (draws i) st st' false hP hm) l 0
      (Sim.start nodes features cache) st ⟨fun s hs => ⟨trivial, hs⟩, fun _ b _ s hs => ⟨trivial, hs⟩⟩ h
    have hl : (pathOf st b).getLastD s = t := by rw [List.getLastD_eq_getLast?, hlast]; rfl
    unfold pathOf at hl
    by_cases hb0 : b = 0
    · subst hb0
      rw [if_pos rfl] at hl
      rw [(this.1 s hs).2, hl]
    · rw [if_neg hb0] at hl
      rw [(this.2 (hb hb0) b hb0 s hs).2, hl]
  · by_contra hc
    exact hmoved (C123_stale hM hrows features nodes cache hfeat l st h b hb row s hrow hs hact t hc)

/-- Four states in a square, numbered `x + 2 y`: action 0 changes `x`, action 1 changes `y`. -/
def exSquare : Trans Rat := ⟨4, 2, fun s a t =>
  if (a = 0 ∧ t / 2 = s / 2 ∧ t % 2 ≠ s % 2) ∨ (a = 1 ∧ t / 2 ≠ s / 2 ∧ t % 2 = s % 2) then 1 else 0⟩

/-- Hare (the planning agent, row 1) and hunter (row 2, rewarded for row 1 only). -/
def exChase : List (AgentInfo Rat) :=
  [⟨3, 1, [], ⟨3, fun f => if f = 0 then 1 else 0⟩, 1⟩, ⟨0, 1, [1], ⟨3, fun f => if f = 1 then 10 else 0⟩, 2⟩]

/-- The features of the square with the hare at 3 and the hunter at 0. -/
def exChaseFeatures : Nat → Nat → Rat := fun f s => if (f = 1 ∧ s = 3) ∨ (f = 2 ∧ s = 0) then 1 else 0

/-- Moves of the hare and the hunter, and something about their end. -/
def exChaseRun (draws : Nat → Draw Rat) (p : Sim Rat → Bool) : Bool :=
  match extractInfo exChase with
  | .error _ => false
  | .ok A => match (mctsIteration exOpts exSquare A 3 exChaseFeatures A.nodes (fun _ => 0)
      (fun _ => 0) [[1], [1]] (fun _ _ => none) draws 30).2.2 with
    | some (.ok st) => p st
    | _ => false

theorem exSquare_far : Spec.Distance exSquare 0 1 1 ∧ Spec.Distance exSquare 2 1 2 := by
  refine ⟨⟨reaches_succ.2 ⟨0, 1, by decide, by decide, by decide +kernel, reaches_zero.2 rfl⟩, fun n hn hc => ?_⟩,
    ⟨reaches_succ.2 ⟨0, 3, by decide, by decide, by decide +kernel, reaches_succ.2 ⟨1, 1, by decide, by decide,
      by decide +kernel, reaches_zero.2 rfl⟩⟩, fun n hn hc => ?_⟩⟩
  · obtain rfl : n = 0 := by omega
    exact absurd (reaches_zero.1 hc) (by decide)
  · rcases (by omega : n = 0 ∨ n = 1) with rfl | rfl
    · exact absurd (reaches_zero.1 hc) (by decide)
    · obtain ⟨a, t, ha, ht, hp, h⟩ := reaches_succ.1 hc
      rw [reaches_zero.1 h] at hp
      have : ∀ a : Fin 2, exSquare.p 2 a 1 ≠ 1 := by decide +kernel
      exact this ⟨a, ha⟩ hp

/-- The claim is false. The hare goes from 3 to 1, next to the hunter at 0, which only wants to be where the hare is. The
hunter still sees the hare at 3, and with one of the two draws goes to 2: away from the hare. -/
theorem C123_refuted :
    exChaseRun (fun _ => ⟨1, 0⟩) (fun st => decide (st.visited = [1] ∧ st.others 1 = [2] ∧ st.active 1 = true)) = true ∧
    Spec.Distance exSquare 0 1 1 ∧ Spec.Distance exSquare 2 1 2 :=
  ⟨by decide +kernel, exSquare_far⟩

/-- With the hunter at state 1 of the chain and the hare's feature at state 0 the assumptions of `C123_partial` are met,
for some limit on the sweeps. -/
example : ∃ (o : MctsOpts ℝ) (A : SimAgents ℝ) (st st' : Sim ℝ), o.policy = .solve ∧ o.algorithm = .valueIteration ∧
    o.selection = .max ∧ o.caching = false ∧ o.viDiscount = 1 / 2 ∧ o.viTol = 1 / 100 ∧
    A.featIdx = [0, 1] ∧ A.rewards 1 0 = 1 ∧ A.rewards 1 1 = 0 ∧
    simMove o (chain2 ℝ) A 2 (fun _ => 0) (fun _ => 0) 1 ⟨0, 0⟩ st = .ok (st', false) ∧ st'.active 1 = true ∧
    (∀ t, t < 2 → st.features 0 t = if t = 0 then 1 else 0) ∧
    (∃ i, i < o.viMaxIter ∧ ∀ s, s < 2 →
      |Spec.sweeps (chain2 ℝ) (fun t => if t = 0 then 1 else 0) (1 / 2) (i + 1) s -
        Spec.sweeps (chain2 ℝ) (fun t => if t = 0 then 1 else 0) (1 / 2) i s| < 1 / 100) ∧
    st.nodes 1 = 1 ∧ Spec.Distance (chain2 ℝ) 1 0 1 := by
  have h2 : 0 < (chain2 ℝ).nA := by simp [chain2]
  obtain ⟨N, hN⟩ := C103_limit (chain2 ℝ) chain2_ok.1 h2 (fun t => if t = 0 then 1 else 0)
    (1 / 2) (1 / 100) (by norm_num) (by norm_num) (by norm_num)
  let o : MctsOpts ℝ :=
    { interactive := false, C := 1, caughtCost := -50, policy := .solve, algorithm := .valueIteration
      selection := .max, temperature := 1, caching := false, returnOthers := true, viMaxIter := N + 1
      viDiscount := 1 / 2, viTol := 1 / 100, bonus := fun _ _ => none, soft := fun _ _ _ _ => .nan }
  let A : SimAgents ℝ :=
    { n := 2, nodes := fun a => if a = 1 then 1 else 0, consumesAgents := fun _ _ => false
      consumesFeatures := fun _ _ => false, values := fun _ => 0, rewards := fun _ f => if f = 0 then 1 else 0
      featIdx := [0, 1] }
  let st : Sim ℝ := Sim.start A.nodes (fun f s => if f = 0 ∧ s = 0 then 1 else 0) fun _ _ => none
  have hlive : ∀ s, s < 2 → Spec.Live (chain2 ℝ) s := fun s hs => by
    rcases (by omega : s = 0 ∨ s = 1) with rfl | rfl
    · exact ⟨0, by simp [chain2], 1, by simp [chain2], by simp [chain2]⟩
    · exact ⟨1, by simp [chain2], 0, by simp [chain2], by simp [chain2]⟩
  have hok : SimOk o (chain2 ℝ) A 2 fun _ => True := {
    sub := chain2_ok.1
    live := fun s t _ h => hlive t h.1
    policy := .inr ⟨rfl, rfl, by norm_num [o], by norm_num [o], by simp [o], choiceWorks_max (.inl rfl) _⟩
    rows := fun a ha => by
      have ha' : a < 2 := ha
      rcases (by omega : a = 0 ∨ a = 1) with rfl | rfl
      · exact ⟨0, rfl, by omega⟩
      · exact ⟨1, rfl, by omega⟩
    cares := fun a _ _ => List.ne_nil_of_mem (a := 0) (by
      unfold preferences
      rw [mem_npWhere]
      exact ⟨by omega, by simp [A]⟩)
    one := fun _ _ h => by cases h }
  have hinv : SimInv o (chain2 ℝ) A st := by
    refine ⟨fun a ha => ?_, fun a key q h => by cases h⟩
    have ha' : a < 2 := ha
    rcases (by omega : a = 0 ∨ a = 1) with rfl | rfl
    · exact ⟨0, rfl, hlive 0 (by omega)⟩
    · exact ⟨1, rfl, hlive 1 (by omega)⟩
  have hmove : ∃ st', simMove o (chain2 ℝ) A 2 (fun _ => 0) (fun _ => 0) 1 ⟨0, 0⟩ st = .ok (st', false) := by
    obtain ⟨st', c, e, -⟩ := simMove_ok (V := fun _ => 0) (N := fun _ => 0) hok (a := 1) (by simp [A]) (d := ⟨0, 0⟩)
      trivial hinv
    obtain ⟨row, here, -, -, -, hc, -⟩ := simMove_cases e
    have : c = false := hc
    rw [this] at e
    exact ⟨st', e⟩
  obtain ⟨st', hst'⟩ := hmove
  refine ⟨o, A, st, st', rfl, rfl, rfl, rfl, rfl, rfl, rfl, ?_, ?_, hst', ?_, ?_, hN (N + 1) (by omega), rfl, ?_⟩
  · simp [A]
  · simp [A]
  · obtain ⟨row, here, -, -, -, -, hac, -⟩ := simMove_cases hst'
    rw [hac]
    rfl
  · intro t _
    simp [st, Sim.start]
  · refine ⟨⟨[(1, 0)], by simp [Spec.Plays, chain2], rfl, rfl⟩, fun n hn => ?_⟩
    have : n = 0 := by omega
    subst this
    rw [reaches_zero]
    omega

end MaMDP
