import Verif.Lemmas.MCTS

/-! Lemmas for tree search: the order of moves. -/

set_option linter.unusedSectionVars false

namespace MaMDP

variable {K : Type} [Field K] [LinearOrder K] [IsStrictOrderedRing K]

/-! ### Slots: turn `i / n` of agent `i % n` -/

theorem flatMap_slots {α : Type} (n : Nat) (f : Nat → Nat → List α) (T : Nat) :
    ((List.range T).flatMap fun t => (List.range n).flatMap fun a => f t a) =
      (List.range (T * n)).flatMap fun i => f (i / n) (i % n) := by
  induction T with
  | zero => simp
  | succ T ih =>
    rw [List.range_succ, List.flatMap_append, ih, Nat.succ_mul, List.range_add, List.flatMap_append]
    congr 1
    rw [List.flatMap_singleton, List.flatMap_map]
    refine List.flatMap_congr fun a ha => ?_
    have ha' := List.mem_range.1 ha
    have hn : 0 < n := by omega
    rw [Nat.mul_comm T n, Nat.mul_add_div hn, Nat.mul_add_mod, Nat.div_eq_of_lt ha', Nat.mod_eq_of_lt ha', Nat.add_zero]

/-- The moves planned for slot `i`. -/
def slotMoves (plan : List (List Nat)) (n i : Nat) : Nat := (plan.getD (i % n) []).getD (i / n) 0

/-- The movers from slot `i` on, of `L` slots. -/
def slotsFrom (plan : List (List Nat)) (n L i : Nat) : List Nat :=
  (List.range' i (L - i)).flatMap fun j => List.replicate (slotMoves plan n j) (j % n)

theorem slotsFrom_step {plan : List (List Nat)} {n L i : Nat} (h : i < L) :
    slotsFrom plan n L i = List.replicate (slotMoves plan n i) (i % n) ++ slotsFrom plan n L (i + 1) := by
  unfold slotsFrom
  obtain ⟨k, hk⟩ : ∃ k, L - i = k + 1 := ⟨L - i - 1, by omega⟩
  rw [hk, List.range'_succ, List.flatMap_cons, show L - (i + 1) = k by omega]

theorem slotsFrom_end {plan : List (List Nat)} {n L i : Nat} (h : L ≤ i) : slotsFrom plan n L i = [] := by
  unfold slotsFrom
  rw [show L - i = 0 by omega]
  rfl

theorem schedule_eq (plan : List (List Nat)) (T : Nat) :
    Spec.schedule plan T = slotsFrom plan plan.length (T * plan.length) 0 := by
  unfold Spec.schedule slotsFrom
  rw [flatMap_slots plan.length (fun t a => List.replicate ((plan.getD a []).getD t 0) a)]
  rw [Nat.sub_zero, List.range_eq_range']
  rfl

theorem sum_map_range_getD : ∀ (l : List Nat), ((List.range l.length).map fun t => l.getD t 0).sum = l.sum := by
  intro l
  induction l with
  | nil => rfl
  | cons x l ih =>
    rw [List.length_cons, List.range_succ_eq_map, List.map_cons, List.map_map, List.sum_cons, List.sum_cons]
    congr 1

theorem sum_swap (f : Nat → Nat → Nat) (T : Nat) : ∀ n, ((List.range T).map fun t => ((List.range n).map fun a => f t a).sum).sum =
    ((List.range n).map fun a => ((List.range T).map fun t => f t a).sum).sum := by
  intro n
  induction n with
  | zero => simp
  | succ n ih =>
    simp only [List.range_succ, List.map_append, List.map_cons, List.map_nil, List.sum_append, List.sum_cons,
      List.sum_nil, Nat.add_zero]
    rw [← ih, ← List.sum_map_add]

theorem sum_map_range_rows (g : List Nat → Nat) : ∀ (plan : List (List Nat)),
    ((List.range plan.length).map fun a => g (plan.getD a [])).sum = (plan.map g).sum := by
  intro l
  induction l with
  | nil => rfl
  | cons x l ih =>
    rw [List.length_cons, List.range_succ_eq_map, List.map_cons, List.map_map, List.map_cons, List.sum_cons, List.sum_cons]
    congr 1

theorem length_schedule (plan : List (List Nat)) (T : Nat) (h : ∀ l ∈ plan, l.length = T) :
    (Spec.schedule plan T).length = (plan.map List.sum).sum := by
  unfold Spec.schedule
  simp only [List.length_flatMap, List.length_replicate]
  rw [sum_swap (fun t a => (plan.getD a []).getD t 0), ← sum_map_range_rows List.sum plan]
  congr 1
  apply List.map_congr_left
  intro a ha
  have ha' := List.mem_range.1 ha
  have hl : (plan.getD a []).length = T := by
    rw [List.getD_eq_getElem?_getD, List.getElem?_eq_getElem ha']
    exact h _ (List.getElem_mem ha')
  rw [← hl, sum_map_range_getD]

/-! ### The clock -/

/-- The clock stands in slot `i` with `m` moves made there. -/
def ClockAt (n i m : Nat) (c : Clock) : Prop :=
  c.actor = i % n ∧ (∀ b, b < n → c.turns b = i / n + if b < i % n then 1 else 0) ∧
    (∀ b, b < n → c.moves b = if b = i % n then m else 0)

theorem div_mod_succ {n i : Nat} (hn : 0 < n) :
    (i % n < n - 1 ∧ (i + 1) % n = i % n + 1 ∧ (i + 1) / n = i / n) ∨
    (i % n = n - 1 ∧ (i + 1) % n = 0 ∧ (i + 1) / n = i / n + 1) := by
  have h1 := Nat.mod_lt i hn
  have h2 := Nat.div_add_mod i n
  generalize i % n = r at h1 h2 ⊢
  generalize i / n = q at h2 ⊢
  by_cases h : r < n - 1
  · left
    have hi : i + 1 = n * q + (r + 1) := by omega
    refine ⟨h, ?_, ?_⟩
    · rw [hi, Nat.mul_add_mod, Nat.mod_eq_of_lt (by omega)]
    · rw [hi, Nat.mul_add_div hn, Nat.div_eq_of_lt (by omega), Nat.add_zero]
  · right
    have h4 : i + 1 = n * (q + 1) := by rw [Nat.mul_add]; omega
    refine ⟨by omega, ?_, ?_⟩
    · rw [h4, Nat.mul_mod_right]
    · rw [h4, Nat.mul_div_cancel_left _ hn]

theorem clock_pass {n i m k : Nat} (hn : 0 < n) {c : Clock} (h : ClockAt n i m c) :
    (c.pass n k).total = c.total ∧ (m = k → ClockAt n (i + 1) 0 (c.pass n k)) ∧
    (m ≠ k → ClockAt n i m (c.pass n k)) := by
  obtain ⟨h1, h2, h3⟩ := h
  have hlt := Nat.mod_lt i hn
  have hm : c.moves c.actor = m := by rw [h1, h3 _ hlt, if_pos rfl]
  unfold Clock.pass
  rw [hm]
  refine ⟨by split_ifs <;> rfl, fun hk => ?_, fun hk => ?_⟩
  · rw [if_pos hk]
    rcases div_mod_succ (i := i) hn with ⟨g1, g2, g3⟩ | ⟨g1, g2, g3⟩
    · refine ⟨?_, fun b hb => ?_, fun b hb => ?_⟩
      · show (if c.actor < n - 1 then c.actor + 1 else 0) = _
        rw [h1, if_pos g1, g2]
      · show upd1 c.turns c.actor _ b = _
        unfold upd1
        rw [h1, g2, g3]
        by_cases hbi : b = i % n
        · rw [if_pos hbi, h2 _ hlt]; simp [hbi]
        · rw [if_neg hbi, h2 b hb]
          have : b < i % n ↔ b < i % n + 1 := by omega
          simp [this]
      · show upd1 c.moves c.actor 0 b = _
        unfold upd1
        rw [h1]
        by_cases hbi : b = i % n
        · rw [if_pos hbi]; split_ifs <;> rfl
        · rw [if_neg hbi, h3 b hb, if_neg hbi]; split_ifs <;> rfl
    · refine ⟨?_, fun b hb => ?_, fun b hb => ?_⟩
      · show (if c.actor < n - 1 then c.actor + 1 else 0) = _
        rw [h1, if_neg (by omega), g2]
      · show upd1 c.turns c.actor _ b = _
        unfold upd1
        rw [h1, g2, g3]
        by_cases hbi : b = i % n
        · rw [if_pos hbi, h2 _ hlt]; simp
        · rw [if_neg hbi, h2 b hb, if_pos (by omega)]; simp
      · show upd1 c.moves c.actor 0 b = _
        unfold upd1
        rw [h1]
        by_cases hbi : b = i % n
        · rw [if_pos hbi]; split_ifs <;> rfl
        · rw [if_neg hbi, h3 b hb, if_neg hbi]; split_ifs <;> rfl
  · rw [if_neg hk]
    exact ⟨h1, h2, h3⟩

theorem clock_tick {n i m : Nat} (hn : 0 < n) {c : Clock} (h : ClockAt n i m c) :
    ClockAt n i (m + 1) c.tick ∧ c.tick.total = c.total + 1 := by
  obtain ⟨h1, h2, h3⟩ := h
  refine ⟨⟨h1, h2, fun b hb => ?_⟩, rfl⟩
  show upd1 c.moves c.actor _ b = _
  unfold upd1
  rw [h1]
  by_cases hbi : b = i % n
  · rw [if_pos hbi, if_pos hbi, h3 _ (Nat.mod_lt i hn), if_pos rfl]
  · rw [if_neg hbi, if_neg hbi, h3 b hb, if_neg hbi]

theorem clock_planned {plan : List (List Nat)} {n T i m : Nat} {c : Clock} (hn : 0 < n) (hl : plan.length = n)
    (hT : ∀ l ∈ plan, l.length = T) (hi : i < T * n) (h : ClockAt n i m c) :
    c.planned plan = .ok (slotMoves plan n i) := by
  obtain ⟨h1, h2, -⟩ := h
  have hlt := Nat.mod_lt i hn
  have hdiv : i / n < T := Nat.div_lt_of_lt_mul (by rw [Nat.mul_comm]; exact hi)
  have hrow : plan[i % n]? = some plan[i % n] := List.getElem?_eq_getElem (by omega)
  have hcol := hT _ (List.getElem_mem (show i % n < plan.length by omega))
  unfold Clock.planned slotMoves
  rw [h1, hrow]
  dsimp only
  rw [h2 _ hlt, if_neg (by omega), Nat.add_zero, List.getElem?_eq_getElem (by rw [hcol]; exact hdiv)]
  dsimp only
  rw [List.getD_eq_getElem?_getD, List.getD_eq_getElem?_getD, hrow, Option.getD_some, List.getElem?_eq_getElem (by rw [hcol]; exact hdiv)]
  rfl

/-- The loop from slot `i` with `m` moves made there. -/
theorem simLoop_slots {o : MctsOpts K} {M : Trans K} {A : SimAgents K} {nF : Nat} {V : Nat → K} {N : Nat → Nat}
    {plan : List (List Nat)} {draws : Nat → Draw K} {T : Nat} (hint : o.interactive = true) (hn : 0 < A.n)
    (hl : plan.length = A.n) (hT : ∀ l ∈ plan, l.length = T) :
    ∀ (fuel i m : Nat) (c : Clock) (st : Sim K), i < T * A.n → ClockAt A.n i m c →
      (m < slotMoves plan A.n i ∨ (slotMoves plan A.n i = 0 ∧ m = 0)) →
      c.total + (slotMoves plan A.n i - m) + (slotsFrom plan A.n (T * A.n) (i + 1)).length = (plan.map List.sum).sum →
      (slotMoves plan A.n i - m) + (slotsFrom plan A.n (T * A.n) (i + 1)).length + (T * A.n - i) + 1 ≤ fuel →
      simLoop o M A nF V N plan draws fuel c st =
        some (Spec.outcome (Spec.follow (fun i a st => simMove o M A nF V N a (draws i) st) c.total
          (List.replicate (slotMoves plan A.n i - m) (i % A.n) ++ slotsFrom plan A.n (T * A.n) (i + 1)) st)) := by
  intro fuel
  induction fuel with
  | zero => intro i m c st _ _ _ _ h; omega
  | succ fuel ih =>
    intro i m c st hi hc hm htot hfuel
    -- moving on to the next slot
    have hnext : ∀ (c' : Clock) (st' : Sim K), ClockAt A.n (i + 1) 0 c' →
        c'.total + (slotsFrom plan A.n (T * A.n) (i + 1)).length = (plan.map List.sum).sum →
        (slotsFrom plan A.n (T * A.n) (i + 1)).length + (T * A.n - i) ≤ fuel →
        simLoop o M A nF V N plan draws fuel c' st' =
          some (Spec.outcome (Spec.follow (fun i a st => simMove o M A nF V N a (draws i) st) c'.total
            (slotsFrom plan A.n (T * A.n) (i + 1)) st')) := by
      intro c' st' hc' ht hf
      by_cases hlast : i + 1 < T * A.n
      · rw [slotsFrom_step hlast] at ht hf ⊢
        rw [List.length_append, List.length_replicate] at ht hf
        have := ih (i + 1) 0 c' st' hlast hc' (by omega) (by simpa [Nat.add_assoc] using ht) (by simp only [Nat.sub_zero]; omega)
        rw [this, Nat.sub_zero]
      · rw [slotsFrom_end (by omega)] at ht hf ⊢
        simp only [List.length_nil, Nat.add_zero, Nat.zero_add] at ht hf
        obtain ⟨f, rfl⟩ : ∃ f, fuel = f + 1 := ⟨fuel - 1, by omega⟩
        unfold simLoop
        rw [if_neg (by omega)]
        rfl
    have hstep : simLoop o M A nF V N plan draws (fuel + 1) c st =
      if c.total < (plan.map List.sum).sum then
        match c.planned plan with
        | .error e => some (.error e)
        | .ok k =>
          if 0 < k then match simMove o M A nF V N c.actor (draws c.total) st with
            | .error e => some (.error e)
            | .ok (st, true) => some (.ok st)
            | .ok (st, false) =>
              simLoop o M A nF V N plan draws fuel (if o.interactive then c.tick.pass A.n k else c.tick) st
          else simLoop o M A nF V N plan draws fuel (if o.interactive then c.pass A.n k else c) st
      else some (.ok st) := rfl
    rw [hstep]
    by_cases hend : (slotMoves plan A.n i - m) + (slotsFrom plan A.n (T * A.n) (i + 1)).length = 0
    · rw [if_neg (by omega)]
      have h1 : slotMoves plan A.n i - m = 0 := by omega
      have h2 : slotsFrom plan A.n (T * A.n) (i + 1) = [] := List.length_eq_zero_iff.1 (by omega)
      rw [h1, h2]
      rfl
    · rw [if_pos (by omega), clock_planned hn hl hT hi hc]
      dsimp only
      rw [hint]
      rcases hm with hm | ⟨hy, rfl⟩
      · rw [if_pos (by omega)]
        obtain ⟨r, hr⟩ : ∃ r, slotMoves plan A.n i - m = r + 1 := ⟨slotMoves plan A.n i - m - 1, by omega⟩
        rw [hr, List.replicate_succ, List.cons_append]
        have hact : c.actor = i % A.n := hc.1
        unfold Spec.follow
        rw [hact]
        cases hmv : simMove o M A nF V N (i % A.n) (draws c.total) st with
        | error e => rfl
        | ok p =>
          obtain ⟨st', caught⟩ := p
          cases caught with
          | true => rfl
          | false =>
            dsimp only
            rw [if_pos rfl]
            obtain ⟨ht1, ht2⟩ := clock_tick hn hc
            obtain ⟨hp1, hp2, hp3⟩ := clock_pass (k := slotMoves plan A.n i) hn ht1
            by_cases hk : m + 1 = slotMoves plan A.n i
            · have hr0 : r = 0 := by omega
              subst hr0
              have := hnext _ st' (hp2 hk) (by rw [hp1, ht2]; omega) (by omega)
              rw [this, hp1, ht2]
              rfl
            · have := ih i (m + 1) _ st' hi (hp3 hk) (.inl (by omega)) (by rw [hp1, ht2]; omega) (by omega)
              rw [this, hp1, ht2, show slotMoves plan A.n i - (m + 1) = r by omega]
      · rw [if_neg (by omega), if_pos rfl]
        obtain ⟨hp1, hp2, -⟩ := clock_pass (k := slotMoves plan A.n i) hn hc
        have := hnext _ st (hp2 hy.symm) (by rw [hp1]; omega) (by omega)
        rw [this, hp1, hy]
        rfl

theorem simLoop_schedule {o : MctsOpts K} {M : Trans K} {A : SimAgents K} {nF : Nat} {V : Nat → K} {N : Nat → Nat}
    {plan : List (List Nat)} {draws : Nat → Draw K} {T : Nat} (hint : o.interactive = true) (hn : 0 < A.n)
    (hl : plan.length = A.n) (hT : ∀ l ∈ plan, l.length = T) (fuel : Nat)
    (hf : (plan.map List.sum).sum + A.n * T + 1 ≤ fuel) (st : Sim K) :
    simLoop o M A nF V N plan draws fuel .start st =
      some (Spec.outcome (Spec.follow (fun i a st => simMove o M A nF V N a (draws i) st) 0
        (Spec.schedule plan T) st)) := by
  have hlen := length_schedule plan T hT
  rw [schedule_eq, hl] at hlen
  rw [schedule_eq, hl]
  by_cases h0 : 0 < T * A.n
  · rw [slotsFrom_step h0, List.length_append, List.length_replicate] at hlen
    have := simLoop_slots (V := V) (N := N) (nF := nF) (M := M) (draws := draws) hint hn hl hT fuel 0 0 .start st h0
      ⟨by simp [Clock.start], fun b _ => by simp [Clock.start], fun b _ => by show (0 : Nat) = _; split_ifs <;> rfl⟩ (by omega)
      (by simpa [Clock.start] using hlen) (by rw [Nat.mul_comm A.n T] at hf; simp only [Nat.sub_zero]; omega)
    rw [this, slotsFrom_step h0, Nat.sub_zero]
    rfl
  · rw [slotsFrom_end (by omega)] at hlen ⊢
    obtain ⟨f, rfl⟩ : ∃ f, fuel = f + 1 := ⟨fuel - 1, by omega⟩
    unfold simLoop
    rw [if_neg (by rw [← hlen]; simp)]
    rfl

/-! ### What one move does -/

theorem consumeAt_same {caching : Bool} {A : SimAgents K} {nF a t : Nat} {st st' : Sim K}
    (h : consumeAt caching A nF a st t = .ok st') :
    st'.expand = st.expand ∧ st'.acc = st.acc ∧ st'.visited = st.visited ∧ st'.nodes = st.nodes ∧
      st'.others = st.others ∧ st'.active = st.active ∧ st'.cache = st.cache ∧
      st'.features = fun f s => if A.consumesFeatures a f = true ∧ s = t then 0 else st.features f s := by
  unfold consumeAt at h
  split at h
  · split at h
    · cases h; exact ⟨rfl, rfl, rfl, rfl, rfl, rfl, rfl, rfl⟩
    · cases h; exact ⟨rfl, rfl, rfl, rfl, rfl, rfl, rfl, rfl⟩
    · cases h
  · cases h; exact ⟨rfl, rfl, rfl, rfl, rfl, rfl, rfl, rfl⟩

theorem opponentNext_any {o : MctsOpts K} {M : Trans K} {nF : Nat} {w : Nat → K} {features : Nat → Nat → K}
    {s : Nat} {q q' : Option (QTable K)} {d : Draw K} {t : Nat} (hs : s < M.nS)
    (h : opponentNext o M nF w features s q d = .ok (t, q')) : Spec.Successor M s t := by
  unfold opponentNext at h
  have hlt : t < M.nS ∧ ((List.range M.nA).any fun a => decide (0 < M.p s a t)) = true := by
    cases hp : o.policy with
    | random =>
      rw [hp] at h
      dsimp only at h
      cases hr : rngChoice (nextStates M s) d.pick with
      | error e => rw [hr] at h; cases h
      | ok t' =>
        rw [hr] at h
        dsimp only at h
        split at h
        · rename_i hany
          cases h
          exact ⟨(mem_nextStates.1 (rngChoice_mem hr)).1, hany⟩
        · cases h
    | solve =>
      rw [hp] at h
      dsimp only at h
      cases hq : opponentQ o M nF w features q with
      | error e => rw [hq] at h; cases h
      | ok Q =>
        rw [hq] at h
        dsimp only at h
        cases hr : opponentAction o M Q s d with
        | error e => rw [hr] at h; cases h
        | ok a =>
          rw [hr] at h
          dsimp only at h
          split at h
          · rename_i hany
            cases h
            exact ⟨npArgmax_lt _ (by omega), hany⟩
          · cases h
    | other => rw [hp] at h; cases h
  refine ⟨hlt.1, ?_⟩
  obtain ⟨x, hx, hp⟩ := List.any_eq_true.1 hlt.2
  exact ⟨x, List.mem_range.1 hx, of_decide_eq_true hp⟩

theorem nextNode_mem {bonus : Nat → Nat → Option K} {expand : Bool} {V : Nat → K} {N : Nat → Nat} {states : List Nat}
    {C : K} {node d t : Nat} {x : Bool} (h : nextNode bonus expand V N states C node d = .ok (t, x)) : t ∈ states := by
  unfold nextNode at h
  split at h
  · split at h
    · cases h
    · rename_i t' ht
      cases h
      exact (List.mem_filter.1 (rngChoice_mem ht)).1
  · split at h
    · split at h
      · cases h
      · rename_i t' ht
        cases h
        exact List.mem_of_getElem? ht
    · split at h
      · cases h
      · rename_i t' ht
        cases h
        exact rngChoice_mem ht

theorem simMove_cases {o : MctsOpts K} {M : Trans K} {A : SimAgents K} {nF : Nat} {V : Nat → K} {N : Nat → Nat}
    {a : Nat} {d : Draw K} {st st' : Sim K} {c : Bool} (h : simMove o M A nF V N a d st = .ok (st', c)) :
    ∃ row here, A.featIdx[a]? = some row ∧ row < nF ∧ pyIdx M.nS (st.nodes a) = some here ∧
      c = (checkResult o A st).2.2 ∧ st'.active = (checkResult o A st).2.1 ∧
      (c = true → st'.visited = st.visited ∧ st'.others = st.others ∧ st'.nodes = st.nodes ∧
        st'.acc = st.acc + (checkResult o A st).1) ∧
      (c = false → a = 0 → ∃ t, t ∈ nextStates M here ∧ st'.visited = st.visited ++ [t] ∧ st'.others = st.others ∧
        st'.nodes = upd1 st.nodes 0 (t : Int) ∧
        st'.acc = st.acc + (checkResult o A st).1 + stateReward nF (A.rewards 0)
          (fun f s => if f = row then (if s = here then 1 else 0) else st.features f s) t) ∧
      (c = false → a ≠ 0 → st'.visited = st.visited ∧ st'.acc = st.acc + (checkResult o A st).1 ∧
        ((st'.active a = false ∧ st'.others = st.others ∧ st'.nodes = st.nodes) ∨
          ∃ t, st'.active a = true ∧ Spec.Successor M here t ∧ st'.nodes = upd1 st.nodes a (t : Int) ∧
            st'.others = if o.returnOthers then upd1 st.others a (st.others a ++ [t]) else st.others)) := by
  unfold simMove at h
  split at h
  · rename_i row here h1 h2
    split at h
    · cases h
    · rename_i h3
      dsimp only at h
      generalize checkResult o A st = r at h ⊢
      refine ⟨row, here, h1, by omega, h2, ?_⟩
      split at h
      · rename_i hc
        cases h
        exact ⟨hc.symm, rfl, fun _ => ⟨rfl, rfl, rfl, rfl⟩, fun h => absurd h (by simp), fun h => absurd h (by simp)⟩
      · rename_i hc
        have hc' : r.2.2 = false := by simpa using hc
        split at h
        · cases h
        · rename_i st'' hm
          cases h
          by_cases ha : a = 0
          · rw [if_pos ha] at hm
            unfold primaryMove at hm
            split at hm
            · cases hm
            · rename_i t ex hn
              have hmem := nextNode_mem hn
              have hst : st'.visited = st.visited ++ [t] ∧ st'.others = st.others ∧
                  st'.nodes = upd1 st.nodes 0 (t : Int) ∧ st'.active = r.2.1 ∧
                  st'.acc = st.acc + r.1 + stateReward nF (A.rewards 0)
                    (fun f s => if f = row then (if s = here then 1 else 0) else st.features f s) t := by
                dsimp only at hm
                split at hm
                · obtain ⟨-, g2, g3, g4, g5, g6, -⟩ := consumeAt_same hm
                  exact ⟨g3, g5, g4, g6, g2⟩
                · cases hm
                  exact ⟨rfl, rfl, rfl, rfl, rfl⟩
              exact ⟨hc'.symm, hst.2.2.2.1, fun h => absurd h (by simp),
                fun _ _ => ⟨t, hmem, hst.1, hst.2.1, hst.2.2.1, hst.2.2.2.2⟩, fun _ h => absurd ha h⟩
          · rw [if_neg ha] at hm
            unfold otherMove at hm
            dsimp only at hm
            split at hm
            · rename_i hact
              split at hm
              · cases hm
              · rename_i t cache hopp
                obtain ⟨-, g2, g3, g4, g5, g6, -⟩ := consumeAt_same hm
                have hsucc : Spec.Successor M here t := by
                  unfold opponentMove at hopp
                  split at hopp
                  · cases hopp
                  · split at hopp
                    · split at hopp
                      · cases hopp
                      · rename_i hon
                        cases hopp
                        exact opponentNext_any (pyIdx_lt h2) hon
                    · split at hopp
                      · cases hopp
                      · rename_i hon
                        cases hopp
                        exact opponentNext_any (pyIdx_lt h2) hon
                exact ⟨hc'.symm, g6, fun h => absurd h (by simp), fun _ h => absurd h ha,
                  fun _ _ => ⟨g3, g2, .inr ⟨t, by rw [g6]; exact hact, hsucc, g4, g5⟩⟩⟩
            · rename_i hact
              cases hm
              exact ⟨hc'.symm, rfl, fun h => absurd h (by simp), fun _ h => absurd h ha,
                fun _ _ => ⟨rfl, rfl, .inl ⟨by simpa using hact, rfl, rfl⟩⟩⟩
  · cases h

/-- A property of the state of an iteration kept by every move is kept by the loop. -/
theorem simLoop_invariant {o : MctsOpts K} {M : Trans K} {A : SimAgents K} {nF : Nat} {V : Nat → K} {N : Nat → Nat}
    {plan : List (List Nat)} {draws : Nat → Draw K} (P : Sim K → Prop)
    (hP : ∀ a d st st' c, P st → simMove o M A nF V N a d st = .ok (st', c) → P st') :
    ∀ (fuel : Nat) (c : Clock) (st st' : Sim K), P st →
      simLoop o M A nF V N plan draws fuel c st = some (.ok st') → P st' := by
  intro fuel
  induction fuel with
  | zero => intro c st st' _ h; cases h
  | succ fuel ih =>
    intro c st st' hst h
    unfold simLoop at h
    split at h
    · split at h
      · cases h
      · split at h
        · split at h
          · cases h
          · rename_i hm; cases h; exact hP _ _ _ _ _ hst hm
          · rename_i hm; exact ih _ _ _ (hP _ _ _ _ _ hst hm) h
        · exact ih _ _ _ hst h
    · cases h; exact hst

theorem follow_invariant {σ : Type} {move : Nat → Nat → σ → Py (σ × Bool)} (P : σ → Prop)
    (hP : ∀ i a st st' c, P st → move i a st = .ok (st', c) → P st') :
    ∀ (l : List Nat) (i : Nat) (st st' : σ) (c : Bool), P st → Spec.follow move i l st = .ok (st', c) → P st' := by
  intro l
  induction l with
  | nil => intro i st st' c h h'; cases h'; exact h
  | cons a l ih =>
    intro i st st' c h h'
    unfold Spec.follow at h'
    split at h'
    · cases h'
    · rename_i hm; cases h'; exact hP _ _ _ _ _ h hm
    · rename_i hm; exact ih _ _ _ _ (hP _ _ _ _ _ h hm) h'

/-- Counting moves: a number that grows by one with every uncaught move of agent `a` while `act` holds. -/
theorem follow_count {σ : Type} {move : Nat → Nat → σ → Py (σ × Bool)} (a : Nat) (g : σ → Nat) (act : σ → Prop)
    (hact : ∀ i b st st' c, move i b st = .ok (st', c) → act st' → act st)
    (hg : ∀ i b st st' c, move i b st = .ok (st', c) →
      g st' ≤ g st + (if b = a then 1 else 0) ∧ (c = false → act st' → g st' = g st + if b = a then 1 else 0)) :
    ∀ (l : List Nat) (i : Nat) (st st' : σ) (c : Bool), Spec.follow move i l st = .ok (st', c) →
      g st' ≤ g st + l.count a ∧ (act st' → act st ∧ (c = false → g st' = g st + l.count a)) := by
  intro l
  induction l with
  | nil => intro i st st' c h; cases h; exact ⟨by simp, fun h => ⟨h, fun _ => by simp⟩⟩
  | cons b l ih =>
    intro i st st' c h
    unfold Spec.follow at h
    have hcnt : (b :: l).count a = l.count a + if b = a then 1 else 0 := by
      rw [List.count_cons]
      simp
    rw [hcnt]
    split at h
    · cases h
    · rename_i hm
      cases h
      obtain ⟨h1, -⟩ := hg _ _ _ _ _ hm
      exact ⟨by omega, fun h => ⟨hact _ _ _ _ _ hm h, fun h => absurd h (by simp)⟩⟩
    · rename_i hm
      obtain ⟨h1, h1'⟩ := hg _ _ _ _ _ hm
      obtain ⟨h2, h3⟩ := ih _ _ _ _ h
      refine ⟨by omega, fun hx => ?_⟩
      obtain ⟨h4, h5⟩ := h3 hx
      exact ⟨hact _ _ _ _ _ hm h4, fun hc => by have := h5 hc; have := h1' rfl h4; omega⟩

theorem follow_sum {σ : Type} {move : Nat → Nat → σ → Py (σ × Bool)} (g : σ → K) (f : Nat → σ → σ → K)
    (hg : ∀ i a st st', move i a st = .ok (st', false) → g st' = g st + f a st st') :
    ∀ (l : List Nat) (i : Nat) (st st' : σ), Spec.follow move i l st = .ok (st', false) →
      g st' = g st + ((Spec.steps move i l st).map fun x => f x.1 x.2.1 x.2.2).sum := by
  intro l
  induction l with
  | nil => intro i st st' h; cases h; simp [Spec.steps]
  | cons a l ih =>
    intro i st st' h
    unfold Spec.follow at h
    unfold Spec.steps
    split at h
    · cases h
    · cases h
    · rename_i st1 hm
      rw [ih _ _ _ h, hg _ _ _ _ hm, hm]
      simp [add_assoc]

theorem count_schedule (plan : List (List Nat)) (T : Nat) (h : ∀ l ∈ plan, l.length = T) (a : Nat)
    (ha : a < plan.length) : (Spec.schedule plan T).count a = (plan.getD a []).sum := by
  have hl : (plan.getD a []).length = T := by
    rw [List.getD_eq_getElem?_getD, List.getElem?_eq_getElem ha]
    exact h _ (List.getElem_mem ha)
  unfold Spec.schedule
  rw [← sum_map_range_getD (plan.getD a []), hl, List.count_flatMap]
  congr 1
  apply List.map_congr_left
  intro t _
  show List.count a (List.flatMap _ _) = _
  rw [List.count_flatMap]
  have : ∀ n, ((List.range n).map (List.count a ∘ fun b => List.replicate ((plan.getD b []).getD t 0) b)).sum =
      if a < n then (plan.getD a []).getD t 0 else 0 := by
    intro n
    induction n with
    | zero => simp
    | succ n ih =>
      rw [List.range_succ, List.map_append, List.sum_append, ih]
      simp only [List.map_cons, List.map_nil, List.sum_cons, List.sum_nil, Nat.add_zero, Function.comp_apply,
        List.count_replicate, beq_iff_eq]
      rcases Nat.lt_trichotomy a n with h | h | h
      · rw [if_pos h, if_neg (by omega), if_pos (by omega), Nat.add_zero]
      · subst h; simp
      · rw [if_neg (by omega), if_neg (by omega), if_neg (by omega)]
  rw [this, if_pos ha]

theorem overlapLoop_active (nodes : Nat → Int) (cost : K) (values : Nat → K) (j : Nat) :
    ∀ (l : List (Nat × Nat)) (added : K) (active : Nat → Bool),
      (overlapLoop nodes cost values l added active).2.1 j = true → active j = true := by
  intro l
  induction l with
  | nil => intro added active h; exact h
  | cons p l ih =>
    obtain ⟨x, y⟩ := p
    intro added active h
    unfold overlapLoop at h
    have hu : upd1 active y false j = true → active j = true := by
      unfold upd1
      split_ifs
      · intro h; cases h
      · exact id
    split at h
    · dsimp only at h
      split at h
      · exact hu h
      · exact hu (ih _ _ h)
    · exact ih _ _ h

theorem checkResult_active {o : MctsOpts K} {A : SimAgents K} {st : Sim K} {j : Nat}
    (h : (checkResult o A st).2.1 j = true) : st.active j = true := by
  unfold checkResult at h
  split at h
  · exact overlapLoop_active _ _ _ _ _ _ _ h
  · exact h

theorem walk_append {M : Trans K} : ∀ {l : List Nat} {s t : Nat}, Spec.Walk M s l →
    Spec.Successor M (l.getLastD s) t → Spec.Walk M s (l ++ [t]) := by
  intro l
  induction l with
  | nil => intro s t _ h; exact ⟨h, trivial⟩
  | cons x l ih =>
    intro s t h h'
    exact ⟨h.1, ih h.2 (by rw [List.getLastD_cons] at h'; exact h')⟩

theorem walk_states {M : Trans K} (P : Nat → Prop) (hP : ∀ s t, s < M.nS → Spec.Successor M s t → P t) :
    ∀ {l : List Nat} {s : Nat}, s < M.nS → Spec.Walk M s l → ∀ t ∈ l, t < M.nS ∧ P t := by
  intro l
  induction l with
  | nil => intro s _ _ t ht; cases ht
  | cons x l ih =>
    intro s hs h t ht
    rcases List.mem_cons.1 ht with rfl | ht
    · exact ⟨h.1.1, hP s t hs h.1⟩
    · exact ih h.1.1 h.2 t ht

theorem pyIdx_natCast {n t : Nat} (h : t < n) : pyIdx n (t : Int) = some t := by
  unfold pyIdx
  split_ifs <;> first | omega | simp

end MaMDP
