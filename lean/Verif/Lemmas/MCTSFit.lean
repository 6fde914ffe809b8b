import Verif.Lemmas.MCTSCache
import Verif.Lemmas.ActionSelection

/-! Lemmas for tree search: when it succeeds. -/

set_option linter.unusedSectionVars false

namespace MaMDP

variable {K : Type} [Field K] [LinearOrder K] [IsStrictOrderedRing K]
variable {o : MctsOpts K} {M : Trans K} {A : SimAgents K} {nF : Nat} {V : Nat → K} {N : Nat → Nat}
  {plan : List (List Nat)}

/-- A table of action values with -inf exactly at impossible actions, otherwise finite. -/
def MaskedTable (M : Trans K) (q : QTable K) : Prop :=
  ∀ s a, s < M.nS → a < M.nA →
    (Spec.Possible M s a → ∃ x, q s a = .fin x) ∧ (¬ Spec.Possible M s a → q s a = .ninf)

/-- The way opponents choose actions works: from such a table a possible action is chosen. -/
def ChoiceWorks (o : MctsOpts K) (M : Trans K) (D : Draw K → Prop) : Prop :=
  ∀ q, MaskedTable M q → ∀ s, s < M.nS → Spec.Live M s → ∀ d, D d →
    ∃ a, a < M.nA ∧ Spec.Possible M s a ∧ opponentAction o M q s d = .ok a

theorem choiceWorks_max (h : o.selection = .max ∨ o.temperature = 0) (D : Draw K → Prop) : ChoiceWorks o M D := by
  intro q hq s hs hlive d _
  obtain ⟨b, hb, hp⟩ := hlive
  have hA : 0 < M.nA := by omega
  unfold opponentAction
  rw [if_pos h, if_neg (by omega)]
  unfold randomMax
  obtain ⟨a, ha, he⟩ := rngChoice_ok (maxActions_ne_nil (fun a => (q s a).clean) hA) d.pick
  obtain ⟨h1, h2⟩ := mem_maxActions.1 ha
  refine ⟨a, h1, ?_, he⟩
  by_contra hc
  have h3 := h2 b hb
  obtain ⟨x, hx⟩ := (hq s b hs hb).1 hp
  rw [hx, (hq s a hs h1).2 hc] at h3
  simp [Ext.clean] at h3

theorem choiceWorks_softmax {o : MctsOpts ℝ} {M : Trans ℝ} (hsel : o.selection = .softmax)
    (hsoft : o.soft = softmax) : ChoiceWorks o M fun d => 0 ≤ d.u ∧ d.u < 1 := by
  by_cases hT : o.temperature = 0
  · intro q hq s hs hl d _
    exact choiceWorks_max (.inr hT) (fun _ => True) q hq s hs hl d trivial
  intro q hq s hs hlive d hd
  obtain ⟨b, hb, hp⟩ := hlive
  obtain ⟨x, hx⟩ := (hq s b hs hb).1 hp
  have hpinf : ∀ a, a < M.nA → q s a ≠ .pinf := by
    intro a ha hc
    by_cases hpa : Spec.Possible M s a
    · obtain ⟨y, hy⟩ := (hq s a hs ha).1 hpa
      rw [hy] at hc; cases hc
    · rw [(hq s a hs ha).2 hpa] at hc; cases hc
  obtain ⟨m, h1, h2⟩ := softmax_row M.nA (q s) o.temperature hpinf ⟨b, hb, x, hx⟩
  set p : Nat → ℝ := fun a => expShift m o.temperature (q s a).clean /
      npSum M.nA fun b => expShift m o.temperature (q s b).clean with hpdef
  have hp0 : ∀ a, a < M.nA → 0 ≤ p a := fun a _ => div_nonneg (expShift_nonneg _ _ _) h2.le
  have hsum : ∑ a ∈ Finset.range M.nA, p a = 1 := by
    rw [hpdef, ← Finset.sum_div]
    exact div_self h2.ne'
  have hnorm : (fun a => p a / npSum M.nA p) = p := by
    funext a
    rw [show npSum M.nA p = 1 from hsum, div_one]
  have hlt : searchRight M.nA (npCumsum p) d.u < M.nA :=
    searchRight_lt (by omega) (by rw [hsum]; exact hd.2)
  refine ⟨searchRight M.nA (npCumsum p) d.u, hlt, ?_, ?_⟩
  · by_contra hc
    have hz : p (searchRight M.nA (npCumsum p) d.u) = 0 := by
      rw [hpdef]
      dsimp only
      rw [(hq s _ hs hlt).2 hc, expShift_of_not_fin _ _ (by intro y hy; cases hy), zero_div]
    have hslot := ((searchRight_cumsum hp0 hd.1 hlt).1 rfl)
    obtain ⟨g1, g2⟩ := hslot
    rw [hz, add_zero] at g2
    exact absurd g2 (not_lt.2 g1)
  · unfold opponentAction
    rw [if_neg (by rw [hsel]; simp [hT]), hsel, hsoft]
    dsimp only
    rw [h1, finRow_fin]
    dsimp only
    unfold randChoiceNb
    dsimp only
    rw [hnorm, if_pos hlt]

/-- The ways opponents may be simulated so that nothing fails. -/
def PolicyWorks (o : MctsOpts K) (M : Trans K) (D : Draw K → Prop) : Prop :=
  o.policy = .random ∨ (o.policy = .solve ∧ o.algorithm = .valueIteration ∧ 0 < o.viDiscount ∧ o.viDiscount < 1 ∧
    0 < o.viMaxIter ∧ ChoiceWorks o M D)

/-- A cached entry that can be used. -/
def GoodEntry (o : MctsOpts K) (M : Trans K) (q : Option (QTable K)) : Prop :=
  o.policy = .random ∨ ∃ Q, q = some Q ∧ MaskedTable M Q

theorem npArgmax_pos {n : Nat} {p : Nat → K} (h : ∃ t, t < n ∧ 0 < p t) : npArgmax n p < n ∧ 0 < p (npArgmax n p) := by
  obtain ⟨t, ht, hp⟩ := h
  exact ⟨npArgmax_lt _ (by omega), lt_of_lt_of_le hp (le_npArgmax p ht)⟩

theorem opponentNext_ok {D : Draw K → Prop} (hM : Spec.SubStochastic M) (hpol : PolicyWorks o M D) {w : Nat → K}
    {features : Nat → Nat → K} {s : Nat} (hs : s < M.nS) (hlive : Spec.Live M s) {q : Option (QTable K)}
    (hq : q = none ∨ GoodEntry o M q) {d : Draw K} (hd : D d) :
    ∃ t q', opponentNext o M nF w features s q d = .ok (t, q') ∧ GoodEntry o M q' := by
  unfold opponentNext
  rcases hpol with hp | ⟨hp, halg, h0, h1, hk, hch⟩
  · rw [hp]
    dsimp only
    have hne : nextStates M s ≠ [] := by
      obtain ⟨x, hx, t, ht, hpt⟩ := hlive
      exact List.ne_nil_of_mem (mem_nextStates.2 ⟨ht, x, hx, hpt.ne'⟩)
    obtain ⟨t, ht, he⟩ := rngChoice_ok hne d.pick
    rw [he]
    dsimp only
    obtain ⟨ht1, x, hx, hpx⟩ := mem_nextStates.1 ht
    rw [if_pos]
    · exact ⟨t, q, rfl, .inl hp⟩
    · rw [List.any_eq_true]
      exact ⟨x, List.mem_range.2 hx, decide_eq_true (lt_of_le_of_ne (hM.nonneg s x t hs hx ht1) (Ne.symm hpx))⟩
  · rw [hp]
    dsimp only
    have hQ : ∃ Q, opponentQ o M nF w features q = .ok Q ∧ MaskedTable M Q := by
      have hsolve : ∃ Q, opponentQ o M nF w features none = .ok Q ∧ MaskedTable M Q := by
        have hA : 0 < M.nA := by obtain ⟨x, hx, -⟩ := hlive; omega
        unfold opponentQ
        dsimp only
        rw [halg]
        dsimp only
        rw [solveHard_eq hA]
        obtain ⟨j, -, -, -, -, he⟩ := solveVI_spec (hardBackup M.nA) M (stateReward nF w features) h0 h1 o.viTol hk
        rw [he]
        refine ⟨_, rfl, fun s a hs ha => ?_⟩
        obtain ⟨m1, m2⟩ := maskQ_ninf hM
          (sweep (hardBackup M.nA) M (stateReward nF w features) o.viDiscount
            (iterV (hardBackup M.nA) M (stateReward nF w features) o.viDiscount (fun _ => 0) (j - 1))).q hs ha
        exact ⟨fun h => ⟨_, m2 h⟩, fun h => m1.2 h⟩
      rcases hq with rfl | hq | ⟨Q, rfl, hQ⟩
      · exact hsolve
      · rw [hp] at hq; cases hq
      · exact ⟨Q, rfl, hQ⟩
    obtain ⟨Q, he, hQ⟩ := hQ
    rw [he]
    dsimp only
    obtain ⟨a, ha, hpa, hact⟩ := hch Q hQ s hs hlive d hd
    rw [hact]
    dsimp only
    obtain ⟨hlt, hpos⟩ := npArgmax_pos hpa
    rw [if_pos]
    · exact ⟨_, _, rfl, .inr ⟨Q, rfl, hQ⟩⟩
    · rw [List.any_eq_true]
      exact ⟨a, List.mem_range.2 ha, decide_eq_true hpos⟩

theorem nextNode_ok (bonus : Nat → Nat → Option K) (expand : Bool) (V : Nat → K) (N : Nat → Nat) {states : List Nat}
    (C : K) (node d : Nat) (hne : states ≠ []) : ∃ t x, nextNode bonus expand V N states C node d = .ok (t, x) := by
  unfold nextNode
  split
  · rename_i h
    obtain ⟨t, ht, h0⟩ := List.any_eq_true.1 h.2
    obtain ⟨t', -, he⟩ := rngChoice_ok (List.ne_nil_of_mem (List.mem_filter.2 ⟨ht, h0⟩) :
      states.filter (fun s => decide (N s = 0)) ≠ []) d
    rw [he]
    exact ⟨_, _, rfl⟩
  · split
    · have hl : 0 < states.length := List.length_pos_iff.2 hne
      have := argmaxNan_lt (fun i => ucb bonus V N C node (states.getD i 0)) hl
      rw [List.getElem?_eq_getElem this]
      exact ⟨_, _, rfl⟩
    · obtain ⟨t, -, he⟩ := rngChoice_ok hne d
      rw [he]
      exact ⟨_, _, rfl⟩

theorem consumeAt_ok {a : Nat} (hone : o.caching = true → (npWhere nF (A.consumesFeatures a)).length ≤ 1) (st : Sim K)
    (t : Nat) : ∃ st', consumeAt o.caching A nF a st t = .ok st' := by
  unfold consumeAt
  cases hc : o.caching with
  | false => exact ⟨_, rfl⟩
  | true =>
    rw [if_pos rfl]
    rcases hl : npWhere nF (A.consumesFeatures a) with _ | ⟨f, _ | ⟨g, l⟩⟩
    · exact ⟨_, rfl⟩
    · exact ⟨_, rfl⟩
    · have := hone hc
      rw [hl] at this
      simp at this

/-- Conditions under which no simulated move fails. -/
structure SimOk (o : MctsOpts K) (M : Trans K) (A : SimAgents K) (nF : Nat) (D : Draw K → Prop) : Prop where
  sub : Spec.SubStochastic M
  live : ∀ s t, s < M.nS → Spec.Successor M s t → Spec.Live M t
  policy : PolicyWorks o M D
  rows : ∀ a, a < A.n → ∃ row, A.featIdx[a]? = some row ∧ row < nF
  cares : ∀ a, a < A.n → a ≠ 0 → preferences A nF a ≠ []
  one : ∀ a, a < A.n → o.caching = true → (npWhere nF (A.consumesFeatures a)).length ≤ 1

/-- Everybody is on a live state and the cache can be used. -/
def SimInv (o : MctsOpts K) (M : Trans K) (A : SimAgents K) (st : Sim K) : Prop :=
  (∀ a, a < A.n → ∃ s, pyIdx M.nS (st.nodes a) = some s ∧ Spec.Live M s) ∧
  ∀ a key q, st.cache a key = some q → GoodEntry o M q

theorem simMove_ok {D : Draw K → Prop} (h : SimOk o M A nF D) {a : Nat} (ha : a < A.n) {d : Draw K} (hd : D d)
    {st : Sim K} (hst : SimInv o M A st) :
    ∃ st' c, simMove o M A nF V N a d st = .ok (st', c) ∧ SimInv o M A st' := by
  obtain ⟨row, hrow, hlt⟩ := h.rows a ha
  obtain ⟨here, hhere, hlive⟩ := hst.1 a ha
  have hs := pyIdx_lt hhere
  unfold simMove
  rw [hrow, hhere]
  dsimp only
  rw [if_neg (by omega)]
  generalize checkResult o A st = r
  have hupd : ∀ b (t : Nat), Spec.Successor M here t →
      ∀ x, x < A.n → ∃ s, pyIdx M.nS (upd1 st.nodes b (t : Int) x) = some s ∧ Spec.Live M s := by
    intro b t ht x hx
    unfold upd1
    by_cases hxb : x = b
    · rw [if_pos hxb]
      exact ⟨t, pyIdx_natCast ht.1, h.live here t hs ht⟩
    · rw [if_neg hxb]
      exact hst.1 x hx
  by_cases hc : r.2.2 = true
  · rw [if_pos hc]
    exact ⟨_, _, rfl, hst⟩
  · rw [if_neg hc]
    by_cases h0 : a = 0
    · rw [if_pos h0]
      unfold primaryMove
      dsimp only
      have hne : nextStates M here ≠ [] := by
        obtain ⟨x, hx, t, ht, hpt⟩ := hlive
        exact List.ne_nil_of_mem (mem_nextStates.2 ⟨ht, x, hx, hpt.ne'⟩)
      obtain ⟨t, x, hn⟩ := nextNode_ok o.bonus st.expand V N o.C here d.pick hne
      rw [hn]
      dsimp only
      obtain ⟨ht1, y, hy, hpy⟩ := mem_nextStates.1 (nextNode_mem hn)
      have hsucc : Spec.Successor M here t :=
        ⟨ht1, y, hy, lt_of_le_of_ne (h.sub.nonneg here y t hs hy ht1) (Ne.symm hpy)⟩
      by_cases hact : r.2.1 0 = true
      · rw [if_pos hact]
        obtain ⟨st', he⟩ := consumeAt_ok (o := o) (a := 0) (h.one 0 (h0 ▸ ha))
          ({ st with
            features := fun f s => if f = row then (if s = here then 1 else 0) else st.features f s
            active := r.2.1
            expand := x, nodes := upd1 st.nodes 0 (t : Int), visited := st.visited ++ [t]
            acc := st.acc + r.1 + stateReward nF (A.rewards 0)
              (fun f s => if f = row then (if s = here then 1 else 0) else st.features f s) t } : Sim K) t
        rw [he]
        obtain ⟨-, -, -, g4, -, -, g7, -⟩ := consumeAt_same he
        refine ⟨_, _, rfl, fun b hb => ?_, fun b key q hq => ?_⟩
        · rw [g4]; exact hupd 0 t hsucc b hb
        · rw [g7] at hq; exact hst.2 b key q hq
      · rw [if_neg hact]
        exact ⟨_, _, rfl, hupd 0 t hsucc, hst.2⟩
    · rw [if_neg h0]
      unfold otherMove
      dsimp only
      by_cases hact : r.2.1 a = true
      · rw [if_pos hact]
        have hopp : ∀ (x : Sim K), x.cache = st.cache → ∃ t cache, opponentMove o M A nF a d x here = .ok (t, cache) ∧
            Spec.Successor M here t ∧ ∀ b key q, cache b key = some q → GoodEntry o M q := by
          intro x hx
          unfold opponentMove cacheKey
          rw [if_neg (h.cares a ha h0)]
          dsimp only
          cases hce : (if o.caching then x.cache a
              (((List.range A.n).filter fun b => b ≠ a).map x.nodes, (preferences A nF a).map x.consumed) else none) with
          | some q =>
            dsimp only
            have hgood : GoodEntry o M q := by
              split at hce
              · rw [hx] at hce; exact hst.2 _ _ _ hce
              · cases hce
            obtain ⟨t, q', he, -⟩ := opponentNext_ok (nF := nF) (w := A.rewards a) (features := x.features) h.sub
              h.policy hs hlive (.inr hgood) hd
            rw [he]
            exact ⟨t, x.cache, rfl, opponentNext_any hs he, by rw [hx]; exact hst.2⟩
          | none =>
            dsimp only
            obtain ⟨t, q', he, hg⟩ := opponentNext_ok (nF := nF) (w := A.rewards a) (features := x.features) h.sub
              h.policy hs hlive (.inl rfl) hd
            rw [he]
            refine ⟨t, _, rfl, opponentNext_any hs he, fun b key q hq => ?_⟩
            split at hq
            · dsimp only at hq
              split at hq
              · cases hq; exact hg
              · rw [hx] at hq; exact hst.2 b key q hq
            · rw [hx] at hq; exact hst.2 b key q hq
        obtain ⟨t, cache, he, hsucc, hcache⟩ := hopp
          ({ st with
            features := fun f s => if f = row then (if s = here then 1 else 0) else st.features f s
            acc := st.acc + r.1, active := r.2.1 } : Sim K) rfl
        rw [he]
        dsimp only
        obtain ⟨st', he'⟩ := consumeAt_ok (o := o) (a := a) (h.one a ha)
          ({ st with
            features := fun f s => if f = row then (if s = here then 1 else 0) else st.features f s
            acc := st.acc + r.1, active := r.2.1
            nodes := upd1 st.nodes a (t : Int), cache := cache
            others := if o.returnOthers then upd1 st.others a (st.others a ++ [t]) else st.others } : Sim K) t
        rw [he']
        obtain ⟨-, -, -, g4, -, -, g7, -⟩ := consumeAt_same he'
        refine ⟨_, _, rfl, fun b hb => ?_, fun b key q hq => ?_⟩
        · rw [g4]; exact hupd a t hsucc b hb
        · rw [g7] at hq; exact hcache b key q hq
      · rw [if_neg hact]
        exact ⟨_, _, rfl, hst⟩

theorem follow_ok {D : Draw K → Prop} (h : SimOk o M A nF D) {draws : Nat → Draw K} (hd : ∀ i, D (draws i)) :
    ∀ (l : List Nat) (i : Nat) (st : Sim K), (∀ a ∈ l, a < A.n) → SimInv o M A st →
      ∃ st' c, Spec.follow (fun i a st => simMove o M A nF V N a (draws i) st) i l st = .ok (st', c) ∧
        SimInv o M A st' := by
  intro l
  induction l with
  | nil => intro i st _ hst; exact ⟨st, false, rfl, hst⟩
  | cons a l ih =>
    intro i st hl hst
    obtain ⟨st', c, he, hst'⟩ := simMove_ok (V := V) (N := N) h (hl a List.mem_cons_self) (hd i) hst
    unfold Spec.follow
    rw [he]
    cases c with
    | true => exact ⟨st', true, rfl, hst'⟩
    | false => exact ih (i + 1) st' (fun b hb => hl b (List.mem_cons_of_mem _ hb)) hst'

theorem mem_schedule {plan : List (List Nat)} {T a : Nat} (h : a ∈ Spec.schedule plan T) : a < plan.length := by
  unfold Spec.schedule at h
  simp only [List.mem_flatMap, List.mem_range] at h
  obtain ⟨t, -, b, hb, hm⟩ := h
  rw [(List.mem_replicate.1 hm).2]
  exact hb

/-- If every iteration succeeds, so does the search. -/
theorem runLoop_ok {draws : Nat → Nat → Draw K} {fuel : Nat} {features : Nat → Nat → K} {nodes : Nat → Int}
    (P : QCache K → Prop)
    (h : ∀ V N cache i, P cache → ∃ st,
      simLoop o M A nF V N plan (draws i) fuel .start (Sim.start nodes features cache) = some (.ok st) ∧ P st.cache) :
    ∀ (k i : Nat) (s : Search K), P s.cache →
      ∃ s', (runLoop o M A nF plan draws fuel k i features nodes s).2.2 = some (.ok s') ∧ P s'.cache := by
  intro k
  induction k with
  | zero => intro i s hs; exact ⟨s, rfl, hs⟩
  | succ k ih =>
    intro i s hs
    have hit : mctsIteration o M A nF features nodes s.V s.N plan s.cache (draws i) fuel =
        (features, nodes, simLoop o M A nF s.V s.N plan (draws i) fuel .start (Sim.start nodes features s.cache)) := rfl
    obtain ⟨st, he, hP⟩ := h s.V s.N s.cache i hs
    unfold runLoop
    rw [hit, he]
    exact ih (i + 1) _ hP

end MaMDP
