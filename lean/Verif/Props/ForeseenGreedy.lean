import Verif.Props.Circles
import Verif.Props.IRL
import Verif.Props.ActionSelection

/-! # C166 for greedy agents -/

set_option linter.unusedSectionVars false

namespace MaMDP

variable {K : Type} [Field K] [LinearOrder K] [IsStrictOrderedRing K]
variable {kind : GridKind} {W H : Nat} {selfT : Bool} {m m' : Mdp K} {specs : List (AgentSpec K Nat)} {e0 : Env K Nat}

/-- An action that leads somewhere for certain leads nowhere else. -/
theorem det_zero {M : Trans K} (hM : Spec.SubStochastic M) {s a t u : Nat} (hs : s < M.nS) (ha : a < M.nA)
    (ht : t < M.nS) (hu : u < M.nS) (h : M.p s a t = 1) (hne : t ≠ u) : M.p s a u = 0 := by
  have hle := hM.2 s a hs ha
  have h2 : M.p s a t + M.p s a u ≤ ∑ t ∈ Finset.range M.nS, M.p s a t := by
    rw [← Finset.sum_pair hne]
    apply Finset.sum_le_sum_of_subset_of_nonneg
    · intro x hx
      rcases Finset.mem_insert.1 hx with rfl | hx
      · exact Finset.mem_range.2 ht
      · rw [Finset.mem_singleton.1 hx]; exact Finset.mem_range.2 hu
    · intro x hx _
      exact hM.1 s a x hs ha (Finset.mem_range.1 hx)
  have := hM.1 s a u hs ha hu
  rw [h] at h2
  linarith

/-- Without a tie, the greedy policy is certain of its action. -/
theorem greedy_certain {M : Trans K} {q P : Arr2 (Ext K)} (hP : maxSelector.piP q = .ok P) {u : Nat} (hu : u < M.nS)
    (hmask : Spec.MaskedAt M q u) (hfin : ∀ x, x < M.nA → q.get u x ≠ .pinf) (hlive : Spec.Live M u)
    (htie : Spec.NoTie M.nA q.get u) {x : Nat} (hx : x < M.nA) (hb : ∀ b, b < M.nA → Spec.NoBetter (q.get u b) (q.get u x)) :
    ∀ y, y < M.nA → P.get u y = .fin (if y = x then 1 else 0) := by
  obtain ⟨m1, m2, m3⟩ := hmask
  obtain ⟨b, hbA, hpb⟩ := hlive
  have hub : ¬ Spec.Unusable (q.get u b) := fun hu => (m3 b hbA).1 hu hpb
  have hest : Spec.HasEstimate q u := by
    refine ⟨⟨b, by rw [m2]; exact hbA, fun h => hub (by rw [h]; trivial)⟩, ?_⟩
    rintro ⟨⟨c, hc, h⟩, -⟩
    exact hfin c (by rw [← m2]; exact hc) h
  have hno : ¬ Spec.NoEstimate q u := fun h => hub (by rw [h b (by rw [m2]; exact hbA)]; trivial)
  obtain ⟨P', hP', -, -, hall⟩ := (C23_max_pi_p q).2 ⟨u, by rw [m1]; exact hu, hno⟩
  rw [hP] at hP'
  cases hP'
  obtain ⟨p, h1, h2, -, -, h5⟩ := (hall u (by rw [m1]; exact hu)).2 hest
  rw [m2] at h1 h2 h5
  have hz : ∀ y, y < M.nA → y ≠ x → p y = 0 := by
    intro y hy hne
    refine h5 y hy fun hbest => hne ?_
    obtain ⟨z, -, hzz⟩ := htie
    exact (hzz y hy fun c hc => hbest.2 c (by rw [m2]; exact hc)).trans (hzz x hx hb).symm
  have hone : p x = 1 := by
    rw [← h2, Finset.sum_eq_single x]
    · intro y hy hne
      exact hz y (Finset.mem_range.1 hy) hne
    · intro hc
      exact absurd (Finset.mem_range.2 hx) hc
  intro y hy
  rw [h1 y hy]
  by_cases hyx : y = x
  · rw [if_pos hyx, hyx, hone]
  · rw [if_neg hyx, hz y hy hyx]

/-- **C166** for a greedy agent without ties: `state_visitation_iterator` with `n + 1` passes, started from the agent's
state, gives for each state how often the agent stands there in its next `n` steps, now included, whatever the random
generator delivers. -/
theorem C166_greedy (hm : Mdp.GridReach kind W H selfT m) (hinit : Env.init m specs = (m', .ok e0))
    (ops : List (EnvOp K Nat)) (e : Env K Nat) (he : e = e0.run ops) (a : Agent K Nat) (ha : a ∈ e.agents)
    (hsel : a.selector = maxSelector) (hfit : a.alg.fitComplete = true) (q : Arr2 (Ext K))
    (hq : a.alg.qValues = some q) (hmask : ∀ s, s < W * H → Spec.MaskedAt e.mdp.trans q s)
    (hfin : ∀ s x, s < W * H → x < e.mdp.nActions → q.get s x ≠ .pinf)
    (hties : ∀ s, s < W * H → Spec.Live e.mdp.trans s → Spec.NoTie e.mdp.nActions q.get s)
    (s : Nat) (hs : s = Spec.stateOf (W * H) a.position) (hlive : Spec.Live e.mdp.trans s)
    (P : Arr2 (Ext K)) (hP : a.selector.piP q = .ok P) (π : Nat → Nat → K)
    (hπ : ∀ u x, u < W * H → Spec.Live e.mdp.trans u → x < e.mdp.nActions → P.get u x = .fin (π u x))
    (n : Nat) (draws : Nat → Nat → Nat) :
    ∃ a' ∈ (e.run ((List.range n).map fun i => .step a.name (draws i))).agents, a'.name = a.name ∧
      ∃ l, l.length = n ∧ a'.history = a.history ++ l ∧
        ∀ t, t < W * H → visitation e.mdp.trans π (fun u => if u = s then 1 else 0) (n + 1) t =
          (Spec.visits (W * H) ((s : Int) :: l) t : K) := by
  have hok : Env.Ok kind W H selfT e := by rw [he]; exact (Env.started hm hinit ops).1
  have hN : e.mdp.trans.nS = W * H := hok.reach.ok.nStates
  have hM := (C27_grid kind W H selfT e.mdp hok.reach).1
  obtain ⟨j, hj, -⟩ := hok.pos a ha
  have hsj := Env.stateOf_eq hj
  rw [hok.reach.ok.nStates, ← hs] at hsj
  rw [hsj] at hj
  have hF : Env.Follows kind W H selfT e.mdp.trans a.name q s a.history e :=
    ⟨hok, rfl, fun u hu => hmask u (by rw [← hN]; exact hu), fun u x hu hx => hfin u x (by rw [← hN]; exact hu) hx,
      hlive, a, ha, rfl, hsel, hfit, hq, hj, rfl⟩
  have hset := fun (k : Nat) (draws : Nat → Nat → Nat) => Env.Follows.settled hM
    (fun u hu hl => hties u (by rw [← hN]; exact hu) hl) draws k 0 e s _ hF
  rw [hsel] at hP
  set f := bestNext e.mdp.trans q.get with hf
  have hlt : ∀ k, f^[k] s < e.mdp.trans.nS := fun k => (hset k fun _ _ => 0).lt
  have hrow : ∀ k t, t < e.mdp.trans.nS → ∑ x ∈ Finset.range e.mdp.trans.nA, π (f^[k] s) x * e.mdp.trans.p (f^[k] s) x t =
      if f (f^[k] s) = t then 1 else 0 := by
    intro k t ht
    have h := hset k fun _ _ => 0
    obtain ⟨x, v, h1, h2, h3, h4, -⟩ := h.step fun _ => 0
    have hv : v = f (f^[k] s) := bestNext_eq hM h.lt (hties _ (by rw [← hN]; exact h.lt) h.live) ⟨h2, x, h1, h3, h4⟩
    have hc := greedy_certain hP h.lt (hmask _ (by rw [← hN]; exact h.lt)) (fun y hy => hfin _ y (by rw [← hN]; exact h.lt) hy)
      h.live (hties _ (by rw [← hN]; exact h.lt) h.live) h1 h4
    have hpi : ∀ y, y < e.mdp.trans.nA → π (f^[k] s) y = if y = x then 1 else 0 := fun y hy => by
      have := hc y hy
      rw [hπ _ y (by rw [← hN]; exact h.lt) h.live hy] at this
      exact Ext.fin.inj this
    rw [Finset.sum_eq_single x]
    · rw [hpi x h1, if_pos rfl, one_mul, ← hv]
      by_cases hvt : v = t
      · rw [if_pos hvt, ← hvt, h3]
      · rw [if_neg hvt, det_zero hM h.lt h1 h2 ht h3 hvt]
    · intro y hy hne
      rw [hpi y (Finset.mem_range.1 hy), if_neg hne, zero_mul]
    · intro hc
      exact absurd (Finset.mem_range.2 h1) hc
  have hdist : ∀ k t, t < e.mdp.trans.nS →
      Spec.stateDist e.mdp.trans π (fun u => if u = s then 1 else 0) k t = if f^[k] s = t then 1 else 0 := by
    intro k
    induction k with
    | zero =>
      intro t _
      show (if t = s then (1 : K) else 0) = if s = t then 1 else 0
      exact if_congr eq_comm rfl rfl
    | succ k ih =>
      intro t ht
      show ∑ u ∈ Finset.range e.mdp.trans.nS, _ = _
      rw [Finset.sum_eq_single (f^[k] s)]
      · rw [ih _ (hlt k), if_pos rfl, one_mul, hrow k t ht, Function.iterate_succ_apply']
      · intro u hu hne
        rw [ih u (Finset.mem_range.1 hu), if_neg (Ne.symm hne), zero_mul]
      · intro hc
        exact absurd (Finset.mem_range.2 (hlt k)) hc
  have h := hset n draws
  simp only [Nat.zero_add] at h
  obtain ⟨a', h1, h2, -, -, -, -, h4⟩ := h.agent
  refine ⟨a', h1, h2, _, by simp, h4, fun t ht => ?_⟩
  have ht' : t < e.mdp.trans.nS := by rw [hN]; exact ht
  rw [visitation_eq _ _ _ _ _ ht', Finset.sum_congr rfl fun k _ => hdist k t ht']
  have hcount : ∀ n, Spec.visits (W * H) ((s : Int) :: (List.range n).map fun i => ((f^[i + 1] s : Nat) : Int)) t =
      ((List.range (n + 1)).map fun k => f^[k] s).count t := by
    intro n
    unfold Spec.visits
    rw [List.range_succ_eq_map, List.map_cons, List.map_cons, List.map_map, List.map_map]
    have e1 : ∀ k : Nat, Spec.stateOf (W * H) (k : Int) = k := fun k => by simp [Spec.stateOf]
    rw [e1]
    congr 2
  rw [hcount]
  induction n + 1 with
  | zero => simp
  | succ n ih =>
    rw [Finset.sum_range_succ, ih, List.range_succ, List.map_append, List.count_append, Nat.cast_add]
    congr 1
    by_cases hft : f^[n] s = t <;> simp [hft]

/-- Where a policy leads from a mixture of states. -/
theorem stateDist_mix (M : Trans K) (π : Nat → Nat → K) (p0 : Nat → K) : ∀ k t, t < M.nS →
    Spec.stateDist M π p0 k t = ∑ s ∈ Finset.range M.nS, p0 s * Spec.stateDist M π (fun u => if u = s then 1 else 0) k t
  | 0, t, ht => by
    show p0 t = ∑ s ∈ Finset.range M.nS, p0 s * (if t = s then 1 else 0)
    simp [ht]
  | k + 1, t, ht => by
    show ∑ u ∈ Finset.range M.nS, _ = ∑ s ∈ Finset.range M.nS, p0 s * ∑ u ∈ Finset.range M.nS, _
    rw [Finset.sum_congr rfl fun u hu => by rw [stateDist_mix M π p0 k u (Finset.mem_range.1 hu), Finset.sum_mul]]
    rw [Finset.sum_comm]
    refine Finset.sum_congr rfl fun s _ => ?_
    rw [Finset.mul_sum]
    exact Finset.sum_congr rfl fun u _ => by ring

/-- **C166**, for the learner made with `soft=False`: if the agent has the action values that value iteration finds for
weights `θ`, and these leave no ties, then what the learner expects of each feature for `θ` is what the agent meets of it
in its next `n` steps, when it is put where a trajectory picked at random starts. -/
theorem C166_expected_greedy (hm : Mdp.GridReach kind W H selfT m) (hinit : Env.init m specs = (m', .ok e0))
    (ops : List (EnvOp K Nat)) (e : Env K Nat) (he : e = e0.run ops) (a : Agent K Nat) (ha : a ∈ e.agents)
    (hsel : a.selector = maxSelector) (hfit : a.alg.fitComplete = true)
    (θ : Nat → K) (n : Nat) (γ tol : K) (h0 : 0 < γ) (h1 : γ < 1) (v : Nat → K) (q : Nat → Nat → Ext K)
    (hsol : solveHard e.mdp.trans (Spec.weighted e.mdp θ) (n + 1) γ tol = .ok (v, q))
    (hq : a.alg.qValues = some ⟨e.mdp.nStates, e.mdp.nActions, q⟩)
    (hties : ∀ s, s < W * H → Spec.Live e.mdp.trans s → Spec.NoTie e.mdp.nActions q s) (ts : List (List Int))
    (hts : ∀ t ∈ ts, ∃ i l, t = i :: l ∧ Spec.InRange (W * H) i ∧ Spec.Live e.mdp.trans (Spec.stateOf (W * H) i)) :
    ∃ g, mceHard e.mdp (n + 1) γ tol ts θ = .ok g ∧ ∀ draws : Nat → Nat → Nat → Nat, ∃ walk : Nat → List Int,
      (∀ s, s < W * H → Spec.Live e.mdp.trans s → (walk s).length = n ∧
        ∃ a' ∈ ((e.setAgentPosition a.name s).1.run ((List.range n).map fun i => .step a.name (draws s i))).agents,
          a'.name = a.name ∧ a'.history = a.history ++ walk s) ∧
      ∀ f, g f = ∑ s ∈ Finset.range (W * H), Spec.startShare (W * H) ts s *
        ∑ t ∈ Finset.range (W * H), (Spec.visits (W * H) ((s : Int) :: walk s) t : K) * e.mdp.features.get f t := by
  have hok : Env.Ok kind W H selfT e := by rw [he]; exact (Env.started hm hinit ops).1
  have hN : e.mdp.nStates = W * H := hok.reach.ok.nStates
  obtain ⟨hM, -, hA, hS⟩ := C27_grid kind W H selfT e.mdp hok.reach
  obtain ⟨j, -, -, -, -, e2⟩ := solveVI_spec (hardBackup e.mdp.nActions) e.mdp.trans (Spec.weighted e.mdp θ) h0 h1 tol (Nat.succ_pos n)
  obtain ⟨q0, rfl⟩ : ∃ q0, q = maskQ e.mdp.trans q0 := by
    have := (hsol.symm.trans (solveHard_eq hA _ _ _ _)).trans e2
    exact ⟨_, (Prod.mk.inj (Except.ok.inj this)).2⟩
  have hmask : ∀ u, u < e.mdp.trans.nS → Spec.MaskedAt e.mdp.trans ⟨e.mdp.nStates, e.mdp.nActions, maskQ e.mdp.trans q0⟩ u := by
    intro u hu
    refine ⟨rfl, rfl, fun x hx => ?_⟩
    obtain ⟨g1, g2⟩ := maskQ_ninf hM q0 hu hx
    show Spec.Unusable (maskQ e.mdp.trans q0 u x) ↔ _
    by_cases hp : Spec.Possible e.mdp.trans u x
    · rw [g2 hp]
      exact ⟨fun h => h.elim, fun h => absurd hp h⟩
    · rw [g1.2 hp]
      exact ⟨fun _ => hp, fun _ => trivial⟩
  have hfin : ∀ u x, (maskQ e.mdp.trans q0) u x ≠ .pinf ∧ (maskQ e.mdp.trans q0) u x ≠ .nan := fun u x => maskQ_notPinf e.mdp.trans q0 u x
  obtain ⟨P, hP, hP0, hP1, hall⟩ := (C23_max_pi_p ⟨e.mdp.nStates, e.mdp.nActions, maskQ e.mdp.trans q0⟩).2
    ⟨0, hS, fun h => (hfin 0 0).2 (h 0 hA)⟩
  obtain ⟨g, h4, h5⟩ := mceExpected_ok e.mdp
    (fun θ => solveHard e.mdp.trans (stateReward e.mdp.nFeatures θ e.mdp.features.get) (n + 1) γ tol) maxSelector ts (n + 1) θ _ _ P
    (fun t ht => by
      obtain ⟨i, l, r1, r2, -⟩ := hts t ht
      exact ⟨i, l, r1, by rw [hN]; exact r2⟩) hsol hP
  have hπ : ∀ u x, u < W * H → x < e.mdp.nActions → P.get u x = .fin (P.get u x).toK := by
    intro u x hu hx
    obtain ⟨p, hp, -⟩ := (hall u (by show u < e.mdp.nStates; rw [hN]; exact hu)).2
      ⟨⟨0, hA, (hfin u 0).2⟩, fun h => by obtain ⟨c, -, hc⟩ := h.1; exact (hfin u c).1 hc⟩
    rw [hp x hx]
    rfl
  refine ⟨g, h4, fun draws => ?_⟩
  have hwalk : ∀ s, ∃ l : List Int, s < W * H → Spec.Live e.mdp.trans s → l.length = n ∧
      (∃ a' ∈ ((e.setAgentPosition a.name s).1.run ((List.range n).map fun i => .step a.name (draws s i))).agents,
          a'.name = a.name ∧ a'.history = a.history ++ l) ∧
      ∀ t, t < W * H → visitation e.mdp.trans (fun u x => (P.get u x).toK) (fun u => if u = s then 1 else 0) (n + 1) t =
          (Spec.visits (W * H) ((s : Int) :: l) t : K) := by
    intro s
    by_cases hsl : s < W * H ∧ Spec.Live e.mdp.trans s
    swap
    · exact ⟨[], fun g1 g2 => absurd ⟨g1, g2⟩ hsl⟩
    obtain ⟨hs, hl⟩ := hsl
    have hs' : s < e.mdp.nStates := by rw [hN]; exact hs
    obtain ⟨g1, -⟩ | ⟨b, hb, hbn, hc⟩ := Env.setAgentPosition_cases hok a.name s
    · exact absurd ((hok.names a.name).2 (List.mem_map_of_mem (f := (·.name)) ha)) g1
    have hba : b = a := Env.eq_of_name hok.nodup hb ha hbn
    subst hba
    rcases hc with ⟨j, hj, g1⟩ | ⟨g1, -⟩ | ⟨g1, -, -⟩
    · have hjs : j = s := by rw [pyIdx_nat, if_pos hs'] at hj; exact (Option.some.inj hj).symm
      subst hjs
      have hmem : ({ b with position := (j : Int) } : Agent K Nat) ∈ (e.setAgentPosition b.name j).1.agents := by
        rw [g1]
        exact (Env.mem_put (List.mem_map_of_mem (f := (·.name)) ha)).2 (.inl rfl)
      have htr : (e.setAgentPosition b.name j).1.mdp.trans = e.mdp.trans := by rw [g1]; rfl
      have hnA : (e.setAgentPosition b.name j).1.mdp.nActions = e.mdp.nActions := by rw [g1]; rfl
      have := C166_greedy hm hinit (ops ++ [.setAgentPosition b.name j]) (e.setAgentPosition b.name j).1
        (by rw [Env.run_append, ← he]; rfl) _ hmem hsel hfit _ hq
        (by rw [htr]; intro u hu; exact hmask u (by show u < e.mdp.nStates; rw [hN]; exact hu))
        (fun u x _ _ => (hfin u x).1) (by rw [htr, hnA]; exact hties) j (by
          show j = Spec.stateOf (W * H) (j : Int)
          unfold Spec.stateOf
          simp) (by rw [htr]; exact hl) P (by rw [show ({ b with position := (j : Int) } : Agent K Nat).selector = maxSelector from hsel]; exact hP)
        (fun u x => (P.get u x).toK) (by rw [htr, hnA]; exact fun u x hu _ hx => hπ u x hu hx) n (draws j)
      rw [htr] at this
      obtain ⟨a', k1, k2, l, k3, k4, k5⟩ := this
      exact ⟨l, fun _ _ => ⟨k3, ⟨a', k1, k2, k4⟩, k5⟩⟩
    · omega
    · omega
  choose walk hw using hwalk
  refine ⟨walk, fun s hs hl => ⟨(hw s hs hl).1, (hw s hs hl).2.1⟩, fun f => ?_⟩
  have hshare : ∀ s, s < W * H → Spec.startShare (K := K) (W * H) ts s ≠ 0 → Spec.Live e.mdp.trans s := by
    intro s _ hne
    have hpos : 0 < (ts.map fun t => Spec.stateOf (W * H) (t.headD 0)).count s := by
      rcases Nat.eq_zero_or_pos ((ts.map fun t => Spec.stateOf (W * H) (t.headD 0)).count s) with h | h
      · exact absurd (by unfold Spec.startShare; rw [h]; simp) hne
      · exact h
    obtain ⟨t, ht, rfl⟩ := List.mem_map.1 (List.count_pos_iff.1 hpos)
    obtain ⟨i, l, rfl, -, hl⟩ := hts t ht
    exact hl
  rw [h5 f, hN]
  have hmix : ∀ t ∈ Finset.range (W * H), e.mdp.features.get f t * ∑ k ∈ Finset.range (n + 1),
      Spec.stateDist e.mdp.trans (fun s a => (P.get s a).toK) (Spec.startShare (W * H) ts) k t =
      ∑ s ∈ Finset.range (W * H), Spec.startShare (W * H) ts s *
        ((Spec.visits (W * H) ((s : Int) :: walk s) t : K) * e.mdp.features.get f t) := by
    intro t ht
    have ht := Finset.mem_range.1 ht
    have ht' : t < e.mdp.trans.nS := by show t < e.mdp.nStates; rw [hN]; exact ht
    rw [Finset.sum_congr rfl fun k _ => stateDist_mix e.mdp.trans _ _ k t ht', Finset.sum_comm, Finset.mul_sum]
    show ∑ s ∈ Finset.range e.mdp.nStates, _ = _
    rw [hN]
    refine Finset.sum_congr rfl fun s hs => ?_
    have hs := Finset.mem_range.1 hs
    rw [← Finset.mul_sum, ← visitation_eq _ _ _ _ _ ht']
    by_cases hz : Spec.startShare (K := K) (W * H) ts s = 0
    · rw [hz, zero_mul, zero_mul, mul_zero]
    · rw [(hw s hs (hshare s hs hz)).2.2 t ht]
      ring
  rw [Finset.sum_congr rfl hmix, Finset.sum_comm]
  exact Finset.sum_congr rfl fun s _ => by rw [Finset.mul_sum]

/-- The fitted fox in the corridor meets the hypotheses: in its next two steps it is in each state as often as three
passes of `state_visitation_iterator` say. -/
example : ∃ m m' e0, Mdp.GridReach .square 1 3 false m ∧ Env.init m exSpecs = (m', .ok e0) ∧
    ∃ a ∈ (e0.run [.fit "fox" exFit fun _ => 0]).agents, a.name = "fox" ∧ ∃ (q P : Arr2 (Ext Rat)),
      a.alg.qValues = some q ∧ a.selector.piP q = .ok P ∧ ∀ draws : Nat → Nat → Nat,
        ∃ a' ∈ ((e0.run [.fit "fox" exFit fun _ => 0]).run ((List.range 2).map fun i => .step a.name (draws i))).agents,
          a'.name = a.name ∧ ∃ l, l.length = 2 ∧ a'.history = a.history ++ l ∧ ∀ t, t < 3 →
            visitation (e0.run [.fit "fox" exFit fun _ => 0]).mdp.trans (fun s x => (P.get s x).toK) (fun u => if u = 0 then 1 else 0) 3 t =
              (Spec.visits 3 ((0 : Nat) :: l) t : Rat) := by
  obtain ⟨m, m', e, h1, h2, h3⟩ := exStart
    (fun e => decide ((e.run [.fit "fox" exFit fun _ => 0]).mdp.nActions = 4 ∧
      Spec.Live (e.run [.fit "fox" exFit fun _ => 0]).mdp.trans 0) &&
      (match (e.run [.fit "fox" exFit fun _ => 0]).agents.head? with
        | none => false
        | some a => decide (a.name = "fox" ∧ a.position = 0 ∧ a.alg.fitComplete = true) && (match a.alg.qValues with
          | none => false
          | some q => exSettled (e.run [.fit "fox" exFit fun _ => 0]).mdp.trans q && (match maxSelector.piP q with
            | .error _ => false
            | .ok P => decide (∀ s : Nat, s < 3 → ∀ x : Nat, x < 4 → P.get s x = .fin (P.get s x).toK))))) (by decide +kernel)
  set e' := e.run [.fit "fox" exFit fun _ => 0] with he'
  rw [Bool.and_eq_true] at h3
  obtain ⟨h3, h4⟩ := h3
  have h3 := of_decide_eq_true h3
  cases hh : e'.agents.head? with
  | none => rw [hh] at h4; cases h4
  | some a =>
    rw [hh] at h4
    simp only [Bool.and_eq_true] at h4
    obtain ⟨h4, h5⟩ := h4
    have h4 := of_decide_eq_true h4
    have ha : a ∈ e'.agents := List.mem_of_mem_head? (by rw [hh]; rfl)
    have hsel : a.selector = maxSelector := by
      obtain ⟨b, hb, -, -, -, -, -, -, -, hbs, -⟩ := Env.Later.back (Env.started h1 h2 []).1 (Env.started h1 h2 _).1
        (Env.started h1 h2 [.fit "fox" exFit fun _ => 0]).2 ha
      obtain ⟨i, sp, p, r, hsp, -, -, haa⟩ := (Env.init_facts h1 h2).2.2.2.2.2.2.2.2.2.2.2.2.2.2.2 b hb
      have : sp ∈ exSpecs := List.mem_of_getElem? hsp
      have h8 : b.selector = sp.selector := by rw [haa]; rfl
      rw [hbs, h8]
      rcases List.mem_cons.1 this with rfl | h9
      · rfl
      · rcases List.mem_cons.1 h9 with rfl | h9
        · rfl
        · cases h9
    cases hq : a.alg.qValues with
    | none => rw [hq] at h5; cases h5
    | some q =>
      rw [hq] at h5
      simp only [Bool.and_eq_true] at h5
      obtain ⟨h5, h6⟩ := h5
      rcases hP : maxSelector.piP q with err | P
      · rw [hP] at h6; cases h6
      rw [hP] at h6
      have h6 := of_decide_eq_true h6
      simp only [exSettled, Bool.and_eq_true] at h5
      obtain ⟨g1, g2⟩ := of_decide_eq_true h5.1
      have g3 := of_decide_eq_true h5.2
      refine ⟨m, m', e, h1, h2, a, ha, h4.1, q, P, hq, by rw [hsel]; exact hP, fun draws => ?_⟩
      exact C166_greedy h1 h2 [.fit "fox" exFit fun _ => 0] e' he' a ha hsel h4.2.2 q hq g1
        (fun s x hs hx => g2 s hs x (by rw [← h3.1]; exact hx)) (fun s hs _ => by rw [h3.1]; exact g3 s hs) 0
        (by rw [h4.2.1]; rfl) h3.2 P (by rw [hsel]; exact hP) _
        (fun u x hu _ hx => h6 u hu x (by rw [← h3.1]; exact hx)) 2 draws

end MaMDP
