import Verif.Spec.MCTS
import Verif.Lemmas.EnvStart
import Mathlib.Tactic.Linarith
import Mathlib.Tactic.Ring

/-! Lemmas for tree search: single functions. -/

set_option linter.unusedSectionVars false

namespace MaMDP

variable {K : Type} [Field K] [LinearOrder K] [IsStrictOrderedRing K]

theorem mem_actionsStates {M : Trans K} {s a t : Nat} :
    (a, t) ∈ actionsStates M s ↔ a < M.nA ∧ t < M.nS ∧ M.p s a t ≠ 0 := by
  unfold actionsStates
  simp only [List.mem_flatMap, List.mem_range, List.mem_map, mem_npWhere, decide_eq_true_eq, Prod.mk.injEq]
  constructor
  · rintro ⟨a', h1, t', ⟨h2, h3⟩, rfl, rfl⟩; exact ⟨h1, h2, h3⟩
  · rintro ⟨h1, h2, h3⟩; exact ⟨a, h1, t, ⟨h2, h3⟩, rfl, rfl⟩

theorem mem_nextStates {M : Trans K} {s t : Nat} :
    t ∈ nextStates M s ↔ t < M.nS ∧ ∃ a, a < M.nA ∧ M.p s a t ≠ 0 := by
  unfold nextStates
  simp only [List.mem_map, Prod.exists, mem_actionsStates]
  constructor
  · rintro ⟨a, t', ⟨h1, h2, h3⟩, rfl⟩; exact ⟨h2, a, h1, h3⟩
  · rintro ⟨h1, a, h2, h3⟩; exact ⟨a, t, ⟨h2, h1, h3⟩, rfl⟩

theorem argmaxNan_lt {n : Nat} (f : Nat → Option K) (h : 0 < n) : argmaxNan n f < n := by
  unfold argmaxNan
  split
  · rename_i i hi
    exact List.mem_range.1 (List.mem_of_find?_eq_some hi)
  · exact npArgmax_lt _ h

theorem argmaxNan_some {n : Nat} (g : Nat → K) (f : Nat → Option K) (h : ∀ i, i < n → f i = some (g i)) :
    argmaxNan n f = npArgmax n g := by
  unfold argmaxNan
  have : (List.range n).find? (fun i => (f i).isNone) = none := by
    rw [List.find?_eq_none]
    intro i hi
    rw [h i (List.mem_range.1 hi)]
    simp
  rw [this]
  exact npArgmax_congr fun i hi => by rw [h i hi]; rfl

theorem argmaxNan_none {n : Nat} (f : Nat → Option K) (hn : 0 < n) (h : f 0 = none) : argmaxNan n f = 0 := by
  unfold argmaxNan
  have : (List.range n).find? (fun i => (f i).isNone) = some 0 := by
    obtain ⟨k, rfl⟩ : ∃ k, n = k + 1 := ⟨n - 1, by omega⟩
    rw [List.range_succ_eq_map, List.find?_cons_of_pos (by rw [h]; rfl)]
  rw [this]

/-! ### Overlap -/

/-- Pairs before the first catch of agent 0. -/
theorem overlap_append (nodes : Nat → Int) (cost : K) (values : Nat → K) (post : List (Nat × Nat)) :
    ∀ (pre : List (Nat × Nat)) (added : K) (active : Nat → Bool),
      (∀ p ∈ pre, nodes p.1 = nodes p.2 → p.2 ≠ 0) →
      overlapLoop nodes cost values (pre ++ post) added active =
        overlapLoop nodes cost values post
          (added + ((pre.filter fun p => decide (nodes p.1 = nodes p.2 ∧ p.1 = 0)).map fun p => values p.2).sum)
          (fun j => active j && !(pre.any fun p => decide (nodes p.1 = nodes p.2 ∧ p.2 = j))) := by
  intro pre
  induction pre with
  | nil => intro added active _; simp
  | cons p l ih =>
    obtain ⟨i, j⟩ := p
    intro added active h
    rw [List.cons_append]
    have hl : ∀ p ∈ l, nodes p.1 = nodes p.2 → p.2 ≠ 0 := fun p hp => h p (List.mem_cons_of_mem _ hp)
    have hstep : overlapLoop nodes cost values ((i, j) :: (l ++ post)) added active =
        if nodes i = nodes j then
          (if j = 0 then (added + cost, upd1 active j false, true)
            else overlapLoop nodes cost values (l ++ post) (if i = 0 then added + values j else added)
              (upd1 active j false))
        else overlapLoop nodes cost values (l ++ post) added active := rfl
    rw [hstep]
    by_cases hij : nodes i = nodes j
    · have hj : j ≠ 0 := h (i, j) List.mem_cons_self hij
      rw [if_pos hij, if_neg hj, ih _ _ hl]
      congr 1
      · by_cases hi : i = 0
        · rw [if_pos hi, List.filter_cons_of_pos (by subst hi; simp [hij])]
          simp only [List.map_cons, List.sum_cons]; ring
        · rw [if_neg hi, List.filter_cons_of_neg (by simp [hi])]
      · funext k
        simp only [List.any_cons, hij, true_and, upd1]
        by_cases hk : k = j
        · simp [hk]
        · have : ¬ j = k := fun h => hk h.symm
          simp [hk, this]
    · rw [if_neg hij, ih _ _ hl]
      congr 1
      · rw [List.filter_cons_of_neg (by simp [hij])]
      · funext k
        simp [hij]

theorem mem_agentPairs {n i j : Nat} {c : Nat → Nat → Bool} :
    (i, j) ∈ agentPairs n c ↔ i < n ∧ j < n ∧ c i j = true := by
  unfold agentPairs
  simp only [List.mem_flatMap, List.mem_range, List.mem_map, mem_npWhere, Prod.mk.injEq]
  constructor
  · rintro ⟨a, h1, b, ⟨h2, h3⟩, rfl, rfl⟩; exact ⟨h1, h2, h3⟩
  · rintro ⟨h1, h2, h3⟩; exact ⟨i, h1, j, ⟨h2, h3⟩, rfl, rfl⟩

theorem sum_filter_range (n : Nat) (p : Nat → Bool) (v : Nat → K) :
    (((List.range n).filter p).map v).sum = ∑ j ∈ (Finset.range n).filter (fun j => p j = true), v j := by
  induction n with
  | zero => simp
  | succ n ih =>
    rw [List.range_succ, List.filter_append, List.map_append, List.sum_append, ih, Finset.range_add_one,
      Finset.filter_insert]
    by_cases h : p n = true
    · rw [if_pos h, Finset.sum_insert (by simp)]
      simp [h, add_comm]
    · rw [if_neg h]
      simp [h]

/-- The rewards collected from the first `k + 1` rows of pairs are those of row 0. -/
theorem overlap_sum (k n : Nat) (c : Nat → Nat → Bool) (nodes : Nat → Int) (v : Nat → K) :
    ((((List.range (k + 1)).flatMap fun i => (npWhere n (c i)).map fun j => (i, j)).filter
        fun p => decide (nodes p.1 = nodes p.2 ∧ p.1 = 0)).map fun p => v p.2).sum =
      ∑ j ∈ (Finset.range n).filter (fun j => Spec.Eats c nodes 0 j), v j := by
  rw [List.range_succ_eq_map, List.flatMap_cons, List.filter_append, List.map_append, List.sum_append]
  have h0 : ((List.map Nat.succ (List.range k)).flatMap fun i => (npWhere n (c i)).map fun j => (i, j)).filter
      (fun p => decide (nodes p.1 = nodes p.2 ∧ p.1 = 0)) = [] := by
    rw [List.filter_eq_nil_iff]
    intro p hp
    simp only [List.mem_flatMap, List.mem_map, List.mem_range] at hp
    obtain ⟨i, ⟨i', -, rfl⟩, j, -, rfl⟩ := hp
    simp
  rw [h0]
  simp only [List.map_nil, List.sum_nil, add_zero]
  rw [List.filter_map, List.map_map]
  unfold npWhere
  rw [List.filter_filter]
  have := sum_filter_range n (fun j => decide (nodes 0 = nodes j) && c 0 j) v
  simp only [Function.comp_def, and_true]
  rw [this]
  refine Finset.sum_congr ?_ fun _ _ => rfl
  ext j
  rw [Finset.mem_filter, Finset.mem_filter]
  simp only [Spec.Eats, Bool.and_eq_true, decide_eq_true_eq]
  tauto

theorem overlap_any (k n j : Nat) (hj : j < n) (c : Nat → Nat → Bool) (nodes : Nat → Int) :
    (((List.range k).flatMap fun i => (npWhere n (c i)).map fun j => (i, j)).any
      fun p => decide (nodes p.1 = nodes p.2 ∧ p.2 = j)) = true ↔ ∃ i, i < k ∧ Spec.Eats c nodes i j := by
  simp only [List.any_eq_true, List.mem_flatMap, List.mem_range, List.mem_map, mem_npWhere, decide_eq_true_eq]
  constructor
  · rintro ⟨p, ⟨i, h1, j', ⟨h2, h3⟩, rfl⟩, h4, rfl⟩
    exact ⟨i, h1, h3, h4⟩
  · rintro ⟨i, h1, h2, h3⟩
    exact ⟨(i, j), ⟨i, h1, j, ⟨hj, h2⟩, rfl⟩, h3, rfl⟩

theorem npWhere_zero {n : Nat} (hn : 0 < n) {p : Nat → Bool} (h : p 0 = true) :
    ∃ l, npWhere n p = 0 :: l := by
  obtain ⟨k, rfl⟩ : ∃ k, n = k + 1 := ⟨n - 1, by omega⟩
  unfold npWhere
  rw [List.range_succ_eq_map, List.filter_cons_of_pos h]
  exact ⟨_, rfl⟩

/-! ### Backpropagation -/

theorem backprop_eq (r : K) : ∀ (l : List Nat) (V : Nat → K) (N : Nat → Nat) (t : Nat),
    (backprop r l (V, N)).1 t = V t + (l.count t : K) * r ∧ (backprop r l (V, N)).2 t = N t + l.count t := by
  intro l
  induction l with
  | nil => intro V N t; simp [backprop]
  | cons v l ih =>
    intro V N t
    have h : backprop r (v :: l) (V, N) = backprop r l (upd1 V v (V v + r), upd1 N v (N v + 1)) := rfl
    obtain ⟨h1, h2⟩ := ih (upd1 V v (V v + r)) (upd1 N v (N v + 1)) t
    rw [h, h1, h2, List.count_cons]
    unfold upd1
    by_cases ht : t = v
    · subst ht
      simp only [if_pos, beq_self_eq_true]
      constructor
      · push_cast; ring
      · omega
    · have : ¬ v = t := fun h => ht h.symm
      simp [ht, this]

/-! ### Action values -/

theorem foldl_mask (s : Nat) (l : List (Nat × K)) : ∀ (q : QTable K),
    (∀ s' a, s' ≠ s → (l.foldl (fun q x => upd2 q s x.1 (.fin x.2)) q) s' a = q s' a) ∧
    (∀ a, (∀ x ∈ l, x.1 ≠ a) → (l.foldl (fun q x => upd2 q s x.1 (.fin x.2)) q) s a = q s a) ∧
    (∀ a, (∃ x ∈ l, x.1 = a) → ∃ x ∈ l, x.1 = a ∧
      (l.foldl (fun q x => upd2 q s x.1 (.fin x.2)) q) s a = .fin x.2) := by
  induction l with
  | nil => intro q; simp
  | cons x l ih =>
    intro q
    obtain ⟨h1, h2, h3⟩ := ih (upd2 q s x.1 (.fin x.2))
    rw [List.foldl_cons]
    refine ⟨fun s' a hs => ?_, fun a ha => ?_, fun a ha => ?_⟩
    · rw [h1 s' a hs]
      unfold upd2
      rw [if_neg (fun h => hs h.1)]
    · rw [h2 a fun y hy => ha y (List.mem_cons_of_mem _ hy)]
      unfold upd2
      rw [if_neg (fun h => ha x List.mem_cons_self h.2.symm)]
    · by_cases hl : ∃ y ∈ l, y.1 = a
      · obtain ⟨y, g1, g2, g3⟩ := h3 a hl
        exact ⟨y, List.mem_cons_of_mem _ g1, g2, g3⟩
      · obtain ⟨y, g1, g2⟩ := ha
        rcases List.mem_cons.1 g1 with rfl | g1
        · refine ⟨y, List.mem_cons_self, g2, ?_⟩
          rw [h2 a fun z hz hza => hl ⟨z, hz, hza⟩]
          unfold upd2
          rw [if_pos ⟨rfl, g2.symm⟩]
        · exact absurd ⟨y, g1, g2⟩ hl

/-- The Q table: NaN except for the actions with a successor, where it is a successor's average. -/
theorem mctsQ_spec (M : Trans K) (V : Nat → K) (N : Nat → Nat) (s : Nat) :
    (∀ s' a, s' ≠ s → mctsQ M V N s s' a = .nan) ∧
    (∀ a, (∀ t, t < M.nS → a < M.nA → M.p s a t = 0) → mctsQ M V N s s a = .nan) ∧
    (∀ a, a < M.nA → (∃ t, t < M.nS ∧ M.p s a t ≠ 0) →
      ∃ t, t < M.nS ∧ M.p s a t ≠ 0 ∧ mctsQ M V N s s a = .fin (V t / (1 + (N t : K)))) := by
  obtain ⟨h1, h2, h3⟩ := foldl_mask s (mctsActionValues M V N s) fun _ _ => (.nan : Ext K)
  have hmem : ∀ x, x ∈ mctsActionValues M V N s ↔
      ∃ t, (x.1 < M.nA ∧ t < M.nS ∧ M.p s x.1 t ≠ 0) ∧ x.2 = V t / (1 + (N t : K)) := by
    rintro ⟨a, y⟩
    unfold mctsActionValues
    simp only [List.mem_map, Prod.exists, mem_actionsStates, Prod.mk.injEq]
    constructor
    · rintro ⟨a', t, h, rfl, rfl⟩; exact ⟨t, h, rfl⟩
    · rintro ⟨t, h, rfl⟩; exact ⟨a, t, h, rfl, rfl⟩
  refine ⟨h1, fun a ha => h2 a fun x hx hxa => ?_, fun a ha ⟨t, ht, hp⟩ => ?_⟩
  · obtain ⟨t, ⟨g1, g2, g3⟩, -⟩ := (hmem x).1 hx
    rw [hxa] at g1 g3
    exact g3 (ha t g2 g1)
  · obtain ⟨x, g1, g2, g3⟩ := h3 a ⟨(a, _), (hmem _).2 ⟨t, ⟨ha, ht, hp⟩, rfl⟩, rfl⟩
    obtain ⟨u, ⟨-, g4, g5⟩, g6⟩ := (hmem x).1 g1
    rw [g2] at g5
    refine ⟨u, g4, g5, ?_⟩
    rw [← g6]; exact g3

/-! ### What is extracted about the agents -/

theorem consumesRow_aux (n : Nat) : ∀ (l : List Int) (row : Nat → Bool),
    (∀ f ∈ l, ∃ i, pyIdx n f = some i) →
    ∃ row', l.foldlM (m := Except PyErr) (fun row f => match pyIdx n f with
      | none => .error .indexError
      | some i => .ok (upd1 row i true)) row = .ok row' ∧
      ∀ i, row' i = true ↔ row i = true ∨ ∃ f ∈ l, pyIdx n f = some i := by
  intro l
  induction l with
  | nil => intro row _; exact ⟨row, rfl, by simp⟩
  | cons f l ih =>
    intro row h
    obtain ⟨j, hj⟩ := h f List.mem_cons_self
    obtain ⟨row', h1, h2⟩ := ih (upd1 row j true) fun g hg => h g (List.mem_cons_of_mem _ hg)
    refine ⟨row', ?_, fun i => ?_⟩
    · rw [List.foldlM_cons, hj]; exact h1
    · rw [h2 i]
      unfold upd1
      simp only [List.mem_cons, exists_eq_or_imp, hj, Option.some.injEq]
      by_cases hij : i = j
      · simp [hij]
      · have : ¬ j = i := fun h => hij h.symm
        simp [hij, this]

theorem consumesRow_ok {n : Nat} {l : List Int} (h : ∀ f ∈ l, ∃ i, pyIdx n f = some i) :
    ∃ row, consumesRow n l = .ok row ∧ ∀ i, row i = true ↔ ∃ f ∈ l, pyIdx n f = some i := by
  obtain ⟨row, h1, h2⟩ := consumesRow_aux n l (fun _ => false) h
  exact ⟨row, h1, fun i => by rw [h2 i]; simp⟩

theorem consumesRow_error {n : Nat} : ∀ {l : List Int} (row : Nat → Bool), (∃ f ∈ l, pyIdx n f = none) →
    l.foldlM (m := Except PyErr) (fun row f => match pyIdx n f with
      | none => .error .indexError
      | some i => .ok (upd1 row i true)) row = .error .indexError := by
  intro l
  induction l with
  | nil => intro row h; simp at h
  | cons f l ih =>
    intro row h
    rw [List.foldlM_cons]
    cases hf : pyIdx n f with
    | none => rfl
    | some i =>
      obtain ⟨g, hg, hn⟩ := h
      rcases List.mem_cons.1 hg with rfl | hg
      · rw [hf] at hn; cases hn
      · exact ih _ ⟨g, hg, hn⟩

theorem agentIdx_aux : ∀ (l : List (AgentInfo K)) (k : Nat) (d : List (Nat × Nat)),
    ((d.map (·.1)) ++ l.map (·.featIdx)).Nodup →
    (l.zipIdx k).foldl (fun d x => rowSet d x.1.featIdx x.2) d =
      d ++ (l.zipIdx k).map fun x => (x.1.featIdx, x.2) := by
  intro l
  induction l with
  | nil => intro k d _; simp
  | cons a l ih =>
    intro k d h
    rw [List.zipIdx_cons, List.foldl_cons, List.map_cons]
    have hn : a.featIdx ∉ d.map (·.1) := by
      intro hc
      rw [List.map_cons, List.nodup_append] at h
      exact h.2.2 _ hc _ List.mem_cons_self rfl
    have hd : rowSet d a.featIdx k = d ++ [(a.featIdx, k)] := by
      unfold rowSet; rw [if_neg hn]
    rw [hd, ih (k + 1) _ (by simpa using h)]
    simp

theorem agentIdx_eq {l : List (AgentInfo K)} (h : (l.map (·.featIdx)).Nodup) :
    agentIdx l = l.zipIdx.map fun x => (x.1.featIdx, x.2) := by
  unfold agentIdx
  rw [agentIdx_aux l 0 [] (by simpa using h)]
  simp

theorem mem_agentIdx {l : List (AgentInfo K)} (h : (l.map (·.featIdx)).Nodup) {k j : Nat} :
    (k, j) ∈ agentIdx l ↔ ∃ a, l[j]? = some a ∧ a.featIdx = k := by
  rw [agentIdx_eq h]
  simp only [List.mem_map, Prod.mk.injEq, Prod.exists, List.mem_zipIdx_iff_getElem?]
  constructor
  · rintro ⟨a, i, h1, h2, rfl⟩; exact ⟨a, h1, h2⟩
  · rintro ⟨a, h1, h2⟩; exact ⟨a, j, h1, h2, rfl⟩

theorem getElem_inj_of_nodup_map {α β : Type} {f : α → β} {l : List α} (h : (l.map f).Nodup) {i j : Nat} {a b : α}
    (hi : l[i]? = some a) (hj : l[j]? = some b) (hf : f a = f b) : i = j := by
  have hi' := List.getElem?_eq_some_iff.1 hi
  have hj' := List.getElem?_eq_some_iff.1 hj
  obtain ⟨h1, rfl⟩ := hi'
  obtain ⟨h2, rfl⟩ := hj'
  exact (List.nodup_iff_injective_get.1 h |> fun hinj => by
    have := @hinj ⟨i, by simpa using h1⟩ ⟨j, by simpa using h2⟩ (by simpa using hf)
    simpa using this)

theorem rowGet_agentIdx {l : List (AgentInfo K)} (h : (l.map (·.featIdx)).Nodup) {k j : Nat} :
    rowGet (agentIdx l) k = some j ↔ ∃ a, l[j]? = some a ∧ a.featIdx = k := by
  unfold rowGet
  constructor
  · intro hg
    rw [Option.map_eq_some_iff] at hg
    obtain ⟨⟨k', j'⟩, h1, rfl⟩ := hg
    have h2 : k' = k := by simpa using List.find?_some h1
    subst h2
    exact (mem_agentIdx h).1 (List.mem_of_find?_eq_some h1)
  · intro hg
    obtain ⟨a, ha, hk⟩ := hg
    cases hf : (agentIdx l).find? fun p => p.1 = k with
    | none =>
      rw [List.find?_eq_none] at hf
      exact absurd (by simp) (hf (k, j) ((mem_agentIdx h).2 ⟨a, ha, hk⟩))
    | some p =>
      obtain ⟨k', j'⟩ := p
      have h2 : k' = k := by simpa using List.find?_some hf
      subst h2
      obtain ⟨b, hb, hbk⟩ := (mem_agentIdx h).1 (List.mem_of_find?_eq_some hf)
      rw [getElem_inj_of_nodup_map h hb ha (hbk.trans hk.symm)]
      rfl

theorem inner_values (a : Nat) (reward : Nat → K) : ∀ (idx : List (Nat × Nat)) (vals : Nat → K),
    (∀ b, b ≠ a → (idx.foldl (fun vals kv => if kv.2 = a then upd1 vals a (reward kv.1) else vals) vals) b = vals b) ∧
    ((∀ k, (k, a) ∉ idx) →
      (idx.foldl (fun vals kv => if kv.2 = a then upd1 vals a (reward kv.1) else vals) vals) a = vals a) ∧
    ((∃ k, (k, a) ∈ idx) → ∃ k, (k, a) ∈ idx ∧
      (idx.foldl (fun vals kv => if kv.2 = a then upd1 vals a (reward kv.1) else vals) vals) a = reward k) := by
  intro idx
  induction idx with
  | nil => intro vals; simp
  | cons p idx ih =>
    obtain ⟨k, j⟩ := p
    intro vals
    rw [List.foldl_cons]
    obtain ⟨h1, h2, h3⟩ := ih (if j = a then upd1 vals a (reward k) else vals)
    refine ⟨fun b hb => ?_, fun hn => ?_, fun ⟨k', hk⟩ => ?_⟩
    · rw [h1 b hb]
      split_ifs
      · simp [upd1, hb]
      · rfl
    · rw [h2 fun k' hk => hn k' (List.mem_cons_of_mem _ hk)]
      rw [if_neg]
      rintro rfl
      exact hn k List.mem_cons_self
    · by_cases hl : ∃ k, (k, a) ∈ idx
      · obtain ⟨k2, g1, g2⟩ := h3 hl
        exact ⟨k2, List.mem_cons_of_mem _ g1, g2⟩
      · rcases List.mem_cons.1 hk with hk | hk
        · obtain ⟨rfl, rfl⟩ := Prod.mk.inj hk
          refine ⟨k', List.mem_cons_self, ?_⟩
          rw [h2 fun k2 hk2 => hl ⟨k2, hk2⟩, if_pos rfl]
          simp [upd1]
        · exact absurd ⟨k', hk⟩ hl

theorem agentValues_spec {l : List (AgentInfo K)} (h : (l.map (·.featIdx)).Nodup) (reward : Nat → K) (m : Nat) :
    ∀ a, agentValues m (agentIdx l) reward a =
      if a = 0 then 0 else match l[a]? with
        | some i => if a < m then reward i.featIdx else 0
        | none => 0 := by
  unfold agentValues
  induction m with
  | zero => intro a; cases l[a]? <;> simp
  | succ m ih =>
    intro a
    rw [List.range_succ, List.foldl_append, List.foldl_cons, List.foldl_nil]
    obtain ⟨h1, h2, h3⟩ := inner_values m reward (agentIdx l) ((List.range m).foldl (fun vals a => if a ≠ 0 then
      (agentIdx l).foldl (fun vals kv => if kv.2 = a then upd1 vals a (reward kv.1) else vals) vals else vals)
      fun _ => 0)
    by_cases hm : m = 0
    · rw [if_neg (by simpa using hm), ih a]
      subst hm
      by_cases ha : a = 0
      · simp [ha]
      · cases l[a]? with
        | none => simp
        | some i => simp [ha]
    · rw [if_pos hm]
      by_cases ham : a = m
      · subst ham
        rw [if_neg hm]
        cases hl : l[a]? with
        | none =>
          rw [h2, ih a, if_neg hm, hl]
          intro k hk
          obtain ⟨i, hi, -⟩ := (mem_agentIdx h).1 hk
          rw [hl] at hi; cases hi
        | some i =>
          obtain ⟨k, g1, g2⟩ := h3 ⟨i.featIdx, (mem_agentIdx h).2 ⟨i, hl, rfl⟩⟩
          obtain ⟨i', hi', rfl⟩ := (mem_agentIdx h).1 g1
          rw [hl] at hi'; cases hi'
          rw [g2]
          simp
      · rw [h1 a ham, ih a]
        have : a < m + 1 ↔ a < m := by omega
        simp only [this]

theorem inner_consumes (a : Nat) (idx : List (Nat × Nat)) : ∀ (fs : List Nat) (c : Nat → Nat → Bool) (i j : Nat),
    (fs.foldl (fun c f => match rowGet idx f with
      | some j => upd2 c a j true
      | none => c) c) i j = true ↔ c i j = true ∨ (i = a ∧ ∃ f ∈ fs, rowGet idx f = some j) := by
  intro fs
  induction fs with
  | nil => intro c i j; simp
  | cons f fs ih =>
    intro c i j
    rw [List.foldl_cons, ih]
    cases hf : rowGet idx f with
    | none => simp [hf]
    | some k =>
      simp only [upd2]
      by_cases hik : i = a ∧ j = k
      · obtain ⟨rfl, rfl⟩ := hik
        simp [hf]
      · rw [if_neg hik]
        constructor
        · rintro (h | ⟨h1, g, h2, h3⟩)
          · exact .inl h
          · exact .inr ⟨h1, g, List.mem_cons_of_mem _ h2, h3⟩
        · rintro (h | ⟨h1, g, h2, h3⟩)
          · exact .inl h
          · rcases List.mem_cons.1 h2 with rfl | h2
            · rw [hf] at h3; cases h3; exact absurd ⟨h1, rfl⟩ hik
            · exact .inr ⟨h1, g, h2, h3⟩

theorem agentConsumes_spec (nF : Nat) (rows : Nat → Nat → Bool) (idx : List (Nat × Nat)) (m i j : Nat) :
    agentConsumes m nF rows idx i j = true ↔ i < m ∧ ∃ f, f < nF ∧ rows i f = true ∧ rowGet idx f = some j := by
  unfold agentConsumes
  induction m with
  | zero => simp
  | succ m ih =>
    rw [List.range_succ, List.foldl_append, List.foldl_cons, List.foldl_nil]
    refine (inner_consumes m idx _ _ i j).trans ?_
    rw [ih]
    simp only [mem_npWhere]
    constructor
    · rintro (⟨h1, h2⟩ | ⟨rfl, f, ⟨h1, h2⟩, h3⟩)
      · exact ⟨by omega, h2⟩
      · exact ⟨by omega, f, h1, h2, h3⟩
    · rintro ⟨h1, f, h2, h3, h4⟩
      by_cases him : i = m
      · subst him; exact .inr ⟨rfl, f, ⟨h2, h3⟩, h4⟩
      · exact .inl ⟨by omega, f, h2, h3, h4⟩

theorem rows_ok : ∀ (l : List (AgentInfo K)),
    (∀ a ∈ l, ∀ f ∈ a.consumes, ∃ i, pyIdx a.reward.d0 f = some i) →
    ∃ rows : List (Nat → Bool), l.mapM (m := Except PyErr) (fun i => consumesRow i.reward.d0 i.consumes) = .ok rows ∧
      rows.length = l.length ∧ ∀ a i, l[a]? = some i → ∀ f, (rows.getD a fun _ => false) f = true ↔
        ∃ x ∈ i.consumes, pyIdx i.reward.d0 x = some f := by
  intro l
  induction l with
  | nil => intro _; exact ⟨[], rfl, rfl, by simp⟩
  | cons a l ih =>
    intro h
    obtain ⟨row, h1, h2⟩ := consumesRow_ok (h a List.mem_cons_self)
    obtain ⟨rows, h3, h4, h5⟩ := ih fun b hb => h b (List.mem_cons_of_mem _ hb)
    refine ⟨row :: rows, ?_, by simp [h4], ?_⟩
    · rw [List.mapM_cons, h1, h3]; rfl
    · intro k i hk
      cases k with
      | zero => simp only [List.getElem?_cons_zero, Option.some.injEq] at hk; subst hk; simpa using h2
      | succ k => simpa using h5 k i (by simpa using hk)

theorem rows_error : ∀ (l : List (AgentInfo K)),
    (∃ a ∈ l, ∃ f ∈ a.consumes, pyIdx a.reward.d0 f = none) →
    l.mapM (m := Except PyErr) (fun i => consumesRow i.reward.d0 i.consumes) = .error .indexError := by
  intro l
  induction l with
  | nil => intro h; simp at h
  | cons a l ih =>
    intro h
    rw [List.mapM_cons]
    by_cases ha : ∃ f ∈ a.consumes, pyIdx a.reward.d0 f = none
    · have : consumesRow a.reward.d0 a.consumes = .error .indexError := consumesRow_error _ ha
      rw [this]; rfl
    · push Not at ha
      obtain ⟨row, h1, -⟩ := consumesRow_ok (n := a.reward.d0) (l := a.consumes) fun f hf => by
        cases hx : pyIdx a.reward.d0 f with
        | none => exact absurd hx (ha f hf)
        | some i => exact ⟨i, rfl⟩
      obtain ⟨b, hb, hf⟩ := h
      rcases List.mem_cons.1 hb with rfl | hb
      · obtain ⟨f, hf, hn⟩ := hf; exact absurd hn (ha f hf)
      · rw [h1, ih ⟨b, hb, hf⟩]; rfl

end MaMDP
