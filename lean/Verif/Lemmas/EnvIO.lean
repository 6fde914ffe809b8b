import Verif.Spec.EnvIO
import Verif.Lemmas.EnvStart
import Verif.Lemmas.EnvHistory
import Mathlib.Algebra.Order.Floor.Ring

/-! Lemmas about saving and loading. -/

set_option linter.unusedSectionVars false

namespace MaMDP

variable {K : Type} [Field K] [LinearOrder K] [IsStrictOrderedRing K] {δ κ : Type}

theorem mapM_ok {α β : Type} {f : α → Py β} {g : α → β} : ∀ {l : List α}, (∀ a ∈ l, f a = .ok (g a)) →
    l.mapM (m := Except PyErr) f = .ok (l.map g) := by
  intro l
  induction l with
  | nil => intro _; rfl
  | cons a l ih =>
    intro h
    rw [List.mapM_cons, h a List.mem_cons_self, ih fun b hb => h b (List.mem_cons_of_mem _ hb)]
    rfl

namespace Mdp

theorem apply_selfT (m : Mdp K) (op : MdpOp K) : (m.apply op).selfTransitions = m.selfTransitions := by
  have hsas : ∀ (m : Mdp K) x, (m.setSas x).1.selfTransitions = m.selfTransitions := by
    intro m x; unfold setSas; split_ifs <;> rfl
  have hf : ∀ (m : Mdp K) f, (m.setFeatures f).1.selfTransitions = m.selfTransitions := by
    intro m x; unfold setFeatures; split_ifs <;> rfl
  have hw : ∀ (m : Mdp K) w, (m.setWalls w).1.selfTransitions = m.selfTransitions := by
    intro m w
    unfold setWalls
    split
    · rfl
    · split_ifs
      · rfl
      · rfl
      · have := hsas m m.originalSas
        split
        · rename_i heq; rw [heq] at this; exact this
        · rename_i heq; rw [heq] at this; exact this
  have hc : ∀ (fs : List Int) s (m : Mdp K) c, (consumeLoop s fs m c).1.selfTransitions = m.selfTransitions := by
    intro fs s
    induction fs with
    | nil => intro m c; rfl
    | cons f fs ih =>
      intro m c
      unfold consumeLoop
      split
      · split_ifs
        · rw [ih]
        · rw [ih]
      · rfl
  cases op with
  | setSas x => exact hsas m x
  | setWalls w => exact hw m w
  | addWallXY x y =>
    simp only [apply]
    unfold addWallXY
    split
    · rfl
    · split
      · rfl
      · exact hw _ _
  | resetWalls => exact hw _ _
  | setFeatures f => exact hf m f
  | addAgentFeature p =>
    simp only [apply]
    unfold addAgentFeature
    simp only
    split
    · rfl
    · split_ifs
      · rfl
      · exact hf _ _
  | updateAgentFeature i p =>
    simp only [apply]
    unfold updateAgentFeature
    split
    · rfl
    · simp only; split <;> rfl
  | removeAgentFeatures =>
    simp only [apply]
    unfold removeAgentFeatures
    simp only
    generalize (if m.nAgents = 0 then 0 else m.features.d0 - m.nAgents) = k
    have := hf m { m.features with d0 := k }
    split
    · rename_i heq; rw [heq] at this; exact this
    · rename_i heq; rw [heq] at this; exact this
  | consumeFeatures fs s => exact hc fs s m _
  | reset => exact hf m _

theorem initGrid_selfT {kind : GridKind} {W H : Nat} {selfT : Bool} {f : Arr2 K} {w : Option (Arr1 K)} {m : Mdp K}
    (h : initGrid kind W H selfT f w = .ok m) : m.selfTransitions = selfT := by
  unfold initGrid init at h
  split at h
  · cases h
  · rename_i sas _
    have h1 := apply_selfT (blank (some (W, H)) selfT sas) (.setSas sas)
    simp only [apply] at h1
    split at h
    · cases h
    · rename_i m1 heq
      rw [heq] at h1
      have h2 := apply_selfT m1 (.setFeatures f)
      simp only [apply] at h2
      split at h
      · cases h
      · rename_i m2 heq2
        rw [heq2] at h2
        simp only at h
        have h3 := fun w' => apply_selfT { m2 with nNonAgent := f.d0, nAgents := 0 } (.setWalls w')
        simp only [apply] at h3
        split at h
        · cases h
        · rename_i m3 heq3
          have h4 := congrArg (fun r => r.1.selfTransitions) heq3
          cases h
          exact (h4.symm.trans (h3 _)).trans (h2.trans h1)

theorem GridReach.selfT {kind : GridKind} {W H : Nat} {selfT : Bool} {m : Mdp K} (h : GridReach kind W H selfT m) :
    m.selfTransitions = selfT := by
  induction h with
  | init h => exact initGrid_selfT h
  | step op _ _ ih => rw [apply_selfT]; exact ih

end Mdp

namespace Env

variable {kind : GridKind} {W H : Nat} {selfT : Bool} {e : Env K δ}

/-- The order of the agents never changes. -/
theorem names_run (ops : List (EnvOp K δ)) (h : Ok kind W H selfT e) :
    (e.run ops).agents.map (·.name) = e.agents.map (·.name) := by
  refine (run_induct (fun e' => Ok kind W H selfT e' ∧ e'.agents.map (·.name) = e.agents.map (·.name))
    ?_ ?_ ?_ ?_ ?_ ?_ ?_ ?_ ?_ ops e ⟨h, rfl⟩).2
  · rintro e' n o d ⟨h1, h2⟩
    refine ⟨h1.fit n o d, ?_⟩
    unfold fit
    split
    · exact h2
    · simp only [names_put]; exact h2
  · rintro e' n d ⟨h1, h2⟩
    refine ⟨h1.step n d, ?_⟩
    unfold step
    split
    · exact h2
    · split
      · simp only [names_put]; exact h2
      · split <;> simp only [names_put] <;> exact h2
  · rintro e' n p d ⟨h1, h2⟩
    refine ⟨h1.stepProba n p d, ?_⟩
    unfold stepProba
    split
    · exact h2
    · split <;> simp only [names_put] <;> exact h2
  · rintro e' ⟨h1, h2⟩
    rw [(reset_eq h1).1]
    refine ⟨(reset_eq h1).2, ?_⟩
    rw [← h2]
    simp only [resetEnv, List.map_map]
    rfl
  · rintro e' n p ⟨h1, h2⟩
    refine ⟨h1.setAgentPosition n p, ?_⟩
    unfold setAgentPosition
    split
    · exact h2
    · simp only [names_put]; exact h2
  · rintro e' w ⟨h1, h2⟩; exact ⟨h1.setWalls w, h2⟩
  · rintro e' x y ⟨h1, h2⟩; exact ⟨h1.addWallXY x y, h2⟩
  · rintro e' ⟨h1, h2⟩; exact ⟨h1.resetWalls, h2⟩
  · rintro e' n st ⟨h1, h2⟩
    refine ⟨h1.setAlgorithm n st, ?_⟩
    unfold setAlgorithm
    split
    · exact h2
    · simp only [names_put]; exact h2

/-- What saving needs to know about an environment. -/
structure Savable (kind : GridKind) (W H : Nat) (selfT : Bool) (own : Nat) (e : Env K δ) : Prop where
  ok : Ok kind W H selfT e
  d0 : e.mdp.features.d0 = own + e.agents.length
  idx : ∀ (i : Nat) (a : Agent K δ), e.agents[i]? = some a → a.idx = i
  reward : ∀ a ∈ e.agents, a.reward.d0 = own + e.agents.length
  consumes : ∀ a ∈ e.agents, ∀ f ∈ a.consumes, f < (own + e.agents.length : Nat)

theorem savable {m m' : Mdp K} (hm : Mdp.GridReach kind W H selfT m) {specs : List (AgentSpec K δ)}
    {e : Env K δ} (h : init m specs = (m', .ok e)) (hnames : (specs.map (·.name)).Nodup) (ops : List (EnvOp K δ)) :
    Savable kind W H selfT (m.features.d0 - m.nAgents) (e.run ops) ∧ (e.run ops).agents.length = specs.length := by
  obtain ⟨-, hok, hv, -, -, -, hd, -, -, -, -, -, -, -, hag, -⟩ := init_facts hm h
  obtain ⟨hlen, hag⟩ := hag hnames
  obtain ⟨hok', hl⟩ := started hm h ops
  have hnm := names_run ops hok
  have hlen' : (e.run ops).agents.length = specs.length := by
    rw [← hlen]; simpa using congrArg List.length hnm
  refine ⟨⟨hok', ?_, ?_, ?_, ?_⟩, hlen'⟩
  · rw [hl.d0, hd, hlen']
  · intro i a ha
    obtain ⟨b, hb, h1, h2, -⟩ := hl.back hok hok' (List.mem_of_getElem? ha)
    have h3 : (e.agents.map (·.name))[i]? = some a.name := by rw [← hnm, List.getElem?_map, ha]; rfl
    rw [List.getElem?_map] at h3
    cases hbi : e.agents[i]? with
    | none => rw [hbi] at h3; cases h3
    | some b' =>
      rw [hbi] at h3
      simp only [Option.map_some, Option.some.injEq] at h3
      have : b' = b := eq_of_name hok.nodup (List.mem_of_getElem? hbi) hb (h3.trans h1)
      subst this
      obtain ⟨sp, p, r, -, -, -, rfl⟩ := hag i b' hbi
      rw [h2]; rfl
  · intro a ha
    obtain ⟨b, hb, -, -, -, -, -, -, h2, -⟩ := hl.back hok hok' ha
    obtain ⟨i, hi⟩ := List.getElem?_of_mem hb
    obtain ⟨sp, p, r, -, -, -, rfl⟩ := hag i b hi
    rw [h2, hlen']; rfl
  · intro a ha f hf
    obtain ⟨b, hb, -, -, -, h2, -⟩ := hl.back hok hok' ha
    obtain ⟨i, hi⟩ := List.getElem?_of_mem hb
    obtain ⟨sp, p, r, h3, -, -, rfl⟩ := hag i b hi
    rw [h2] at hf
    rw [hlen']
    exact (hv sp (List.mem_of_getElem? h3)).2.2 f hf

end Env

/-! ### Saving -/

/-- The numbers a list of cells is saved as. -/
def cellNumbers (fmt : SaveFormat) (H : Nat) (l : List Nat) : List Nat :=
  match fmt with
  | .index => l
  | .coords => l.flatMap fun s => [s / H, s % H]

/-- Where a row is not zero. -/
def support (n : Nat) (x : Nat → K) : List Nat := npWhere n fun s => decide (x s ≠ 0)

theorem mem_support {n : Nat} {x : Nat → K} {s : Nat} : s ∈ support n x ↔ s < n ∧ x s ≠ 0 := by
  unfold support; rw [mem_npWhere]; simp

theorem saveCells_ok (fmt : SaveFormat) (W H : Nat) (x : Nat → K) :
    ∃ c, saveCells fmt W H (W * H) x = .ok c ∧
      c.numbers = (cellNumbers fmt H (support (W * H) x)).map fun (k : Nat) => (k : Int) := by
  unfold saveCells
  have hm : npWhere (W * H) (fun s => decide (x s ≠ 0)) = support (W * H) x := rfl
  simp only [hm]
  cases fmt with
  | index => exact ⟨_, rfl, rfl⟩
  | coords =>
    have h : (support (W * H) x).mapM (m := Except PyErr) (fun (s : Nat) => unravelIndex W H s) =
        .ok ((support (W * H) x).map fun s => (s / H, s % H)) := by
      refine mapM_ok fun s hs => ?_
      have := (mem_support.1 hs).1
      unfold unravelIndex
      rw [if_pos ⟨by omega, by exact_mod_cast this⟩]
      simp
    simp only [h]
    refine ⟨_, rfl, ?_⟩
    generalize support (W * H) x = l
    have : ∀ l : List (Nat × Nat), (Cells.squeeze l).numbers =
        l.flatMap fun p => [(p.1 : Int), (p.2 : Int)] := by
      intro l
      unfold Cells.squeeze
      split
      · simp [Cells.numbers]
      · simp [Cells.numbers, List.flatMap_map]
    rw [this]
    simp [cellNumbers, List.flatMap_map, List.map_flatMap]

/-- What a row is saved as. -/
def cellsOf (fmt : SaveFormat) (W H : Nat) (x : Nat → K) : Cells :=
  match saveCells fmt W H (W * H) x with
  | .ok c => c
  | .error _ => .states []

theorem saveCells_eq (fmt : SaveFormat) (W H : Nat) (x : Nat → K) :
    saveCells fmt W H (W * H) x = .ok (cellsOf fmt W H x) := by
  obtain ⟨c, h, -⟩ := saveCells_ok fmt W H x
  unfold cellsOf; rw [h]

theorem cellsOf_numbers (fmt : SaveFormat) (W H : Nat) (x : Nat → K) :
    (cellsOf fmt W H x).numbers = (cellNumbers fmt H (support (W * H) x)).map fun (k : Nat) => (k : Int) := by
  obtain ⟨c, h, h2⟩ := saveCells_ok fmt W H x
  unfold cellsOf; rw [h]; exact h2

/-- The saved rows from row `f` on. -/
def savedRows (fmt : SaveFormat) (W H : Nat) (x : Nat → Nat → K) : Nat → List String → List (String × Cells)
  | _, [] => []
  | f, n :: l => (n, cellsOf fmt W H (x f)) :: savedRows fmt W H x (f + 1) l

theorem savedRows_length (fmt : SaveFormat) (W H : Nat) (x : Nat → Nat → K) : ∀ (l : List String) f,
    (savedRows fmt W H x f l).length = l.length := by
  intro l
  induction l with
  | nil => intro f; rfl
  | cons n l ih => intro f; simp [savedRows, ih]

theorem savedRows_get (fmt : SaveFormat) (W H : Nat) (x : Nat → Nat → K) : ∀ (l : List String) (f i : Nat) (n : String),
    l.Nodup → l[i]? = some n → dictGet (savedRows fmt W H x f l) n = .ok (cellsOf fmt W H (x (f + i))) := by
  intro l
  induction l with
  | nil => intro f i n _ h; simp at h
  | cons n0 l ih =>
    intro f i n hnd h
    cases i with
    | zero =>
      simp only [List.getElem?_cons_zero, Option.some.injEq] at h
      subst h
      simp [dictGet, savedRows]
    | succ i =>
      simp only [List.getElem?_cons_succ] at h
      have hne : n0 ≠ n := by
        rintro rfl
        exact (List.nodup_cons.1 hnd).1 (List.mem_of_getElem? h)
      have := ih (f + 1) i n (List.nodup_cons.1 hnd).2 h
      rw [show f + (i + 1) = f + 1 + i by omega, ← this]
      simp [dictGet, savedRows, hne]

theorem saveFeatures_eq (fmt : SaveFormat) (W H : Nat) (m : Mdp K) (hd : m.features.d1 = W * H) :
    ∀ (l : List String) (f : Nat) (d : List (String × Cells)), l.Nodup → (∀ n ∈ l, n ∉ d.map Prod.fst) →
      saveFeatures fmt W H m f l d = .ok (d ++ savedRows fmt W H m.features.get f l) := by
  intro l
  induction l with
  | nil => intro f d _ _; simp [saveFeatures, savedRows]
  | cons n l ih =>
    intro f d hnd hn
    unfold saveFeatures
    rw [hd, saveCells_eq]
    simp only
    have : dictSet d n (cellsOf fmt W H (m.features.get f)) = d ++ [(n, cellsOf fmt W H (m.features.get f))] := by
      unfold dictSet; rw [if_neg (hn n List.mem_cons_self)]
    rw [this, ih _ _ (List.nodup_cons.1 hnd).2]
    · simp [savedRows]
    · intro k hk
      have h1 := hn k (List.mem_cons_of_mem _ hk)
      have h2 : k ≠ n := by rintro rfl; exact (List.nodup_cons.1 hnd).1 hk
      simp only [List.map_append, List.mem_append, List.map_cons, List.map_nil, List.mem_singleton]
      rintro (h | h)
      · exact h1 h
      · exact h2 h

/-- What an agent is saved as. -/
def savedAgent [FloorRing K] (fmt : SaveFormat) (H : Nat) (info : String → AgentMeta κ) (a : Agent K δ) : AgentDict κ :=
  ⟨a.name, match fmt with
    | .index => .index a.position
    | .coords => .coords ((a.position.toNat / H : Nat) : Int) ((a.position.toNat % H : Nat) : Int),
    a.nMoves, (List.range a.reward.d0).map fun k => pyInt (a.reward.get k),
    a.consumes, (info a.name).algorithm.getD "", (info a.name).algorithmKwargs, (info a.name).selector.getD "",
    (info a.name).selectorKwargs⟩

theorem saveAgent_eq [FloorRing K] (fmt : SaveFormat) {W H : Nat} {info : String → AgentMeta κ} {a : Agent K δ}
    (h1 : (info a.name).algorithm ≠ none) (h2 : (info a.name).selector ≠ none)
    (h3 : fmt = .coords → 0 ≤ a.position ∧ a.position < W * H) :
    saveAgent fmt W H info a = .ok (savedAgent fmt H info a) := by
  obtain ⟨s, hs⟩ := Option.ne_none_iff_exists'.1 h1
  obtain ⟨t, ht⟩ := Option.ne_none_iff_exists'.1 h2
  unfold saveAgent savedAgent
  cases fmt with
  | index => simp only [hs, ht, Option.getD_some]
  | coords =>
    simp only [hs, ht, Option.getD_some]
    unfold unravelIndex
    rw [if_pos (h3 rfl)]

theorem toDict_eq [FloorRing K] {kind : GridKind} {W H : Nat} {selfT : Bool} {own : Nat} {e : Env K δ}
    (h : Env.Savable kind W H selfT own e) (info : String → AgentMeta κ) (fmt : SaveFormat) (names : List String)
    (hn : names.Nodup) (hl : names.length = own)
    (h1 : ∀ a ∈ e.agents, (info a.name).algorithm ≠ none) (h2 : ∀ a ∈ e.agents, (info a.name).selector ≠ none)
    (h3 : fmt = .coords → ∀ a ∈ e.agents, 0 ≤ a.position) :
    hexEnvToDict info e (some names) fmt = .ok ⟨(W, H), savedRows fmt W H e.mdp.features.get 0 names,
      cellsOf fmt W H e.mdp.walls.get, "hex", selfT, e.agents.map (savedAgent fmt H info)⟩ := by
  have hok := h.ok.reach.ok
  unfold hexEnvToDict
  simp only
  rw [if_neg (by unfold Mdp.nFeatures; rw [h.d0, hl]; push_cast; omega), hok.shape]
  simp only
  rw [saveFeatures_eq fmt W H e.mdp hok.featStates names 0 [] hn (by simp)]
  simp only [List.nil_append]
  rw [hok.wallsLen, saveCells_eq]
  simp only
  rw [mapM_ok (g := savedAgent fmt H info) fun a ha => saveAgent_eq fmt (h1 a ha) (h2 a ha) fun hf => ⟨h3 hf a ha, by
    obtain ⟨j, hj, -⟩ := h.ok.pos a ha
    have := pyIdx_spec.1 hj
    rw [hok.nStates] at this
    have h0 := h3 hf a ha
    rw [show (W : Int) * H = ((W * H : Nat) : Int) by push_cast; rfl]
    omega⟩]
  simp only
  rw [h.ok.reach.selfT]

/-! ### Loading -/

theorem setCells_eq {n : Nat} {c : Cells} {l : List Nat} (h : c.numbers = l.map fun (k : Nat) => (k : Int))
    (hl : ∀ k ∈ l, k < n) : setCells n c = .ok l := by
  unfold setCells
  rw [h]
  induction l generalizing c with
  | nil => rfl
  | cons k l ih =>
    have hk := hl k List.mem_cons_self
    rw [List.map_cons, List.mapM_cons, ih (c := .states (l.map fun (k : Nat) => (k : Int))) rfl
      fun k hk => hl k (List.mem_cons_of_mem _ hk)]
    simp [pyIdx_nat, hk]
    rfl

theorem cellNumbers_lt {fmt : SaveFormat} {W H : Nat} {x : Nat → K} : ∀ k ∈ cellNumbers fmt H (support (W * H) x),
    k < W * H := by
  intro k hk
  cases fmt with
  | index => exact (mem_support.1 hk).1
  | coords =>
    simp only [cellNumbers, List.mem_flatMap, List.mem_cons, List.not_mem_nil, or_false] at hk
    obtain ⟨s, hs, rfl | rfl⟩ := hk
    · exact lt_of_le_of_lt (Nat.div_le_self _ _) (mem_support.1 hs).1
    · exact lt_of_le_of_lt (Nat.mod_le _ _) (mem_support.1 hs).1

theorem loadFeatures_eq (fs : List (String × Cells)) (n : Nat) (S : Nat → List Nat) : ∀ (l : List String) (r : Nat)
    (x : Nat → Nat → K), r + l.length ≤ fs.length →
    (∀ (i : Nat) (name : String), l[i]? = some name → ∃ c, dictGet fs name = .ok c ∧ setCells n c = .ok (S (r + i))) →
    loadFeatures fs n r l x = .ok fun f s => if r ≤ f ∧ f < r + l.length ∧ s ∈ S f then 1 else x f s := by
  intro l
  induction l with
  | nil =>
    intro r x _ _
    unfold loadFeatures
    congr 1
    funext f s
    rw [if_neg]
    simp only [List.length_nil]
    omega
  | cons name l ih =>
    intro r x hr h
    obtain ⟨c, hc1, hc2⟩ := h 0 name rfl
    simp only [List.length_cons] at hr
    unfold loadFeatures
    rw [hc1]
    simp only
    rw [hc2]
    simp only
    rw [if_neg (by rintro ⟨-, h⟩; omega), ih (r + 1) _ (by omega)]
    · congr 1
      funext f s
      simp only [List.length_cons, Nat.add_zero]
      by_cases hf : f = r
      · subst hf
        by_cases hs : s ∈ S f
        · rw [if_neg (by omega), if_pos ⟨rfl, hs⟩, if_pos ⟨le_rfl, by omega, hs⟩]
        · rw [if_neg (by omega), if_neg (fun h => hs h.2), if_neg (fun h => hs h.2.2)]
      · by_cases h1 : r + 1 ≤ f ∧ f < r + 1 + l.length ∧ s ∈ S f
        · rw [if_pos h1, if_pos ⟨by omega, by omega, h1.2.2⟩]
        · rw [if_neg h1, if_neg (fun h => hf h.1), if_neg]
          rintro ⟨h2, h3, h4⟩
          exact h1 ⟨by omega, by omega, h4⟩
    · intro i nm hi
      obtain ⟨c, h1, h2⟩ := h (i + 1) nm (by simpa using hi)
      exact ⟨c, h1, by rw [h2, show r + (i + 1) = r + 1 + i by omega]⟩

theorem loadRows_eq (fmt : SaveFormat) (W H : Nat) (y : Nat → Nat → K) (names : List String) (hn : names.Nodup) :
    loadFeatures (savedRows fmt W H y 0 names) (W * H) 0 names (fun _ _ => (0 : K)) = .ok fun f s =>
      if f < names.length ∧ s ∈ cellNumbers fmt H (support (W * H) (y f)) then 1 else 0 := by
  rw [loadFeatures_eq _ _ (fun f => cellNumbers fmt H (support (W * H) (y f))) names 0 _ (by rw [savedRows_length]; omega)]
  · simp
  · intro i name hi
    have := savedRows_get fmt W H y names 0 i name hn hi
    simp only [Nat.zero_add] at this ⊢
    exact ⟨_, this, setCells_eq (cellsOf_numbers _ _ _ _) cellNumbers_lt⟩

theorem loadNone_eq (fs : List (String × Cells)) (n : Nat) :
    loadFeatures fs n 0 [] (fun _ _ => (0 : K)) = .ok fun _ _ => 0 := rfl

/-- The grid built while loading. -/
theorem fromDict_grid (L : Loader K δ κ) {W H : Nat} {selfT : Bool} (hpos : 0 < W * H) (fmt : SaveFormat)
    (fs : List (String × Cells)) (w : Nat → K) (as : List (AgentDict κ)) (names : List String) (x : Nat → Nat → K)
    (hx : loadFeatures fs (W * H) 0 names (fun _ _ => (0 : K)) = .ok x) :
    ∃ m : Mdp K, Mdp.GridReach .hex W H selfT m ∧ m.features = ⟨fs.length, W * H, x⟩ ∧ m.nAgents = 0 ∧
      m.nNonAgent = fs.length ∧
      (∀ s, s < W * H → m.walls.get s = if s ∈ cellNumbers fmt H (support (W * H) w) then 1 else 0) ∧
      hexEnvFromDict L ⟨(W, H), fs, cellsOf fmt W H w, "hex", selfT, as⟩ names =
        match as.mapM (m := Except PyErr) (loadAgent L) with
        | .error e => .error e
        | .ok specs => (Env.init m specs).2 := by
  obtain ⟨m, h1, h2, h3, -, h5, h6, -, h8⟩ := Mdp.initGrid_ok (kind := .hex) (W := W) (H := H) (selfT := selfT)
    (f := (⟨fs.length, W * H, x⟩ : Arr2 K))
    (w := some ⟨W * H, fun s => if s ∈ cellNumbers fmt H (support (W * H) w) then 1 else 0⟩) hpos rfl
    (by intro v hv; cases hv; exact ⟨rfl, fun i _ => by simp only; split_ifs <;> simp⟩)
  refine ⟨m, .init h1, h3, h5, h6, fun s hs => by rw [h8], ?_⟩
  unfold hexEnvFromDict
  simp only [ne_eq, not_true_eq_false, if_false]
  rw [hx]
  simp only
  rw [setCells_eq (cellsOf_numbers fmt W H w) cellNumbers_lt]
  simp only
  rw [h1]
  rfl

/-- The agent built while loading. -/
def loadedSpec [FloorRing K] (fmt : SaveFormat) (a : Agent K δ) (alg : AlgState K) : AgentSpec K δ :=
  ⟨a.name, a.nMoves, a.selector, alg, match fmt with
    | .index => some a.position
    | .coords => none,
    .nd [a.reward.d0] fun i => (((List.range a.reward.d0).map fun k => pyInt (a.reward.get k)).getD (i.getD 0 0) 0 : Int),
    a.consumes⟩

/-- The algorithm object built while loading. -/
noncomputable def loadedAlg (L : Loader K δ κ) (info : String → AgentMeta κ) (a : Agent K δ) : AlgState K :=
  match L.alg (info a.name).algorithmKwargs with
  | .ok alg => alg
  | .error _ => .fresh

theorem loadAgent_eq [FloorRing K] {L : Loader K δ κ} {info : String → AgentMeta κ} {a : Agent K δ}
    (h : Spec.Described info L a) (fmt : SaveFormat) (H : Nat) :
    loadAgent L (savedAgent fmt H info a) = .ok (loadedSpec fmt a (loadedAlg L info a)) := by
  obtain ⟨h1, ⟨alg, h2⟩, s, h3, h4, h5⟩ := h
  unfold loadAgent savedAgent loadedSpec loadedAlg
  simp only [h1, h4, Option.getD_some, h2, h5]
  rw [if_neg (by simp), if_neg (by rcases h3 with rfl | rfl <;> simp)]
  cases fmt <;> simp

theorem loadAgents_eq [FloorRing K] {L : Loader K δ κ} {info : String → AgentMeta κ} {l : List (Agent K δ)}
    (h : ∀ a ∈ l, Spec.Described info L a) (fmt : SaveFormat) (H : Nat) :
    (l.map (savedAgent fmt H info)).mapM (m := Except PyErr) (loadAgent L) =
      .ok (l.map fun a => loadedSpec fmt a (loadedAlg L info a)) := by
  induction l with
  | nil => rfl
  | cons a l ih =>
    rw [List.map_cons, List.mapM_cons, loadAgent_eq (h a List.mem_cons_self),
      ih fun b hb => h b (List.mem_cons_of_mem _ hb)]
    rfl

theorem pyInt_spec [FloorRing K] (x : K) : Spec.Truncated x ((pyInt x : Int) : K) ∧ ∀ z : Int, x = z → pyInt x = z := by
  unfold pyInt
  constructor
  · refine ⟨_, rfl, ?_⟩
    split_ifs with h
    · have h1 := Int.floor_le x
      have h2 := Int.lt_floor_add_one x
      have h3 : (0 : K) ≤ (⌊x⌋ : Int) := by exact_mod_cast Int.floor_nonneg.2 h
      refine ⟨?_, ?_, mul_nonneg h h3⟩
      · rw [abs_of_nonneg (by linarith)]; linarith
      · rw [abs_of_nonneg h3, abs_of_nonneg h]; exact h1
    · push Not at h
      have h1 := Int.le_ceil x
      have h2 := Int.ceil_lt_add_one x
      have h3 : ((⌈x⌉ : Int) : K) ≤ 0 := by
        have : ⌈x⌉ ≤ 0 := Int.ceil_le.2 (by simpa using h.le)
        exact_mod_cast this
      refine ⟨?_, ?_, mul_nonneg_of_nonpos_of_nonpos h.le h3⟩
      · rw [abs_of_nonpos (by linarith)]; linarith
      · rw [abs_of_nonpos h3, abs_of_nonpos h.le]; linarith
  · rintro z rfl
    split_ifs <;> simp

/-- Loading what was saved in the index format. -/
theorem restore [FloorRing K] {kind : GridKind} {W H : Nat} {selfT : Bool} {own : Nat} {e : Env K δ}
    (h : Env.Savable kind W H selfT own e) {info : String → AgentMeta κ} {L : Loader K δ κ}
    (hd : ∀ a ∈ e.agents, Spec.Described info L a) (fs : List (String × Cells)) (hfs : fs.length = own)
    (names : List String) (x : Nat → Nat → K)
    (hx : loadFeatures fs (W * H) 0 names (fun _ _ => (0 : K)) = .ok x) :
    ∃ e', hexEnvFromDict L ⟨(W, H), fs, cellsOf .index W H e.mdp.walls.get, "hex", selfT,
        e.agents.map (savedAgent .index H info)⟩ names = .ok e' ∧
      Mdp.GridReach .hex W H selfT e'.mdp ∧ Spec.SameAgents e e' ∧
      (∀ s, s < W * H → e'.mdp.walls.get s = e.mdp.walls.get s) ∧
      e'.mdp.features.d0 = e.mdp.features.d0 ∧ (∀ f s, f < own → e'.mdp.features.get f s = x f s) ∧
      e'.nSteps = 0 := by
  have g := h.ok.reach.ok
  obtain ⟨m, h1, h2, h3, h4, h5, h6⟩ := fromDict_grid L g.pos (selfT := selfT) .index fs e.mdp.walls.get
    (e.agents.map (savedAgent .index H info)) names x hx
  rw [loadAgents_eq hd] at h6
  simp only at h6
  generalize hspecs : (e.agents.map fun a => loadedSpec .index a (loadedAlg L info a)) = specs at h6
  have hlen : specs.length = e.agents.length := by rw [← hspecs]; simp
  have hown : m.features.d0 - m.nAgents = own := by rw [h2, h3]; simpa using hfs
  have hval : ∀ sp ∈ specs, Spec.ValidAgent m.nStates (m.features.d0 - m.nAgents) specs.length sp := by
    intro sp hsp
    rw [← hspecs] at hsp
    obtain ⟨a, ha, rfl⟩ := List.mem_map.1 hsp
    rw [hown, hlen, h1.ok.nStates, ← g.nStates]
    refine ⟨⟨_, by simp only [loadedSpec]; rw [h.reward a ha]⟩, ⟨a.position, rfl, ?_⟩, ?_⟩
    · obtain ⟨j, hj, -⟩ := h.ok.pos a ha
      have := pyIdx_spec.1 hj
      omega
    · exact h.consumes a ha
  obtain ⟨e', he'⟩ := (Env.init_valid h1 specs).2 hval
  have hinit : Env.init m specs = ((Env.init m specs).1, .ok e') := by rw [← he']
  obtain ⟨-, b1, -, -, b2, -, b3, -, b4, -, -, b5, b6, b7, b8, -⟩ := Env.init_facts h1 hinit
  have hnd : (specs.map (·.name)).Nodup := by
    rw [← hspecs, List.map_map]
    exact h.ok.nodup
  obtain ⟨b8, b9⟩ := b8 hnd
  refine ⟨e', h6.trans he', b1.reach, ⟨b8.trans hlen, ?_⟩, ?_, ?_, ?_, b2⟩
  · intro i a a' ha ha'
    obtain ⟨sp, p, r, c1, c2, c3, rfl⟩ := b9 i a' ha'
    have hsp : sp = loadedSpec .index a (loadedAlg L info a) := by
      rw [← hspecs, List.getElem?_map, ha] at c1
      simpa using c1.symm
    subst hsp
    have hmem := List.mem_of_getElem? ha
    have hp : p = a.position := by simpa [loadedSpec] using c2.symm
    subst hp
    have hr : ∀ k, k < a.reward.d0 → r [k] = ((pyInt (a.reward.get k) : Int) : K) := by
      intro k hk
      simp only [loadedSpec, PyArr.nd.injEq] at c3
      rw [← c3.2]
      simp [hk]
    have hrd : m.features.d0 - m.nAgents + specs.length = a.reward.d0 := by
      rw [hown, hlen, h.reward a hmem]
    refine ⟨rfl, (h.idx i a ha).symm, rfl, rfl, rfl, rfl, hrd, ?_, ?_, ?_, rfl, rfl, fun _ => rfl, ?_⟩
    · intro k hk
      have := (pyInt_spec (a.reward.get k)).1
      simp only [Env.newAgent]
      rw [hr k hk]; exact this
    · intro k hk z hz
      simp only [Env.newAgent]
      rw [hr k hk, (pyInt_spec (a.reward.get k)).2 z hz]
    · simp only [Env.newAgent]
      rw [h4, hfs, h.d0]; omega
    · intro s
      obtain ⟨p, hp, hrow⟩ := b7 i _ c1
      have : p = a.position := by simpa [loadedSpec] using hp.symm
      subst this
      have h7 := hrow s
      rw [hown, h1.ok.nStates, ← g.nStates] at h7
      rw [h.d0, Nat.add_sub_cancel]
      exact h7
  · intro s hs
    rw [b5, h5 s hs]
    rcases g.walls01 s hs with hw | hw
    · rw [hw, if_neg]
      intro hm
      exact (mem_support.1 hm).2 hw
    · rw [hw, if_pos]
      exact mem_support.2 ⟨hs, by rw [hw]; exact one_ne_zero⟩
  · rw [b3, hown, hlen, h.d0]
  · intro f s hf
    rw [b6 f s (by rw [hown]; exact hf), h2]

/-- Same kind of grid and same walls: same transitions. -/
theorem sameGrid {W H : Nat} {selfT : Bool} {e e' : Env K δ} (h : Mdp.GridReach .hex W H selfT e.mdp)
    (h' : Mdp.GridReach .hex W H selfT e'.mdp)
    (hw : ∀ s, s < W * H → e'.mdp.walls.get s = e.mdp.walls.get s) : Spec.SameGrid e e' := by
  have g := h.ok
  have g' := h'.ok
  refine ⟨by rw [g.shape, g'.shape], by rw [h.selfT, h'.selfT], by rw [g.nStates, g'.nStates],
    by rw [g.nActions, g'.nActions], fun s hs => hw s (g.nStates ▸ hs), fun s a t hs ht => ?_⟩
  rw [g.nStates] at hs ht
  rw [g.sas s a t hs ht, g'.sas s a t hs ht, hw s hs, hw t ht]

theorem cellsOf_coords {W H : Nat} (x : Nat → K) : Spec.ListsCells W H (cellsOf .coords W H x) x := by
  have hs : saveCells .coords W H (W * H) x = .ok (Cells.squeeze ((support (W * H) x).map fun s => (s / H, s % H))) := by
    have h : (support (W * H) x).mapM (m := Except PyErr) (fun (s : Nat) => unravelIndex W H s) =
        .ok ((support (W * H) x).map fun s => (s / H, s % H)) := by
      refine mapM_ok fun s hs => ?_
      have := (mem_support.1 hs).1
      unfold unravelIndex
      rw [if_pos ⟨by omega, by exact_mod_cast this⟩]
      simp
    have hm : npWhere (W * H) (fun s => decide (x s ≠ 0)) = support (W * H) x := rfl
    unfold saveCells
    simp only [hm, h]
  have hc : ∀ l : List (Nat × Nat), Spec.coordinates (Cells.squeeze l) =
      l.map fun p => ((p.1 : Int), (p.2 : Int)) := by
    intro l
    unfold Cells.squeeze
    split <;> simp [Spec.coordinates]
  intro i j
  rw [show cellsOf .coords W H x = Cells.squeeze ((support (W * H) x).map fun s => (s / H, s % H)) by
    rw [saveCells_eq] at hs; exact Except.ok.inj hs, hc, List.map_map, List.mem_map]
  constructor
  · rintro ⟨s, h1, h2⟩
    obtain ⟨h3, h4⟩ := mem_support.1 h1
    simp only [Function.comp_apply, Prod.mk.injEq] at h2
    have hH : 0 < H := by rcases Nat.eq_zero_or_pos H with rfl | h; · simp at h3
                          · exact h
    refine ⟨s / H, s % H, h2.1.symm, h2.2.symm, (Nat.div_lt_iff_lt_mul hH).2 h3, Nat.mod_lt _ hH, ?_⟩
    rw [Nat.div_add_mod']; exact h4
  · rintro ⟨a, b, rfl, rfl, h1, h2, h3⟩
    refine ⟨a * H + b, mem_support.2 ⟨?_, h3⟩, ?_⟩
    · calc a * H + b < a * H + H := by omega
        _ = (a + 1) * H := by ring
        _ ≤ W * H := Nat.mul_le_mul_right _ h1
    · have hH : 0 < H := by omega
      simp only [Function.comp_apply, Prod.mk.injEq, Nat.cast_inj]
      constructor
      · rw [Nat.add_comm, Nat.add_mul_div_right _ _ hH, Nat.div_eq_of_lt h2, Nat.zero_add]
      · rw [Nat.add_comm, Nat.add_mul_mod_self_right, Nat.mod_eq_of_lt h2]

end MaMDP
