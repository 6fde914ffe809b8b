import Verif.Spec.Loading
import Verif.Lemmas.EnvIO
import Verif.Lemmas.IRL

/-! # Reading a description of an environment -/

set_option linter.unusedSectionVars false

namespace MaMDP

variable {K : Type} [Field K] [LinearOrder K] [IsStrictOrderedRing K] {δ κ : Type}

theorem mapM_firstError {α β : Type} {f : α → Py β} {e : PyErr} {a : α} : ∀ {l l' : List α},
    (∀ b ∈ l, ∃ c, f b = .ok c) → f a = .error e → (l ++ a :: l').mapM (m := Except PyErr) f = .error e
  | [], l', _, h => by rw [List.nil_append, List.mapM_cons, h]; rfl
  | b :: l, l', hl, h => by
    obtain ⟨c, hc⟩ := hl b List.mem_cons_self
    rw [List.cons_append, List.mapM_cons, hc, mapM_firstError (fun c hc => hl c (List.mem_cons_of_mem _ hc)) h]
    rfl

theorem mapM_error {α β : Type} {f : α → Py β} : ∀ {l : List α} {e : PyErr}, l.mapM (m := Except PyErr) f = .error e →
    ∃ a ∈ l, f a = .error e
  | [], e, h => by cases h
  | a :: l, e, h => by
    rw [List.mapM_cons] at h
    cases ha : f a with
    | error e' =>
      rw [ha] at h
      cases h
      exact ⟨a, List.mem_cons_self, ha⟩
    | ok b =>
      rw [ha] at h
      cases hl : l.mapM (m := Except PyErr) f with
      | error e' =>
        rw [hl] at h
        cases h
        obtain ⟨c, hc, h⟩ := mapM_error hl
        exact ⟨c, List.mem_cons_of_mem _ hc, h⟩
      | ok bs => rw [hl] at h; cases h

theorem mapM_all {α β : Type} {f : α → Py β} : ∀ {l : List α} {l' : List β}, l.mapM (m := Except PyErr) f = .ok l' →
    ∀ a ∈ l, ∃ b, f a = .ok b
  | [], _, _ => by simp
  | a :: l, l', h => by
    rw [List.mapM_cons] at h
    cases ha : f a with
    | error e' => rw [ha] at h; cases h
    | ok b =>
      rw [ha] at h
      cases hl : l.mapM (m := Except PyErr) f with
      | error e' => rw [hl] at h; cases h
      | ok bs =>
        intro c hc
        rcases List.mem_cons.1 hc with rfl | hc
        · exact ⟨b, ha⟩
        · exact mapM_all hl c hc

theorem setCells_ok {n : Nat} {c : Cells} (h : Spec.CellsIn n c) : setCells n c = .ok (c.numbers.map (Spec.stateOf n)) := by
  unfold setCells
  refine mapM_ok fun i hi => ?_
  rw [pyIdx_stateOf, if_pos (h i hi)]

theorem setCells_error {n : Nat} {c : Cells} (h : ¬ Spec.CellsIn n c) : setCells n c = .error .indexError := by
  have hall : ∀ e, setCells n c = .error e → e = .indexError := by
    intro e he
    obtain ⟨i, -, hi⟩ := mapM_error he
    cases hp : pyIdx n i with
    | none => rw [hp] at hi; cases hi; rfl
    | some s => rw [hp] at hi; cases hi
  cases hs : setCells n c with
  | error e => rw [hall e hs]
  | ok l =>
    refine absurd (fun i hi => ?_) h
    obtain ⟨s, hs⟩ := mapM_all hs i hi
    by_contra hc
    rw [pyIdx_stateOf, if_neg hc] at hs
    cases hs

theorem dictGet_mem {α : Type} {d : List (String × α)} (hd : (d.map Prod.fst).Nodup) {name : String} {c : α} :
    dictGet d name = .ok c ↔ (name, c) ∈ d := by
  unfold dictGet
  induction d with
  | nil => simp
  | cons p d ih =>
    simp only [List.map_cons, List.nodup_cons] at hd
    by_cases hp : p.1 = name
    · simp only [List.find?_cons, hp, decide_true, Except.ok.injEq, List.mem_cons]
      constructor
      · intro e; left; rw [← hp, ← e]
      · rintro (e | e)
        · rw [← e]
        · exact absurd (List.mem_map.2 ⟨_, e, hp.symm⟩) hd.1
    · simp only [List.find?_cons, hp, decide_false, List.mem_cons]
      rw [ih hd.2]
      constructor
      · exact Or.inr
      · rintro (e | e)
        · exact absurd (by rw [← e]) hp
        · exact e

theorem dictGet_none {α : Type} {d : List (String × α)} {name : String} (h : ∀ c, (name, c) ∉ d) :
    dictGet d name = .error .keyError := by
  unfold dictGet
  cases hf : d.find? fun p => p.1 = name with
  | none => rfl
  | some p =>
    have h1 := List.find?_some hf
    have h2 := List.mem_of_find?_eq_some hf
    simp only [decide_eq_true_eq] at h1
    exact absurd (by rw [← h1]; exact h2) (h p.2)

/-- Reading the features: the rows before `r` are as they were, row `r + i` is that of the `i`-th name. -/
theorem loadFeatures_sound {d : EnvDict κ} (hd : (d.features.map Prod.fst).Nodup) : ∀ (names : List String) (r : Nat)
    (x : Nat → Nat → K), (∀ i name, names[i]? = some name → Spec.SoundFeature d (r + i) name) →
    ∃ y, loadFeatures d.features (d.size.1 * d.size.2) r names x = .ok y ∧
      (∀ f s, f < r ∨ r + names.length ≤ f → y f s = x f s) ∧
      ∀ i name c s, names[i]? = some name → (name, c) ∈ d.features →
        (Spec.Lists (d.size.1 * d.size.2) c s → y (r + i) s = 1) ∧
        (¬ Spec.Lists (d.size.1 * d.size.2) c s → y (r + i) s = x (r + i) s)
  | [], r, x, _ => ⟨x, rfl, fun _ _ _ => rfl, fun i name c s h => by simp at h⟩
  | name :: names, r, x, h => by
    obtain ⟨c, hc, hin, hrow⟩ := h 0 name rfl
    obtain ⟨y, e, y1, y2⟩ := loadFeatures_sound hd names (r + 1)
      (fun f s => if f = r ∧ s ∈ c.numbers.map (Spec.stateOf (d.size.1 * d.size.2)) then 1 else x f s)
      (fun i nm hi => by
        have := h (i + 1) nm (by simpa using hi)
        rwa [show r + (i + 1) = r + 1 + i by omega] at this)
    refine ⟨y, ?_, ?_, ?_⟩
    · unfold loadFeatures
      rw [(dictGet_mem hd).2 hc]
      simp only
      rw [setCells_ok hin]
      simp only
      rw [if_neg, e]
      rintro ⟨h1, h2⟩
      rcases hrow with h3 | h3
      · rw [h3] at h1; exact h1 rfl
      · omega
    · intro f s hf
      simp only [List.length_cons] at hf
      rw [y1 f s (by omega), if_neg]
      rintro ⟨rfl, -⟩
      omega
    · intro i nm c' s hi hc'
      cases i with
      | zero =>
        have hn : nm = name := by simpa using hi.symm
        subst hn
        have hcc : c' = c := by
          have a := (dictGet_mem hd).2 hc
          have b := (dictGet_mem hd).2 hc'
          rw [a] at b
          exact (Except.ok.inj b).symm
        subst hcc
        rw [Nat.add_zero, y1 r s (by omega)]
        have hl : s ∈ c'.numbers.map (Spec.stateOf (d.size.1 * d.size.2)) ↔ Spec.Lists (d.size.1 * d.size.2) c' s := by
          rw [List.mem_map]
          exact ⟨fun ⟨k, k1, k2⟩ => ⟨k, k1, hin k k1, k2⟩, fun ⟨k, k1, _, k2⟩ => ⟨k, k1, k2⟩⟩
        constructor
        · intro hs; rw [if_pos ⟨rfl, hl.2 hs⟩]
        · intro hs; rw [if_neg fun hh => hs (hl.1 hh.2)]
      | succ i =>
        have := y2 i nm c' s (by simpa using hi) hc'
        rw [show r + 1 + i = r + (i + 1) by omega] at this
        refine ⟨this.1, fun hs => ?_⟩
        rw [this.2 hs, if_neg (by omega)]

/-- Reading the features up to the first mistake. -/
theorem loadFeatures_first {d : EnvDict κ} (hd : (d.features.map Prod.fst).Nodup) {e : PyErr} {name : String}
    {after : List String} : ∀ (before : List String) (r : Nat) (x : Nat → Nat → K),
    (∀ i nm, before[i]? = some nm → Spec.SoundFeature d (r + i) nm) →
    (∀ x : Nat → Nat → K, loadFeatures d.features (d.size.1 * d.size.2) (r + before.length) (name :: after) x = .error e) →
    loadFeatures d.features (d.size.1 * d.size.2) r (before ++ name :: after) x = .error e
  | [], r, x, _, he => he x
  | nm :: before, r, x, h, he => by
    obtain ⟨c, hc, hin, hrow⟩ := h 0 nm rfl
    rw [List.cons_append]
    unfold loadFeatures
    rw [(dictGet_mem hd).2 hc]
    simp only
    rw [setCells_ok hin]
    simp only
    rw [if_neg]
    · refine loadFeatures_first hd before (r + 1) _ (fun i nm hi => ?_) fun x => ?_
      · have := h (i + 1) nm (by simpa using hi)
        rwa [show r + (i + 1) = r + 1 + i by omega] at this
      · have := he x
        rwa [List.length_cons, show r + (before.length + 1) = r + 1 + before.length by omega] at this
    · rintro ⟨h1, h2⟩
      rcases hrow with h3 | h3
      · rw [h3] at h1; exact h1 rfl
      · omega

/-- One mistake in one feature. -/
theorem loadFeatures_wrong {d : EnvDict κ} (hd : (d.features.map Prod.fst).Nodup) {name : String} {after : List String}
    {r : Nat} (h : ¬ Spec.SoundFeature d r name) (x : Nat → Nat → K) :
    loadFeatures d.features (d.size.1 * d.size.2) r (name :: after) x =
      .error (if name ∈ d.features.map Prod.fst then .indexError else .keyError) := by
  unfold loadFeatures
  by_cases hm : name ∈ d.features.map Prod.fst
  · rw [if_pos hm]
    obtain ⟨⟨n, c⟩, hc, rfl⟩ := List.mem_map.1 hm
    rw [(dictGet_mem hd).2 hc]
    simp only
    by_cases hin : Spec.CellsIn (d.size.1 * d.size.2) c
    · rw [setCells_ok hin]
      simp only
      rw [if_pos]
      constructor
      · intro e
        exact h ⟨c, hc, hin, Or.inl (List.map_eq_nil_iff.1 e)⟩
      · by_contra hlt
        exact h ⟨c, hc, hin, Or.inr (by omega)⟩
    · rw [setCells_error hin]
  · rw [if_neg hm, dictGet_none fun c hc => hm (List.mem_map.2 ⟨_, hc, rfl⟩)]

theorem mapM_get {α β : Type} {f : α → Py β} : ∀ {l : List α} {l' : List β}, l.mapM (m := Except PyErr) f = .ok l' →
    l'.length = l.length ∧ ∀ (i : Nat) b, l'[i]? = some b → ∃ a, l[i]? = some a ∧ f a = .ok b
  | [], l', h => by
    cases h
    simp
  | a :: l, l', h => by
    rw [List.mapM_cons] at h
    cases ha : f a with
    | error e' => rw [ha] at h; cases h
    | ok b =>
      rw [ha] at h
      cases hl : l.mapM (m := Except PyErr) f with
      | error e' => rw [hl] at h; cases h
      | ok bs =>
        rw [hl] at h
        cases h
        obtain ⟨h1, h2⟩ := mapM_get hl
        refine ⟨by simp [h1], fun i c hc => ?_⟩
        cases i with
        | zero => exact ⟨a, rfl, by rw [ha]; simpa using hc⟩
        | succ i => exact h2 i c (by simpa using hc)

theorem mapM_exists {α β : Type} {f : α → Py β} {l : List α} (h : ∀ a ∈ l, ∃ b, f a = .ok b) :
    ∃ l', l.mapM (m := Except PyErr) f = .ok l' := by
  cases hl : l.mapM (m := Except PyErr) f with
  | ok l' => exact ⟨l', rfl⟩
  | error e =>
    obtain ⟨a, ha, he⟩ := mapM_error hl
    obtain ⟨b, hb⟩ := h a ha
    rw [hb] at he
    cases he

theorem loadAgent_inv {L : Loader K δ κ} {a : AgentDict κ} {sp : AgentSpec K δ} (h : loadAgent L a = .ok sp) :
    Spec.BuildableAgent L a ∧ sp.name = a.name ∧ sp.nMoves = a.nMoves ∧ L.sel a.selector a.selectorKwargs = .ok sp.selector ∧
    L.alg a.algorithmKwargs = .ok sp.alg ∧
    (∀ p, sp.position = some p ↔ a.position = .index p) ∧
    sp.reward = .nd [a.reward.length] (fun i => ((a.reward.getD (i.getD 0 0) 0 : Int) : K)) ∧ sp.consumes = a.consumes := by
  unfold loadAgent at h
  split_ifs at h with h1 h2
  cases ha : L.alg a.algorithmKwargs with
  | error e => rw [ha] at h; cases h
  | ok alg =>
    rw [ha] at h
    simp only at h
    cases hs : L.sel a.selector a.selectorKwargs with
    | error e => rw [hs] at h; cases h
    | ok sel =>
      rw [hs] at h
      cases h
      refine ⟨⟨not_not.1 h1, ?_, ⟨alg, ha⟩, sel, hs⟩, rfl, rfl, rfl, rfl, ?_, rfl, rfl⟩
      · by_contra hn
        exact h2 (not_or.1 hn)
      · intro p
        cases a.position <;> simp

theorem loadAgent_ok {L : Loader K δ κ} {a : AgentDict κ} (h : Spec.BuildableAgent L a) : ∃ sp, loadAgent L a = .ok sp := by
  obtain ⟨h1, h2, ⟨alg, h3⟩, sel, h4⟩ := h
  unfold loadAgent
  rw [if_neg (not_not.2 h1), if_neg (by rcases h2 with h | h <;> simp [h]), h3]
  simp only
  rw [h4]
  exact ⟨_, rfl⟩

theorem fitting_valid {L : Loader K δ κ} {d : EnvDict κ} {a : AgentDict κ} {sp : AgentSpec K δ} (h : loadAgent L a = .ok sp) :
    Spec.FittingAgent d a ↔ Spec.ValidAgent (d.size.1 * d.size.2) d.features.length d.agents.length sp := by
  obtain ⟨-, -, -, -, -, h1, h2, h3⟩ := loadAgent_inv h
  unfold Spec.FittingAgent Spec.ValidAgent
  rw [h3, h2]
  constructor
  · rintro ⟨⟨p, p1, p2⟩, r, c⟩
    exact ⟨⟨_, by rw [← r]⟩, ⟨p, (h1 p).2 p1, p2⟩, c⟩
  · rintro ⟨⟨g, r⟩, ⟨p, p1, p2⟩, c⟩
    exact ⟨⟨p, (h1 p).1 p1, p2⟩, by injection r with r; simpa using r, c⟩

/-- The walls array of a description. -/
def wallCells (n : Nat) (ws : List Nat) : Option (Arr1 K) := some ⟨n, fun s => if s ∈ ws then 1 else 0⟩

theorem hexEnvFromDict_mdp {L : Loader K δ κ} {d : EnvDict κ} {names : List String} {x : Nat → Nat → K} {ws : List Nat}
    (ht : d.type = "hex") (hf : loadFeatures d.features (d.size.1 * d.size.2) 0 names (fun _ _ => (0 : K)) = .ok x)
    (hw : setCells (d.size.1 * d.size.2) d.walls = .ok ws) :
    hexEnvFromDict L d names = match Mdp.initGrid .hex d.size.1 d.size.2 d.selfTransitions
        ⟨d.features.length, d.size.1 * d.size.2, x⟩ (wallCells (d.size.1 * d.size.2) ws) with
      | .error e => .error e
      | .ok m => match d.agents.mapM (m := Except PyErr) (loadAgent L) with
        | .error e => .error e
        | .ok specs => (Env.init m specs).2 := by
  unfold hexEnvFromDict
  rw [if_neg (not_not.2 ht)]
  simp only
  rw [hf]
  simp only
  rw [hw]
  rfl

theorem wallCells_ok (n : Nat) (ws : List Nat) : ∀ v, wallCells (K := K) n ws = some v →
    v.d0 = n ∧ ∀ i, i < n → v.get i = 0 ∨ v.get i = 1 := by
  intro v hv
  cases hv
  refine ⟨rfl, fun i _ => ?_⟩
  simp only
  split_ifs
  · exact Or.inr rfl
  · exact Or.inl rfl

end MaMDP
