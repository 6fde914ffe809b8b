import Verif.Lemmas.Loading
import Verif.Props.EnvIO
import Verif.Props.Environment
import Verif.Props.Grid

/-! # C138: loading succeeds exactly for sound descriptions -/

set_option linter.unusedSectionVars false

namespace MaMDP

variable {K : Type} [Field K] [LinearOrder K] [IsStrictOrderedRing K] {δ κ : Type}
variable {L : Loader K δ κ} {d : EnvDict κ} {names : List String}

/-- A description is loaded exactly when there is no mistake in it. -/
theorem C138_exact (hd : (d.features.map Prod.fst).Nodup) :
    (∃ e, hexEnvFromDict L d names = .ok e) ↔ Spec.SoundDescription L d names := by
  constructor
  · rintro ⟨e, h⟩
    have ht : d.type = "hex" := by
      by_contra hn
      unfold hexEnvFromDict at h
      rw [if_pos hn] at h
      cases h
    have hfeat : ∀ i name, names[i]? = some name → Spec.SoundFeature d i name := by
      by_contra hn
      have hex : ∃ i, ∃ name, names[i]? = some name ∧ ¬ Spec.SoundFeature d i name := by
        by_contra hc
        refine hn fun i name hi => ?_
        by_contra hs
        exact hc ⟨i, name, hi, hs⟩
      classical
      obtain ⟨name, hi, hbad⟩ := Nat.find_spec hex
      have hlt : Nat.find hex < names.length := by
        rw [List.getElem?_eq_some_iff] at hi
        exact hi.1
      have hsplit : names = names.take (Nat.find hex) ++ name :: names.drop (Nat.find hex + 1) := by
        have e1 : names[Nat.find hex] = name := by
          rw [List.getElem?_eq_some_iff] at hi
          exact hi.2
        rw [← e1, ← List.drop_eq_getElem_cons hlt, List.take_append_drop]
      have hlen : (names.take (Nat.find hex)).length = Nat.find hex := by
        rw [List.length_take]; omega
      have := loadFeatures_first (K := K) hd (name := name) (after := names.drop (Nat.find hex + 1)) (names.take (Nat.find hex)) 0
        (fun _ _ => 0)
        (fun i nm hnm => by
          rw [Nat.zero_add]
          have hi' : i < Nat.find hex := by
            have := (List.getElem?_eq_some_iff.1 hnm).1
            omega
          have := Nat.find_min hex hi'
          by_contra hs
          refine this ⟨nm, ?_, hs⟩
          rw [List.getElem?_take] at hnm
          split_ifs at hnm
          exact hnm)
        (fun x => loadFeatures_wrong hd (by rw [hlen, Nat.zero_add]; exact hbad) x)
      rw [← hsplit] at this
      unfold hexEnvFromDict at h
      rw [if_neg (not_not.2 ht)] at h
      simp only at h
      rw [this] at h
      cases h
    obtain ⟨x, hx, -⟩ := loadFeatures_sound (K := K) hd names 0 (fun _ _ => 0)
      (fun i name hi => by rw [Nat.zero_add]; exact hfeat i name hi)
    have hwalls : Spec.CellsIn (d.size.1 * d.size.2) d.walls := by
      by_contra hn
      unfold hexEnvFromDict at h
      rw [if_neg (not_not.2 ht)] at h
      simp only at h
      rw [hx] at h
      simp only at h
      rw [setCells_error hn] at h
      cases h
    rw [hexEnvFromDict_mdp ht hx (setCells_ok hwalls)] at h
    cases hm : Mdp.initGrid .hex d.size.1 d.size.2 d.selfTransitions ⟨d.features.length, d.size.1 * d.size.2, x⟩
        (wallCells (d.size.1 * d.size.2) (d.walls.numbers.map (Spec.stateOf (d.size.1 * d.size.2)))) with
    | error e => rw [hm] at h; cases h
    | ok m =>
      have hpos := (Mdp.initGrid_inv hm).1
      rw [hm] at h
      simp only at h
      cases ha : d.agents.mapM (m := Except PyErr) (loadAgent L) with
      | error e => rw [ha] at h; cases h
      | ok specs =>
        rw [ha] at h
        simp only at h
        obtain ⟨m', hm', -, f1, -, f2, -⟩ := Mdp.initGrid_ok (K := K) (kind := .hex) (selfT := d.selfTransitions)
          (f := ⟨d.features.length, d.size.1 * d.size.2, x⟩) hpos rfl
          (wallCells_ok _ (d.walls.numbers.map (Spec.stateOf (d.size.1 * d.size.2))))
        rw [hm] at hm'
        cases hm'
        have hv := (C38_validated (Mdp.GridReach.init hm) specs).1 ⟨e, h⟩
        rw [f1, f2] at hv
        obtain ⟨hl, hg⟩ := mapM_get ha
        have hall : ∀ a ∈ d.agents, ∃ sp ∈ specs, loadAgent L a = .ok sp := by
          intro a ha'
          obtain ⟨i, hi, rfl⟩ := List.mem_iff_getElem.1 ha'
          obtain ⟨a', h1, h2⟩ := hg i specs[i] (List.getElem?_eq_getElem (by omega))
          rw [List.getElem?_eq_getElem hi] at h1
          cases h1
          exact ⟨_, List.getElem_mem _, h2⟩
        refine ⟨ht, hpos, hfeat, hwalls, fun a ha' => ?_, fun a ha' => ?_⟩
        · obtain ⟨sp, -, h2⟩ := hall a ha'
          exact (loadAgent_inv h2).1
        · obtain ⟨sp, h1, h2⟩ := hall a ha'
          have := hv sp h1
          rw [hl] at this
          exact (fitting_valid h2).2 this
  · rintro ⟨ht, hpos, hfeat, hwalls, hb, hfit⟩
    obtain ⟨x, hx, -⟩ := loadFeatures_sound (K := K) hd names 0 (fun _ _ => 0)
      (fun i name hi => by rw [Nat.zero_add]; exact hfeat i name hi)
    rw [hexEnvFromDict_mdp ht hx (setCells_ok hwalls)]
    obtain ⟨m, hm, -, f1, -, f2, -⟩ := Mdp.initGrid_ok (K := K) (kind := .hex) (selfT := d.selfTransitions)
      (f := ⟨d.features.length, d.size.1 * d.size.2, x⟩) hpos rfl
      (wallCells_ok _ (d.walls.numbers.map (Spec.stateOf (d.size.1 * d.size.2))))
    rw [hm]
    simp only
    obtain ⟨specs, hs⟩ := mapM_exists fun a ha => loadAgent_ok (hb a ha)
    rw [hs]
    simp only
    obtain ⟨hl, hg⟩ := mapM_get hs
    refine (C38_validated (Mdp.GridReach.init hm) specs).2 fun sp hsp => ?_
    obtain ⟨i, hi, rfl⟩ := List.mem_iff_getElem.1 hsp
    obtain ⟨a, h1, h2⟩ := hg i specs[i] (List.getElem?_eq_getElem hi)
    rw [f1, f2, hl]
    exact (fitting_valid h2).1 (hfit a (List.mem_of_getElem? h1))

/-- What is loaded: the grid of the given size; row `i` of the features is the `i`-th name's, 1 on its cells and 0
elsewhere; rows without a name are 0; walls on the listed cells; the agents in order, as described. -/
theorem C138_contents {e : Env K δ} (hd : (d.features.map Prod.fst).Nodup) (hn : (d.agents.map (·.name)).Nodup)
    (h : hexEnvFromDict L d names = .ok e) :
    e.mdp.shape = some d.size ∧ e.mdp.nStates = d.size.1 * d.size.2 ∧ e.mdp.selfTransitions = d.selfTransitions ∧
    e.mdp.features.d0 = d.features.length + d.agents.length ∧
    (∀ i name c s, i < d.features.length → names[i]? = some name → (name, c) ∈ d.features →
      (Spec.Lists (d.size.1 * d.size.2) c s → e.mdp.features.get i s = 1) ∧
      (¬ Spec.Lists (d.size.1 * d.size.2) c s → e.mdp.features.get i s = 0)) ∧
    (∀ i s, names.length ≤ i → i < d.features.length → e.mdp.features.get i s = 0) ∧
    (∀ s, (Spec.Lists (d.size.1 * d.size.2) d.walls s → e.mdp.walls.get s = 1) ∧
      (¬ Spec.Lists (d.size.1 * d.size.2) d.walls s → e.mdp.walls.get s = 0)) ∧
    e.agents.length = d.agents.length ∧
    ∀ i a b, e.agents[i]? = some a → d.agents[i]? = some b →
      a.name = b.name ∧ a.idx = i ∧ b.position = .index a.position ∧ a.start = a.position ∧ a.nMoves = b.nMoves ∧
      a.consumes = b.consumes ∧ a.reward.d0 = b.reward.length ∧ (∀ (k : Nat) (z : Int), b.reward[k]? = some z → a.reward.get k = (z : K)) ∧
      L.sel b.selector b.selectorKwargs = .ok a.selector ∧ L.alg b.algorithmKwargs = .ok a.alg ∧
      ∀ s, e.mdp.features.get (d.features.length + i) s =
        if s = Spec.stateOf (d.size.1 * d.size.2) a.position then 1 else 0 := by
  obtain ⟨ht, hpos, hfeat, hwalls, hb, hfit⟩ := (C138_exact hd).1 ⟨e, h⟩
  obtain ⟨x, hx, x1, x2⟩ := loadFeatures_sound (K := K) hd names 0 (fun _ _ => 0)
    (fun i name hi => by rw [Nat.zero_add]; exact hfeat i name hi)
  rw [hexEnvFromDict_mdp ht hx (setCells_ok hwalls)] at h
  obtain ⟨m, hm, ok, f1, -, f2, -, -, fw⟩ := Mdp.initGrid_ok (K := K) (kind := .hex) (selfT := d.selfTransitions)
    (f := ⟨d.features.length, d.size.1 * d.size.2, x⟩) hpos rfl
    (wallCells_ok _ (d.walls.numbers.map (Spec.stateOf (d.size.1 * d.size.2))))
  rw [hm] at h
  simp only at h
  obtain ⟨specs, hs⟩ := mapM_exists fun a ha => loadAgent_ok (hb a ha)
  rw [hs] at h
  simp only at h
  obtain ⟨hl, hg⟩ := mapM_get hs
  have hinit : Env.init m specs = ((Env.init m specs).1, .ok e) := Prod.ext rfl h
  have hr := Mdp.GridReach.init hm
  have hsn : specs.map (·.name) = d.agents.map (·.name) := by
    refine List.ext_getElem? fun i => ?_
    rw [List.getElem?_map, List.getElem?_map]
    by_cases hi : i < specs.length
    · obtain ⟨a, a1, a2⟩ := hg i specs[i] (List.getElem?_eq_getElem hi)
      rw [List.getElem?_eq_getElem hi, a1]
      simp [(loadAgent_inv a2).2.1]
    · rw [List.getElem?_eq_none (by omega), List.getElem?_eq_none (by omega)]
      rfl
  obtain ⟨-, eok, -, -, -, -, q1, -, -, -, -, qw, qf, qa, qn, -⟩ := Env.init_facts hr hinit
  obtain ⟨k1, k2⟩ := qn (by rw [hsn]; exact hn)
  rw [ok.nStates] at qa
  rw [f1, f2] at q1 qf qa
  rw [f1, f2, hl] at k2
  simp only [Nat.sub_zero] at q1 qf qa k2
  have g := eok.reach.ok
  refine ⟨g.shape, g.nStates, eok.reach.selfT, by rw [q1, hl], ?_, ?_, ?_, by rw [k1, hl], ?_⟩
  · intro i name c s hi hname hc
    have := x2 i name c s hname hc
    rw [Nat.zero_add] at this
    rw [qf i s hi]
    exact this
  · intro i s hi1 hi2
    rw [qf i s hi2]
    exact x1 i s (Or.inr (by omega))
  · intro s
    have hl' : s ∈ d.walls.numbers.map (Spec.stateOf (d.size.1 * d.size.2)) ↔
        Spec.Lists (d.size.1 * d.size.2) d.walls s := by
      rw [List.mem_map]
      exact ⟨fun ⟨k, k1, k2⟩ => ⟨k, k1, hwalls k k1, k2⟩, fun ⟨k, k1, _, k2⟩ => ⟨k, k1, k2⟩⟩
    rw [qw, fw]
    simp only [wallCells]
    exact ⟨fun hs => if_pos (hl'.2 hs), fun hs => if_neg fun hh => hs (hl'.1 hh)⟩
  · intro i a b ha hb'
    obtain ⟨sp, p, r, s1, s2, s3, rfl⟩ := k2 i a ha
    obtain ⟨b', b1, b2⟩ := hg i sp s1
    rw [hb'] at b1
    cases b1
    obtain ⟨-, l1, l2, l3, l4, l5, l6, l7⟩ := loadAgent_inv b2
    have hpos' := (l5 p).1 s2
    rw [l6] at s3
    injection s3 with s3 s4
    refine ⟨l1, rfl, hpos', rfl, l2, l7, by simpa [Env.newAgent] using s3.symm, ?_, l3, l4, ?_⟩
    · intro k z hz
      simp only [Env.newAgent, ← s4]
      simp [List.getD, hz]
    · obtain ⟨p', p1, p2⟩ := qa i sp s1
      rw [s2] at p1
      cases p1
      exact p2

/-- The first mistake decides how loading fails: a kind of grid other than "hex"; a feature that is not in the
description; a cell that is not in the grid, or a feature for which there is no row; a wall that is not in the grid; no
cells at all; an agent with an unknown algorithm or selector, or whose algorithm or selector cannot be built. -/
theorem C138_errors (hd : (d.features.map Prod.fst).Nodup) :
    (d.type ≠ "hex" → hexEnvFromDict L d names = .error .notImplementedError) ∧
    (d.type = "hex" → ∀ before name after, names = before ++ name :: after →
      (∀ i nm, before[i]? = some nm → Spec.SoundFeature d i nm) → ¬ Spec.SoundFeature d before.length name →
      (name ∉ d.features.map Prod.fst → hexEnvFromDict L d names = .error .keyError) ∧
      (name ∈ d.features.map Prod.fst → hexEnvFromDict L d names = .error .indexError)) ∧
    (d.type = "hex" → (∀ i nm, names[i]? = some nm → Spec.SoundFeature d i nm) →
      (¬ Spec.CellsIn (d.size.1 * d.size.2) d.walls → hexEnvFromDict L d names = .error .indexError) ∧
      (Spec.CellsIn (d.size.1 * d.size.2) d.walls →
        (d.size.1 * d.size.2 = 0 → hexEnvFromDict L d names = .error .valueError) ∧
        (0 < d.size.1 * d.size.2 → ∀ before a after, d.agents = before ++ a :: after →
          (∀ b ∈ before, Spec.BuildableAgent L b) →
          (a.algorithm ≠ "value_iteration" → hexEnvFromDict L d names = .error .notImplementedError) ∧
          (a.selector ≠ "max" ∧ a.selector ≠ "softmax" → hexEnvFromDict L d names = .error .notImplementedError) ∧
          (a.algorithm = "value_iteration" → (a.selector = "max" ∨ a.selector = "softmax") →
            (∀ err, L.alg a.algorithmKwargs = .error err → hexEnvFromDict L d names = .error err) ∧
            ∀ alg err, L.alg a.algorithmKwargs = .ok alg → L.sel a.selector a.selectorKwargs = .error err →
              hexEnvFromDict L d names = .error err)))) := by
  refine ⟨fun ht => ?_, fun ht before name after hn hbef hbad => ?_, fun ht hfeat => ⟨fun hw => ?_, fun hw => ⟨fun h0 => ?_, ?_⟩⟩⟩
  · unfold hexEnvFromDict
    rw [if_pos ht]
  · have h := loadFeatures_first (K := K) hd (name := name) (after := after) before 0 (fun _ _ => 0)
      (fun i nm hi => by rw [Nat.zero_add]; exact hbef i nm hi)
      (fun x => loadFeatures_wrong hd (by rw [Nat.zero_add]; exact hbad) x)
    rw [← hn] at h
    unfold hexEnvFromDict
    rw [if_neg (not_not.2 ht)]
    simp only
    rw [h]
    exact ⟨fun hm => by rw [if_neg hm], fun hm => by rw [if_pos hm]⟩
  all_goals
    obtain ⟨x, hx, -⟩ := loadFeatures_sound (K := K) hd names 0 (fun _ _ => 0)
      (fun i name hi => by rw [Nat.zero_add]; exact hfeat i name hi)
  · unfold hexEnvFromDict
    rw [if_neg (not_not.2 ht)]
    simp only
    rw [hx]
    simp only
    rw [setCells_error hw]
  · rw [hexEnvFromDict_mdp ht hx (setCells_ok hw), C02_C03_empty _ _ _ _ _ _ h0]
  · intro hpos before a after hag hbef
    obtain ⟨m, hm, -⟩ := Mdp.initGrid_ok (K := K) (kind := .hex) (selfT := d.selfTransitions)
      (f := ⟨d.features.length, d.size.1 * d.size.2, x⟩) hpos rfl
      (wallCells_ok _ (d.walls.numbers.map (Spec.stateOf (d.size.1 * d.size.2))))
    have key : ∀ err, loadAgent L a = .error err → hexEnvFromDict L d names = .error err := by
      intro err he
      rw [hexEnvFromDict_mdp ht hx (setCells_ok hw), hm]
      simp only
      have : d.agents.mapM (m := Except PyErr) (loadAgent L) = .error err := by
        rw [hag]
        exact mapM_firstError (fun b hb => loadAgent_ok (hbef b hb)) he
      rw [this]
    refine ⟨fun h => key _ ?_, fun h => ?_, fun h1 h2 => ⟨fun err h3 => key _ ?_, fun alg err h3 h4 => key _ ?_⟩⟩
    · unfold loadAgent; rw [if_pos h]
    · refine key _ ?_
      unfold loadAgent
      split_ifs
      · rfl
      · rfl
    · unfold loadAgent
      rw [if_neg (not_not.2 h1), if_neg (by rcases h2 with h | h <;> simp [h]), h3]
    · unfold loadAgent
      rw [if_neg (not_not.2 h1), if_neg (by rcases h2 with h | h <;> simp [h]), h3]
      simp only
      rw [h4]

/-! ## Concrete descriptions -/

/-- A grid of two columns of three cells: grass in the last cell, water nowhere, a wall, a fox that starts in cell 0. -/
def foxDict : EnvDict Unit :=
  ⟨(2, 3), [("grass", .states [5]), ("water", .states [])], .states [1], "hex", false,
   [⟨"fox", .index 0, 2, [3, 0, -1], [0], "value_iteration", (), "max", ()⟩]⟩

theorem foxDict_keys : (foxDict.features.map Prod.fst).Nodup := by decide

/-- The description is sound, with its features in either order. -/
example : Spec.SoundDescription ioLoader foxDict ["water", "grass"] := by
  refine ⟨rfl, by decide, fun i name hi => ?_, ?_, ?_, ?_⟩
  · rcases i with _ | _ | i
    · cases hi
      exact ⟨.states [], by simp [foxDict], by simp [Spec.CellsIn, Cells.numbers], Or.inl rfl⟩
    · cases hi
      exact ⟨.states [5], by simp [foxDict], by simp [Spec.CellsIn, Cells.numbers, Spec.InRange, foxDict], Or.inr (by decide)⟩
    · simp at hi
  · simp [Spec.CellsIn, Cells.numbers, Spec.InRange, foxDict]
  · intro a ha
    simp only [foxDict, List.mem_singleton] at ha
    subst ha
    exact ⟨rfl, Or.inl rfl, ⟨_, rfl⟩, _, rfl⟩
  · intro a ha
    simp only [foxDict, List.mem_singleton] at ha
    subst ha
    exact ⟨⟨0, rfl, by simp [Spec.InRange, foxDict]⟩, rfl, by simp [foxDict]⟩

/-- Loaded in this order, the grass is in row 1. -/
example : (match hexEnvFromDict ioLoader foxDict ["water", "grass"] with
    | .ok e => decide (e.mdp.features.get 1 5 = 1) && decide (e.mdp.features.get 0 5 = 0) && decide (e.mdp.walls.get 1 = 1)
    | .error _ => false) = true := by decide +kernel

/-- The error of a load, if there is one. -/
def errorOf (r : Py (Env Rat Nat)) : Option PyErr :=
  match r with
  | .ok _ => none
  | .error e => some e

/-- One mistake of each kind. -/
example : errorOf (hexEnvFromDict ioLoader { foxDict with type := "square" } []) = some .notImplementedError ∧
    errorOf (hexEnvFromDict ioLoader foxDict ["grass", "sand"]) = some .keyError ∧
    errorOf (hexEnvFromDict ioLoader { foxDict with features := [("grass", .states [6])] } ["grass"]) = some .indexError ∧
    errorOf (hexEnvFromDict ioLoader foxDict ["grass", "water", "grass"]) = some .indexError ∧
    errorOf (hexEnvFromDict ioLoader { foxDict with walls := .states [-7] } []) = some .indexError ∧
    errorOf (hexEnvFromDict ioLoader ⟨(0, 3), [], .states [], "hex", false, []⟩ []) = some .valueError ∧
    errorOf (hexEnvFromDict ioLoader { foxDict with agents :=
      [⟨"fox", .index 0, 2, [3, 0, -1], [0], "mcts", (), "max", ()⟩] } []) = some .notImplementedError := by decide +kernel

end MaMDP
